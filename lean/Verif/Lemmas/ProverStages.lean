/-
What the stages of a run of a fuse hold.
-/
import Verif.Lemmas.Prover

set_option linter.unusedSectionVars false

namespace Ragu.Props
open Ragu Ragu.Circuit Ragu.Registry Ragu.Spec Ragu.Gadget Ragu.Pcd Finset
variable {F G HC : Type} [Field F] [DecidableEq F] [Field G] [DecidableEq G]

/-- The gadget of an honestly allocated value. -/
def both (x : F) : Element F := ⟨x, x⟩

theorem both_wires (l : List F) : (l.map both).map (·.wire) = l := (wires_both l).1

theorem both_honest (l : List F) : ∀ e ∈ l.map both, e.Honest := by
  intro e he
  obtain ⟨x, -, rfl⟩ := List.mem_map.1 he
  rfl

theorem kind_eq {b : F} {k : Pcd.Kind} {v : k.Native F} {g : k.Gadget F}
    (h : Pcd.emulate (k.alloc b v) = .ok g) : g = honestGadget k v := by
  cases k with
  | element =>
    have h' : Pcd.emulate (Element.alloc v) = .ok g := h
    cases h'
    rfl
  | point =>
    have h' : Pcd.emulate (Point.alloc b v) = .ok g := h
    cases v with
    | none => cases h'
    | some p =>
      cases h'
      rfl

/-- A child of the preamble. -/
def childGadget (C : CycleEnv F G HC) (p : Proof F G HC) (header : List F) : ChildInputs F :=
  ⟨p.application.leftHeader.map both, p.application.rightHeader.map both, header.map both,
    both (omegaJ C.native p.application.circuitId), fun s => honestGadget s.kind (p.unifiedValue s)⟩

theorem child_eq {C : CycleEnv F G HC} {N : ℕ} {p : Proof F G HC} {output : List F}
    {c : ChildInputs F} (h : Pcd.emulate (ChildInputs.alloc C N p output) = .ok c) :
    c = childGadget C p output := by
  simp only [ChildInputs.alloc, emulate_bind] at h
  obtain ⟨l, h1, r, h2, o, h3, i, h4, u, h5, h6⟩ := h
  obtain ⟨n1, rfl⟩ := emulate_allocHeader h1
  obtain ⟨n2, rfl⟩ := emulate_allocHeader h2
  obtain ⟨n3, rfl⟩ := emulate_allocHeader h3
  have e4 : i = both (omegaJ C.native p.application.circuitId) := by
    cases h4
    rfl
  have e5 : u = fun s => honestGadget s.kind (p.unifiedValue s) :=
    funext fun s => kind_eq (emulate_slots h5 s)
  subst e4 e5
  cases h6
  rfl

theorem valuePublic_eq (p : Proof F G HC) : valuePublic p.unifiedValue = proofPublic p := rfl

theorem childGadget_public (C : CycleEnv F G HC) (p : Proof F G HC) (header : List F) :
    (childGadget C p header).public = childPublic C.native p header := by
  simp only [ChildInputs.public, childGadget, both_wires]
  rfl

theorem honestKind (k : Pcd.Kind) (v : k.Native F) : ∀ e ∈ k.write (honestGadget k v), e.Honest := by
  intro e he
  cases k with
  | element =>
    have : e = ⟨v, v⟩ := List.mem_singleton.1 he
    subst this
    rfl
  | point =>
    rcases List.mem_cons.1 he with rfl | he
    · rfl
    · rcases List.mem_cons.1 he with rfl | he
      · rfl
      · cases he

theorem childGadget_honest (C : CycleEnv F G HC) (p : Proof F G HC) (header : List F) :
    (childGadget C p header).Honest := by
  refine ⟨both_honest _, both_honest _, both_honest _, rfl, ?_⟩
  intro e he
  obtain ⟨s, -, hs⟩ := List.mem_flatMap.1 he
  exact honestKind _ _ e hs

/-- The preamble stage of a run. -/
theorem preamble_eq {C : CycleEnv F G HC} {N : ℕ} {l r : Proof F G HC} {lo ro : List F}
    {o : PreambleOutput F} (h : Pcd.emulate (preambleStageCode C N l r lo ro) = .ok o) :
    o = ⟨childGadget C l lo, childGadget C r ro⟩ := by
  simp only [preambleStageCode, emulate_bind] at h
  obtain ⟨a, h1, b, h2, h3⟩ := h
  cases h3
  rw [child_eq h1, child_eq h2]

theorem innerError_eq : ∀ {w : List (List F)} {o : List (List (Element F))},
    Pcd.emulate (innerErrorStageCode w) = .ok o → o = w.map fun l => l.map both
  | [], o, h => by cases h; rfl
  | l :: ls, o, h => by
    simp only [innerErrorStageCode, emulate_bind] at h
    obtain ⟨a, h1, b, h2, h3⟩ := h
    rw [emulate_allocAll] at h1
    cases h1
    cases h3
    rw [innerError_eq h2]
    rfl

theorem outerError_eq {w : OuterErrorWitness F} {o : OuterErrorOutput F}
    (h : Pcd.emulate (outerErrorStageCode w) = .ok o) :
    o = ⟨w.errorTerms.map both, w.collapsed.map both,
      ⟨both w.left.application, both w.left.unified, both w.left.unifiedBridge⟩,
      ⟨both w.right.application, both w.right.unified, both w.right.unifiedBridge⟩,
      w.spongeState.map both⟩ := by
  simp only [outerErrorStageCode, emulate_bind, emulate_allocAll] at h
  obtain ⟨_, h1, _, h2, _, h3, _, h4, _, h5, _, h6, _, h7, _, h8, _, h9, h0⟩ := h
  cases h1; cases h2; cases h3; cases h4; cases h5; cases h6; cases h7; cases h8; cases h9; cases h0
  rfl

theorem query_eq {w : QueryOutput F} {o : QueryOutput (Element F)}
    (h : Pcd.emulate (queryStageCode w) = .ok o) : o = QueryOutput.map both w := by
  have : (queryStageCode w).sim = .ok (QueryOutput.map both w) := by
    rw [queryStageCode, Syn.sim_bind_ok (allocFixed_sim _), Syn.sim_bind_ok (Element.alloc_sim _),
      Syn.sim_bind_ok (queryChild_sim _), Syn.sim_bind_ok (queryChild_sim _)]
    rfl
  rw [emulate_of_sim this] at h
  cases h
  rfl

theorem eval_eq {w : EvalOutput F} {o : EvalOutput (Element F)}
    (h : Pcd.emulate (evalStageCode w) = .ok o) : o = EvalOutput.map both w := by
  have : (evalStageCode w).sim = .ok (EvalOutput.map both w) := by
    rw [evalStageCode, Syn.sim_bind_ok (evalChild_sim _), Syn.sim_bind_ok (evalChild_sim _)]
    rfl
  rw [emulate_of_sim this] at h
  cases h
  rfl

section
variable [AddCommGroup HC] [Module F HC]

/-- The errors of a fuse have the lengths of the stages. -/
theorem fused_lengths {E : Env F} {n numBits : ℕ} {r : Registry F} {y z : F} {s : ℕ → Sparse.Poly F}
    (hs : Pcd.Supplies E n r y s) {repr : F → List UInt8} (hr : ReprOk numBits repr) {gens : List HC}
    (hg : 4 * n ≤ gens.length) {src : FuseSource F G HC}
    (hl : Committed (4 * n) numBits repr gens src.left)
    (hrt : Committed (4 * n) numBits repr gens src.right)
    {mu nu muPrime nuPrime : F} {o : FuseAB F HC}
    (ho : fuseAb E n numBits repr gens r src y z mu nu muPrime nuPrime = some o) :
    mu ≠ 0 ∧ muPrime ≠ 0 ∧ o.innerErrors.length = NUM_GROUPS ∧
    (∀ e ∈ o.innerErrors, e.length = GROUP_SIZE * GROUP_SIZE - GROUP_SIZE) ∧
    o.outerErrors.length = NUM_GROUPS * NUM_GROUPS - NUM_GROUPS := by
  obtain ⟨h0, h1⟩ := C50_fuse hs hr hg hl hrt (z := z) mu nu muPrime nuPrime 0 0 0 0 0 0
  obtain ⟨-, -, -, -, -, tz, as, bs, ht, ha, hb, hcl, e1, e2, e3, e4, -, -⟩ := h1 o ho
  have hne : mu ≠ 0 ∧ muPrime ≠ 0 := by
    have := mt h0.2 (by rw [ho]; simp)
    tauto
  have hwf : (∀ p ∈ as, WellFormed (4 * n) p) ∧ ∀ p ∈ bs, WellFormed (4 * n) p := by
    constructor
    · intro p hp
      obtain ⟨i, hi, rfl⟩ := List.mem_iff_getElem.1 hp
      obtain ⟨a, b, q1, q2, q3⟩ := hcl i _ _ (List.getElem?_eq_getElem
        (show i < List.length (claimTable _ (0 : F)) by rw [ha] at hi; exact hi))
      rw [List.getElem?_eq_getElem hi] at q1
      cases q1
      exact q3.1
    · intro p hp
      obtain ⟨i, hi, rfl⟩ := List.mem_iff_getElem.1 hp
      obtain ⟨a, b, q1, q2, q3⟩ := hcl i _ _ (List.getElem?_eq_getElem
        (show i < List.length (claimTable _ (0 : F)) by rw [hb] at hi; exact hi))
      rw [List.getElem?_eq_getElem hi] at q2
      cases q2
      exact q3.2.1
  obtain ⟨ie, A, B, oe, Ar, Br, k1, k2, k3, k4, -, -, l1, l2, l3, -⟩ := C43_two_layer
    (N := 4 * n) (m := GROUP_SIZE) (g := NUM_GROUPS)
    (ky := (List.range 22).map fun i => Sparse.revdot (4 * n) (as.getD i []) (bs.getD i []))
    (by decide) (by decide) (ha.trans hb.symm)
    (by rw [ha]; decide) hwf.1 hwf.2 (by
      intro i
      by_cases hi : i < 22
      · simp [List.getD_eq_getElem?_getD, hi]
      · rw [List.getD_eq_getElem?_getD, List.getElem?_eq_none (by simpa using hi),
          List.getD_eq_getElem?_getD (l := as), List.getElem?_eq_none (by omega),
          List.getD_eq_getElem?_getD (l := bs), List.getElem?_eq_none (by omega)]
        have hw : WellFormed (4 * n) ([] : Sparse.Poly F) := trivial
        show (0 : F) = Sparse.revdot (4 * n) [] []
        rw [C11_revdot _ _ _ hw hw]
        symm
        simp) ⟨mu, mu⟩ ⟨nu, nu⟩ ⟨muPrime, muPrime⟩ ⟨nuPrime, nuPrime⟩
  rw [e1] at k1; cases k1
  rw [e2] at k2; cases k2
  rw [e3] at k3; cases k3
  rw [e4] at k4; cases k4
  exact ⟨hne.1, hne.2, l1, l2, l3⟩

end

end Ragu.Props

/-
Property C68: the internal circuits of a fuse are circuits, the same for all witnesses.
Property C69: the stages of a fuse hold their values in a fixed order that the circuits rely on.
-/
import Verif.Lemmas.UnifStages
import Verif.Props.Internal
import Verif.Props.Realize
import Verif.Lemmas.Verify
import Verif.Props.Verify
import Verif.Spec.Stages

set_option linter.unusedSectionVars false

namespace Ragu.Props
open Ragu Ragu.Circuit Ragu.Registry Ragu.Spec Ragu.Gadget Ragu.Pcd Ragu.Unif
variable {F G HC : Type} [Field F] [DecidableEq F] [Field G] [DecidableEq G]

/-! ### The elements of the gadgets -/

theorem unified_write_length (o : UnifiedOutput F) : o.write.length = 29 := rfl

theorem child_elems_length {N : ℕ} {c : ChildInputs F} (h1 : c.leftHeader.length = N)
    (h2 : c.rightHeader.length = N) (h3 : c.outputHeader.length = N) :
    c.elems.length = 3 * N + 1 + NUM_WIRES := by
  simp only [ChildInputs.elems, List.length_append, h1, h2, h3, unified_write_length,
    List.length_singleton, NUM_WIRES]
  omega

section
variable {N T : ℕ} {S : StepStages F} (hS : StageTypes N T S)
include hS

theorem preamble_elems_length : S.preamble.elems.length = 2 * (3 * N + 1 + NUM_WIRES) := by
  rw [PreambleOutput.elems, List.length_append,
    child_elems_length hS.left.1 hS.left.2.1 hS.left.2.2,
    child_elems_length hS.right.1 hS.right.2.1 hS.right.2.2]
  omega

theorem outerError_elems_length :
    S.outerError.elems.length = numErrorTerms NUM_GROUPS + NUM_GROUPS + 6 + T := by
  simp only [OuterErrorOutput.elems, ChildKyOutputs.elems, List.length_append, hS.outerErrors,
    hS.collapsed, hS.state, List.length_cons, List.length_nil, numErrorTerms]

theorem innerError_elems_length :
    S.innerError.flatten.length = NUM_GROUPS * numErrorTerms GROUP_SIZE := by
  rw [List.length_flatten, List.map_congr_left (g := fun _ => numErrorTerms GROUP_SIZE)
    fun e he => hS.innerError e he]
  simp [hS.innerErrors]
end

theorem query_elems_length (o : QueryOutput (Element F)) :
    o.elems.length = NUM_INTERNAL_CIRCUITS + 1 + 2 * 16 := by
  simp only [QueryOutput.elems, QueryChild.elems, List.length_append, List.length_map]
  rfl

theorem eval_elems_length (o : EvalOutput (Element F)) : o.elems.length = 2 * 15 + 6 := by
  simp only [EvalOutput.elems, EvalOutput.write, EvalChild.write, List.length_append, List.length_map]
  rfl

/-! ### C68 -/

/-- What the prover brings: the gadgets of the stages and the unified instance. -/
abbrev Wit (P : StepParams F) := {S : StepStages F // StageTypes P.headerSize P.poseidon.T S} × UnifiedInstance F

theorem inst_loc (P : StepParams F) (m : ℕ) : Loc m fun (w : Wit P) (_ : ℕ → F) => w.2 :=
  fun _ _ _ _ => rfl

section
variable (P : StepParams F)

/-- The gadgets on the wires of the stages. -/
def preG : Fam (Wit P) F (PreambleOutput F) := fun w σ => .ofElems P.headerSize
  (injected (firstWire (preambleStage P.headerSize)) (2 * (3 * P.headerSize + 1 + NUM_WIRES))
    (fun w => w.1.1.preamble.elems) w σ)
def outerG : Fam (Wit P) F (OuterErrorOutput F) := fun w σ => .ofElems NUM_GROUPS P.poseidon.T
  (injected (firstWire (outerErrorStage P.headerSize P.poseidon.T))
    (numErrorTerms NUM_GROUPS + NUM_GROUPS + 6 + P.poseidon.T)
    (fun w => w.1.1.outerError.elems) w σ)
def innerL : Fam (Wit P) F (List (Element F)) :=
  injected (firstWire (innerErrorStage P.headerSize P.poseidon.T))
    (NUM_GROUPS * numErrorTerms GROUP_SIZE) (fun w => w.1.1.innerError.flatten)
def queryG : Fam (Wit P) F (QueryOutput (Element F)) := fun w σ => .ofElems
  (injected (firstWire (queryStage P.headerSize)) (NUM_INTERNAL_CIRCUITS + 1 + 2 * 16)
    (fun w => w.1.1.query.elems) w σ)
def evalG : Fam (Wit P) F (EvalOutput (Element F)) := fun w σ => .ofElems
  (injected (firstWire (evalStage P.headerSize)) (2 * 15 + 6) (fun w => w.1.1.eval.elems) w σ)

variable {P}

theorem preambleGuard_eq (w : Wit P) {es : List F}
    (h : firstWire (preambleStage P.headerSize) + 2 * (3 * P.headerSize + 1 + NUM_WIRES) ≤ es.length) :
    preambleGuard P.headerSize w.1.1.preamble es = .ret (preG P w (vals es)) := by
  unfold preambleGuard guardWires
  have := injectElems_eq (elems := fun w : Wit P => w.1.1.preamble.elems)
    (fun w => preamble_elems_length w.1.2) h w
  rw [show stageNumWires (preambleStage P.headerSize) = 2 * (3 * P.headerSize + 1 + NUM_WIRES) from rfl,
    this]
  rfl

theorem outerErrorGuard_eq (w : Wit P) {es : List F}
    (h : firstWire (outerErrorStage P.headerSize P.poseidon.T) +
      (numErrorTerms NUM_GROUPS + NUM_GROUPS + 6 + P.poseidon.T) ≤ es.length) :
    outerErrorGuard P.headerSize P.poseidon.T w.1.1.outerError es = .ret (outerG P w (vals es)) := by
  unfold outerErrorGuard guardWires
  have := injectElems_eq (elems := fun w : Wit P => w.1.1.outerError.elems)
    (fun w => outerError_elems_length w.1.2) h w
  rw [show stageNumWires (outerErrorStage P.headerSize P.poseidon.T) =
    numErrorTerms NUM_GROUPS + NUM_GROUPS + 6 + P.poseidon.T from rfl, this]
  rfl

theorem innerErrorGuard_eq (w : Wit P) {es : List F}
    (h : firstWire (innerErrorStage P.headerSize P.poseidon.T) +
      (NUM_GROUPS * numErrorTerms GROUP_SIZE) ≤ es.length) :
    innerErrorGuard P.headerSize P.poseidon.T w.1.1.innerError es =
      .ret (innerErrorOfElems (numErrorTerms GROUP_SIZE) NUM_GROUPS (innerL P w (vals es))) := by
  unfold innerErrorGuard guardWires
  have := injectElems_eq (elems := fun w : Wit P => w.1.1.innerError.flatten)
    (fun w => innerError_elems_length w.1.2) h w
  rw [show stageNumWires (innerErrorStage P.headerSize P.poseidon.T) =
    NUM_GROUPS * numErrorTerms GROUP_SIZE from rfl, this]
  rfl

theorem queryGuard_eq (w : Wit P) {es : List F}
    (h : firstWire (queryStage P.headerSize) + (NUM_INTERNAL_CIRCUITS + 1 + 2 * 16) ≤ es.length) :
    queryGuard P.headerSize w.1.1.query es = .ret (queryG P w (vals es)) := by
  unfold queryGuard guardWires
  have := injectElems_eq (elems := fun w : Wit P => w.1.1.query.elems)
    (fun w => query_elems_length _) h w
  rw [show stageNumWires (queryStage P.headerSize) = NUM_INTERNAL_CIRCUITS + 1 + 2 * 16 from rfl,
    this]
  rfl

theorem evalGuard_eq (w : Wit P) {es : List F}
    (h : firstWire (evalStage P.headerSize) + (2 * 15 + 6) ≤ es.length) :
    evalGuard P.headerSize w.1.1.eval es = .ret (evalG P w (vals es)) := by
  unfold evalGuard guardWires
  have := injectElems_eq (elems := fun w : Wit P => w.1.1.eval.elems)
    (fun w => eval_elems_length _) h w
  rw [show stageNumWires (evalStage P.headerSize) = 2 * 15 + 6 from rfl, this]
  rfl

end

section
variable (N T : ℕ)
theorem preamble_end : firstWire (preambleStage N) + 2 * (3 * N + 1 + NUM_WIRES) ≤
    firstWire (preambleStage N) + 2 * (preambleStage N).numGates := by
  simp only [preambleStage, values_stage]; omega
theorem outerError_end : firstWire (outerErrorStage N T) +
    (numErrorTerms NUM_GROUPS + NUM_GROUPS + 6 + T) ≤
      firstWire (outerErrorStage N T) + 2 * (outerErrorStage N T).numGates := by
  simp only [outerErrorStage, values_stage]; omega
theorem innerError_end : firstWire (innerErrorStage N T) + NUM_GROUPS * numErrorTerms GROUP_SIZE ≤
      firstWire (innerErrorStage N T) + 2 * (innerErrorStage N T).numGates := by
  simp only [innerErrorStage, values_stage]; omega
theorem query_end : firstWire (queryStage N) + (NUM_INTERNAL_CIRCUITS + 1 + 2 * 16) ≤
      firstWire (queryStage N) + 2 * (queryStage N).numGates := by
  simp only [queryStage, values_stage]; omega
theorem eval_end : firstWire (evalStage N) + (2 * 15 + 6) ≤
      firstWire (evalStage N) + 2 * (evalStage N).numGates := by
  simp only [evalStage, values_stage]; omega

theorem preamble_outer : firstWire (preambleStage N) + 2 * (preambleStage N).numGates ≤
    firstWire (outerErrorStage N T) + 2 * (outerErrorStage N T).numGates := Nat.le_add_right _ _
theorem outer_inner : firstWire (outerErrorStage N T) + 2 * (outerErrorStage N T).numGates ≤
    firstWire (innerErrorStage N T) + 2 * (innerErrorStage N T).numGates := Nat.le_add_right _ _
theorem preamble_query : firstWire (preambleStage N) + 2 * (preambleStage N).numGates ≤
    firstWire (queryStage N) + 2 * (queryStage N).numGates := Nat.le_add_right _ _
theorem query_eval : firstWire (queryStage N) + 2 * (queryStage N).numGates ≤
    firstWire (evalStage N) + 2 * (evalStage N).numGates := Nat.le_add_right _ _
end

section
variable {P : StepParams F} {m : ℕ}
theorem preG_r (h : firstWire (preambleStage P.headerSize) +
    2 * (preambleStage P.headerSize).numGates ≤ m) : PreR P.headerSize m (preG P) :=
  PreR.ofElems (injected_listN (le_trans (preamble_end _) h) _)
theorem outerG_r (h : firstWire (outerErrorStage P.headerSize P.poseidon.T) +
    2 * (outerErrorStage P.headerSize P.poseidon.T).numGates ≤ m) :
    OuterR NUM_GROUPS P.poseidon.T m (outerG P) :=
  OuterR.ofElems (injected_listN (le_trans (outerError_end _ _) h) _)
theorem queryG_r (h : firstWire (queryStage P.headerSize) +
    2 * (queryStage P.headerSize).numGates ≤ m) : QueryR m (queryG P) :=
  QueryR.ofElems (injected_listN (le_trans (query_end _) h) _)
theorem evalG_r (h : firstWire (evalStage P.headerSize) +
    2 * (evalStage P.headerSize).numGates ≤ m) : EvalR m (evalG P) :=
  EvalR.ofElems (injected_listN (le_trans (eval_end _) h) _)
end

/-- C68: for the given parameters there is one circuit that, after its two stages, makes exactly the
calls of the first hash circuit, whatever the stages' gadgets, the instance and the wires are. -/
theorem C68_hashes1 (P : StepParams F) (hP : StepParamsOk P) : ∃ c : Circ F, c.WellUsed ∧ c.body.AllocsOutside ∧
    c.outs.length = 29 + 2 * P.headerSize + 1 ∧
    ∀ S, StageTypes P.headerSize P.poseidon.T S → ∀ inst,
      Realizes (outerErrorStage P.headerSize P.poseidon.T) c (hashes1Code P S inst) := by
  have h1 : PreR P.headerSize _ (preG P) := preG_r (preamble_outer P.headerSize P.poseidon.T)
  have h2 : OuterR _ _ _ (outerG P) := outerG_r le_rfl
  obtain ⟨c, a, a', b, e⟩ := realize (W := Wit P) (outerError_fit P.headerSize P.poseidon.T)
    (x := fun w es => hashes1Code P w.1.1 w.2 es)
    (unif_hashes1 (tag := P.tag) (b := P.b) (k := P.logCircuits) (inst_loc P _) hP.poseidon
      hP.rate_pos hP.rate_le h1 h2).outs (fun w es hes => by
      unfold hashes1Code
      rw [preambleGuard_eq w (by rw [hes]; exact (preamble_end _).trans (preamble_outer _ _)),
        outerErrorGuard_eq w (by rw [hes]; exact outerError_end _ _)]
      rfl)
  exact ⟨c, a, a', by rw [b]; omega, fun S hS inst => e (⟨S, hS⟩, inst)⟩

/-- C68: the same for the second hash circuit. -/
theorem C68_hashes2 (P : StepParams F) (hP : StepParamsOk P) : ∃ c : Circ F, c.WellUsed ∧ c.body.AllocsOutside ∧
    c.outs.length = 30 ∧ ∀ S, StageTypes P.headerSize P.poseidon.T S → ∀ inst,
      Realizes (outerErrorStage P.headerSize P.poseidon.T) c (hashes2Code P S inst) := by
  have h2 : OuterR _ _ _ (outerG P) := outerG_r le_rfl
  obtain ⟨c, a, a', b, e⟩ := realize (W := Wit P) (outerError_fit P.headerSize P.poseidon.T)
    (x := fun w es => hashes2Code P w.1.1 w.2 es)
    (unif_hashes2 (b := P.b) (inst_loc P _) hP.poseidon hP.rate_pos hP.rate_le h2).outs
    (fun w es hes => by
      unfold hashes2Code
      rw [outerErrorGuard_eq w (by rw [hes]; exact outerError_end _ _)]
      rfl)
  exact ⟨c, a, a', b, fun S hS inst => e (⟨S, hS⟩, inst)⟩

/-- C68: the same for the circuit of the inner collapse. -/
theorem C68_innerCollapse (P : StepParams F) : ∃ c : Circ F, c.WellUsed ∧ c.body.AllocsOutside ∧
    c.outs.length = 30 ∧ ∀ S, StageTypes P.headerSize P.poseidon.T S → ∀ inst,
      Realizes (innerErrorStage P.headerSize P.poseidon.T) c (innerCollapseCode P S inst) := by
  have h1 : PreR P.headerSize _ (preG P) := preG_r
    ((preamble_outer P.headerSize P.poseidon.T).trans (outer_inner _ _))
  have h2 : OuterR _ _ _ (outerG P) := outerG_r (outer_inner _ _)
  obtain ⟨ls, l1, l2, l3⟩ := inner_ofElems (k := numErrorTerms GROUP_SIZE) NUM_GROUPS
    (injected_listN (innerError_end P.headerSize P.poseidon.T)
      (fun w : Wit P => w.1.1.innerError.flatten)) le_rfl
  obtain ⟨c, a, a', b, e⟩ := realize (W := Wit P) (innerError_fit P.headerSize P.poseidon.T)
    (x := fun w es => innerCollapseCode P w.1.1 w.2 es)
    (unif_innerCollapse (b := P.b) (inst_loc P _) GROUP_SIZE h1 h2 ls
      (fun l hl => (l2 l hl).cast (by decide)) (by rw [l1])).outs
    (fun w es hes => by
      unfold innerCollapseCode
      rw [preambleGuard_eq w (by
          rw [hes]; exact (preamble_end _).trans ((preamble_outer _ _).trans (outer_inner _ _))),
        outerErrorGuard_eq w (by rw [hes]; exact (outerError_end _ _).trans (outer_inner _ _)),
        innerErrorGuard_eq w (by rw [hes]; exact innerError_end _ _), innerL, l3]
      rfl)
  exact ⟨c, a, a', b, fun S hS inst => e (⟨S, hS⟩, inst)⟩

/-- C68: the same for the circuit of the outer collapse. -/
theorem C68_outerCollapse (P : StepParams F) (hN : 1 ≤ P.headerSize) : ∃ c : Circ F, c.WellUsed ∧ c.body.AllocsOutside ∧
    c.outs.length = 30 ∧ ∀ S, StageTypes P.headerSize P.poseidon.T S → ∀ inst,
      Realizes (outerErrorStage P.headerSize P.poseidon.T) c (outerCollapseCode P S inst) := by
  have h1 : PreR P.headerSize _ (preG P) := preG_r (preamble_outer P.headerSize P.poseidon.T)
  have h2 : OuterR _ _ _ (outerG P) := outerG_r le_rfl
  obtain ⟨c, a, a', b, e⟩ := realize (W := Wit P) (outerError_fit P.headerSize P.poseidon.T)
    (x := fun w es => outerCollapseCode P w.1.1 w.2 es)
    (unif_outerCollapse (b := P.b) (inst_loc P _) hN h1 h2).outs (fun w es hes => by
      unfold outerCollapseCode
      rw [preambleGuard_eq w (by rw [hes]; exact (preamble_end _).trans (preamble_outer _ _)),
        outerErrorGuard_eq w (by rw [hes]; exact outerError_end _ _)]
      rfl)
  exact ⟨c, a, a', b, fun S hS inst => e (⟨S, hS⟩, inst)⟩

/-- C68: the same for the circuit that computes `v`. -/
theorem C68_computeV (P : StepParams F) : ∃ c : Circ F, c.WellUsed ∧ c.body.AllocsOutside ∧
    c.outs.length = 30 ∧ ∀ S, StageTypes P.headerSize P.poseidon.T S → ∀ inst,
      Realizes (evalStage P.headerSize) c (computeVCode P S inst) := by
  have h1 : PreR P.headerSize _ (preG P) := preG_r
    ((preamble_query P.headerSize).trans (query_eval _))
  have h2 : QueryR _ (queryG P) := queryG_r (query_eval _)
  have h3 : EvalR _ (evalG P) := evalG_r le_rfl
  obtain ⟨c, a, a', b, e⟩ := realize (W := Wit P) (eval_fit P.headerSize)
    (x := fun w es => computeVCode P w.1.1 w.2 es)
    (unif_computeV P.env P.endo P.b P.logRank h1 h2 h3 (inst_loc P _)).outs (fun w es hes => by
      unfold computeVCode
      rw [preambleGuard_eq w (by
          rw [hes]; exact (preamble_end _).trans ((preamble_query _).trans (query_eval _))),
        queryGuard_eq w (by rw [hes]; exact (query_end _).trans (query_eval _)),
        evalGuard_eq w (by rw [hes]; exact eval_end _)]
      rfl)
  exact ⟨c, a, a', b, fun S hS inst => e (⟨S, hS⟩, inst)⟩

/-! ### C69: what the stages hold -/

theorem emulate_slots {β : SlotId → Type} {f : (s : SlotId) → Syn F (β s)}
    {r : (s : SlotId) → β s} (h : Pcd.emulate (forEachSlot f) = .ok r) (s : SlotId) :
    Pcd.emulate (f s) = .ok (r s) := by
  simp only [forEachSlot, emulate_bind] at h
  obtain ⟨r0, h0, r1, h1, r2, h2, r3, h3, r4, h4, r5, h5, r6, h6, r7, h7, r8, h8, r9, h9, r10, h10,
    r11, h11, r12, h12, r13, h13, r14, h14, r15, h15, r16, h16, r17, h17, r18, h18, r19, h19,
    r20, h20, hr⟩ := h
  simp only [pure, Pcd.emulate, Except.ok.injEq] at hr
  subst hr
  cases s <;> assumption

theorem emulate_kind {b : F} {k : Pcd.Kind} {v : k.Native F} {g : k.Gadget F}
    (h : Pcd.emulate (k.alloc b v) = .ok g) :
    (k.write g).map (·.wire) = coords k v ∧ (k.write g).map (·.value) = coords k v ∧ NotIdentity k v := by
  cases k with
  | element =>
    have : g = ⟨v, v⟩ := by
      have h' : Pcd.emulate (Element.alloc v) = .ok g := h
      cases h'
      rfl
    subst this
    exact ⟨rfl, rfl, trivial⟩
  | point =>
    have h' : Pcd.emulate (Point.alloc b v) = .ok g := h
    cases v with
    | none => cases h'
    | some p =>
      cases h'
      exact ⟨rfl, rfl, by simp [NotIdentity]⟩

theorem emulate_allocAll : ∀ (l : List F), Pcd.emulate (allocAll l) = .ok (l.map fun x => ⟨x, x⟩) :=
  fun l => emulate_of_sim (allocAll_sim l)

theorem emulate_allocHeader {N : ℕ} {l : List F} {r : List (Element F)}
    (h : Pcd.emulate (allocHeader N l) = .ok r) : l.length = N ∧ r = l.map fun x => ⟨x, x⟩ := by
  unfold allocHeader at h
  by_cases hl : l.length = N
  · subst hl
    simp only [ne_eq, not_true_eq_false, if_false, Pcd.emulate, map_getD_range, emulate_allocAll,
      Except.ok.injEq] at h
    exact ⟨rfl, h.symm⟩
  · simp [hl, Pcd.emulate] at h

theorem wires_both (l : List F) : (l.map fun x => (⟨x, x⟩ : Element F)).map (·.wire) = l ∧
    (l.map fun x => (⟨x, x⟩ : Element F)).map (·.value) = l := by
  simp [List.map_map, Function.comp_def]

/-- The values of one child in the preamble stage. -/
def childStage (C : CycleEnv F G HC) (p : Proof F G HC) (output : List F) : List F :=
  p.application.leftHeader ++ p.application.rightHeader ++ output ++
    [omegaJ C.native p.application.circuitId] ++ unifiedCoords p.unifiedValue

theorem emulate_child {C : CycleEnv F G HC} {N : ℕ} {p : Proof F G HC} {output : List F}
    {c : ChildInputs F} (h : Pcd.emulate (ChildInputs.alloc C N p output) = .ok c) :
    (p.application.leftHeader.length = N ∧ p.application.rightHeader.length = N ∧
      output.length = N ∧ ∀ s, NotIdentity s.kind (p.unifiedValue s)) ∧
    c.elems.map (·.wire) = childStage C p output ∧ c.elems.map (·.value) = childStage C p output := by
  simp only [ChildInputs.alloc, emulate_bind] at h
  obtain ⟨l, h1, r, h2, o, h3, i, h4, u, h5, h6⟩ := h
  obtain ⟨n1, rfl⟩ := emulate_allocHeader h1
  obtain ⟨n2, rfl⟩ := emulate_allocHeader h2
  obtain ⟨n3, rfl⟩ := emulate_allocHeader h3
  have e4 : i = ⟨omegaJ C.native p.application.circuitId, omegaJ C.native p.application.circuitId⟩ := by
    cases h4
    rfl
  subst e4
  cases h6
  have hu := fun s => emulate_kind (emulate_slots h5 s)
  have w1 : u.write.map (·.wire) = unifiedCoords p.unifiedValue := by
    rw [UnifiedOutput.write, List.map_flatMap, unifiedCoords]
    congr 1
    exact funext fun s => (hu s).1
  have w2 : u.write.map (·.value) = unifiedCoords p.unifiedValue := by
    rw [UnifiedOutput.write, List.map_flatMap, unifiedCoords]
    congr 1
    exact funext fun s => (hu s).2.1
  refine ⟨⟨n1, n2, n3, fun s => (hu s).2.2⟩, ?_, ?_⟩
  · simp only [ChildInputs.elems, List.map_append, (wires_both _).1, w1, childStage]
    rfl
  · simp only [ChildInputs.elems, List.map_append, (wires_both _).2, w2, childStage]
    rfl

/-- C69: the preamble stage holds, for the left and then the right child, the headers of the child's
children, the child's output header, the child's circuit identifier and its public values in order. Its
witness code succeeds only for headers of the right length and commitments that are not the identity. -/
theorem C69_preamble {C : CycleEnv F G HC} {N : ℕ} {l r : Proof F G HC} {lo ro : List F}
    {o : PreambleOutput F} (h : Pcd.emulate (preambleStageCode C N l r lo ro) = .ok o) :
    o.elems.map (·.wire) =
      l.application.leftHeader ++ l.application.rightHeader ++ lo ++
        [omegaJ C.native l.application.circuitId] ++ unifiedCoords l.unifiedValue ++
      (r.application.leftHeader ++ r.application.rightHeader ++ ro ++
        [omegaJ C.native r.application.circuitId] ++ unifiedCoords r.unifiedValue) ∧
    (∀ e ∈ o.elems, e.Honest) ∧ o.elems.length = (preambleStage N).values ∧
    ∀ p ∈ [(l, lo), (r, ro)], p.1.application.leftHeader.length = N ∧
      p.1.application.rightHeader.length = N ∧ p.2.length = N ∧
      ∀ s, NotIdentity s.kind (p.1.unifiedValue s) := by
  simp only [preambleStageCode, emulate_bind] at h
  obtain ⟨a, h1, b, h2, h3⟩ := h
  cases h3
  obtain ⟨p1, p2, p3⟩ := emulate_child h1
  obtain ⟨q1, q2, q3⟩ := emulate_child h2
  have hw : (PreambleOutput.elems ⟨a, b⟩).map (·.wire) = childStage C l lo ++ childStage C r ro := by
    rw [PreambleOutput.elems, List.map_append, p2, q2]
  have hv : (PreambleOutput.elems ⟨a, b⟩).map (·.value) = childStage C l lo ++ childStage C r ro := by
    rw [PreambleOutput.elems, List.map_append, p3, q3]
  refine ⟨hw, ?_, ?_, ?_⟩
  · intro e he
    have := List.map_inj_left.1 (hv.trans hw.symm) e he
    exact this
  · rw [← List.length_map (f := fun e : Element F => e.wire), hw]
    have hc : ∀ (p : Proof F G HC), (∀ s, NotIdentity s.kind (p.unifiedValue s)) →
        (unifiedCoords p.unifiedValue).length = 29 := by
      intro p hp
      have : ∀ s, (coords s.kind (p.unifiedValue s)).length = s.kind.width := by
        intro s
        have := hp s
        generalize p.unifiedValue s = v at *
        generalize s.kind = k at *
        cases k with
        | element => rfl
        | point =>
          cases v with
          | none => exact absurd rfl this
          | some v => rfl
      rw [unifiedCoords, List.length_flatMap, List.map_congr_left fun s _ => this s]
      decide
    simp only [childStage, List.length_append, p1.1, p1.2.1, p1.2.2.1, q1.1, q1.2.1, q1.2.2.1,
      hc l p1.2.2.2, hc r q1.2.2.2, List.length_singleton]
    show _ = 2 * (3 * N + 1 + NUM_WIRES)
    rw [NUM_WIRES]; omega
  · intro p hp
    simp only [List.mem_cons, List.not_mem_nil, or_false] at hp
    rcases hp with rfl | rfl
    · exact p1
    · exact q1

/-- C69: the outer error stage holds the error terms, the collapsed claims, the three public inputs of
the left and of the right child and the saved state of the sponge. -/
theorem C69_outerError (w : OuterErrorWitness F) : ∃ o, Pcd.emulate (outerErrorStageCode w) = .ok o ∧
    o.elems.map (·.wire) = w.errorTerms ++ w.collapsed ++
      [w.left.application, w.left.unified, w.left.unifiedBridge,
        w.right.application, w.right.unified, w.right.unifiedBridge] ++ w.spongeState ∧
    (∀ e ∈ o.elems, e.Honest) := by
  refine ⟨⟨w.errorTerms.map fun x => ⟨x, x⟩, w.collapsed.map fun x => ⟨x, x⟩,
    ⟨⟨w.left.application, w.left.application⟩, ⟨w.left.unified, w.left.unified⟩,
      ⟨w.left.unifiedBridge, w.left.unifiedBridge⟩⟩,
    ⟨⟨w.right.application, w.right.application⟩, ⟨w.right.unified, w.right.unified⟩,
      ⟨w.right.unifiedBridge, w.right.unifiedBridge⟩⟩, w.spongeState.map fun x => ⟨x, x⟩⟩, ?_, ?_, ?_⟩
  · apply emulate_of_sim
    simp only [outerErrorStageCode]
    rw [Syn.sim_bind_ok (allocAll_sim _), Syn.sim_bind_ok (allocAll_sim _)]
    iterate 6 rw [Syn.sim_bind_ok (Element.alloc_sim _)]
    rw [Syn.sim_bind_ok (allocAll_sim _)]
    rfl
  · simp [OuterErrorOutput.elems, ChildKyOutputs.elems, (wires_both _).1]
  · intro e he
    simp only [OuterErrorOutput.elems, ChildKyOutputs.elems, List.mem_append, List.mem_map,
      List.mem_cons, List.not_mem_nil, or_false] at he
    rcases he with (((⟨x, -, rfl⟩ | ⟨x, -, rfl⟩) | rfl | rfl | rfl) | rfl | rfl | rfl) | ⟨x, -, rfl⟩ <;>
      rfl

/-- C69: the inner error stage holds the error terms, group after group. -/
theorem C69_innerError : ∀ w : List (List F), ∃ o, Pcd.emulate (innerErrorStageCode w) = .ok o ∧
    o.map (fun g => g.map (·.wire)) = w ∧ ∀ e ∈ o.flatten, e.Honest
  | [] => ⟨[], rfl, rfl, by simp⟩
  | l :: ls => by
    obtain ⟨o, h1, h2, h3⟩ := C69_innerError ls
    refine ⟨(l.map fun x => ⟨x, x⟩) :: o, ?_, ?_, ?_⟩
    · simp only [innerErrorStageCode, emulate_bind]
      exact ⟨_, emulate_allocAll l, _, h1, rfl⟩
    · rw [List.map_cons, h2, (wires_both l).1]
    · intro e he
      rw [List.flatten_cons, List.mem_append, List.mem_map] at he
      rcases he with ⟨x, -, rfl⟩ | he
      · rfl
      · exact h3 e he

theorem allocRx_sim (f : RxIndex → F) : (allocRx f).sim = .ok fun i => ⟨f i, f i⟩ := by
  show Except.ok _ = _
  congr 1
  funext i
  cases i <;> rfl

theorem allocFixed_sim (f : NativeId → F) : (allocFixedRegistry f).sim = .ok fun i => ⟨f i, f i⟩ := by
  show Except.ok _ = _
  congr 1
  funext i
  cases i <;> rfl

theorem queryChild_sim (c : QueryChild F) :
    (QueryChild.alloc c).sim = .ok (QueryChild.map (fun x => ⟨x, x⟩) c) := by
  rw [QueryChild.alloc, Syn.sim_bind_ok (allocRx_sim _)]
  rfl

theorem evalChild_sim (c : EvalChild F) :
    (EvalChild.alloc c).sim = .ok (EvalChild.map (fun x => ⟨x, x⟩) c) := by
  rw [EvalChild.alloc, Syn.sim_bind_ok (allocRx_sim _)]
  rfl

theorem honest_of_both {l : List (Element F)} {v : List F} (h1 : l.map (·.wire) = v)
    (h2 : l.map (·.value) = v) : ∀ e ∈ l, e.Honest :=
  fun e he => List.map_inj_left.1 (h2.trans h1.symm) e he

/-- C69: the query stage holds the registry polynomial at the identifiers of the internal circuits and
at `w`, and the evaluations of the left and of the right child's polynomials. -/
theorem C69_query (N : ℕ) (w : QueryOutput F) : ∃ o, Pcd.emulate (queryStageCode w) = .ok o ∧
    o.elems.map (·.wire) = queryValues w ∧ (∀ e ∈ o.elems, e.Honest) ∧
    o.elems.length = (queryStage N).values := by
  have e1 : (QueryOutput.elems (QueryOutput.map (fun x => ⟨x, x⟩) w)).map (·.wire) = queryValues w :=
    rfl
  have e2 : (QueryOutput.elems (QueryOutput.map (fun x => ⟨x, x⟩) w)).map (·.value) = queryValues w :=
    rfl
  refine ⟨QueryOutput.map (fun x => ⟨x, x⟩) w, ?_, e1, honest_of_both e1 e2, query_elems_length _⟩
  apply emulate_of_sim
  rw [queryStageCode, Syn.sim_bind_ok (allocFixed_sim _), Syn.sim_bind_ok (Element.alloc_sim _),
    Syn.sim_bind_ok (queryChild_sim _), Syn.sim_bind_ok (queryChild_sim _)]
  rfl

/-- C69: the eval stage holds the evaluations of the left and of the right child's polynomials and those
of the new ones. -/
theorem C69_eval (N : ℕ) (w : EvalOutput F) : ∃ o, Pcd.emulate (evalStageCode w) = .ok o ∧
    o.elems.map (·.wire) = evalValues w ∧ (∀ e ∈ o.elems, e.Honest) ∧
    o.elems.length = (evalStage N).values := by
  have e1 : (EvalOutput.elems (EvalOutput.map (fun x => ⟨x, x⟩) w)).map (·.wire) = evalValues w :=
    rfl
  have e2 : (EvalOutput.elems (EvalOutput.map (fun x => ⟨x, x⟩) w)).map (·.value) = evalValues w :=
    rfl
  refine ⟨EvalOutput.map (fun x => ⟨x, x⟩) w, ?_, e1, honest_of_both e1 e2, eval_elems_length _⟩
  apply emulate_of_sim
  rw [evalStageCode, Syn.sim_bind_ok (evalChild_sim _), Syn.sim_bind_ok (evalChild_sim _)]
  rfl

/-! ### C69: what the circuits read -/

theorem unified_write_ofElems (l : List (Element F)) (h : l.length = 29) :
    (UnifiedOutput.ofElems l).write = l := by
  match l, h with
  | [a0, a1, a2, a3, a4, a5, a6, a7, a8, a9, a10, a11, a12, a13, a14, a15, a16, a17, a18, a19, a20,
      a21, a22, a23, a24, a25, a26, a27, a28], _ => rfl

theorem unified_ofElems_write (o : UnifiedOutput F) : UnifiedOutput.ofElems o.write = o := by
  funext s
  cases s <;> rfl

theorem unified_ofElems_append (o : UnifiedOutput F) (l : List (Element F)) :
    UnifiedOutput.ofElems (o.write ++ l) = o := by
  funext s
  cases s <;> rfl

theorem child_ofElems_elems {N : ℕ} {c : ChildInputs F} (h1 : c.leftHeader.length = N)
    (h2 : c.rightHeader.length = N) (h3 : c.outputHeader.length = N) (l : List (Element F)) :
    ChildInputs.ofElems N (c.elems ++ l) = c := by
  obtain ⟨a, b, o, i, u⟩ := c
  simp only at h1 h2 h3
  subst h1
  simp only [ChildInputs.ofElems, ChildInputs.elems, List.append_assoc]
  have d1 : ∀ t, (a ++ t).drop a.length = t := fun t => List.drop_left
  have d2 : ∀ t, (a ++ (b ++ t)).drop (2 * a.length) = t := by
    intro t
    rw [two_mul, ← List.drop_drop, d1, ← h2, List.drop_left]
  have d3 : ∀ t, (a ++ (b ++ (o ++ t))).drop (3 * a.length) = t := by
    intro t
    rw [show 3 * a.length = 2 * a.length + a.length by omega, ← List.drop_drop, d2, ← h3,
      List.drop_left]
  congr 1
  · exact List.take_left
  · rw [d1, ← h2, List.take_left]
  · rw [d2, ← h3, List.take_left]
  · have := d3 ([i] ++ (u.write ++ l))
    rw [List.getD_eq_getElem?_getD, ← List.head?_drop, this]
    rfl
  · rw [← List.drop_drop, d3]
    exact unified_ofElems_append u l

theorem child_elems_ofElems {N : ℕ} {l : List (Element F)} (h : l.length = 3 * N + 1 + 29) :
    (ChildInputs.ofElems N l).elems = l := by
  simp only [ChildInputs.elems, ChildInputs.ofElems]
  rw [unified_write_ofElems _ (by simp [h])]
  have e1 : [l.getD (3 * N) Element.zero] ++ l.drop (3 * N + 1) = l.drop (3 * N) := by
    rw [List.getD_eq_getElem _ _ (by omega)]
    exact (List.drop_eq_getElem_cons (by omega)).symm
  have e2 : (l.drop (2 * N)).take N ++ l.drop (3 * N) = l.drop (2 * N) := by
    rw [show 3 * N = 2 * N + N by omega, ← List.drop_drop, List.take_append_drop]
  have e3 : (l.drop N).take N ++ l.drop (2 * N) = l.drop N := by
    rw [two_mul, ← List.drop_drop, List.take_append_drop]
  rw [List.append_assoc, List.append_assoc, List.append_assoc, e1, e2, e3, List.take_append_drop]

theorem pre_ofElems_elems {N : ℕ} {o : PreambleOutput F} (h1 : o.left.leftHeader.length = N ∧
    o.left.rightHeader.length = N ∧ o.left.outputHeader.length = N)
    (h2 : o.right.leftHeader.length = N ∧
    o.right.rightHeader.length = N ∧ o.right.outputHeader.length = N) :
    PreambleOutput.ofElems N o.elems = o := by
  obtain ⟨a, b⟩ := o
  simp only [PreambleOutput.ofElems, PreambleOutput.elems]
  rw [child_ofElems_elems h1.1 h1.2.1 h1.2.2,
    ← child_elems_length h1.1 h1.2.1 h1.2.2, List.drop_left]
  have := child_ofElems_elems h2.1 h2.2.1 h2.2.2 []
  rw [List.append_nil] at this
  rw [this]

theorem child_ofElems_lengths {N : ℕ} {l : List (Element F)} (h : 3 * N ≤ l.length) :
    (ChildInputs.ofElems N l).leftHeader.length = N ∧
    (ChildInputs.ofElems N l).rightHeader.length = N ∧
    (ChildInputs.ofElems N l).outputHeader.length = N := by
  simp only [ChildInputs.ofElems, List.length_take, List.length_drop]
  omega

theorem pre_elems_ofElems {N : ℕ} {l : List (Element F)} (h : l.length = 2 * (3 * N + 1 + 29)) :
    (PreambleOutput.ofElems N l).elems = l := by
  have l1 : (l.take (3 * N + 1 + NUM_WIRES)).length = 3 * N + 1 + 29 := by
    simp [h, NUM_WIRES]
  have e1 := child_elems_ofElems l1
  have e2 := child_elems_ofElems (N := N) (l := l.drop (3 * N + 1 + NUM_WIRES)) (by
    simp [h, NUM_WIRES]; omega)
  obtain ⟨n1, n2, n3⟩ := child_ofElems_lengths (N := N) (l := l.take (3 * N + 1 + NUM_WIRES))
    (by omega)
  have e3 := child_ofElems_elems n1 n2 n3 (l.drop (3 * N + 1 + NUM_WIRES))
  rw [e1, List.take_append_drop] at e3
  simp only [PreambleOutput.elems, PreambleOutput.ofElems]
  rw [e2, e3, e1, List.take_append_drop]

theorem outer_ofElems_elems {g T : ℕ} {o : OuterErrorOutput F}
    (h1 : o.errorTerms.length = numErrorTerms g) (h2 : o.collapsed.length = g)
    (h3 : o.spongeState.length = T) : OuterErrorOutput.ofElems g T o.elems = o := by
  obtain ⟨a, b, l, r, s⟩ := o
  simp only at h1 h2 h3
  simp only [OuterErrorOutput.ofElems, OuterErrorOutput.elems, List.append_assoc]
  have d1 : ∀ t, (a ++ t).drop (numErrorTerms g) = t := fun t => by rw [← h1, List.drop_left]
  have d2 : ∀ t, (a ++ (b ++ t)).drop (numErrorTerms g + g) = t := by
    intro t
    rw [← List.drop_drop, d1, ← h2, List.drop_left]
  congr 1
  · rw [← h1, List.take_left]
  · rw [d1]; rw [← h2, List.take_left]
  · rw [d2]; rfl
  · rw [← List.drop_drop, d2]; rfl
  · rw [← List.drop_drop, d2]
    show s.take T = s
    rw [← h3, List.take_length]

theorem outer_elems_ofElems {g T : ℕ} {l : List (Element F)}
    (h : l.length = numErrorTerms g + g + 6 + T) : (OuterErrorOutput.ofElems g T l).elems = l := by
  simp only [OuterErrorOutput.elems, OuterErrorOutput.ofElems, ChildKyOutputs.elems,
    ChildKyOutputs.ofElems]
  have k : ∀ (t : List (Element F)), 3 ≤ t.length →
      [t.getD 0 Element.zero, t.getD 1 Element.zero, t.getD 2 Element.zero] ++ t.drop 3 = t := by
    rintro (_ | ⟨x, _ | ⟨y, _ | ⟨z, t⟩⟩⟩) ht
    · simp at ht
    · simp at ht
    · simp at ht
    · rfl
  have e1 : (l.drop (numErrorTerms g + g + 6)).take T = l.drop (numErrorTerms g + g + 6) :=
    List.take_of_length_le (by simp; omega)
  have e2 := k (l.drop (numErrorTerms g + g + 3)) (by simp; omega)
  have e3 := k (l.drop (numErrorTerms g + g)) (by simp; omega)
  rw [List.drop_drop] at e2 e3
  rw [List.append_assoc, List.append_assoc, List.append_assoc, e1, e2, e3, ← List.drop_drop,
    List.take_append_drop, List.take_append_drop]

theorem inner_elems_ofElems {k : ℕ} : ∀ (g : ℕ) (l : List (Element F)), l.length = g * k →
    (innerErrorOfElems k g l).flatten = l ∧ (innerErrorOfElems k g l).length = g ∧
      ∀ e ∈ innerErrorOfElems k g l, e.length = k
  | 0, l, h => by
    have : l = [] := List.length_eq_zero_iff.1 (by simpa using h)
    subst this
    exact ⟨rfl, rfl, by simp [innerErrorOfElems]⟩
  | g + 1, l, h => by
    rw [Nat.succ_mul] at h
    obtain ⟨h1, h2, h3⟩ := inner_elems_ofElems (k := k) g (l.drop k) (by simp; omega)
    refine ⟨?_, ?_, ?_⟩
    · rw [innerErrorOfElems, List.flatten_cons, h1, List.take_append_drop]
    · rw [innerErrorOfElems, List.length_cons, h2]
    · intro e he
      rcases List.mem_cons.1 he with rfl | he
      · simp; omega
      · exact h3 e he

theorem inner_ofElems_elems {k : ℕ} : ∀ (l : List (List (Element F))), (∀ e ∈ l, e.length = k) →
    innerErrorOfElems k l.length l.flatten = l
  | [], _ => rfl
  | e :: l, h => by
    have he := h e (List.mem_cons_self ..)
    rw [List.length_cons, innerErrorOfElems, List.flatten_cons, ← he, List.take_left, List.drop_left,
      he, inner_ofElems_elems l fun e h' => h e (List.mem_cons_of_mem _ h')]

theorem query_ofElems_elems (o : QueryOutput (Element F)) : QueryOutput.ofElems o.elems = o := by
  have hq : ∀ (c : QueryChild (Element F)) l, QueryChild.ofElems (c.elems ++ l) = c := by
    intro c l
    obtain ⟨rx, a, b, d, e, f⟩ := c
    have : (fun i => (QueryChild.elems ⟨rx, a, b, d, e, f⟩ ++ l).getD
        (RxIndex.all.findIdx (· == i)) Element.zero) = rx := by
      funext i
      cases i <;> rfl
    simp only [QueryChild.ofElems, this]
    rfl
  obtain ⟨fx, w, l, r⟩ := o
  have h1 : (fun i => (QueryOutput.elems ⟨fx, w, l, r⟩).getD (NativeId.all.findIdx (· == i))
      Element.zero) = fx := by
    funext i
    cases i <;> rfl
  have h2 := hq l r.elems
  have h3 := hq r []
  rw [List.append_nil] at h3
  simp only [QueryOutput.ofElems, h1]
  congr 1

theorem getD_drop' (l : List (Element F)) (k i : ℕ) (d : Element F) :
    (l.drop k).getD i d = l.getD (k + i) d := by
  simp [List.getD_eq_getElem?_getD]

theorem eq_getD (l : List (Element F)) {n : ℕ} (h : l.length = n) :
    (List.range n).map (fun i => l.getD i Element.zero) = l := by
  subst h
  refine List.ext_getElem (by simp) fun i h1 h2 => ?_
  simp [h2]

theorem query_elems_ofElems (l : List (Element F)) (h : l.length = 46) :
    (QueryOutput.ofElems l).elems = l := by
  conv_rhs => rw [← eq_getD l h]
  simp only [QueryOutput.elems, QueryOutput.ofElems, QueryChild.ofElems, QueryChild.elems, getD_drop']
  rfl

theorem eval_ofElems_elems (o : EvalOutput (Element F)) : EvalOutput.ofElems o.elems = o := by
  have hq : ∀ (c : EvalChild (Element F)) l, EvalChild.ofElems (c.write ++ l) = c := by
    intro c l
    obtain ⟨rx, a, b, d, e⟩ := c
    have : (fun i => (EvalChild.write ⟨rx, a, b, d, e⟩ ++ l).getD
        (RxIndex.all.findIdx (· == i)) Element.zero) = rx := by
      funext i
      cases i <;> rfl
    simp only [EvalChild.ofElems, this]
    rfl
  obtain ⟨l, r, a, b, c, d, e, f⟩ := o
  have h2 := hq l (r.write ++ [a, b, c, d, e, f])
  have h3 := hq r [a, b, c, d, e, f]
  simp only [EvalOutput.ofElems]
  congr 1

theorem eval_elems_ofElems (l : List (Element F)) (h : l.length = 36) :
    (EvalOutput.ofElems l).elems = l := by
  conv_rhs => rw [← eq_getD l h]
  simp only [EvalOutput.elems, EvalOutput.write, EvalOutput.ofElems, EvalChild.ofElems,
    EvalChild.write, getD_drop']
  rfl

theorem injectElems_spec {es : List (Element F)} {ws : List F} (h : es.length ≤ ws.length) :
    ∃ l, injectElems es ws = .ret l ∧ l.length = es.length ∧ l.map (·.wire) = ws.take es.length ∧
      l.map (·.value) = es.map (·.value) := by
  refine ⟨List.zipWith (fun e w => ⟨w, e.value⟩) es (ws.take es.length), ?_, ?_, ?_, ?_⟩
  · rw [injectElems, inject_ok _ _ h]
    rfl
  · simp [h]
  · refine List.ext_getElem (by simp [h]) fun i h1 h2 => by simp
  · refine List.ext_getElem (by simp [h]) fun i h1 h2 => by simp

theorem elems_ext {l k : List (Element F)} (h1 : l.map (·.wire) = k.map (·.wire))
    (h2 : l.map (·.value) = k.map (·.value)) : l = k := by
  have hl : l.length = k.length := by simpa using congrArg List.length h1
  refine List.ext_getElem hl fun i a b => ?_
  have e1 := List.getElem_of_eq h1 (i := i) (by simpa using a)
  have e2 := List.getElem_of_eq h2 (i := i) (by simpa using a)
  simp only [List.getElem_map] at e1 e2
  exact Element.ext e1 e2

section
variable {N T : ℕ} {S : StepStages F} (hS : StageTypes N T S) {es : List F}
include hS

/-- C69: the gadget that a circuit gets from the preamble stage has the stage's witness values and, in
the order of the stage's values, the stage's wires. It is the stage's gadget if the wires agree. -/
theorem C69_preambleGuard (h : firstWire (preambleStage N) + (preambleStage N).values ≤ es.length) :
    ∃ o, preambleGuard N S.preamble es = .ret o ∧
      o.elems.map (·.wire) = (es.drop (firstWire (preambleStage N))).take (preambleStage N).values ∧
      o.elems.map (·.value) = S.preamble.elems.map (·.value) ∧
      StageTypes N T { S with preamble := o } ∧
      (o.elems.map (·.wire) = S.preamble.elems.map (·.wire) → o = S.preamble) := by
  have hn : S.preamble.elems.length = (preambleStage N).values := preamble_elems_length hS
  have hv : (preambleStage N).values = 2 * (3 * N + 1 + 29) := rfl
  obtain ⟨l, h1, h2, h3, h4⟩ := injectElems_spec (es := S.preamble.elems)
    (ws := guardWires (preambleStage N) es) (by
      rw [hn, guardWires, List.length_take, List.length_drop]
      exact le_min le_rfl (by omega))
  have hl := h2.trans (hn.trans hv)
  have he := pre_elems_ofElems hl
  refine ⟨.ofElems N l, by rw [preambleGuard, h1]; rfl, ?_, by rw [he, h4], ?_, ?_⟩
  · rw [he, h3, hn, guardWires, List.take_take, show stageNumWires (preambleStage N) =
      (preambleStage N).values from rfl, min_self]
  · exact { hS with
      left := child_ofElems_lengths (by omega)
      right := child_ofElems_lengths (by simp only [List.length_drop, NUM_WIRES]; omega) }
  · intro hw
    rw [he] at hw
    rw [elems_ext hw h4, pre_ofElems_elems hS.left hS.right]

/-- C69: the same for the outer error stage. -/
theorem C69_outerErrorGuard
    (h : firstWire (outerErrorStage N T) + (outerErrorStage N T).values ≤ es.length) :
    ∃ o, outerErrorGuard N T S.outerError es = .ret o ∧
      o.elems.map (·.wire) =
        (es.drop (firstWire (outerErrorStage N T))).take (outerErrorStage N T).values ∧
      o.elems.map (·.value) = S.outerError.elems.map (·.value) ∧
      StageTypes N T { S with outerError := o } ∧
      (o.elems.map (·.wire) = S.outerError.elems.map (·.wire) → o = S.outerError) := by
  have hn : S.outerError.elems.length = (outerErrorStage N T).values := outerError_elems_length hS
  have hv : (outerErrorStage N T).values = numErrorTerms NUM_GROUPS + NUM_GROUPS + 6 + T := rfl
  obtain ⟨l, h1, h2, h3, h4⟩ := injectElems_spec (es := S.outerError.elems)
    (ws := guardWires (outerErrorStage N T) es) (by
      rw [hn, guardWires, List.length_take, List.length_drop]
      exact le_min le_rfl (by omega))
  have hl := h2.trans (hn.trans hv)
  have he := outer_elems_ofElems hl
  refine ⟨.ofElems NUM_GROUPS T l, by rw [outerErrorGuard, h1]; rfl, ?_, by rw [he, h4], ?_, ?_⟩
  · rw [he, h3, hn, guardWires, List.take_take, show stageNumWires (outerErrorStage N T) =
      (outerErrorStage N T).values from rfl, min_self]
  · have e1 : numErrorTerms NUM_GROUPS = NUM_GROUPS * NUM_GROUPS - NUM_GROUPS := rfl
    refine { hS with outerErrors := ?_, collapsed := ?_, state := ?_ } <;>
      simp only [OuterErrorOutput.ofElems, List.length_take, List.length_drop] <;> omega
  · intro hw
    rw [he] at hw
    rw [elems_ext hw h4, outer_ofElems_elems hS.outerErrors hS.collapsed hS.state]

/-- C69: the same for the inner error stage. -/
theorem C69_innerErrorGuard
    (h : firstWire (innerErrorStage N T) + (innerErrorStage N T).values ≤ es.length) :
    ∃ o, innerErrorGuard N T S.innerError es = .ret o ∧
      o.flatten.map (·.wire) =
        (es.drop (firstWire (innerErrorStage N T))).take (innerErrorStage N T).values ∧
      o.flatten.map (·.value) = S.innerError.flatten.map (·.value) ∧
      StageTypes N T { S with innerError := o } ∧
      (o.flatten.map (·.wire) = S.innerError.flatten.map (·.wire) → o = S.innerError) := by
  have hn : S.innerError.flatten.length = (innerErrorStage N T).values := innerError_elems_length hS
  have hv : (innerErrorStage N T).values = NUM_GROUPS * numErrorTerms GROUP_SIZE := rfl
  obtain ⟨l, h1, h2, h3, h4⟩ := injectElems_spec (es := S.innerError.flatten)
    (ws := guardWires (innerErrorStage N T) es) (by
      rw [hn, guardWires, List.length_take, List.length_drop]
      exact le_min le_rfl (by omega))
  have hl := h2.trans (hn.trans hv)
  obtain ⟨he, n1, n2⟩ := inner_elems_ofElems _ _ hl
  refine ⟨innerErrorOfElems _ NUM_GROUPS l, by rw [innerErrorGuard, h1]; rfl, ?_, by rw [he, h4],
    ?_, ?_⟩
  · rw [he, h3, hn, guardWires, List.take_take, show stageNumWires (innerErrorStage N T) =
      (innerErrorStage N T).values from rfl, min_self]
  · exact { hS with innerErrors := n1, innerError := n2 }
  · intro hw
    rw [he] at hw
    rw [elems_ext hw h4]
    conv_lhs => rw [← hS.innerErrors]
    exact inner_ofElems_elems _ hS.innerError

omit hS in
/-- C69: the same for the query stage. -/
theorem C69_queryGuard (h : firstWire (queryStage N) + (queryStage N).values ≤ es.length) :
    ∃ o, queryGuard N S.query es = .ret o ∧
      o.elems.map (·.wire) = (es.drop (firstWire (queryStage N))).take (queryStage N).values ∧
      o.elems.map (·.value) = S.query.elems.map (·.value) ∧
      (o.elems.map (·.wire) = S.query.elems.map (·.wire) → o = S.query) := by
  have hn : S.query.elems.length = (queryStage N).values := query_elems_length _
  have hv : (queryStage N).values = 46 := rfl
  obtain ⟨l, h1, h2, h3, h4⟩ := injectElems_spec (es := S.query.elems)
    (ws := guardWires (queryStage N) es) (by
      rw [hn, guardWires, List.length_take, List.length_drop]
      exact le_min le_rfl (by omega))
  have hl := h2.trans (hn.trans hv)
  have he := query_elems_ofElems l hl
  refine ⟨.ofElems l, by rw [queryGuard, h1]; rfl, ?_, by rw [he, h4], ?_⟩
  · rw [he, h3, hn, guardWires, List.take_take, show stageNumWires (queryStage N) =
      (queryStage N).values from rfl, min_self]
  · intro hw
    rw [he] at hw
    rw [elems_ext hw h4, query_ofElems_elems]

omit hS in
/-- C69: the same for the eval stage. -/
theorem C69_evalGuard (h : firstWire (evalStage N) + (evalStage N).values ≤ es.length) :
    ∃ o, evalGuard N S.eval es = .ret o ∧
      o.elems.map (·.wire) = (es.drop (firstWire (evalStage N))).take (evalStage N).values ∧
      o.elems.map (·.value) = S.eval.elems.map (·.value) ∧
      (o.elems.map (·.wire) = S.eval.elems.map (·.wire) → o = S.eval) := by
  have hn : S.eval.elems.length = (evalStage N).values := eval_elems_length _
  have hv : (evalStage N).values = 36 := rfl
  obtain ⟨l, h1, h2, h3, h4⟩ := injectElems_spec (es := S.eval.elems)
    (ws := guardWires (evalStage N) es) (by
      rw [hn, guardWires, List.length_take, List.length_drop]
      exact le_min le_rfl (by omega))
  have hl := h2.trans (hn.trans hv)
  have he := eval_elems_ofElems l hl
  refine ⟨.ofElems l, by rw [evalGuard, h1]; rfl, ?_, by rw [he, h4], ?_⟩
  · rw [he, h3, hn, guardWires, List.take_take, show stageNumWires (evalStage N) =
      (evalStage N).values from rfl, min_self]
  · intro hw
    rw [he] at hw
    rw [elems_ext hw h4, eval_ofElems_elems]
end

/-! ### Examples -/

/-- The stages of the example of C65 have the lengths of their types. -/
theorem sStages_types : StageTypes 2 2 sStages where
  left := ⟨rfl, rfl, rfl⟩
  right := ⟨rfl, rfl, rfl⟩
  outerErrors := sStages_shape.outerErrors
  collapsed := sStages_shape.collapsed
  innerErrors := sStages_shape.innerErrors
  innerError := sStages_shape.innerError
  state := rfl

/-- Non-vacuity of C68: a circuit for those stages. -/
example : ∃ c : Circ (ZMod 13), c.outs.length = 34 ∧ ∀ inst,
    Realizes (outerErrorStage 2 2) c (hashes1Code sParams sStages inst) := by
  obtain ⟨c, -, -, h1, h2⟩ := C68_hashes1 sParams sParams_ok
  exact ⟨c, h1, h2 sStages sStages_types⟩

/-- The same for the other four circuits. -/
example : ∃ c2 c3 c4 c5 : Circ (ZMod 13), ∀ inst,
    Realizes (outerErrorStage 2 2) c2 (hashes2Code sParams sStages inst) ∧
    Realizes (innerErrorStage 2 2) c3 (innerCollapseCode sParams sStages inst) ∧
    Realizes (outerErrorStage 2 2) c4 (outerCollapseCode sParams sStages inst) ∧
    Realizes (evalStage 2) c5 (computeVCode sParams sStages inst) := by
  obtain ⟨c2, -, -, -, h2⟩ := C68_hashes2 sParams sParams_ok
  obtain ⟨c3, -, -, -, h3⟩ := C68_innerCollapse sParams
  obtain ⟨c4, -, -, -, h4⟩ := C68_outerCollapse sParams (by decide)
  obtain ⟨c5, -, -, -, h5⟩ := C68_computeV sParams
  exact ⟨c2, c3, c4, c5, fun inst => ⟨h2 _ sStages_types inst, h3 _ sStages_types inst,
    h4 _ sStages_types inst, h5 _ sStages_types inst⟩⟩

/-- Non-vacuity of `C69_preamble`: the code succeeds on two copies of the proof of C46. -/
example : ((Pcd.emulate (preambleStageCode demoCycle 3 demoProof demoProof [4, 0, 1]
      [5, 0, 1])).toOption.map fun o => (o.elems.length, (o.elems.map (·.wire)).take 9)) =
    some (78, [1, 2, 3, 4, 5, 6, 4, 0, 1]) := by decide +kernel

/-- Non-vacuity of the guards: among wires numbered from zero, the right child's circuit identifier
is number `36 + 6`. -/
example : ∃ o, preambleGuard 2 sStages.preamble ((List.range 72).map fun i : ℕ => (i : ZMod 13)) = .ret o ∧
    (o.elems.map (·.wire))[36 + 6]? = some 42 := by
  obtain ⟨o, h, h2, -⟩ := C69_preambleGuard sStages_types
    (es := (List.range 72).map fun i : ℕ => (i : ZMod 13)) (by decide +kernel)
  exact ⟨o, h, by rw [h2]; decide +kernel⟩

end Ragu.Props

/-
Property C97: proofs do not grow, and store the commitments of what they store.
-/
import Verif.Spec.ProofSize
import Verif.Props.FuseProgram

set_option linter.unusedSectionVars false

namespace Ragu.Props
open Ragu Ragu.Circuit Ragu.Registry Ragu.Spec Ragu.Gadget Ragu.Pcd Finset
variable {F G HC : Type} [Field F] [DecidableEq F] [Field G] [DecidableEq G]
  [AddCommGroup HC] [DecidableEq HC] [Module F HC]

/-! ### Well-formed polynomials are small -/

theorem wellFormedFrom_stored {K : Type} {N : ℕ} : ∀ (q : List (ℕ × List K)) (lo : ℕ), lo ≤ N →
    WellFormedFrom lo N q → lo + (q.map fun b => b.2.length).sum ≤ N ∧
      q.length ≤ (q.map fun b => b.2.length).sum
  | [], lo, h, _ => ⟨by simpa using h, by simp⟩
  | (s, d) :: q, lo, _, h => by
    obtain ⟨h1, h2, h3, h4⟩ := h
    obtain ⟨i1, i2⟩ := wellFormedFrom_stored q (s + d.length) h3 h4
    have := List.length_pos_iff.2 h2
    simp only [List.map_cons, List.sum_cons, List.length_cons]
    omega

theorem wellFormed_stored {K : Type} {N : ℕ} {q : Sparse.Poly K} (h : WellFormed N q) :
    stored q ≤ N ∧ q.length ≤ N := by
  obtain ⟨h1, h2⟩ := wellFormedFrom_stored q 0 (Nat.zero_le _) h
  have h3 : 0 + stored q ≤ N := h1
  have h4 : q.length ≤ stored q := h2
  constructor <;> omega

theorem sum_stored {A K : Type} {N : ℕ} (f : A → Sparse.Poly K) : ∀ (l : List A),
    (∀ a ∈ l, WellFormed N (f a)) → (l.map fun a => stored (f a)).sum ≤ l.length * N
  | [], _ => by simp
  | a :: l, h => by
    have h1 := (wellFormed_stored (h a (by simp))).1
    have h2 := sum_stored f l fun a ha => h a (by simp [ha])
    simp only [List.map_cons, List.sum_cons, List.length_cons, Nat.add_mul, Nat.one_mul]
    omega

/-! ### The parts of a proof -/

section
variable {V : FuseEnvironment F G HC} {steps : List (StepDef F)}

/-- The polynomial fits the rank and has the commitment. -/
def PartOk (V : FuseEnvironment F G HC) (t : Sparse.Poly F × HC) : Prop :=
  WellFormed (4 * V.n) t.1 ∧ Msm.commit (4 * V.n) V.C.numBits V.C.repr t.1 V.C.hostGens = some t.2

theorem parts_ok {p : Proof F G HC} {bn : Builder F} {ss : List (F → F → F)} {q : ℕ}
    (hE : FuseEnv V.C V.P.endo V.n q bn ss V.app.nativeRegistry)
    (h : ConsistentProof V.C V.n V.app.nativeRegistry p)
    (h0 : PartOk V (p.sPrime.native.registryWx0Poly, p.sPrime.native.registryWx0Commitment))
    (h1 : PartOk V (p.sPrime.native.registryWx1Poly, p.sPrime.native.registryWx1Commitment))
    (h2 : PartOk V (p.innerError.native.registryWyPoly, p.innerError.native.registryWyCommitment))
    (h3 : PartOk V (p.f.native.poly, p.f.native.commitment)) : ∀ t ∈ nativeParts p, PartOk V t := by
  have hx := h.registry
  have hx' : PartOk V (p.query.native.registryXyPoly, p.query.native.registryXyCommitment) :=
    ⟨(xy_wf hE.ready hE.final hx).1, (registryXy_some hx).2⟩
  have hp : PartOk V (p.p.native.poly, p.p.native.commitment) := ⟨h.p_wf, h.p_commit⟩
  have hr : ∀ i, PartOk V ((p.triple i).rx, (p.triple i).commitment) := fun i => h.traces (.rx i)
  simp only [nativeParts, List.forall_mem_cons, List.not_mem_nil, false_implies, implies_true, and_true]
  exact ⟨hr .application, hr .preamble, h0, h1, h2, hr .innerError, hr .outerError, h.traces .abA,
    h.traces .abB, hx', hr .query, h3, hr .eval, hp, hr .hashes1, hr .hashes2, hr .innerCollapse,
    hr .outerCollapse, hr .computeV⟩

/-- The parts of a proof that a fuse made. -/
theorem fused_ok [Finite F] (hV : Prepared V steps) {left right p : Proof F G HC}
    (hl : ChildReady V.C.native V.n V.C.numBits V.C.repr V.C.hostGens V.app.nativeRegistry left)
    (hr : ChildReady V.C.native V.n V.C.numBits V.C.repr V.C.hostGens V.app.nativeRegistry right)
    {t : FuseTraces F G}
    (hp : fuseProof V.C V.P.endo V.n V.app.nativeRegistry left right p.challenges t = some p)
    (hc : ConsistentProof V.C V.n V.app.nativeRegistry p) : ∀ t ∈ nativeParts p, PartOk V t := by
  obtain ⟨bn, ss, hE⟩ := app_fuseEnv hV.app
  have hz : p.challenges.mu ≠ 0 ∧ p.challenges.muPrime ≠ 0 := by
    constructor <;> intro h0
    · rw [fuse_none hE hl.traces hr.traces (.inl h0)] at hp; cases hp
    · rw [fuse_none hE hl.traces hr.traces (.inr h0)] at hp; cases hp
  have ht : ∀ i, WellFormed (4 * V.n) (t.rx i) := fun i => by
    rw [← (fuse_fields hp).1 i]; exact (hc.traces (.rx i)).1
  obtain ⟨s, f, pw, p', rfl, rfl, hs, hf, -, hp', -, -, -, -, kf, -, -, -, -, -, ks, ki⟩ :=
    fuse_parts hE hl hr p.challenges ht hz.1 hz.2
  rw [hp] at hp'
  cases hp'
  obtain ⟨f', g1, g2, g3, -⟩ := C47_agree hE.ready hE.final hE.repr hE.gens hl hr hs
  rw [hf] at g1
  cases g1
  obtain ⟨s1, s2, s3, s4⟩ := sPrime_some hs.sPrime
  obtain ⟨w1, w2⟩ := registryWy_some hs.wy
  rw [ks] at s1 s2 s3 s4
  rw [ki] at w1 w2
  refine parts_ok hE hc ⟨(wx_wf hE.ready hE.final s1).1, s3⟩ ⟨(wx_wf hE.ready hE.final s2).1, s4⟩
    ⟨(wy_wf hE.ready hE.final w1).1, w2⟩ ?_
  rw [kf]
  exact ⟨g2, g3⟩

/-- The bridges and the number of steps of a proof that a fuse made. -/
theorem fused_nested {D : Type} {left right p : Proof F G HC} {t : FuseTraces F G} {c0 : Circ F} {j : ℕ}
    {code : Syn F (Except Pcd.Err (AdapterOut F D))} {out : AdapterOut F D}
    (h : FuseRun V.C V.n V.nestedCommit V.P V.cs V.app c0 j code out left right t p)
    (hE : EndoscalingRun V.K V.n V.P.endo V.cs V.app.nestedRegistry left right p t) :
    (∀ b ∈ bridgesOf p, b.commitment = V.nestedCommit b.rx) ∧
      p.p.nested.stepRxs.length = NUM_ENDOSCALING_STEPS := by
  obtain ⟨b1, b2, b3, b4, b5, b6, b7, b8⟩ := fuse_bridges h.assembled
  refine ⟨?_, by rw [(fuse_fields h.assembled).2.2.2.2]; exact hE.steps⟩
  have := h.bridges
  simp only [bridgesOf, b1, b2, b3, b4, b5, b6, b7, b8]
  exact this

/-- What holds of every proof that was made. -/
theorem made_parts [Finite F] (hV : Prepared V steps) {D O : Type} {H : Header F D O}
    {p : Proof F G HC} {d : D} (h : MadeBy V steps H p d) :
    (∀ t ∈ nativeParts p, PartOk V t) ∧ (∀ b ∈ bridgesOf p, b.commitment = V.nestedCommit b.rx) ∧
      p.p.nested.stepRxs.length = NUM_ENDOSCALING_STEPS := by
  obtain ⟨-, _, -, hS⟩ := made_settled hV.app hV.host hV.curve h
  cases h with
  | seed hq hf =>
    obtain ⟨i, j, c0, code, out, t, h1, h2, h3, rfl, h4, hB, hE, h5⟩ := hf
    have hc := trivial_child hV.app hV.curve hq (run_points h4).1
    exact ⟨fused_ok hV hc.consistent.toChildReady hc.consistent.toChildReady h4.assembled hS.consistent,
      fused_nested h4 hE⟩
  | fuse hl hr hf =>
    obtain ⟨i, j, c0, code, out, t, h1, h2, h3, rfl, h4, hB, hE, h5⟩ := hf
    obtain ⟨-, _, -, sl⟩ := made_settled hV.app hV.host hV.curve hl
    obtain ⟨-, _, -, sr⟩ := made_settled hV.app hV.host hV.curve hr
    exact ⟨fused_ok hV sl.consistent.toChildReady sr.consistent.toChildReady h4.assembled hS.consistent,
      fused_nested h4 hE⟩

/-- C97: in every proof that a program obtains from `seed`, `fuse` and `rerandomize`, in any order and
number of calls, each of the 19 commitments stored for polynomials over the circuit field is the commitment
of the polynomial stored with it, and each of the 8 bridges commits to its polynomial. -/
theorem C97_commitments [Finite F] (hV : Prepared V steps) {D O : Type} {H : Header F D O}
    {p : Proof F G HC} {d : D} (h : Obtained V steps H p d) :
    (∀ t ∈ nativeParts p,
      Msm.commit (4 * V.n) V.C.numBits V.C.repr t.1 V.C.hostGens = some t.2) ∧
    (∀ b ∈ bridgesOf p, b.commitment = V.nestedCommit b.rx) ∧ (nativeParts p).length = 19 ∧
      (bridgesOf p).length = 8 := by
  obtain ⟨h1, h2, -⟩ := made_parts hV (C82_made hV h)
  exact ⟨fun t ht => (h1 t ht).2, h2, rfl, rfl⟩

/-- C97: the size of such a proof does not depend on how many calls made it or with which data: it stores
19 polynomials over each field, each with at most `4n` coefficients in at most `4n` blocks, the headers
of its two children, of exactly `N` elements each, and at most `152 n + 2 N + 13` field elements in all,
besides its commitments. -/
theorem C97_size [Finite F] (hV : Prepared V steps) {D O : Type} {H : Header F D O}
    {p : Proof F G HC} {d : D} (h : Obtained V steps H p d) :
    ((nativeParts p).length = 19 ∧ (nestedPolys p).length = 19) ∧
    (∀ t ∈ nativeParts p, stored t.1 ≤ 4 * V.n ∧ t.1.length ≤ 4 * V.n) ∧
    (∀ q ∈ nestedPolys p, stored q ≤ 4 * V.n ∧ q.length ≤ 4 * V.n) ∧
    p.application.leftHeader.length = V.P.headerSize ∧
    p.application.rightHeader.length = V.P.headerSize ∧
    elements p ≤ 152 * V.n + 2 * V.P.headerSize + 13 := by
  have hm := C82_made hV h
  obtain ⟨hN, _, -, hS⟩ := made_settled hV.app hV.host hV.curve hm
  obtain ⟨h1, -, h3⟩ := made_parts hV hm
  have hq : ∀ q ∈ nestedPolys p, WellFormed (4 * V.n) q := by
    intro q hq
    simp only [nestedPolys, bridgesOf, List.map_cons, List.map_nil, List.cons_append, List.nil_append,
      List.mem_cons] at hq
    rcases hq with rfl | rfl | rfl | rfl | rfl | rfl | rfl | rfl | rfl | rfl | hq
    · exact hN.typed .bridgePreamble _ rfl
    · exact hN.typed .bridgeSPrime _ rfl
    · exact hN.typed .bridgeInnerError _ rfl
    · exact hN.typed .bridgeOuterError _ rfl
    · exact hN.typed .bridgeAB _ rfl
    · exact hN.typed .bridgeQuery _ rfl
    · exact hN.typed .bridgeF _ rfl
    · exact hN.typed .bridgeEval _ rfl
    · exact hN.typed .endoscalarStage _ rfl
    · exact hN.typed .pointsStage _ rfl
    · obtain ⟨i, hi⟩ := List.mem_iff_getElem?.1 hq
      exact hN.typed (.endoscalingStep i) _ hi
  have hlen : (nestedPolys p).length = 19 := by
    simp [nestedPolys, bridgesOf, h3, steps_eq]
  have s1 := sum_stored (fun t : Sparse.Poly F × HC => t.1) (nativeParts p) fun t ht => (h1 t ht).1
  have s2 := sum_stored (fun q : Sparse.Poly G => q) (nestedPolys p) hq
  rw [hlen] at s2
  rw [show (nativeParts p).length = 19 from rfl] at s1
  have hl := hS.left
  have hr := hS.right
  refine ⟨⟨rfl, hlen⟩, fun t ht => wellFormed_stored (h1 t ht).1, fun q h => wellFormed_stored (hq q h),
    hl, hr, ?_⟩
  rw [elements, hl, hr]
  have s2' : ((nestedPolys p).map stored).sum ≤ 19 * (4 * V.n) := s2
  omega

end

/-! ### Examples -/

section
open Ragu.Pasta

example : stored [(0, [(1 : ZMod 97), 2]), (5, [3])] = 3 := rfl

/-- Non-vacuity of C97_commitments and C97_size: there is an application over the Pasta cycle, with headers
of 4 elements, in which `seed` with the trivial step has an outcome; if it is a proof, with usable challenge
`u`, then the proof stores at most 311317 field elements besides its commitments, which are those of its
polynomials. -/
example : ∃ (V : FuseEnvironment Fp Fq Vesta) (steps : List (StepDef Fp)),
    Prepared V steps ∧
    ∃ r, V.seed V.cs.trivial (NUM_INTERNAL_CIRCUITS + 1) (trivialStep V.P.headerSize) r ∧
      match r with
      | .ok (p, _) => ∀ q, IsTrivial V q → UsablePoint V q q p → elements p ≤ 311317 ∧
          ∀ t ∈ nativeParts p, Msm.commit (4 * V.n) V.C.numBits V.C.repr t.1 V.C.hostGens = some t.2
      | .error stop => Explained V stop := by
  classical
  obtain ⟨sqrt, hs⟩ : ∃ sqrt : Fp → Option Fp, SqrtSpec sqrt := by
    refine ⟨fun v => if h : IsSquare v then some h.choose else none, fun v s h => ?_, fun v h => ?_⟩
    · split at h
      · next hv =>
        rw [Option.some.injEq] at h
        subst h
        exact hv.choose_spec.symm
      · cases h
    · rw [dif_pos h]
      exact Option.some_ne_none _
  let M : Machine Fp := ⟨1, fun _ => [], fun _ => 0⟩
  let M' : Machine Fq := ⟨1, fun _ => [], fun _ => 0⟩
  have hsteps : StepsInOrder 2048 ([] : List (StepDef Fp)) := by
    refine ⟨?_, ?_, ?_⟩ <;> simp [allHeaders, Consistent]
  obtain ⟨cs, hcs⟩ := C80_exist _ (pasta_ok M hs ([] : List (StepDef Fp)).length
    (headerSize := 4) (by omega)) (zetaQ : Fq)
  obtain ⟨app, hV⟩ := C82_pasta (M := M) (M' := M') Nat.one_pos Nat.one_pos hs
    (gens := List.replicate 8192 (.some (-1) 2 vesta_gen)) (List.length_replicate ..).ge
    (fun _ => (.some (-1) 2 pallas_gen : Pallas)) (headerSize := 4) (by omega) (by omega) hsteps
    (by simp) hcs
  refine ⟨_, [], hV, ?_⟩
  obtain ⟨⟨r, hr⟩, h⟩ := C82_seed_progress hV generator_commits (trivial_runs hV.app.params.header)
    hcs.trivial.2.2.2
  refine ⟨r, hr, ?_⟩
  cases r with
  | error stop => exact h stop hr
  | ok r =>
    obtain ⟨p, d⟩ := r
    intro q hq hu
    have ho := Obtained.seed (steps := []) (trivial_runs hV.app.params.header) hr hq hu
    exact ⟨(C97_size hV ho).2.2.2.2.2, (C97_commitments hV ho).1⟩

end
end Ragu.Props

/-
The internal circuits of a fuse make the same calls whatever their wires and witness values are.
-/
import Verif.Lemmas.UnifPcd

set_option linter.unusedSectionVars false

namespace Ragu.Unif
open Ragu Ragu.Circuit Ragu.Registry Ragu.Gadget Ragu.Spec Ragu.Pcd
variable {W F α β γ : Type} [Field F] [DecidableEq F] {m : ℕ}

/-! ### The gadgets of the stages -/

structure ChildR (N m : ℕ) (c : Fam W F (ChildInputs F)) : Prop where
  left : rel m fun w σ => (c w σ).leftHeader
  right : rel m fun w σ => (c w σ).rightHeader
  output : ListN N m fun w σ => (c w σ).outputHeader
  circuitId : rel m fun w σ => (c w σ).circuitId
  unified : UR m fun w σ => (c w σ).unified

theorem ChildR.mono {N m m' : ℕ} {c : Fam W F (ChildInputs F)} (h : m ≤ m') (r : ChildR N m c) :
    ChildR N m' c :=
  ⟨rel_up h r.1, rel_up h r.2, r.3.mono h, rel_up h r.4, r.5.mono h⟩

theorem ChildR.loc {N m : ℕ} {c : Fam W F (ChildInputs F)} (r : ChildR N m c) (w : W)
    {σ τ : ℕ → F} (ag : Agree m σ τ) : c w σ = c w τ := by
  have h1 := rel_loc r.1 w ag
  have h2 := rel_loc r.2 w ag
  have h3 := r.3.loc w ag
  have h4 := rel_loc r.4 w ag
  have h5 := r.5.loc w ag
  rcases e1 : c w σ with ⟨a1, b1, c1, d1, e1⟩
  rcases e2 : c w τ with ⟨a2, b2, c2, d2, e2⟩
  simp only [e1, e2] at h1 h2 h3 h4 h5
  rw [h1, h2, h3, h4, h5]

structure PreR (N m : ℕ) (c : Fam W F (PreambleOutput F)) : Prop where
  left : ChildR N m fun w σ => (c w σ).left
  right : ChildR N m fun w σ => (c w σ).right

theorem PreR.mono {N m m' : ℕ} {c : Fam W F (PreambleOutput F)} (h : m ≤ m') (r : PreR N m c) :
    PreR N m' c := ⟨r.1.mono h, r.2.mono h⟩

theorem PreR.loc {N m : ℕ} {c : Fam W F (PreambleOutput F)} (r : PreR N m c) (w : W)
    {σ τ : ℕ → F} (ag : Agree m σ τ) : c w σ = c w τ := by
  have h1 := r.1.loc w ag
  have h2 := r.2.loc w ag
  rcases e1 : c w σ with ⟨a1, b1⟩
  rcases e2 : c w τ with ⟨a2, b2⟩
  simp only [e1, e2] at h1 h2
  rw [h1, h2]

structure KyR (m : ℕ) (c : Fam W F (ChildKyOutputs F)) : Prop where
  application : rel m fun w σ => (c w σ).application
  unified : rel m fun w σ => (c w σ).unified
  unifiedBridge : rel m fun w σ => (c w σ).unifiedBridge

theorem KyR.mono {m m' : ℕ} {c : Fam W F (ChildKyOutputs F)} (h : m ≤ m') (r : KyR m c) : KyR m' c :=
  ⟨rel_up h r.1, rel_up h r.2, rel_up h r.3⟩

theorem KyR.loc {m : ℕ} {c : Fam W F (ChildKyOutputs F)} (r : KyR m c) (w : W)
    {σ τ : ℕ → F} (ag : Agree m σ τ) : c w σ = c w τ := by
  have h1 := rel_loc r.1 w ag
  have h2 := rel_loc r.2 w ag
  have h3 := rel_loc r.3 w ag
  rcases e1 : c w σ with ⟨a1, b1, c1⟩
  rcases e2 : c w τ with ⟨a2, b2, c2⟩
  simp only [e1, e2] at h1 h2 h3
  rw [h1, h2, h3]

structure OuterR (g T m : ℕ) (c : Fam W F (OuterErrorOutput F)) : Prop where
  errorTerms : ListN (g * (g - 1)) m fun w σ => (c w σ).errorTerms
  collapsed : ListN g m fun w σ => (c w σ).collapsed
  left : KyR m fun w σ => (c w σ).left
  right : KyR m fun w σ => (c w σ).right
  spongeState : ListN T m fun w σ => (c w σ).spongeState

theorem OuterR.mono {g T m m' : ℕ} {c : Fam W F (OuterErrorOutput F)} (h : m ≤ m')
    (r : OuterR g T m c) : OuterR g T m' c :=
  ⟨r.1.mono h, r.2.mono h, r.3.mono h, r.4.mono h, r.5.mono h⟩

theorem OuterR.loc {g T m : ℕ} {c : Fam W F (OuterErrorOutput F)} (r : OuterR g T m c) (w : W)
    {σ τ : ℕ → F} (ag : Agree m σ τ) : c w σ = c w τ := by
  have h1 := r.1.loc w ag
  have h2 := r.2.loc w ag
  have h3 := r.3.loc w ag
  have h4 := r.4.loc w ag
  have h5 := r.5.loc w ag
  rcases e1 : c w σ with ⟨a1, b1, c1, d1, e1⟩
  rcases e2 : c w τ with ⟨a2, b2, c2, d2, e2⟩
  simp only [e1, e2] at h1 h2 h3 h4 h5
  rw [h1, h2, h3, h4, h5]

structure QChildR (m : ℕ) (c : Fam W F (QueryChild (Element F))) : Prop where
  rx : ∀ i, rel m fun w σ => (c w σ).rx i
  a : rel m fun w σ => (c w σ).aPolyAtXz
  b : rel m fun w σ => (c w σ).bPolyAtX
  xyw : rel m fun w σ => (c w σ).childRegistryXyAtCurrentW
  xyc : rel m fun w σ => (c w σ).currentRegistryXyAtChildCircuitId
  wyx : rel m fun w σ => (c w σ).currentRegistryWyAtChildX

theorem QChildR.mono {m m' : ℕ} {c : Fam W F (QueryChild (Element F))} (h : m ≤ m')
    (r : QChildR m c) : QChildR m' c :=
  ⟨fun i => rel_up h (r.1 i), rel_up h r.2, rel_up h r.3, rel_up h r.4, rel_up h r.5, rel_up h r.6⟩

theorem QChildR.loc {m : ℕ} {c : Fam W F (QueryChild (Element F))} (r : QChildR m c) (w : W)
    {σ τ : ℕ → F} (ag : Agree m σ τ) : c w σ = c w τ := by
  have h1 : (c w σ).rx = (c w τ).rx := funext fun i => rel_loc (r.1 i) w ag
  have h2 := rel_loc r.2 w ag
  have h3 := rel_loc r.3 w ag
  have h4 := rel_loc r.4 w ag
  have h5 := rel_loc r.5 w ag
  have h6 := rel_loc r.6 w ag
  rcases e1 : c w σ with ⟨a1, b1, c1, d1, e1, f1⟩
  rcases e2 : c w τ with ⟨a2, b2, c2, d2, e2, f2⟩
  simp only [e1, e2] at h1 h2 h3 h4 h5 h6
  rw [h1, h2, h3, h4, h5, h6]

structure QueryR (m : ℕ) (c : Fam W F (QueryOutput (Element F))) : Prop where
  fixed : ∀ i, rel m fun w σ => (c w σ).fixedRegistry i
  wxy : rel m fun w σ => (c w σ).registryWxy
  left : QChildR m fun w σ => (c w σ).left
  right : QChildR m fun w σ => (c w σ).right

theorem QueryR.mono {m m' : ℕ} {c : Fam W F (QueryOutput (Element F))} (h : m ≤ m')
    (r : QueryR m c) : QueryR m' c :=
  ⟨fun i => rel_up h (r.1 i), rel_up h r.2, r.3.mono h, r.4.mono h⟩

theorem QueryR.loc {m : ℕ} {c : Fam W F (QueryOutput (Element F))} (r : QueryR m c) (w : W)
    {σ τ : ℕ → F} (ag : Agree m σ τ) : c w σ = c w τ := by
  have h1 : (c w σ).fixedRegistry = (c w τ).fixedRegistry := funext fun i => rel_loc (r.1 i) w ag
  have h2 := rel_loc r.2 w ag
  have h3 := r.3.loc w ag
  have h4 := r.4.loc w ag
  rcases e1 : c w σ with ⟨a1, b1, c1, d1⟩
  rcases e2 : c w τ with ⟨a2, b2, c2, d2⟩
  simp only [e1, e2] at h1 h2 h3 h4
  rw [h1, h2, h3, h4]

structure EChildR (m : ℕ) (c : Fam W F (EvalChild (Element F))) : Prop where
  rx : ∀ i, rel m fun w σ => (c w σ).rx i
  a : rel m fun w σ => (c w σ).aPoly
  b : rel m fun w σ => (c w σ).bPoly
  xy : rel m fun w σ => (c w σ).registryXyPoly
  p : rel m fun w σ => (c w σ).pPoly

theorem EChildR.mono {m m' : ℕ} {c : Fam W F (EvalChild (Element F))} (h : m ≤ m')
    (r : EChildR m c) : EChildR m' c :=
  ⟨fun i => rel_up h (r.1 i), rel_up h r.2, rel_up h r.3, rel_up h r.4, rel_up h r.5⟩

theorem EChildR.loc {m : ℕ} {c : Fam W F (EvalChild (Element F))} (r : EChildR m c) (w : W)
    {σ τ : ℕ → F} (ag : Agree m σ τ) : c w σ = c w τ := by
  have h1 : (c w σ).rx = (c w τ).rx := funext fun i => rel_loc (r.1 i) w ag
  have h2 := rel_loc r.2 w ag
  have h3 := rel_loc r.3 w ag
  have h4 := rel_loc r.4 w ag
  have h5 := rel_loc r.5 w ag
  rcases e1 : c w σ with ⟨a1, b1, c1, d1, e1⟩
  rcases e2 : c w τ with ⟨a2, b2, c2, d2, e2⟩
  simp only [e1, e2] at h1 h2 h3 h4 h5
  rw [h1, h2, h3, h4, h5]

structure EvalR (m : ℕ) (c : Fam W F (EvalOutput (Element F))) : Prop where
  left : EChildR m fun w σ => (c w σ).left
  right : EChildR m fun w σ => (c w σ).right
  wx0 : rel m fun w σ => (c w σ).registryWx0
  wx1 : rel m fun w σ => (c w σ).registryWx1
  wy : rel m fun w σ => (c w σ).registryWy
  a : rel m fun w σ => (c w σ).aPoly
  b : rel m fun w σ => (c w σ).bPoly
  xy : rel m fun w σ => (c w σ).registryXy

theorem EvalR.mono {m m' : ℕ} {c : Fam W F (EvalOutput (Element F))} (h : m ≤ m')
    (r : EvalR m c) : EvalR m' c :=
  ⟨r.1.mono h, r.2.mono h, rel_up h r.3, rel_up h r.4, rel_up h r.5, rel_up h r.6, rel_up h r.7,
    rel_up h r.8⟩

theorem EvalR.loc {m : ℕ} {c : Fam W F (EvalOutput (Element F))} (r : EvalR m c) (w : W)
    {σ τ : ℕ → F} (ag : Agree m σ τ) : c w σ = c w τ := by
  have h1 := r.1.loc w ag
  have h2 := r.2.loc w ag
  have h3 := rel_loc r.3 w ag
  have h4 := rel_loc r.4 w ag
  have h5 := rel_loc r.5 w ag
  have h6 := rel_loc r.6 w ag
  have h7 := rel_loc r.7 w ag
  have h8 := rel_loc r.8 w ag
  rcases e1 : c w σ with ⟨a1, b1, c1, d1, e1, f1, g1, i1⟩
  rcases e2 : c w τ with ⟨a2, b2, c2, d2, e2, f2, g2, i2⟩
  simp only [e1, e2] at h1 h2 h3 h4 h5 h6 h7 h8
  rw [h1, h2, h3, h4, h5, h6, h7, h8]

theorem EChildR.write {c : Fam W F (EvalChild (Element F))} (r : EChildR m c) :
    rel m fun w σ => (c w σ).write := by
  unfold EvalChild.write
  refine rel_append (rel_mapConst _ r.rx) ?_
  have h1 := r.a
  have h2 := r.b
  have h3 := r.xy
  have h4 := r.p
  rels

theorem EvalR.write {c : Fam W F (EvalOutput (Element F))} (r : EvalR m c) :
    rel m fun w σ => (c w σ).write := by
  unfold EvalOutput.write
  have h1 := r.left.write
  have h2 := r.right.write
  have h3 := r.wx0
  have h4 := r.wx1
  have h5 := r.wy
  have h6 := r.a
  have h7 := r.b
  have h8 := r.xy
  rels

/-! ### Public inputs -/

section
variable {N : ℕ} {c d : Fam W F (ChildInputs F)} (hc : ChildR N m c) {y : Fam W F (Element F)}
include hc

theorem unif_unifiedKy (hy : rel m y) :
    Unif m fun w σ => (c w σ).parts.unifiedKyValues (y w σ) := by
  unfold ProofInputs.unifiedKyValues
  have h1 : rel m fun w σ => (c w σ).parts.unified := hc.unified.write.rel
  have h2 : rel m fun w σ => (c w σ).parts.left := hc.left
  have h3 : rel m fun w σ => (c w σ).parts.right := hc.right
  unifs

theorem unif_applicationKy (hy : rel m y) :
    Unif m fun w σ => (c w σ).parts.applicationKy (y w σ) := by
  unfold ProofInputs.applicationKy
  have h1 : rel m fun w σ => (c w σ).parts.output := hc.output.rel
  have h2 : rel m fun w σ => (c w σ).parts.left := hc.left
  have h3 : rel m fun w σ => (c w σ).parts.right := hc.right
  unifs

theorem unif_isTrivial (hN : 1 ≤ N) : Unif m fun w σ => (c w σ).parts.isTrivial N := by
  unfold ProofInputs.isTrivial
  obtain ⟨a, ha, e⟩ := hc.output.getElem? (i := N - 1) (by omega)
  simp only [ChildInputs.parts, e]
  unifs

theorem unif_isBaseCase (hd : ChildR N m d) (hN : 1 ≤ N) :
    Unif m fun w σ => isBaseCase N (c w σ).parts (d w σ).parts := by
  unfold isBaseCase
  refine Unif.bind (unif_isTrivial hc hN) (by loc) ?_
  intro _ _ hm _
  lift_rels hm
  refine Unif.bind (unif_isTrivial hd hN) (by loc) ?_
  intro _ _ hm _
  lift_rels hm
  unifs
end
macro_rules | `(tactic| unif_lem) => `(tactic| apply unif_applicationKy)
macro_rules | `(tactic| unif_lem) => `(tactic| apply unif_unifiedKy)
macro_rules | `(tactic| unif_lem) => `(tactic| apply unif_isBaseCase)

/-! ### Transcripts -/

macro_rules | `(tactic| unif_lem) => `(tactic| apply unif_write)
macro_rules | `(tactic| unif_lem) => `(tactic| apply unif_writePoint)
macro_rules | `(tactic| unif_lem) => `(tactic| apply unif_transcriptNew)
macro_rules | `(tactic| unif_lem) => `(tactic| apply unif_challenge)
macro_rules | `(tactic| unif_lem) => `(tactic| apply unif_save)
macro_rules | `(tactic| unif_lem) => `(tactic| apply unif_enforceEqualStates)

/-! ### The circuits -/

macro "recv_p" s:term : tactic => `(tactic|
  (refine UnifR.bind2R (α := Point F) (R := rel) (unif_receive (by assumption) _ $s (by decide))
      (by loc; all_goals rfl) ?_
   intro _ _ _ hm _ _; lift_rels hm))
macro "recv_e" s:term : tactic => `(tactic|
  (refine UnifR.bind2R (α := Element F) (R := rel) (unif_receive (by assumption) _ $s (by decide))
      (by loc; all_goals rfl) ?_
   intro _ _ _ hm _ _; lift_rels hm))
macro "read_e" s:term : tactic => `(tactic|
  (refine UnifR.bind2R (α := Element F) (R := rel) (unif_read (by assumption) _ $s (by decide))
      (by loc; all_goals rfl) ?_
   intro _ _ _ hm _ _; lift_rels hm))
macro "prov_e" s:term : tactic => `(tactic|
  (refine UnifR.bindR (unif_provide (by assumption) $s (by decide) ?_) ?_ ?_ <;>
    [(change rel (α := Element F) _ _; rels); loc; (intro _ _ hm _; lift_rels hm)]))

/-- The result of a circuit: `n` elements, and an instance that only the prover has. -/
abbrev OutR (n : ℕ) : ℕ → Fam W F (List (Element F) × UnifiedInstance F) → Prop :=
  PairR (ListN n) Loc

section
variable {p : PoseidonParams F} (hp : Poseidon.WF p) (hr : 1 ≤ p.rate) (hT : p.rate ≤ p.T)
  (tag : List UInt8) (b : F) (k : ℕ) {N g : ℕ} (hN : 1 ≤ N) {pre : Fam W F (PreambleOutput F)}
  (hpre : PreR N m pre) {oe : Fam W F (OuterErrorOutput F)}
  {inst : Fam W F (UnifiedInstance F)} (hi : Loc m inst)
include hi

theorem unif_hashes1 (hp : Poseidon.WF p) (hr : 1 ≤ p.rate) (hT : p.rate ≤ p.T)
    (hpre : PreR N m pre) (hoe : OuterR g p.T m oe) : UnifR (OutR (29 + N + N + 1)) m fun w σ =>
    hashes1Circuit p tag b k (pre w σ) (oe w σ) (inst w σ) := by
  unfold hashes1Circuit
  have hl := hpre.left
  have hr' := hpre.right
  have i1 := hl.circuitId
  have i2 := hr'.circuitId
  have k1 := hoe.left.application
  have k2 := hoe.left.unified
  have k3 := hoe.left.unifiedBridge
  have k4 := hoe.right.application
  have k5 := hoe.right.unified
  have k6 := hoe.right.unifiedBridge
  have k7 := hoe.spongeState
  have hB : BR [] m fun w σ => OutputBuilder.new (inst w σ) := BR.new hi
  dsimp only
  unif_step
  unif_step
  unif_step
  recv_p .bridgePreamble
  unif_step
  unif_step
  prov_e .w
  recv_p .bridgeSPrime
  unif_step
  unif_step
  unif_step
  prov_e .y
  prov_e .z
  unif_step
  unif_step
  unif_step
  unif_step
  unif_step
  unif_step
  unif_step
  unif_step
  unif_step
  unif_step
  recv_p .bridgeInnerError
  unif_step
  unif_step
  unif_step
  refine UnifR.bind2R (unif_finishNoSuffix b (by assumption)) (by loc) ?_
  intro _ o i hm ho hj
  lift_rels hm
  refine UnifR.pure ⟨?_, hj⟩
  exact ((ho.write.append hl.output).append hr'.output).append (.cons rel_zero .nil)

theorem unif_hashes2 (hp : Poseidon.WF p) (hr : 1 ≤ p.rate) (hT : p.rate ≤ p.T)
    (hoe : OuterR g p.T m oe) : UnifR (OutR 30) m fun w σ =>
    hashes2Circuit p b (oe w σ) (inst w σ) := by
  unfold hashes2Circuit
  have k7 := hoe.spongeState
  have k8 := rel_resume hp hr hT k7
  have hB : BR [] m fun w σ => OutputBuilder.new (inst w σ) := BR.new hi
  dsimp only
  unif_step
  prov_e .mu
  unif_step
  prov_e .nu
  recv_p .bridgeOuterError
  unif_step
  unif_step
  unif_step
  prov_e .muPrime
  prov_e .nuPrime
  recv_p .bridgeAb
  unif_step
  unif_step
  prov_e .x
  recv_p .bridgeQuery
  unif_step
  unif_step
  prov_e .alpha
  recv_p .bridgeF
  unif_step
  unif_step
  prov_e .u
  recv_p .bridgeEval
  unif_step
  unif_step
  prov_e .preBeta
  exact (unif_finish b (by assumption))

omit hi in
theorem circuitKy {pre : Fam W F (PreambleOutput F)} {l r : Fam W F (ChildKyOutputs F)}
    (hpre : PreR N m pre) (hl : KyR m l) (hr : KyR m r) (i : ℕ) :
    rel m fun w σ => circuitKyValues (pre w σ) (l w σ) (r w σ) i := by
  unfold circuitKyValues KySource.values KySource.front twoProofKySource
  dsimp only
  refine rel_lgetD _ ?_ rel_zero
  have k1 : rel (α := Element F) m fun w σ => (pre w σ).left.unified .c := hpre.left.unified .c
  have k2 : rel (α := Element F) m fun w σ => (pre w σ).right.unified .c := hpre.right.unified .c
  have l1 := hl.application
  have l2 := hl.unified
  have l3 := hl.unifiedBridge
  have r1 := hr.application
  have r2 := hr.unified
  have r3 := hr.unifiedBridge
  simp only [NUM_UNIFIED_CIRCUITS, List.replicate_succ, List.replicate_zero, List.flatten_cons,
    List.flatten_nil]
  refine rel_append (rel_append (rel_append ?_ ?_) ?_) ?_
  · exact rel_cons k1 (rel_cons k2 rel_nil)
  all_goals rels

omit hi in
theorem unif_innerLoop (k : ℕ) {cf : Fam W F (Fold.ClaimFolder F)} (hcf : FolderR m cf)
    {ky : Fam W F (ℕ → Element F)} (hky : ∀ i, rel m fun w σ => ky w σ i)
    {col : Fam W F (List (Element F))} (hcol : ListN g m col) (ls : List (Fam W F (List (Element F))))
    (hls : ∀ l ∈ ls, ListN (k * (k - 1)) m l) (i : ℕ) (hi : i + ls.length ≤ g) :
    Unif m fun w σ => innerCollapseLoop (cf w σ) k (ky w σ) (col w σ) i (ls.map fun l => l w σ) := by
  induction ls generalizing m i with
  | nil => exact UnifR.pure trivial
  | cons l ls ih =>
    simp only [List.map_cons, innerCollapseLoop, Fold.ClaimFolder.foldInner]
    obtain ⟨c, hc, e⟩ := hcol.getElem? (i := i) (by simp only [List.length_cons] at hi; omega)
    simp only [e]
    have hkl : ListN k m fun w σ => (List.range k).map fun j => ky w σ (i * k + j) :=
      ⟨(List.range k).map fun j w σ => ky w σ (i * k + j), by simp, by
        intro b hb
        obtain ⟨j, -, rfl⟩ := List.mem_map.1 hb
        exact hky _, fun w σ => by simp⟩
    have hky' : ∀ w σ τ, Agree m σ τ → ky w σ = ky w τ := fun w σ τ ag =>
      funext fun i => rel_loc (hky i) w ag
    have hls' : ∀ w σ τ, Agree m σ τ → (ls.map fun l => l w σ) = ls.map fun l => l w τ :=
      fun w σ τ ag => List.map_congr_left fun l hl => (hls l (by simp [hl])).loc w ag
    refine Unif.bind (unif_foldProducts k hcf.muNu hcf.muInv (hls l (by simp)) hkl le_rfl le_rfl) ?_ ?_
    · intro w σ τ ag
      simp only [hcf.loc w ag, hky' w σ τ ag, hls' w σ τ ag, hcol.loc w ag, rel_loc hc w ag]
    · intro m' v hm hv
      have hcf' := hcf.mono hm
      have hcol' := hcol.mono hm
      have hc' := rel_up hm hc
      refine Unif.then (unif_enforceEqual (rel_wire hv) (rel_wire hc')) ?_ ?_
      · intro w σ τ ag
        simp only [hcf'.loc w ag, hky' w σ τ (ag.mono hm), hls' w σ τ (ag.mono hm),
          hcol'.loc w ag]
      · intro m'' hm'
        have := hm.trans hm'
        exact ih (hcf.mono this) (fun i => rel_up this (hky i)) (hcol.mono this)
          (fun l hl => (hls l (by simp [hl])).mono this) (i + 1) (by
            simp only [List.length_cons] at hi; omega)

theorem unif_innerCollapse (k : ℕ) (hpre : PreR N m pre) {T : ℕ} (hoe : OuterR g T m oe)
    (ls : List (Fam W F (List (Element F)))) (hls : ∀ l ∈ ls, ListN (k * (k - 1)) m l)
    (hl : ls.length ≤ g) : UnifR (OutR 30) m fun w σ =>
    innerCollapseCircuit b k (pre w σ) (oe w σ) (ls.map fun l => l w σ) (inst w σ) := by
  unfold innerCollapseCircuit
  have hB : BR [] m fun w σ => OutputBuilder.new (inst w σ) := BR.new hi
  have h0 : rel m fun w σ => ls.map fun l => l w σ := ⟨ls, fun l h => (hls l h).rel, fun _ _ => rfl⟩
  dsimp only
  read_e .mu
  read_e .nu
  refine UnifR.bindR (unif_folderNew (by rels) (by rels)) (by loc) ?_
  intro _ cf hm hcf
  lift_rels hm
  have hcol := hoe.collapsed
  refine Unif.then (unif_innerLoop k hcf (circuitKy hpre hoe.left hoe.right)
    hoe.collapsed ls (fun l h => (hls l h).mono (by omega)) 0 (by omega)) (by loc) ?_
  intro _ hm
  lift_rels hm
  exact (unif_finish b (by assumption))

theorem unif_outerCollapse (hN : 1 ≤ N) (hpre : PreR N m pre) {T : ℕ} (hoe : OuterR g T m oe) :
    UnifR (OutR 30) m fun w σ => outerCollapseCircuit b N g (pre w σ) (oe w σ) (inst w σ) := by
  unfold outerCollapseCircuit
  have hB : BR [] m fun w σ => OutputBuilder.new (inst w σ) := BR.new hi
  dsimp only
  read_e .muPrime
  read_e .nuPrime
  have h1 := hpre.left
  have h2 := hpre.right
  refine UnifR.bindR (unif_folderNew (by rels) (by rels)) (by loc) ?_
  intro _ cf hm hcf
  lift_rels hm
  refine Unif.bind (unif_foldProducts g hcf.muNu hcf.muInv hoe.errorTerms hoe.collapsed le_rfl le_rfl)
    (by loc) ?_
  intro _ _ hm _
  lift_rels hm
  recv_e .c
  unif_step
  unif_step
  exact (unif_finish b (by assumption))

end
end Ragu.Unif

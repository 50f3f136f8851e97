/-
Property C83: what an accepted proof establishes over the scalar field, and what it leaves open.
-/
import Verif.Spec.NestedAccept
import Verif.Props.FuseProgram

set_option linter.unusedSectionVars false

namespace Ragu.Props
open Ragu Ragu.Circuit Ragu.Registry Ragu.Spec Ragu.Gadget Ragu.Pcd Finset
variable {F G HC Data Out : Type} [Field F] [DecidableEq F] [Field G] [DecidableEq G]
  [AddCommGroup HC] [DecidableEq HC] [Module F HC]

section
variable {C : CycleEnv F G HC} {n : ℕ} {P : StepParams F} {cs : Circuits F G}
  {steps : List (StepDef F)} {app : Application F G} {p : Proof F G HC}

/-- The polynomial of the proof at an index, with an empty one for a missing step. -/
def nestedPoly (p : Proof F G HC) (c : NestedRx) : Sparse.Poly G := (p.nestedRx c).getD []

theorem nestedPoly_wf (hp : ProofTyped C n p) (c : NestedRx) :
    WellFormed (4 * n) (nestedPoly p c) := by
  rw [nestedPoly]
  rcases hc : p.nestedRx c with _ | r
  · exact (trivial : WellFormed (4 * n) ([] : Sparse.Poly G))
  · exact hp.nested c r hc

/-- What acceptance says over the scalar field, claim by claim. -/
structure NestedClaimsHold (n : ℕ) (R : Registry G) (p : Proof F G HC) (y z : G) : Prop where
  steps : NUM_ENDOSCALING_STEPS ≤ p.p.nested.stepRxs.length
  masks : ∀ id ∈ NestedId.all, nestedBonded id ≠ [] → ∀ o, R.circuits[nestedIndex id]? = some o →
    BondingClaim n o R.key ((nestedBonded id).map (nestedPoly p)) y z
  circuits : ∀ i < NUM_ENDOSCALING_STEPS, ∀ o,
    R.circuits[nestedIndex (.endoscalingStep i)]? = some o →
    CircuitClaim n o R.key [nestedPoly p (.endoscalingStep i), p.p.nested.endoscalarRx,
      p.p.nested.pointsRx] [] y z

theorem nested_claims (hA : AppOk C n P cs steps app) {H : Header F Data Out} {data : Data}
    (hp : ProofTyped C n p) {ch : VerifyChallenges F G}
    (hv : verify C n P.headerSize app H p data ch = .ok true) :
    NestedClaimsHold n app.nestedRegistry p ch.yNested ch.zNested := by
  obtain ⟨ss, ss', hV⟩ := app_verifier hA
  obtain ⟨s, s', -, hs, hiff⟩ := C46_verify hV H data ch
  obtain ⟨header, he, ha⟩ := (hiff p hp).1 hv
  refine ⟨ha.steps, fun id hid hne o ho => ⟨_, hs.2 _ _ ho, ?_⟩, fun i hi o ho => ⟨_, hs.2 _ _ ho, ?_⟩⟩
  · have : (NestedClaim.bonding id ((nestedBonded id).map (nestedPoly p)), (0 : G)) ∈
        nestedTable (fun c => (p.nestedRx c).getD []) 1 0 := by
      rw [nestedTable, List.mem_append]
      right
      cases id <;> first
        | exact absurd rfl hne
        | simp [nestedBonded, nestedPoly, Function.comp_def]
    exact ha.nested _ this
  · have : (NestedClaim.internal (.endoscalingStep i) [nestedPoly p (.endoscalingStep i),
        p.p.nested.endoscalarRx, p.p.nested.pointsRx], (1 : G)) ∈
        nestedTable (fun c => (p.nestedRx c).getD []) 1 0 := by
      rw [nestedTable, List.mem_append]
      exact .inl (List.mem_map.2 ⟨i, List.mem_range.2 hi, rfl⟩)
    have := ha.nested _ this
    rw [NestedTrue] at this
    rw [show instanceAt ([] : List G) ch.yNested = 1 by simp [instanceAt]]
    exact this

/-- Many pairs of challenges over the scalar field from `A` for which the claims of the proof hold. -/
structure ManyNested (n : ℕ) (R : Registry G) (p : Proof F G HC) (A : Finset G) (W : Finset (G × G)) :
    Prop where
  sub : W ⊆ A ×ˢ A
  many : (4 * n + 7) * A.card < W.card
  claims : ∀ q ∈ W, NestedClaimsHold n R p q.1 q.2

variable {A : Finset G} {W : Finset (G × G)}

open Classical in
theorem nested_only (hA : AppOk C n P cs steps app) (hp : ProofTyped C n p)
    (hW : ManyNested n app.nestedRegistry p A W) {id : NestedId} (hid : id ∈ NestedId.all)
    (hne : nestedBonded id ≠ []) {skip num : ℕ} {m : StageMask} (hm : StageMask.new n skip num = .ok m)
    (ho : app.nestedRegistry.circuits[nestedIndex id]? = some (m.object n)) :
    ∀ c ∈ nestedBonded id, OnlyIn n skip num (nestedPoly p c) := by
  have hl : ((nestedBonded id).map (nestedPoly p)).length ≤ 9 := by
    rw [List.length_map]
    cases id <;> simp [nestedBonded, show NUM_ENDOSCALING_STEPS = 9 from rfl]
  have hn := app_pos hA
  intro c hc
  refine bonding_sound hm hn app.nestedRegistry.key (fun r hr => ?_) A ?_ _ (List.mem_map_of_mem hc)
  · obtain ⟨c, -, rfl⟩ := List.mem_map.1 hr
    exact nestedPoly_wf hp c
  · calc (4 * n - 1 + (((nestedBonded id).map (nestedPoly p)).length - 1)) * A.card
        ≤ (4 * n + 7) * A.card := Nat.mul_le_mul_right _ (by omega)
      _ < W.card := hW.many
      _ ≤ _ := card_le_card fun q hq => mem_filter.2
          ⟨hW.sub hq, (hW.claims q hq).masks id hid hne _ ho⟩

theorem nested_stage_only (hA : AppOk C n P cs steps app) (hp : ProofTyped C n p)
    (hW : ManyNested n app.nestedRegistry p A W) {id : NestedId} (hid : id ∈ NestedId.all) {d : Chain}
    (hd : nestedEntry n cs id = .mask (d.mask n)) :
    ∀ c ∈ nestedBonded id, OnlyIn n d.skipGates d.numGates (nestedPoly p c) := by
  obtain ⟨o, h1, h2⟩ := app_nested hA hid
  rw [hd] at h2
  obtain ⟨m, hm, rfl⟩ := h2
  intro c hc
  exact nested_only hA hp hW hid (List.ne_nil_of_mem hc) hm h1 c hc

/-- Some gadgets have the values that the polynomials hold. -/
theorem endoscaling_exists (n : ℕ) (p : Proof F G HC) : ∃ e g, EndoscalingOf n p e g := by
  let l := (stageValues n pointsStage p.p.nested.pointsRx).map fun x => (⟨x, x⟩ : Element G)
  have hl : l.length = 92 := by
    rw [List.length_map, stageValues_length]; rfl
  have key : ∀ k (l : List (Element G)), l.length = 2 * k → pointElems (pointsOfElems k l) = l ∧
      (pointsOfElems k l).length = k := by
    intro k
    induction k with
    | zero =>
      intro l h
      rw [List.length_eq_zero_iff.1 (by omega : l.length = 0)]
      exact ⟨rfl, rfl⟩
    | succ k ih =>
      intro l h
      match l, h with
      | x :: y :: l, h =>
        obtain ⟨i1, i2⟩ := ih l (by simp only [List.length_cons] at h; omega)
        refine ⟨?_, by rw [pointsOfElems, List.length_cons]; exact congrArg _ i2⟩
        have : pointElems (pointsOfElems (k + 1) (x :: y :: l)) =
          x :: y :: pointElems (pointsOfElems k l) := rfl
        rw [this, i1]
  have cut : ∀ k j (l : List (Element G)), l.length = 2 * (k + j) →
      pointsOfElems (k + j) l = pointsOfElems k l ++ pointsOfElems j (l.drop (2 * k)) := by
    intro k j
    induction k with
    | zero => intro l _; simp [pointsOfElems]
    | succ k ih =>
      intro l h
      rw [show k + 1 + j = (k + j) + 1 by omega, pointsOfElems, pointsOfElems,
        ih (l.drop 2) (by rw [List.length_drop]; omega), List.drop_drop, List.cons_append,
        show 2 + 2 * k = 2 * (k + 1) by ring]
  obtain ⟨k1, k2⟩ := key 46 l hl
  have hel : (PointsWitness.ofElems 36 9 l).elems = l := by
    rw [PointsWitness.elems]
    have c1 : pointsOfElems 46 l = (PointsWitness.ofElems 36 9 l).initial ::
        ((PointsWitness.ofElems 36 9 l).inputs ++ (PointsWitness.ofElems 36 9 l).interstitials) := by
      rw [show 46 = (36 + 9) + 1 from rfl, pointsOfElems, cut 36 9 _ (by rw [List.length_drop, hl]),
        List.drop_drop]
      rfl
    rw [← c1, k1]
  have len : ∀ k (l : List (Element G)), (pointsOfElems k l).length = k := by
    intro k
    induction k with
    | zero => intro l; rfl
    | succ k ih => intro l; rw [pointsOfElems, List.length_cons, ih]
  refine ⟨⟨stageValues n endoscalarStage p.p.nested.endoscalarRx, 0⟩, .ofElems 36 9 l, rfl, ?_,
    len _ _, len _ _⟩
  rw [hel]
  simp [l, Function.comp_def]

open Classical in
/-- The steps of the endoscaling are satisfied on the values that the stages' polynomials hold. -/
theorem step_sat (hA : AppOk C n P cs steps app) (hp : ProofTyped C n p)
    (hW : ManyNested n app.nestedRegistry p A W) {nbits : ℕ} {zeta : G} {i : ℕ}
    (hi : i < NUM_ENDOSCALING_STEPS) {e : Endoscalar G} {g : PointsWitness (Gadget.Point G)}
    (ho : EndoscalingOf n p e g) (hout : (cs.endoscaling i).outs.length = 0)
    (hx : Realizes pointsStage (cs.endoscaling i) (endoscalingCode nbits zeta i e g)) :
    (Pcd.stepCircuit nbits zeta NUM_ENDOSCALING_POINTS i e g).sat () := by
  have hm : NestedId.endoscalingStep i ∈ NestedId.all := by
    rw [NestedId.all, List.mem_append]
    exact .inl (List.mem_map.2 ⟨i, List.mem_range.2 hi, rfl⟩)
  obtain ⟨o, h1, h2⟩ := app_nested hA hm
  have hn := app_pos hA
  have hH : Holds C.nested n app.nestedRegistry (nestedIndex (.endoscalingStep i)) (cs.endoscaling i) := by
    obtain ⟨bn, be, ss, ss', -, -, g1, g2⟩ := app_ready hA
    exact ⟨(hA.circuits.endoscaling i hi).1, ⟨_, be, ss', g1, g2⟩, o, h2, h1⟩
  have hwf := nestedPoly_wf hp
  obtain ⟨r, -, hr, hrc⟩ := sumPolynomials_spec (4 * n) [nestedPoly p (.endoscalingStep i),
    p.p.nested.endoscalarRx, p.p.nested.pointsRx] (by simp) (by
      simp only [List.forall_mem_cons]
      exact ⟨hwf _, hwf .endoscalarStage, hwf .pointsStage, by simp⟩)
  have o1 := nested_stage_only hA hp hW (id := .endoscalarStage) (by decide) rfl .endoscalarStage
    (by decide)
  have o2 := nested_stage_only hA hp hW (id := .pointsStage) (by decide) rfl .pointsStage (by decide)
  have hfin : OnlyIn n (pointsStage.skipGates + pointsStage.numGates)
      (n - (pointsStage.skipGates + pointsStage.numGates)) (nestedPoly p (.endoscalingStep i)) := by
    obtain ⟨o', g1, m, g2, rfl⟩ := app_nested hA (id := .pointsFinalStaged) (by decide)
    exact nested_only hA hp hW (by decide) (by decide) (C26_final g2) g1 _
      (List.mem_map.2 ⟨i, List.mem_range.2 hi, rfl⟩)
  have hne : endoscalarStage ≠ pointsStage := fun h => by
    have := congrArg Chain.values h
    revert this
    decide
  obtain ⟨es, -, e2, -, e4⟩ := C67_sound hH hx (parts := [(endoscalarStage, p.p.nested.endoscalarRx),
      (pointsStage, p.p.nested.pointsRx)]) (by simp [hne])
    (by simp only [List.forall_mem_cons]; exact ⟨.inr (.parent _ _), .inl rfl, by simp⟩)
    (by simp only [List.forall_mem_cons]; exact ⟨o1, o2, by simp⟩) hfin hr
    (by intro a; rw [hrc]; simp only [sumCoeff, List.map_cons, List.map_nil, List.sum_cons])
    (inst := []) (by rw [hout]; rfl) A
    (calc (4 * n - 1) * A.card ≤ (4 * n + 7) * A.card := Nat.mul_le_mul_right _ (by omega)
      _ < W.card := hW.many
      _ ≤ _ := card_le_card fun q hq => mem_filter.2 ⟨hW.sub hq,
          (circuit_claim hH h1 hr hrc).1 ((hW.claims q hq).circuits i hi _ h1)⟩)
  simp only [List.forall_mem_cons] at e2
  have w1 := wires_stageValues (d := endoscalarStage) (by decide) e2.1
  have w2 := wires_stageValues (d := pointsStage) (by decide) e2.2.1
  rw [endoscalingCode, endoscalar_same (by rw [w1.1, ← ho.bits]; simp [endoscalarElems, Function.comp_def]),
    points_same ho.inputs ho.interstitials (by rw [w2.1, ho.points])] at e4
  change (Pcd.stepCircuit _ _ _ _ _ _ >>= fun _ => (Syn.ret [] : Syn G (List G))).sat [] at e4
  rw [Syn.sat_bind] at e4
  exact e4.choose_spec.1

variable {H : Header F Data Out} {data : Data} {ch : G → G → VerifyChallenges F G}

open Classical in
/-- The pairs of challenges over the scalar field from `A` for which the proof is accepted. -/
noncomputable def acceptedNested (C : CycleEnv F G HC) (n N : ℕ) (app : Application F G)
    (H : Header F Data Out) (p : Proof F G HC) (data : Data) (ch : G → G → VerifyChallenges F G)
    (A : Finset G) : Finset (G × G) :=
  (A ×ˢ A).filter fun q => verify C n N app H p data (ch q.1 q.2) = .ok true

theorem many_nested (hA : AppOk C n P cs steps app) (hp : ProofTyped C n p)
    (hch : ∀ y z, (ch y z).yNested = y ∧ (ch y z).zNested = z)
    (hmany : (4 * n + 7) * A.card < (acceptedNested C n P.headerSize app H p data ch A).card) :
    ManyNested n app.nestedRegistry p A (acceptedNested C n P.headerSize app H p data ch A) := by
  classical
  refine ⟨filter_subset _ _, hmany, fun q hq => ?_⟩
  have := nested_claims hA hp (mem_filter.1 hq).2
  rwa [(hch _ _).1, (hch _ _).2] at this

/-- C83: let `p` be any proof and let the verifier draw the challenges over the scalar field from a set
`A`, and the others in any way that depends on them. If it accepts `p` for more than `(4 n + 7) |A|` of
the `|A|²` pairs, then every polynomial of a stage over the scalar field has its wires in the gates of
its stage only. -/
theorem C83_stages (hA : AppOk C n P cs steps app) (hp : ProofTyped C n p)
    (hch : ∀ y z, (ch y z).yNested = y ∧ (ch y z).zNested = z)
    (hmany : (4 * n + 7) * A.card < (acceptedNested C n P.headerSize app H p data ch A).card)
    {c : NestedRx} {d : Chain} (hc : nestedStageOf c = some d) :
    ∃ r, p.nestedRx c = some r ∧ OnlyIn n d.skipGates d.numGates r := by
  have hW := many_nested hA hp hch hmany
  cases c <;> cases hc
  · exact ⟨_, rfl, nested_stage_only hA hp hW (id := .endoscalarStage) (by decide) rfl .endoscalarStage
      (by decide)⟩
  · exact ⟨_, rfl, nested_stage_only hA hp hW (id := .pointsStage) (by decide) rfl .pointsStage (by decide)⟩
  · exact ⟨_, rfl, nested_stage_only hA hp hW (id := .bridgePreamble) (by decide) rfl .bridgePreamble
      (by decide)⟩
  · exact ⟨_, rfl, nested_stage_only hA hp hW (id := .bridgeSPrime) (by decide) rfl .bridgeSPrime
      (by decide)⟩
  · exact ⟨_, rfl, nested_stage_only hA hp hW (id := .bridgeInnerError) (by decide) rfl .bridgeInnerError
      (by decide)⟩
  · exact ⟨_, rfl, nested_stage_only hA hp hW (id := .bridgeOuterError) (by decide) rfl .bridgeOuterError
      (by decide)⟩
  · exact ⟨_, rfl, nested_stage_only hA hp hW (id := .bridgeAB) (by decide) rfl .bridgeAB (by decide)⟩
  · exact ⟨_, rfl, nested_stage_only hA hp hW (id := .bridgeQuery) (by decide) rfl .bridgeQuery (by decide)⟩
  · exact ⟨_, rfl, nested_stage_only hA hp hW (id := .bridgeF) (by decide) rfl .bridgeF (by decide)⟩
  · exact ⟨_, rfl, nested_stage_only hA hp hW (id := .bridgeEval) (by decide) rfl .bridgeEval (by decide)⟩

/-- C83: under the same assumption, with the library's circuits, the stages of the endoscaling hold an
endoscalar `e` and points `g` on which all steps are satisfied. So if the wires of `e` are the bits of a
number `v` and the initial point and the inputs of `g` are the points `pts` of the host curve, then the
last interstitial is the sum `s^36 P₀ + … + P₃₆` for the effective scalar `s` of `v`, and no addition on the
way was degenerate. -/
theorem C83_endoscaling (hA : AppOk C n P cs steps app) {K : NestedParams G HC} {ec : EndoConsts F}
    (hK : HostOk K ec) (hcs : LibraryCircuits P K.zeta cs) (hp : ProofTyped C n p)
    (hch : ∀ y z, (ch y z).yNested = y ∧ (ch y z).zNested = z)
    (hmany : (4 * n + 7) * A.card < (acceptedNested C n P.headerSize app H p data ch A).card) :
    ∃ e g, EndoscalingOf n p e g ∧
      (∀ i < 9, (Pcd.stepCircuit 128 K.zeta 37 i e g).sat ()) ∧
      ∃ (order : ℕ) (l : ℤ), EndoGroup K.b K.zeta order l ∧ (l : F) = ec.zeta ∧
        ∀ (v : ℕ) (pts : List (curve K.b).Point), HasBits 128 e v → PointsRepresent K.b 37 g pts →
        (∃ q, g.interstitials[8]? = some q ∧
          Represents K.b q (pointSum (liftNative 128 l v : ℤ) pts 36)) ∧
        ∀ i < 36,
          (liftNative 128 l v : ℤ) • pointSum (liftNative 128 l v : ℤ) pts i ≠ pts.getD (i + 1) 0 ∧
          (liftNative 128 l v : ℤ) • pointSum (liftNative 128 l v : ℤ) pts i ≠ -pts.getD (i + 1) 0 := by
  have hW := many_nested hA hp hch hmany
  obtain ⟨e, g, ho⟩ := endoscaling_exists n p
  have hb : e.bits.length = 128 := by rw [ho.bits, stageValues_length]; rfl
  have hs : ∀ i < 9, (Pcd.stepCircuit 128 K.zeta 37 i e g).sat () := fun i hi =>
    step_sat hA hp hW hi ho (hcs.endoscaling i hi).2.2.1
      ((hcs.endoscaling i hi).2.2.2 e g hb ⟨ho.inputs, ho.interstitials⟩)
  obtain ⟨order, l, hG, hord, hl⟩ := hK.group
  rw [hK.nbits] at hord
  refine ⟨e, g, ho, hs, order, l, hG, hl, fun v pts hv hpts => ?_⟩
  obtain ⟨-, h2, h3⟩ := C51_sound hK.good hG hord hv hpts (k := 9) rfl hs
  exact ⟨h2, h3⟩

end

/-! ### What the verifier does not look at -/

section
variable {C : CycleEnv F G HC} {n N : ℕ} {app : Application F G} {H : Header F Data Out} {data : Data}

theorem sameToVerifier_unified {p p' : Proof F G HC} (h : SameToVerifier p p') (s : SlotId) :
    p.unifiedValue s = p'.unifiedValue s := by
  have hb := h.bridges
  simp only [bridgePoints, List.cons.injEq, and_true] at hb
  obtain ⟨b1, b2, b3, b4, b5, b6, b7, b8⟩ := hb
  cases s <;> simp only [Proof.unifiedValue, h.challenges, h.c, h.batched] <;>
    first | rfl | assumption

/-- C83: `verify` sees no other part of a proof than those on which `SameToVerifier` proofs agree: the
commitments to native polynomials, except the batched one, and the polynomials `f`, `registry_wx0`,
`registry_wx1` and `registry_wy` can be anything. -/
theorem C83_unchecked {p p' : Proof F G HC} (h : SameToVerifier p p') (ch : VerifyChallenges F G) :
    verify C n N app H p data ch = verify C n N app H p' data ch := by
  have hu : p.unifiedValue = p'.unifiedValue := funext (sameToVerifier_unified h)
  have hn : p.nativeRx = p'.nativeRx := funext h.native
  have hg : p.nestedRx = p'.nestedRx := funext h.nested
  have hk : ∀ l y, kyForVerify C N p l y = kyForVerify C N p' l y := by
    intro l y
    simp only [kyForVerify, ProofInputs.alloc, allocFromProof, h.left, h.right, h.circuitId, hu]
  simp only [verify, h.circuitId, h.left, h.right, hk, singleSource, singleNestedSource, hn, hg, h.c,
    h.batched, h.challenges, h.registryXy]

theorem except_ok {α β : Type} {x : Except Pcd.Err α} {f : α → Except Pcd.Err β} {b : β} :
    (x >>= f) = .ok b ↔ ∃ a, x = .ok a ∧ f a = .ok b := by
  cases x with
  | error e =>
    constructor
    · intro h; cases h
    · rintro ⟨_, h, _⟩; cases h
  | ok a =>
    constructor
    · intro h; exact ⟨a, rfl, h⟩
    · rintro ⟨_, h, h'⟩; cases h; exact h'

/-- C83: no check ties the polynomials over the scalar field to the rest of a proof: from two proofs that
are accepted with the same challenges over the scalar field the verifier also accepts the first with the
polynomials over the scalar field of the second, among them the points that were combined and the
result. -/
theorem C83_mixed {D O : Type} {H' : Header F D O} {data' : D} {p q : Proof F G HC}
    {ch ch' : VerifyChallenges F G} (hy : ch'.yNested = ch.yNested) (hz : ch'.zNested = ch.zNested)
    (h1 : verify C n N app H p data ch = .ok true)
    (h2 : verify C n N app H' q data' ch' = .ok true) :
    verify C n N app H (withNested p q) data ch = .ok true := by
  have hn : (withNested p q).nativeRx = p.nativeRx := by
    funext c
    cases c with
    | rx i => cases i <;> rfl
    | _ => rfl
  have hg : (withNested p q).nestedRx = q.nestedRx := by
    funext c
    cases c <;> rfl
  have hu : (withNested p q).unifiedValue = p.unifiedValue := by
    funext s
    cases s <;> rfl
  have hk : ∀ l y, kyForVerify C N (withNested p q) l y = kyForVerify C N p l y := by
    intro l y
    simp only [kyForVerify, ProofInputs.alloc, allocFromProof, hu]
    rfl
  rw [verify] at h1 h2 ⊢
  split at h1
  · cases h1
  split at h1
  · cases h1
  split at h2
  · cases h2
  split at h2
  · cases h2
  rename_i a1 a2 _ _
  rw [if_neg (show ¬¬ app.nativeRegistry.circuitInDomain C.native
    (withNested p q).application.circuitId from a1), if_neg (show ¬ ((withNested p q).application.leftHeader.length ≠ N ∨
      (withNested p q).application.rightHeader.length ≠ N) from a2)]
  simp only [except_ok] at h1 h2
  obtain ⟨hd, h1, ky, h3, b, h4, b', h5, _, _, _, _, _, _, cm, h6, ex, h7, h8⟩ := h1
  obtain ⟨_, _, _, _, _, _, _, _, ns, g1, nb, g2, nb', g3, _, _, _, _, g4⟩ := h2
  simp only [except_ok, hk]
  refine ⟨hd, h1, ky, h3, b, h4, b', ?_, ns, ?_, nb, ?_, nb', g3, cm, h6, ex, h7, ?_⟩
  · rw [← h5, singleSource, singleSource, hn]; rfl
  · rw [← g1, singleNestedSource, singleNestedSource, hg]
  · rw [← hy, ← hz]; exact g2
  · injection h8 with h8
    injection g4 with g4
    simp only [Bool.and_eq_true] at h8 g4
    obtain ⟨⟨⟨⟨e1, e2⟩, e3⟩, e4⟩, e5⟩ := h8
    obtain ⟨⟨⟨⟨-, e6⟩, -⟩, -⟩, -⟩ := g4
    refine congrArg Except.ok ?_
    simp only [Bool.and_eq_true]
    exact ⟨⟨⟨⟨e1, e6⟩, e3⟩, e4⟩, e5⟩

end

/-! ### Examples -/

section
variable {V : FuseEnvironment F G HC} {steps : List (StepDef F)} {D O : Type} {H : Header F D O}
  {p q : Proof F G HC} {d : D}

/-- Non-vacuity of C83_stages and C83_endoscaling: a proof that an honest program obtained is accepted for
every pair of challenges, so that it meets the assumption for every set of more than `4 n + 7`
elements. -/
example [Finite F] (hV : Prepared V steps) (h : Obtained V steps H p d) (r : VerifyChallenges F G)
    (A : Finset G) (hA : 4 * V.n + 7 < A.card) :
    (4 * V.n + 7) * A.card < (acceptedNested V.C V.n V.P.headerSize V.app H p d
      (fun y z => { r with yNested := y, zNested := z }) A).card := by
  rw [acceptedNested, filter_true_of_mem fun q _ => C82_accepted hV h _, card_product]
  exact Nat.mul_lt_mul_of_pos_right hA (by omega)

/-- The scalar field of the Pasta cycle has sets that are large enough for the rank in use. -/
example : ∃ A : Finset Pasta.Fq, 4 * 2048 + 7 < A.card := by
  refine ⟨(Finset.range 9000).image (Nat.cast : ℕ → Pasta.Fq), ?_⟩
  rw [card_image_of_injOn, card_range]
  · decide
  · intro a ha b hb h
    simp only [coe_range, Set.mem_Iio] at ha hb
    have := (ZMod.natCast_eq_natCast_iff' a b _).1 h
    rwa [Nat.mod_eq_of_lt (lt_trans ha (by decide)), Nat.mod_eq_of_lt (lt_trans hb (by decide))] at this

/-- Non-vacuity of C83_mixed: any two proofs that honest programs obtained, for any headers and data. -/
example [Finite F] (hV : Prepared V steps) {D' O' : Type} {H' : Header F D' O'} {d' : D'}
    (h : Obtained V steps H p d) (h' : Obtained V steps H' q d') (ch : VerifyChallenges F G) :
    verify V.C V.n V.P.headerSize V.app H (withNested p q) d ch = .ok true :=
  C83_mixed rfl rfl (C82_accepted hV h ch) (C82_accepted hV h' ch)

/-- Non-vacuity of C83_unchecked: the commitment to the application's polynomial can be replaced. -/
example (c : HC) : SameToVerifier p { p with application := { p.application with
    rxTriple := { p.application.rxTriple with commitment := c } } } where
  circuitId := rfl
  left := rfl
  right := rfl
  native i := by
    cases i with
    | rx i => cases i <;> rfl
    | _ => rfl
  nested i := by cases i <;> rfl
  bridges := rfl
  challenges := rfl
  c := rfl
  batched := rfl
  registryXy := rfl

end
end Ragu.Props

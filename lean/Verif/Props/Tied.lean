/-
Property C90: what has to tie the endoscaling to the rest of a proof.
-/
import Verif.Props.Binding
import Verif.Props.NestedAccept
import Verif.Props.Pasta

set_option linter.unusedSectionVars false

namespace Ragu.Props
open Ragu Ragu.Circuit Ragu.Registry Ragu.Spec Ragu.Gadget Ragu.Pcd Finset Function
variable {F G HC : Type} [Field F] [DecidableEq F] [Field G] [DecidableEq G]
  [AddCommGroup HC] [DecidableEq HC] [Module F HC]

/-- What no circuit checks so far: the endoscalar stage holds bits that are extracted from `pre_beta`,
the points stage holds the coordinates of the commitments `cms`, and its last point has those of the
batched commitment. -/
structure Tied (K : NestedParams G HC) (nbits : ℕ) (p : Proof F G HC) (cms : List HC) (e : Endoscalar G)
    (g : PointsWitness (Gadget.Point G)) : Prop where
  bits : ∃ v, SquareBits nbits p.challenges.preBeta v ∧ HasBits nbits e v
  points : (g.initial :: g.inputs).map (fun q => some (q.x.wire, q.y.wire)) = cms.map K.coords
  result : (g.interstitials[8]?).map (fun q => (q.x.wire, q.y.wire)) = K.coords p.p.native.commitment

section
variable {C : CycleEnv F G HC} {n : ℕ} {P : StepParams F} {cs : Circuits F G}
  {steps : List (StepDef F)} {app : Application F G} {l r : FuseChild F G HC} {σ : FuseProver F}
  {Data Out : Type} {H : Header F Data Out} {K : NestedParams G HC} {p : Proof F G HC} {data : Data}
  {ch : G → G → VerifyChallenges F G} {A : Finset G}

theorem pointSum_cast (s : ℤ) (pts : List HC) (m : ℕ) : pointSum (s : F) pts m = pointSum s pts m := by
  simp only [pointSum]
  refine sum_congr rfl fun i _ => ?_
  rw [← Int.cast_pow, Int.cast_smul_eq_zsmul]

/-- C90: if these ties were checked, an accepted proof would have the combination of the commitments as
its batched commitment: let a verifier that draws the challenges over the scalar field from a set `A`
accept the proof for more than `(4 n + 7) |A|` of the `|A|²` pairs. Then, for the endoscalar and the points
that the stages of the proof hold, the ties give what C90_play, C90_verified and C90_history assume of
the batched commitment. `φ` reads points of the host curve by their coordinates. -/
theorem C90_tied (hA : AppOk C n P cs steps app) (hK : HostOk K P.endo) {φ : HC →+ (curve K.b).Point}
    (hφ : ∀ P x y, K.coords P = some (x, y) → ∃ h : (curve K.b).Nonsingular x y, φ P = .some x y h)
    (hinj : Injective φ) (hcs : LibraryCircuits P K.zeta cs) (hp : ProofTyped C n p)
    (hch : ∀ y z, (ch y z).yNested = y ∧ (ch y z).zNested = z)
    (hmany : (4 * n + 7) * A.card < (acceptedNested C n P.headerSize app H p data ch A).card)
    {e : Endoscalar G} {g : PointsWitness (Gadget.Point G)} (ho : EndoscalingOf n p e g) {cms : List HC}
    {beta : F} (hlen : cms.length = 37)
    (hbeta : ∀ bits, SquareBits P.endo.nbits p.challenges.preBeta bits →
      liftNative P.endo.nbits P.endo.zeta bits = beta)
    (ht : Tied K P.endo.nbits p cms e g) : p.p.native.commitment = pointSum beta cms 36 := by
  have hW := many_nested hA hp hch hmany
  have hbl : e.bits.length = 128 := by rw [ho.bits, stageValues_length]; rfl
  have hs : ∀ i < 9, (Pcd.stepCircuit 128 K.zeta 37 i e g).sat () := fun i hi =>
    step_sat hA hp hW hi ho (hcs.endoscaling i hi).2.2.1
      ((hcs.endoscaling i hi).2.2.2 e g hbl ⟨ho.inputs, ho.interstitials⟩)
  obtain ⟨order, ll, hG, hord, hl⟩ := hK.group
  rw [hK.nbits] at hord
  obtain ⟨v, hv, hb⟩ := ht.bits
  have hrep : ∀ {q : Gadget.Point G} {Q : HC}, K.coords Q = some (q.x.wire, q.y.wire) →
      Represents K.b q (φ Q) := fun h => hφ _ _ _ h
  have hpt : ∀ i q, (g.initial :: g.inputs)[i]? = some q → Represents K.b q ((cms.map φ).getD i 0) := by
    intro i q hq
    have h1 := congrArg (fun l => l[i]?) ht.points
    simp only [List.getElem?_map, hq, Option.map_some] at h1
    obtain ⟨Q, hQ, hc⟩ := Option.map_eq_some_iff.1 h1.symm
    rw [List.getD_eq_getElem?_getD, List.getElem?_map, hQ]
    exact hrep hc
  rw [hK.nbits] at hv hb
  obtain ⟨-, ⟨q, hq, hr⟩, -⟩ := C51_sound hK.good hG hord hb (points := cms.map φ) (k := 9) ⟨by rw [List.length_map, hlen], hpt 0 _ rfl, ho.inputs,
    fun i q h => hpt (i + 1) q h⟩ rfl hs
  have hres := ht.result
  rw [hq, Option.map_some] at hres
  obtain ⟨h1, e1⟩ := hr
  obtain ⟨h2, e2⟩ := hrep hres.symm
  have : φ p.p.native.commitment = φ (pointSum (liftNative 128 ll v : ℤ) cms 36) := by
    rw [map_pointSum, e1, e2]
  rw [hinj this, ← hbeta v (by rw [hK.nbits]; exact hv), hK.nbits, ← hl]
  have hc := liftNative_map (Int.castRingHom F) 128 ll v
  rw [← pointSum_cast (F := F)]
  congr 1

/-- The batched polynomial of a fuse is what the endoscaling was run on. -/
theorem fuse_batched {ec : EndoConsts F} {R : Registry F} {left right : Proof F G HC} {c : Challenges F}
    {t : FuseTraces F G} (h : fuseProof C ec n R left right c t = some p) :
    p.challenges = c ∧ ∃ w, computeP (4 * n) ec.nbits ec.sqrt ec.gen ec.zeta ⟨left, right, p.sPrime.native,
      p.innerError.native, p.ab.native, p.query.native⟩ p.f.native c.preBeta c.u =
        some (p.p.native, w) := by
  unfold fuseProof at h
  obtain ⟨_, -, h⟩ := Option.bind_eq_some_iff.1 h
  obtain ⟨_, -, h⟩ := Option.bind_eq_some_iff.1 h
  obtain ⟨_, -, h⟩ := Option.bind_eq_some_iff.1 h
  obtain ⟨_, -, h⟩ := Option.bind_eq_some_iff.1 h
  obtain ⟨_, -, h⟩ := Option.bind_eq_some_iff.1 h
  obtain ⟨_, -, h⟩ := Option.bind_eq_some_iff.1 h
  obtain ⟨_, -, h⟩ := Option.bind_eq_some_iff.1 h
  obtain ⟨_, -, h⟩ := Option.bind_eq_some_iff.1 h
  obtain ⟨_, -, h⟩ := Option.bind_eq_some_iff.1 h
  obtain ⟨_, -, h⟩ := Option.bind_eq_some_iff.1 h
  obtain ⟨_, -, h⟩ := Option.bind_eq_some_iff.1 h
  obtain ⟨pw, a, h⟩ := Option.bind_eq_some_iff.1 h
  obtain ⟨_, -, h⟩ := Option.bind_eq_some_iff.1 h
  obtain ⟨_, -, h⟩ := Option.bind_eq_some_iff.1 h
  obtain ⟨_, -, h⟩ := Option.bind_eq_some_iff.1 h
  obtain ⟨_, -, h⟩ := Option.bind_eq_some_iff.1 h
  obtain ⟨_, -, h⟩ := Option.bind_eq_some_iff.1 h
  cases h
  exact ⟨rfl, pw.2, a⟩

/-- The points of a stage have the coordinates that were put in. -/
theorem coords_wires {vs : List HC} {ps : List (Gadget.Point G)}
    (h : List.Forall₂ (fun v p => ∃ x y, K.coords v = some (x, y) ∧ p = ⟨both x, both y⟩) vs ps) :
    ps.map (fun q => some (q.x.wire, q.y.wire)) = vs.map K.coords := by
  induction h with
  | nil => rfl
  | cons h _ ih =>
    obtain ⟨x, y, h1, rfl⟩ := h
    rw [List.map_cons, List.map_cons, ih, h1]
    rfl

variable {nestedCommit : Sparse.Poly G → Option (F × F)}

/-- C90: the ties hold in what `seed` and `fuse` make. -/
theorem C90_ties [Finite F] (hA : AppOk C n P cs steps app) (hK : HostOk K P.endo)
    {D1 O1 D2 O2 D3 O3 : Type} {HL : Header F D1 O1}
    {HR : Header F D2 O2} {HO : Header F D3 O3} {dl : D1} {dr : D2} {data : D3}
    {left right : Proof F G HC} (lh rh : List F)
    (hf : Fuses C K n nestedCommit P cs steps app HL HR HO left dl right dr p data) :
    ∃ e g, EndoscalingOf n p e g ∧
      Tied K P.endo.nbits p (fuseCommitments ⟨left, lh⟩ ⟨right, rh⟩ p) e g := by
  obtain ⟨_, _, _, _, _, t, -, -, -, -, h4, -, hE, -⟩ := hf
  obtain ⟨-, w', hw'⟩ := fuse_batched h4.assembled
  have hnest := (fuse_fields h4.assembled).2.2.2.2
  obtain ⟨endo, native, w, e, points, h1, h2, ⟨h3, ae, h3'⟩, ⟨h4, ap, h4'⟩, h5⟩ := hE.stages
  rw [hw', Option.some.injEq, Prod.mk.injEq] at h2
  obtain ⟨rfl, rfl⟩ := h2
  obtain ⟨e', s1, s2, s3⟩ := (C35_alloc (F := G) P.endo.nbits endo).2.2
  rw [emulate_of_sim s1] at h3
  cases h3
  obtain ⟨bn, ss, hEn⟩ := app_fuseEnv hA
  obtain ⟨v, v1, v2, v3, -⟩ := C36_native P.endo.nbits hEn.sqrt hEn.nonresidue
    ⟨p.challenges.preBeta, p.challenges.preBeta⟩ rfl
  rw [show extractNative _ _ _ _ = some v from v1, Option.some.injEq] at h1
  subst h1
  obtain ⟨order, l, hG, hord, hl⟩ := hK.group
  obtain ⟨φ, hφ⟩ := hK.points
  unfold computeP at hw'
  obtain ⟨endo', h1', h2⟩ := Option.bind_eq_some_iff.1 hw'
  rw [show extractNative _ _ _ _ = some v from v1, Option.some.injEq] at h1'
  subst h1'
  obtain ⟨_, -, h2⟩ := Option.bind_eq_some_iff.1 h2
  obtain ⟨w0, hw, h2⟩ := Option.bind_eq_some_iff.1 h2
  obtain ⟨q, hlast, h2⟩ := Option.bind_eq_some_iff.1 h2
  simp only [Option.pure_def, Option.some.injEq, Prod.mk.injEq] at h2
  obtain ⟨e1, rfl⟩ := h2
  obtain ⟨a1, a2, a3, -⟩ := witness_map (K := K) hl φ (by decide) hw
  simp only [pointsStageCode, emulate_bind] at h4
  obtain ⟨g0, b0, gi, b1, gs, b2, b3⟩ := h4
  cases b3
  have hint := List.forall₂_map_left_iff.1 (allocPoints_runs b1)
  have hints := List.forall₂_map_left_iff.1 (allocPoints_runs b2)
  have hini : ∃ x y, K.coords w0.initial = some (x, y) ∧ g0 = ⟨both x, both y⟩ := by
    cases hc : K.coords w0.initial with
    | none => rw [hc] at b0; cases b0
    | some q =>
      rw [hc] at b0
      cases b0
      exact ⟨q.1, q.2, rfl, rfl⟩
  have li : gi.length = 36 := by
    have := congrArg List.length a2
    rw [a1, List.length_cons] at this
    rw [← hint.length_eq]
    exact Nat.succ.inj this
  have hk9 : numSteps NUM_ENDOSCALING_POINTS = some 9 := by decide
  rw [hk9, Option.some.injEq] at a3
  have ls : gs.length = 9 := by rw [← hints.length_eq, ← a3]
  refine ⟨e, ⟨g0, gi, gs⟩, ⟨?_, ?_, li, ls⟩, ⟨v, ⟨v2, fun i hi _ => v3 i hi⟩, s3⟩, ?_, ?_⟩
  · rw [hnest, stageValues_rx h3' (by
      rw [List.length_map, endoscalarElems, List.length_map, s3, List.length_map, List.length_range, hK.nbits]
      rfl)]
    simp [endoscalarElems, Function.comp_def]
  · rw [hnest, stageValues_rx h4' (by rw [List.length_map, points_elems_length, li, ls]; rfl)]
  · exact (coords_wires (.cons hini hint)).trans (congrArg (List.map K.coords) a2)
  · have := congrArg (fun l => l[8]?) (coords_wires hints)
    rw [List.getLast?_eq_getElem?, ← a3] at hlast
    simp only [List.getElem?_map, hlast] at this
    have hg : ∃ q', gs[8]? = some q' := ⟨_, List.getElem?_eq_getElem (by omega)⟩
    obtain ⟨q', hq'⟩ := hg
    rw [hq'] at this
    simp only [Option.map_some, Option.some.injEq] at this
    rw [hq', ← e1]
    exact this

/-! ### Examples -/

/-- Non-vacuity of C90_tied: with C90_ties, an honest fuse that is accepted meets all its assumptions. -/
example [Finite F] (hA : AppOk C n P cs steps app) (hK : HostOk K P.endo) {φ : HC →+ (curve K.b).Point}
    (hφ : ∀ P x y, K.coords P = some (x, y) → ∃ h : (curve K.b).Nonsingular x y, φ P = .some x y h)
    (hinj : Injective φ) (hcs : LibraryCircuits P K.zeta cs) (hp : ProofTyped C n p)
    {r : VerifyChallenges F G} (hacc : ∀ ch, verify C n P.headerSize app H p data ch = .ok true)
    (hlarge : 4 * n + 7 < A.card) {left right : Proof F G HC}
    (hf : Fuses C K n nestedCommit P cs steps app Header.unit Header.unit H left () right () p data)
    {beta : F} (hbeta : ∀ bits, SquareBits P.endo.nbits p.challenges.preBeta bits →
      liftNative P.endo.nbits P.endo.zeta bits = beta) :
    p.p.native.commitment = pointSum beta (fuseCommitments ⟨left, []⟩ ⟨right, []⟩ p) 36 := by
  obtain ⟨e, g, ho, ht⟩ := C90_ties hA hK [] [] hf
  refine C90_tied hA hK hφ hinj hcs hp (H := H) (data := data) (A := A)
    (ch := fun y z => { r with yNested := y, zNested := z }) (fun _ _ => ⟨rfl, rfl⟩) ?_ ho rfl hbeta ht
  rw [acceptedNested, filter_true_of_mem fun q _ => hacc _, card_product]
  exact Nat.mul_lt_mul_of_pos_right hlarge (by omega)

end

/-- The host curve of the Pasta cycle is read by its coordinates. -/
example : ∃ φ : Vesta →+ (curve pastaHost.b).Point, Injective φ ∧
    ∀ P x y, pastaHost.coords P = some (x, y) →
      ∃ h : (curve pastaHost.b).Nonsingular x y, φ P = .some x y h := by
  refine ⟨AddMonoidHom.id _, fun _ _ h => h, ?_⟩
  rintro (_ | ⟨x', y', h⟩) x y hc
  · cases hc
  · cases hc; exact ⟨h, rfl⟩

end Ragu.Props

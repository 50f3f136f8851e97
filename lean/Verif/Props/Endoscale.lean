/-
Property C51: the endoscaling steps.
-/
import Verif.Lemmas.Endoscale
import Verif.Lemmas.TestField

set_option linter.unusedSectionVars false

namespace Ragu.Props
open Ragu Ragu.Pcd Ragu.Spec Ragu.Gadget Ragu.Gadget.Syn Finset WeierstrassCurve.Affine

/-- C51: the steps split the inputs exactly: read one after the other, the ranges of all steps are
every input index once and in order; every step has between one and four inputs; and a step can be
created exactly when its index is below the number of steps. -/
theorem C51_partition {numPoints : ℕ} (h : 1 < numPoints) : ∃ k, numSteps numPoints = some k ∧
    (List.range k).flatMap (fun step => rangeList (inputRange numPoints step)) =
      List.range (numPoints - 1) ∧
    (∀ step < k, 1 ≤ (rangeList (inputRange numPoints step)).length ∧
      (rangeList (inputRange numPoints step)).length ≤ 4) ∧
    ∀ step, EndoscalingStep.new numPoints step = if step < k then some step else none := by
  refine ⟨_, numSteps_eq (by omega), ?_, fun step hs => ?_, fun step => ?_⟩
  · rw [show (fun step => rangeList (inputRange numPoints step)) =
      fun step => rangeList (step * 4, min (step * 4 + 4) (numPoints - 1)) from rfl,
      rangeList_flat, min_eq_right (by omega)]
  · simp only [rangeList, inputRange, ENDOSCALINGS_PER_STEP, List.length_map, List.length_range]
    omega
  · rw [EndoscalingStep.new, numSteps_eq (by omega)]
    rfl

/-- C51: with a single point there is one step with no inputs, and its circuit panics; with no
points nothing can be created. -/
theorem C51_degenerate {F : Type} [Field F] [DecidableEq F] (nbits : ℕ) (zeta : F)
    (e : Endoscalar F) (points : PointsWitness (Gadget.Point F)) :
    numSteps 1 = some 1 ∧ EndoscalingStep.new 1 0 = some 0 ∧
    (stepCircuit nbits zeta 1 0 e points).sim = .error .panic ∧
    numSteps 0 = none ∧ ∀ step, EndoscalingStep.new 0 step = none :=
  ⟨rfl, rfl, rfl, rfl, fun _ => rfl⟩

section
variable {R P : Type} [Ring R] [AddCommGroup P] [Module R P]

/-- C51: building the witness succeeds exactly when the number of points is right. It keeps the
points, and interstitial `j` is the sum `s^m P₀ + … + P_m` of the points up to the last input of step
`j`, for the effective scalar `s`; so the last one is the sum of all points. -/
theorem C51_witness (nbits : ℕ) (zeta : R) {numPoints : ℕ} (h : 0 < numPoints) (endo : ℕ)
    (points : List P) :
    (points.length ≠ numPoints → PointsWitness.new nbits zeta numPoints endo points = none) ∧
    (points.length = numPoints → ∃ k w, numSteps numPoints = some k ∧
      PointsWitness.new nbits zeta numPoints endo points = some w ∧
      w.initial :: w.inputs = points ∧ w.interstitials.length = k ∧
      (∀ j < k, w.interstitials[j]? = some
        (pointSum (liftNative nbits zeta endo) points (min (4 * (j + 1)) (numPoints - 1)))) ∧
      w.interstitials.getLast? = some
        (pointSum (liftNative nbits zeta endo) points (numPoints - 1))) := by
  refine ⟨fun hl => by unfold PointsWitness.new; rw [if_pos hl], fun hl => ?_⟩
  rcases points with _ | ⟨P0, pts⟩
  · simp at hl; omega
  have hpl : pts.length = numPoints - 1 := by
    rw [← hl]; simp
  obtain ⟨ints, hints⟩ : ∃ ints, ints = (if pts.isEmpty then [P0] else
      hornerChunks (liftNative nbits zeta endo) P0 (Gadget.chunks ENDOSCALINGS_PER_STEP pts)) :=
    ⟨_, rfl⟩
  have hlen : ints.length = max ((numPoints - 1 + 3) / 4) 1 := by
    rw [hints]
    by_cases he : pts = []
    · subst he
      simp at hpl
      rw [← hpl]
      rfl
    · have : 0 < pts.length := List.length_pos_iff.2 he
      rw [if_neg (by simpa using he), hornerChunks_length _ _ _ _ le_rfl, hpl]
      omega
  have hget : ∀ j < max ((numPoints - 1 + 3) / 4) 1, ints[j]? = some
        (pointSum (liftNative nbits zeta endo) (P0 :: pts) (min (4 * (j + 1)) (numPoints - 1))) := by
    intro j hj
    rw [hints]
    by_cases he : pts = []
    · subst he
      simp at hpl
      rw [← hpl] at hj ⊢
      have : j = 0 := by simpa using hj
      subst this
      simp [pointSum_zero]
    · have : 0 < pts.length := List.length_pos_iff.2 he
      rw [if_neg (by simpa using he), hornerChunks_get _ _ _ _ (by omega),
        ← hornerChunk_eq _ _ _ _ (by omega)]
      by_cases hm : 4 * (j + 1) ≤ numPoints - 1
      · rw [min_eq_left hm]
      · rw [min_eq_right (by omega), List.take_of_length_le (by omega),
          List.take_of_length_le (by omega)]
  refine ⟨_, ⟨P0, pts, ints⟩, numSteps_eq h, ?_, rfl, hlen, hget, ?_⟩
  · rw [PointsWitness.new, if_neg (by simpa using hl)]
    simp only
    rw [← hints, hlen, if_pos (numSteps_eq h).symm]
  · rw [List.getLast?_eq_getElem?]
    show ints[ints.length - 1]? = _
    rw [hlen, hget _ (by omega)]
    congr 2
    omega

/-- C51: the witness has a point for the initial one and for every input: one less than all, as the type
of the inputs says. -/
theorem C51_inputs {nbits : ℕ} {zeta : R} {numPoints endo : ℕ} {points : List P} {w : PointsWitness P}
    (h : PointsWitness.new nbits zeta numPoints endo points = some w) :
    inputsLen numPoints = some w.inputs.length := by
  have hl : points.length = numPoints := by
    by_contra hne
    unfold PointsWitness.new at h
    rw [if_pos hne] at h
    cases h
  rcases points with _ | ⟨P0, pts⟩
  · unfold PointsWitness.new at h
    rw [if_neg (by simpa using hl)] at h
    cases h
  have hp : 0 < numPoints := by rw [← hl]; simp
  obtain ⟨k, w', -, h2, h3, -⟩ := (C51_witness nbits zeta hp endo (P0 :: pts)).2 hl
  rw [h, Option.some.injEq] at h2
  subst h2
  rw [List.cons.injEq] at h3
  rw [inputsLen, if_pos hp, h3.2, ← hl, List.length_cons, Nat.add_sub_cancel]

example : inputsLen 37 = some 36 ∧ inputsLen 0 = none ∧
    (PointsWitness.new 2 (5 : ℤ) 3 1 [(4 : ℤ), 6, 7]).map (·.inputs) = some [6, 7] :=
  ⟨rfl, rfl, by decide +kernel⟩

/-- C51: the scalar may be lifted in the scalar field or in the integers, where the circuit's
endomorphism acts as `l`: the sums are the same points. -/
theorem C51_scalar (nbits : ℕ) (l : ℤ) (endo : ℕ) (points : List P) (m : ℕ) :
    pointSum (liftNative nbits (l : R) endo) points m =
      pointSum (liftNative nbits l endo : ℤ) points m := by
  have e : liftNative nbits (l : R) endo = ((liftNative nbits l endo : ℤ) : R) :=
    (C35_lift_scalar_field (Int.castRingHom R) nbits l endo).symm
  rw [e, pointSum, pointSum]
  refine sum_congr rfl fun i _ => ?_
  rw [← Int.cast_pow, Int.cast_smul_eq_zsmul]

end

section
variable {F : Type} [Field F] [DecidableEq F]

/-- The gadgets of the points stage represent the points of the list: the first one initially, then
the inputs. -/
structure PointsRepresent (b : F) (numPoints : ℕ) (g : PointsWitness (Gadget.Point F))
    (points : List (curve b).Point) : Prop where
  length : points.length = numPoints
  initial : Represents b g.initial (points.getD 0 0)
  count : g.inputs.length = numPoints - 1
  inputs : ∀ i p, g.inputs[i]? = some p → Represents b p (points.getD (i + 1) 0)

/-- C51, soundness: if the circuits of all steps are satisfied, over the same endoscalar bits and
the same point wires, then interstitial `j` holds the sum of the points up to the last input of step
`j`, so the last one holds the sum of all points; and no addition was degenerate. Nothing is assumed
of the wires of the interstitials. -/
theorem C51_sound {b zeta : F} (hb : GoodCurve b) {n : ℕ} {l : ℤ} (hG : EndoGroup b zeta n l)
    {nbits : ℕ} (hn : 27 * 2 ^ nbits < n) {e : Endoscalar F} {v : ℕ} (he : HasBits nbits e v)
    {numPoints : ℕ} {g : PointsWitness (Gadget.Point F)} {points : List (curve b).Point}
    (hg : PointsRepresent b numPoints g points) {k : ℕ} (hk : numSteps numPoints = some k)
    (hsat : ∀ step < k, (stepCircuit nbits zeta numPoints step e g).sat ()) :
    (∀ j < k, ∃ p, g.interstitials[j]? = some p ∧ Represents b p
      (pointSum (liftNative nbits l v : ℤ) points (min (4 * (j + 1)) (numPoints - 1)))) ∧
    (∃ p, g.interstitials[k - 1]? = some p ∧
      Represents b p (pointSum (liftNative nbits l v : ℤ) points (numPoints - 1))) ∧
    ∀ i < numPoints - 1,
      (liftNative nbits l v : ℤ) • pointSum (liftNative nbits l v : ℤ) points i ≠
        points.getD (i + 1) 0 ∧
      (liftNative nbits l v : ℤ) • pointSum (liftNative nbits l v : ℤ) points i ≠
        -points.getD (i + 1) 0 := by
  have hpos : 0 < numPoints := by
    by_contra h0
    rw [show numPoints = 0 by omega] at hk
    cases hk
  rw [numSteps_eq hpos] at hk
  cases hk
  have key : ∀ j < max ((numPoints - 1 + 3) / 4) 1, (∃ p, g.interstitials[j]? = some p ∧
      Represents b p (pointSum (liftNative nbits l v : ℤ) points
        (min (4 * (j + 1)) (numPoints - 1)))) ∧
      ∀ i, 4 * j ≤ i → i < min (4 * (j + 1)) (numPoints - 1) →
      (liftNative nbits l v : ℤ) • pointSum (liftNative nbits l v : ℤ) points i ≠
        points.getD (i + 1) 0 ∧
      (liftNative nbits l v : ℤ) • pointSum (liftNative nbits l v : ℤ) points i ≠
        -points.getD (i + 1) 0 := by
    intro j
    induction j with
    | zero =>
      intro hj
      have h := hsat 0 hj
      rw [stepCircuit, if_pos rfl, sat_bind] at h
      obtain ⟨acc, h1, h⟩ := h
      simp only [Syn.sat] at h1
      subst h1
      by_cases hr : (inputRange numPoints 0).1 < (inputRange numPoints 0).2
      · simp only [if_pos hr, sat_bind] at h
        obtain ⟨⟨acc, nz⟩, h2, inv, h3, out, h4, h5⟩ := h
        rw [Element.invert_sat] at h3
        have hnz : nz.wire ≠ 0 := fun h0 => by
          rw [h0, zero_mul] at h3
          exact zero_ne_one h3.1
        obtain ⟨g1, g2⟩ := stepLoop_sat hb hG hn he hg.inputs (min 4 (numPoints - 1)) 0 g.initial .one (acc, nz)
          (by
            have e0 : rangeList (inputRange numPoints 0) =
                (List.range (min 4 (numPoints - 1))).map (0 + ·) := by
              simp [rangeList, inputRange, ENDOSCALINGS_PER_STEP]
            rwa [e0] at h2) hnz
          (by rw [pointSum_zero]; exact hg.initial)
        rw [indexSyn_sat] at h4
        simp only [pointEnforceEqual, sat_bind, enforceEqual_sat, exists_const] at h5
        rw [Nat.zero_add] at g1
        refine ⟨⟨out, h4, ?_⟩, fun i h1 h2 => g2 i (by omega) (by omega)⟩
        obtain ⟨nn, hnn⟩ := g1
        show Represents b out (pointSum (liftNative nbits l v : ℤ) points (min 4 (numPoints - 1)))
        rw [hnn]
        exact Represents.of_coords nn h5.1.symm h5.2.symm
      · simp only [if_neg hr, Syn.sat] at h
    | succ j ih =>
      intro hj
      obtain ⟨⟨prev, hp1, hp2⟩, -⟩ := ih (by omega)
      have h := hsat (j + 1) hj
      rw [stepCircuit, if_neg (by omega), sat_bind] at h
      obtain ⟨acc, h1, h⟩ := h
      rw [Nat.add_sub_cancel, indexSyn_sat, hp1] at h1
      cases h1
      by_cases hr : (inputRange numPoints (j + 1)).1 < (inputRange numPoints (j + 1)).2
      · simp only [if_pos hr, sat_bind] at h
        obtain ⟨⟨acc, nz⟩, h2, inv, h3, out, h4, h5⟩ := h
        rw [Element.invert_sat] at h3
        have hnz : nz.wire ≠ 0 := fun h0 => by
          rw [h0, zero_mul] at h3
          exact zero_ne_one h3.1
        rw [min_eq_left (by omega), show 4 * (j + 1) = (j + 1) * 4 by omega] at hp2
        obtain ⟨g1, g2⟩ := stepLoop_sat hb hG hn he hg.inputs
          (min ((j + 1) * 4 + 4) (numPoints - 1) - (j + 1) * 4) ((j + 1) * 4) prev .one (acc, nz) h2
          hnz hp2
        rw [indexSyn_sat] at h4
        simp only [pointEnforceEqual, sat_bind, enforceEqual_sat, exists_const] at h5
        refine ⟨⟨out, h4, ?_⟩, fun i h1 h2 => g2 i (by omega) (by omega)⟩
        rw [show (j + 1) * 4 + (min ((j + 1) * 4 + 4) (numPoints - 1) - (j + 1) * 4) =
          min (4 * (j + 1 + 1)) (numPoints - 1) by omega] at g1
        obtain ⟨nn, hnn⟩ := g1
        rw [hnn]
        exact Represents.of_coords nn h5.1.symm h5.2.symm
      · simp only [if_neg hr, Syn.sat] at h
  refine ⟨fun j hj => (key j hj).1, ?_, fun i hi => (key (i / 4) (by omega)).2 i (by omega) (by omega)⟩
  obtain ⟨p, h1, h2⟩ := (key (max ((numPoints - 1 + 3) / 4) 1 - 1) (by omega)).1
  refine ⟨p, h1, ?_⟩
  rwa [min_eq_right (by omega)] at h2

/-- C51, completeness: with at least two points, the honest prover satisfies every step on the
witness that `PointsWitness::new` computes, as long as no addition is degenerate, which by soundness
is also necessary. -/
theorem C51_complete {b zeta : F} (hb : GoodCurve b) {n : ℕ} {l : ℤ} (hG : EndoGroup b zeta n l)
    {nbits : ℕ} (hn : 27 * 2 ^ nbits < n) {e : Endoscalar F} (he : HasBits nbits e e.value)
    {numPoints : ℕ} (h1 : 1 < numPoints) {g : PointsWitness (Gadget.Point F)}
    {points : List (curve b).Point} (hg : PointsRepresent b numPoints g points)
    {w : PointsWitness (curve b).Point}
    (hw : PointsWitness.new nbits l numPoints e.value points = some w)
    (hgw : List.Forall₂ (fun p P => p.Honest ∧ Represents b p P) g.interstitials w.interstitials)
    (hgi : g.initial.Honest) (hgin : ∀ p ∈ g.inputs, p.Honest)
    (hne : ∀ i < numPoints - 1,
      (liftNative nbits l e.value : ℤ) • pointSum (liftNative nbits l e.value : ℤ) points i ≠
        points.getD (i + 1) 0 ∧
      (liftNative nbits l e.value : ℤ) • pointSum (liftNative nbits l e.value : ℤ) points i ≠
        -points.getD (i + 1) 0) :
    ∃ k, numSteps numPoints = some k ∧
      ∀ step < k, (stepCircuit nbits zeta numPoints step e g).sim = .ok () := by
  obtain ⟨k, w', hk, hw', -, hlen, hget, -⟩ :=
    (C51_witness nbits l (by omega) e.value points).2 hg.length
  rw [hw] at hw'
  cases hw'
  refine ⟨k, hk, fun step hs => ?_⟩
  rw [numSteps_eq (by omega)] at hk
  cases hk
  have hint : ∀ j < max ((numPoints - 1 + 3) / 4) 1, ∃ p, g.interstitials[j]? = some p ∧ p.Honest ∧
      Represents b p (pointSum (liftNative nbits l e.value : ℤ) points
        (min (4 * (j + 1)) (numPoints - 1))) := by
    intro j hj
    have hgl := hgw.length_eq
    obtain ⟨p, hp⟩ : ∃ p, g.interstitials[j]? = some p :=
      ⟨_, List.getElem?_eq_getElem (by omega)⟩
    have hgj := hget j hj
    obtain ⟨hj1, hj2⟩ := List.getElem?_eq_some_iff.1 hp
    obtain ⟨hj3, hj4⟩ := List.getElem?_eq_some_iff.1 hgj
    have := List.Forall₂.get hgw hj1 hj3
    simp only [List.get_eq_getElem, hj2, hj4] at this
    exact ⟨p, hp, this⟩
  have hin : ∀ i, i < g.inputs.length → ∃ p, g.inputs[i]? = some p ∧ p.Honest ∧
      Represents b p (points.getD (i + 1) 0) := fun i hi =>
    ⟨_, List.getElem?_eq_getElem hi, hgin _ (List.getElem_mem hi),
      hg.inputs i _ (List.getElem?_eq_getElem hi)⟩
  obtain ⟨acc, ha1, ha2, ha3⟩ : ∃ acc,
      (if step = 0 then Syn.ret g.initial else indexSyn (F := F) g.interstitials (step - 1)).sim =
        .ok acc ∧ acc.Honest ∧
      Represents b acc (pointSum (liftNative nbits l e.value : ℤ) points (step * 4)) := by
    by_cases h0 : step = 0
    · subst h0
      exact ⟨g.initial, rfl, hgi, by rw [Nat.zero_mul, pointSum_zero]; exact hg.initial⟩
    · obtain ⟨p, hp1, hp2, hp3⟩ := hint (step - 1) (by omega)
      refine ⟨p, by rw [if_neg h0]; exact indexSyn_sim hp1, hp2, ?_⟩
      rwa [min_eq_left (by omega), show 4 * (step - 1 + 1) = step * 4 by omega] at hp3
  obtain ⟨r, q1, q2, q3, q4, q5⟩ := stepLoop_sim hb hG hn he hin
    (min (step * 4 + 4) (numPoints - 1) - step * 4) (step * 4) acc .one (by rw [hg.count]; omega) ha2
    (by simp [Element.Honest, Element.one]) (by simp [Element.one]) ha3
    (fun j h1 h2 => hne j (by omega))
  obtain ⟨out, ho1, ho2, ho3⟩ := hint step hs
  rw [stepCircuit, sim_bind_ok ha1]
  have hlt : (inputRange numPoints step).1 < (inputRange numPoints step).2 := by
    simp only [inputRange, ENDOSCALINGS_PER_STEP]
    omega
  have q1' : (stepLoop nbits zeta e g.inputs (rangeList (inputRange numPoints step)) acc .one).sim =
      .ok r := q1
  simp only [if_pos hlt]
  rw [sim_bind_ok q1']
  have hinv : r.2.invert.sim = .ok ⟨r.2.value⁻¹, r.2.value⁻¹⟩ := by
    have : r.2.value = r.2.wire := q3
    rw [Element.invert_sim_eq, if_pos ⟨by rw [this]; exact q4, this⟩]
  rw [sim_bind_ok hinv, sim_bind_ok (indexSyn_sim ho1)]
  rw [show step * 4 + (min (step * 4 + 4) (numPoints - 1) - step * 4) =
    min (4 * (step + 1)) (numPoints - 1) by omega] at q5
  obtain ⟨n1, e1⟩ := q5
  obtain ⟨n2, e2⟩ := ho3
  rw [e1] at e2
  rw [Point.some.injEq] at e2
  obtain ⟨hx, hy⟩ := e2
  rw [pointEnforceEqual, sim_bind_ok (a := ())]
  · simp [hy]
  · simp [hx]

end

/-! ### Examples -/

section Toy
local notation "K" => ZMod 109

/-- An honest point gadget. -/
def pt109 (xy : K × K) : Gadget.Point K := ⟨⟨xy.1, xy.1⟩, ⟨xy.2, xy.2⟩⟩

def wires109 : Except Circuit.Err (Gadget.Point K) → Option (K × K)
  | .ok p => if p.x.value = p.x.wire ∧ p.y.value = p.y.wire then some (p.x.wire, p.y.wire) else none
  | .error _ => none

def dbl109 (xy : K × K) : Option (K × K) := wires109 (pt109 xy).double.sim

def add109 (a b : K × K) : Option (K × K) :=
  if a.1 = b.1 then none
  else match ((pt109 a).addIncomplete (pt109 b) none).sim with
    | .ok (r, none) => wires109 (.ok r)
    | _ => none

/-- `2^7 p = p` and `19 p = (63 x, y)`, computed with the gadgets. -/
def chain109 (p : K × K) : Bool :=
  match (do
    let p2 ← dbl109 p
    let p4 ← dbl109 p2
    let p8 ← dbl109 p4
    let p16 ← dbl109 p8
    let p32 ← dbl109 p16
    let p64 ← dbl109 p32
    let p128 ← dbl109 p64
    let p18 ← add109 p16 p2
    let p19 ← add109 p18 p
    return (p128, p19) : Option ((K × K) × (K × K))) with
  | some (a, b) => a = p ∧ b = (63 * p.1, p.2)
  | none => false

theorem good109 : GoodCurve (11 : K) := ⟨by decide, by decide, by decide⟩

theorem wires109_some {r : Except Circuit.Err (Gadget.Point K)} {q : K × K}
    (h : wires109 r = some q) : r = .ok (pt109 q) := by
  rcases r with e | p
  · cases h
  · simp only [wires109] at h
    split_ifs at h with h1
    cases h
    obtain ⟨⟨a, b⟩, ⟨c, d⟩⟩ := p
    simp only at h1
    simp [pt109, h1]

theorem dbl109_rep {p q : K × K} {P : (curve (11 : K)).Point} {m : ℕ}
    (h : Represents 11 (pt109 p) (m • P)) (hd : dbl109 p = some q) :
    Represents 11 (pt109 q) ((2 * m) • P) := by
  have := (C34_double good109 h).1 _ (Syn.sim_sat (wires109_some hd))
  rwa [← add_nsmul, ← two_mul] at this

theorem add109_rep {a b q : K × K} {P : (curve (11 : K)).Point} {m n : ℕ}
    (ha : Represents 11 (pt109 a) (m • P)) (hb : Represents 11 (pt109 b) (n • P))
    (hd : add109 a b = some q) : Represents 11 (pt109 q) ((m + n) • P) := by
  rw [add109] at hd
  split_ifs at hd with hx
  rcases hs : ((pt109 a).addIncomplete (pt109 b) none).sim with e | ⟨r, z⟩
  · rw [hs] at hd; cases hd
  · rw [hs] at hd
    rcases z with _ | z
    · have hr := wires109_some hd
      have := (C34_add_incomplete ha hb hx none).1 _ (Syn.sim_sat hs)
      simp only at this
      cases hr
      rwa [← add_nsmul] at this
    · cases hd

theorem chain109_all : ∀ x y : K, y ^ 2 = x ^ 3 + 11 → chain109 (x, y) = true := by decide +kernel

theorem toy_point (p : Gadget.Point K) (P : (curve (11 : K)).Point) (hp : Represents 11 p P) :
    127 • P = 0 ∧ Represents 11 (p.endo 63) ((19 : ℤ) • P) := by
  have hc := chain109_all _ _ hp.eqn
  obtain ⟨nn, hnn⟩ := hp
  have h1 : Represents (11 : K) (pt109 (p.x.wire, p.y.wire)) (1 • P) := by
    rw [one_nsmul, hnn]
    exact ⟨nn, rfl⟩
  rw [chain109] at hc
  simp only [Option.bind_eq_bind] at hc
  rcases e2 : dbl109 (p.x.wire, p.y.wire) with _ | p2
  · simp [e2] at hc
  rcases e4 : dbl109 p2 with _ | p4
  · simp [e2, e4] at hc
  rcases e8 : dbl109 p4 with _ | p8
  · simp [e2, e4, e8] at hc
  rcases e16 : dbl109 p8 with _ | p16
  · simp [e2, e4, e8, e16] at hc
  rcases e32 : dbl109 p16 with _ | p32
  · simp [e2, e4, e8, e16, e32] at hc
  rcases e64 : dbl109 p32 with _ | p64
  · simp [e2, e4, e8, e16, e32, e64] at hc
  rcases e128 : dbl109 p64 with _ | p128
  · simp [e2, e4, e8, e16, e32, e64, e128] at hc
  rcases e18 : add109 p16 p2 with _ | p18
  · simp [e2, e4, e8, e16, e32, e64, e128, e18] at hc
  rcases e19 : add109 p18 (p.x.wire, p.y.wire) with _ | p19
  · simp [e2, e4, e8, e16, e32, e64, e128, e18, e19] at hc
  simp only [e2, e4, e8, e16, e32, e64, e128, e18, e19, Option.bind_some, Option.pure_def,
    decide_eq_true_eq] at hc
  have h2 := dbl109_rep h1 e2
  have h4 := dbl109_rep h2 e4
  have h8 := dbl109_rep h4 e8
  have h16 := dbl109_rep h8 e16
  have h128 := dbl109_rep (dbl109_rep (dbl109_rep h16 e32) e64) e128
  have h19 := add109_rep (add109_rep h16 h2 e18) h1 e19
  constructor
  · rw [hc.1] at h128
    obtain ⟨_, e⟩ := h128
    obtain ⟨_, e'⟩ := h1
    rw [← e'] at e
    have : (127 : ℕ) • P + (1 : ℕ) • P = (1 : ℕ) • P := by
      rw [← add_nsmul]
      exact e
    simpa using this
  · rw [hc.2] at h19
    rw [show (19 : ℤ) = ((19 : ℕ) : ℤ) from rfl, natCast_zsmul]
    obtain ⟨n19, e⟩ := h19
    have e' : (19 : ℕ) • P = _ := e
    rw [e']
    refine Represents.of_coords n19 ?_ ?_
    · simp [Gadget.Point.endo, pt109, Coeff.value, mul_comm]
    · simp [Gadget.Point.endo, pt109]

/-- The curve `y² = x³ + 11` over the field of 109 elements meets the assumptions on the group. -/
theorem toy_group : EndoGroup (11 : K) 63 127 19 where
  prime := by norm_num
  order := fun P => by
    rcases P with _ | ⟨x, y, h⟩
    · exact smul_zero _
    · exact (toy_point (pt109 (x, y)) (.some x y h) ⟨h, rfl⟩).1
  cube := by norm_num
  endo := fun p P hp => (toy_point p P hp).2

/-- Three points, one step, and the endoscalar 3. -/
def demoPoints : PointsWitness (Gadget.Point K) :=
  ⟨pt109 (1, 11), [pt109 (5, 38), pt109 (33, 95)], [pt109 (71, 82)]⟩

/-- The hypotheses of `C51_sound` are met by an honest run, so the interstitial is the sum. -/
example : ∃ points : List (curve (11 : K)).Point, PointsRepresent 11 3 demoPoints points ∧
    (stepCircuit 2 63 3 0 ⟨[1, 1], 3⟩ demoPoints).sim = .ok () ∧
    Represents 11 (pt109 (71, 82)) (pointSum (liftNative 2 19 3 : ℤ) points 2) := by
  have c : ∀ {x y : K}, y ^ 2 = x ^ 3 + 11 → ∃ P, Represents (11 : K) (pt109 (x, y)) P :=
    fun h => ⟨_, nonsingular_curve good109 h, rfl⟩
  obtain ⟨P0, h0⟩ := c (x := 1) (y := 11) (by decide)
  obtain ⟨P1, h1⟩ := c (x := 5) (y := 38) (by decide)
  obtain ⟨P2, h2⟩ := c (x := 33) (y := 95) (by decide)
  have hsim : (stepCircuit 2 63 3 0 ⟨[1, 1], 3⟩ demoPoints).sim = .ok () := by decide +kernel
  have hrep : PointsRepresent 11 3 demoPoints [P0, P1, P2] := by
    refine ⟨rfl, h0, rfl, fun i p hi => ?_⟩
    match i, hi with
    | 0, hi => cases hi; exact h1
    | 1, hi => cases hi; exact h2
    | i + 2, hi => simp [demoPoints] at hi
  refine ⟨_, hrep, hsim, ?_⟩
  have he : HasBits 2 (⟨[1, 1], 3⟩ : Endoscalar K) 3 := by rw [HasBits]; decide
  obtain ⟨-, ⟨p, hp1, hp2⟩, -⟩ := C51_sound good109 toy_group (by norm_num) he hrep (k := 1) rfl
    (fun step hs => by
      have : step = 0 := by omega
      subst this
      exact Syn.sim_sat hsim)
  cases hp1
  exact hp2

end Toy

example : numSteps 10 = some 3 ∧ (List.range 3).map (fun s => rangeList (inputRange 10 s)) =
    [[0, 1, 2, 3], [4, 5, 6, 7], [8]] := by decide

example : PointsWitness.new (R := ℤ) (P := ℤ) 4 19 6 0b0110 [1, 2, 3, 4, 5, 6] = some
    ⟨1, [2, 3, 4, 5, 6], [1521546447, 299744650065]⟩ := by
  simp [PointsWitness.new, chunks_cons, chunks_nil, hornerChunks, hornerChunk]
  decide +kernel

end Ragu.Props

/-
The steps of endoscaling make the same calls whatever their wires and witness values are, and how many.
-/
import Verif.Lemmas.UnifStages
import Verif.Lemmas.Size
import Verif.Model.Pcd.NestedRun

set_option linter.unusedSectionVars false

namespace Ragu.Unif
open Ragu Ragu.Circuit Ragu.Gadget Ragu.Spec Ragu.Pcd
variable {W F α β γ : Type} [Field F] [DecidableEq F] {m : ℕ}

/-! ### Points -/

section
variable {p q : Fam W F (Gadget.Point F)} (hp : rel m p) (hq : rel m q) {c : Fam W F (Boolean F)}
  (hc : rel m c)
include hp

theorem rel_endo (zeta : F) : rel m fun w σ => (p w σ).endo zeta := by
  unfold Point.endo; rels

theorem unif_pdouble : Unif m fun w σ => (p w σ).double := by
  unfold Point.double
  unifs

include hc in
theorem unif_conditionalEndo (zeta : F) : Unif m fun w σ => (p w σ).conditionalEndo zeta (c w σ) := by
  unfold Point.conditionalEndo
  unifs

include hc in
theorem unif_conditionalNegate : Unif m fun w σ => (p w σ).conditionalNegate (c w σ) := by
  unfold Point.conditionalNegate
  unifs

include hq
theorem unif_doubleAndAdd : Unif m fun w σ => (p w σ).doubleAndAddIncomplete (q w σ) := by
  unfold Point.doubleAndAddIncomplete
  unifs

theorem unif_addIncomplete_none : Unif m fun w σ => (p w σ).addIncomplete (q w σ) none := by
  unfold Point.addIncomplete
  unifs

theorem unif_addIncomplete_some {n : Fam W F (Element F)} (hn : rel m n) :
    Unif m fun w σ => (p w σ).addIncomplete (q w σ) (some (n w σ)) := by
  unfold Point.addIncomplete
  have h1 : Unif m fun w σ => (do
      let nz' ← (n w σ).mul ((q w σ).x.sub (p w σ).x)
      return some nz' : Syn F (Option (Element F))) := by unifs
  refine Unif.bind h1 (by loc) ?_
  intro _ _ hm _
  lift_rels hm
  unifs
end
macro_rules | `(tactic| rel_lem) => `(tactic| apply rel_endo)
macro_rules | `(tactic| unif_lem) => `(tactic| apply unif_pdouble)
macro_rules | `(tactic| unif_lem) => `(tactic| apply unif_conditionalEndo)
macro_rules | `(tactic| unif_lem) => `(tactic| apply unif_conditionalNegate)
macro_rules | `(tactic| unif_lem) => `(tactic| apply unif_doubleAndAdd)
macro_rules | `(tactic| unif_lem) => `(tactic| apply unif_addIncomplete_none)
macro_rules | `(tactic| unif_lem) => `(tactic| apply unif_addIncomplete_some)

/-! ### Multiplication by an endoscalar -/

theorem unif_groupLoop (zeta : F) {p : Fam W F (Gadget.Point F)} (hp : rel m p) (k : ℕ) {n : ℕ}
    (hn : 2 * k ≤ n) {l : Fam W F (List (Boolean F))} (hl : ListN n m l)
    {a : Fam W F (Gadget.Point F)} (ha : rel m a) :
    Unif m fun w σ => Endoscalar.groupLoop zeta (p w σ) k (l w σ) (a w σ) := by
  induction k generalizing m n l a with
  | zero => exact UnifR.pure ha
  | succ k ih =>
    obtain ⟨n, rfl⟩ : ∃ n', n = n' + 1 + 1 := ⟨n - 2, by omega⟩
    obtain ⟨b1, l1, hb1, hl1, e1⟩ := hl.uncons
    obtain ⟨b2, l2, hb2, hl2, e2⟩ := hl1.uncons
    simp only [e1, e2, Endoscalar.groupLoop]
    clear e1 e2 hl hl1
    unif_step
    unif_step
    unif_step
    exact ih (by assumption) (by omega) hl2 (by assumption)

theorem unif_groupScale (nbits : ℕ) (zeta : F) {e : Fam W F (Endoscalar F)} (he : EndoR nbits m e)
    {p : Fam W F (Gadget.Point F)} (hp : rel m p) :
    Unif m fun w σ => (e w σ).groupScale nbits zeta (p w σ) := by
  unfold Endoscalar.groupScale
  unif_step
  unif_step
  exact unif_groupLoop zeta (by assumption) _ (by omega) (rel_toBits he) (by assumption)
macro_rules | `(tactic| unif_lem) => `(tactic| apply unif_groupScale)

/-! ### The steps -/

theorem indexSyn_ok {i : ℕ} {l : List α} {a : α} (h : l[i]? = some a) :
    (indexSyn l i : Syn F α) = .ret a := by
  rw [indexSyn, h]

theorem unif_indexSyn [Gad W F α] {n i : ℕ} (hi : i < n) {l : Fam W F (List α)} (hl : ListN n m l) :
    Unif m fun w σ => (indexSyn (l w σ) i : Syn F α) := by
  obtain ⟨a, ha, e⟩ := hl.getElem? hi
  exact .ret (a := a) (fun w σ => indexSyn_ok (e w σ)) ha

theorem unif_stepLoop (nbits : ℕ) (zeta : F) {n : ℕ} (is : List ℕ) (hi : ∀ i ∈ is, i < n)
    {e : Fam W F (Endoscalar F)} (he : EndoR nbits m e)
    {l : Fam W F (List (Gadget.Point F))} (hl : ListN n m l)
    {a : Fam W F (Gadget.Point F)} (ha : rel m a) {z : Fam W F (Element F)} (hz : rel m z) :
    Unif m fun w σ => stepLoop nbits zeta (e w σ) (l w σ) is (a w σ) (z w σ) := by
  induction is generalizing m a z e l with
  | nil => exact UnifR.pure ⟨ha, hz⟩
  | cons i is ih =>
    simp only [stepLoop]
    unif_step
    refine Unif.bind (unif_indexSyn (hi i (by simp)) hl) (by loc) ?_
    intro _ _ hm _
    lift_rels hm
    unif_step
    exact ih (fun i h => hi i (by simp [h])) he hl (by rels) (by rels)

theorem unif_pointEnforceEqual {p q : Fam W F (Gadget.Point F)} (hp : rel m p) (hq : rel m q) :
    Unif m fun w σ => pointEnforceEqual (p w σ) (q w σ) := by
  unfold pointEnforceEqual
  unifs
macro_rules | `(tactic| unif_lem) => `(tactic| apply unif_pointEnforceEqual)

/-- The points with known numbers of inputs and interstitials. -/
structure PointsR (k s m : ℕ) (a : Fam W F (PointsWitness (Gadget.Point F))) : Prop where
  initial : rel m fun w σ => (a w σ).initial
  inputs : ListN k m fun w σ => (a w σ).inputs
  interstitials : ListN s m fun w σ => (a w σ).interstitials

theorem PointsR.mono {k s m m' : ℕ} {a : Fam W F (PointsWitness (Gadget.Point F))} (h : m ≤ m')
    (r : PointsR k s m a) : PointsR k s m' a :=
  ⟨rel_up h r.initial, r.inputs.mono h, r.interstitials.mono h⟩

theorem PointsR.loc {k s m : ℕ} {a : Fam W F (PointsWitness (Gadget.Point F))} (r : PointsR k s m a)
    (w : W) {σ τ : ℕ → F} (ag : Agree m σ τ) : a w σ = a w τ := by
  have h1 := rel_loc r.initial w ag
  have h2 := r.inputs.loc w ag
  have h3 := r.interstitials.loc w ag
  rcases h4 : a w σ with ⟨x, y, z⟩
  rcases h5 : a w τ with ⟨x', y', z'⟩
  simp only [h4, h5] at h1 h2 h3
  rw [h1, h2, h3]

theorem rangeList_lt {r : ℕ × ℕ} {i : ℕ} (h : i ∈ rangeList r) : i < r.2 := by
  obtain ⟨j, hj, rfl⟩ := List.mem_map.1 h
  have := List.mem_range.1 hj
  omega

theorem rangeList_length (r : ℕ × ℕ) : (rangeList r).length = r.2 - r.1 := by simp [rangeList]

theorem unif_stepCircuit (nbits : ℕ) (zeta : F) {numPoints step k s : ℕ}
    (hk : (inputRange numPoints step).2 ≤ k) (hs : step < s)
    (hr : (inputRange numPoints step).1 < (inputRange numPoints step).2)
    {e : Fam W F (Endoscalar F)} (he : EndoR nbits m e)
    {a : Fam W F (PointsWitness (Gadget.Point F))} (ha : PointsR k s m a) :
    Unif m fun w σ => stepCircuit nbits zeta numPoints step (e w σ) (a w σ) := by
  unfold stepCircuit
  simp only [if_pos hr]
  have h0 : Unif m fun w σ => ((if step = 0 then .ret (a w σ).initial else
      indexSyn (a w σ).interstitials (step - 1)) : Syn F (Gadget.Point F)) := by
    by_cases h : step = 0
    · simp only [if_pos h]
      exact UnifR.pure ha.initial
    · simp only [if_neg h]
      exact unif_indexSyn (by omega) ha.interstitials
  refine Unif.bind h0 (by loc) ?_
  intro _ _ hm _
  lift_rels hm
  refine Unif.bind2 (unif_stepLoop nbits zeta (n := k) (rangeList (inputRange numPoints step))
    (fun i h => lt_of_lt_of_le (rangeList_lt h) hk) he ha.inputs (by assumption) (by rels)) (by loc) ?_
  intro _ _ _ hm _ _
  lift_rels hm
  unif_step
  refine Unif.bind (unif_indexSyn hs ha.interstitials) (by loc) ?_
  intro _ _ hm _
  lift_rels hm
  unifs

/-! ### The stages -/

theorem pointsOfElems_r : ∀ (k : ℕ) {n : ℕ} {l : Fam W F (List (Element F))}, ListN n m l → 2 * k ≤ n →
    ListN k m fun w σ => pointsOfElems k (l w σ)
  | 0, _, _, _, _ => ListN.nil
  | k + 1, n, l, h, hn => by
    simp only [pointsOfElems]
    refine ListN.cons (rel_pmk (h.getD (by omega) _) (h.getD (by omega) _)) ?_
    exact pointsOfElems_r k (h.drop 2) (by omega)

theorem PointsR.ofElems {k s : ℕ} {l : Fam W F (List (Element F))} (h : ListN (2 * (1 + k + s)) m l) :
    PointsR k s m fun w σ => PointsWitness.ofElems k s (l w σ) where
  initial := rel_pmk (h.getD (by omega) _) (h.getD (by omega) _)
  inputs := pointsOfElems_r k (h.drop 2) (by omega)
  interstitials := pointsOfElems_r s (h.drop (2 + 2 * k)) (by omega)

theorem EndoR.ofElems {n : ℕ} {l : Fam W F (List (Element F))} (h : ListN n m l) {v : W → ℕ} :
    EndoR n m fun w σ => ⟨(l w σ).map (·.wire), v w⟩ := by
  obtain ⟨ls, h1, h2, h3⟩ := h
  refine ⟨⟨ls.map fun b w σ => (b w σ).wire, by simpa using h1, ?_, fun w σ => by simp [h3]⟩,
    fun _ _ _ _ => rfl⟩
  intro b hb
  obtain ⟨a, ha, rfl⟩ := List.mem_map.1 hb
  exact (h2 a ha).1

theorem endoscalar_fit : StagesFit endoscalarStage := stagesFit_stage (p := .base) trivial _
theorem points_fit : StagesFit pointsStage := stagesFit_stage endoscalar_fit _

end Ragu.Unif

namespace Ragu.Pcd
open Ragu Ragu.Circuit Ragu.Gadget Ragu.Spec
variable {F α : Type} [Field F] [DecidableEq F]

/-! ### Sizes -/

theorem sized_indexSyn {l : List α} {i : ℕ} (h : i < l.length) :
    Sized (fun _ => True) (indexSyn l i : Syn F α) 0 := by
  rw [indexSyn, List.getElem?_eq_getElem h]
  exact .ret trivial

theorem sized_stepLoop {nbits : ℕ} (zeta : F) {e : Endoscalar F} (he : nbits ≤ e.bits.length)
    {inputs : List (Gadget.Point F)} : ∀ (is : List ℕ) (a : Gadget.Point F) (z : Element F),
    (∀ i ∈ is, i < inputs.length) → Sized (fun _ => True) (stepLoop nbits zeta e inputs is a z)
      ((⟨7 * (1 + nbits / 2) + 4, 0, 14 * (1 + nbits / 2) + 8⟩ : Size).times is.length)
  | [], _, _, _ => Sized.cast (.pure trivial) (by size_eq)
  | i :: is, a, z, h => ((Endoscalar.sized_groupScale zeta he _).bind' fun _ =>
      (sized_indexSyn (h i (by simp))).bind' fun _ => (Point.sized_addIncomplete_some _ _ _).bind' fun _ =>
      sized_stepLoop zeta he is _ _ fun i h' => h i (by simp [h'])).cast (by
        apply Size.ext <;> simp <;> ring)

theorem sized_stepCircuit {nbits : ℕ} (zeta : F) {numPoints step : ℕ} {e : Endoscalar F}
    (he : nbits ≤ e.bits.length) {points : PointsWitness (Gadget.Point F)}
    (hk : (inputRange numPoints step).2 ≤ points.inputs.length) (hs : step < points.interstitials.length)
    (hr : (inputRange numPoints step).1 < (inputRange numPoints step).2) :
    Sized (fun _ => True) (stepCircuit nbits zeta numPoints step e points)
      ((⟨7 * (1 + nbits / 2) + 4, 0, 14 * (1 + nbits / 2) + 8⟩ : Size).times
        ((inputRange numPoints step).2 - (inputRange numPoints step).1) + ⟨1, 0, 4⟩) := by
  unfold stepCircuit
  simp only [if_pos hr]
  have h0 : Sized (fun _ => True) ((if step = 0 then .ret points.initial else
      indexSyn points.interstitials (step - 1)) : Syn F (Gadget.Point F)) 0 := by
    split
    · exact .ret trivial
    · exact sized_indexSyn (by omega)
  have h1 := fun a z => sized_stepLoop (inputs := points.inputs) zeta he
    (rangeList (inputRange numPoints step)) a z fun i h => lt_of_lt_of_le (Unif.rangeList_lt h) hk
  rw [Unif.rangeList_length] at h1
  exact (h0.bind' fun _ => (h1 _ _).bind' fun _ => (Element.sized_invert _).bind' fun _ =>
    (sized_indexSyn hs).bind' fun _ => (sized_enforceEqual _ _).bind' fun _ =>
      sized_enforceEqual _ _).cast (by size_eq)

end Ragu.Pcd

/-
Properties C19, C20, C21: the revdot identity holds for satisfying assignments, and
only for them up to a counted exception set; shape of the public input polynomial.
-/
import Verif.Props.Trace
import Verif.Lemmas.Revdot

set_option linter.unusedSectionVars false

namespace Ragu.Props
open Ragu Ragu.Circuit Finset
variable {F : Type} [Field F] [DecidableEq F]

/-! ### C21 -/

/-- C21: `k(y) = y^m o_1 + … + y o_m + 1`. -/
theorem C21_ky (inst : List F) (y : F) : Ky.kyEval inst y =
    ∑ i ∈ range inst.length, inst.getD i 0 * y ^ (inst.length - i) + 1 := kyEval_eq inst y

/-- C21: the constant term is one. -/
theorem C21_constant (inst : List F) : Ky.kyEval inst 0 = 1 := by
  rw [C21_ky, sum_eq_zero, zero_add]
  intro i hi
  have := mem_range.1 hi
  rw [zero_pow (by omega), mul_zero]

theorem ky_coeffs (inst : List F) (y : F) : Ky.kyEval inst y =
    ∑ j ∈ range (inst.length + 1), (if j = 0 then 1 else inst.getD (inst.length - j) 0) * y ^ j := by
  rw [C21_ky, sum_range_succ', ← sum_range_reflect]
  simp only [Nat.add_eq_zero_iff, one_ne_zero, and_false, if_false, if_true, pow_zero, mul_one]
  congr 1
  refine sum_congr rfl fun i hi => ?_
  have := mem_range.1 hi
  rw [show inst.length - 1 - i = inst.length - (i + 1) by omega,
    show inst.length - (inst.length - (i + 1)) = i + 1 by omega]

theorem getD_lt {l : List F} {i : ℕ} (h : i < l.length) : l.getD i 0 = l[i] := by
  rw [List.getD_eq_getElem?_getD, List.getElem?_eq_getElem h]; rfl

/-- C21: instances of equal length whose public input polynomials agree at more
points than their length are equal. -/
theorem C21_injective {a b : List F} (hl : a.length = b.length) (S : Finset F)
    (hS : a.length < S.card) (h : ∀ y ∈ S, Ky.kyEval a y = Ky.kyEval b y) : a = b := by
  have hz := coeffs_zero (N := a.length + 1)
    (fun j => (if j = 0 then 1 else a.getD (a.length - j) 0) -
      (if j = 0 then 1 else b.getD (b.length - j) 0)) S hS (by
      intro z hz
      have := h z hz
      rw [ky_coeffs, ky_coeffs, ← hl] at this
      simp only [sub_mul, sum_sub_distrib, ← hl]
      rw [this, sub_self])
  refine List.ext_getElem? fun i => ?_
  by_cases hi : i < a.length
  · have := hz (a.length - i) (by omega)
    rw [if_neg (by omega), if_neg (by omega), show a.length - (a.length - i) = i by omega, ← hl,
      show a.length - (a.length - i) = i by omega, sub_eq_zero] at this
    rw [getD_lt hi, getD_lt (hl ▸ hi)] at this
    rw [List.getElem?_eq_getElem hi, List.getElem?_eq_getElem (hl ▸ hi), this]
  · rw [List.getElem?_eq_none (by omega), List.getElem?_eq_none (by omega)]

/-- C21: so two different instances of equal length share `k(y)` at no more than
`length` points. -/
theorem C21_few_collisions {a b : List F} (hl : a.length = b.length) (hne : a ≠ b)
    (S : Finset F) : (S.filter fun y => Ky.kyEval a y = Ky.kyEval b y).card ≤ a.length := by
  by_contra hc
  exact hne (C21_injective hl (S.filter fun y => Ky.kyEval a y = Ky.kyEval b y) (by omega)
    fun y hy => (mem_filter.1 hy).2)

example : Ky.kyEval ([3, 5] : List (ZMod 97)) 10 = 351 := by decide +kernel
example : ([3, 5] : List (ZMod 97)) ≠ [5, 3] ∧
    ([3, 5] : List (ZMod 97)).length = ([5, 3] : List (ZMod 97)).length := by decide

/-! ### The constraint part of the identity -/

/-- Where a constraint is placed. -/
def place (r : Row F) : ℕ × ℕ := (r.seg, r.loc)

theorem rowsFrom_place (seg : ℕ) (v : List F) : ∀ (w : List F) (k : ℕ), v.length = w.length →
    (rowsFrom seg k v).map place = (rowsFrom seg k w).map place := by
  induction v with
  | nil => intro w k h; cases w with
    | nil => rfl
    | cons _ _ => simp at h
  | cons x l ih => intro w k h; cases w with
    | nil => simp at h
    | cons y m =>
      simp only [rowsFrom, List.map_cons]
      rw [ih m (k + 1) (by simpa using h)]
      rfl

theorem rowsFrom_val (seg : ℕ) (v : List F) : ∀ k, (rowsFrom seg k v).map Row.val = v := by
  induction v with
  | nil => intro k; rfl
  | cons x l ih => intro k; simp [rowsFrom, ih]

/-- For fixed assignment and instance there are rows at distinct places below
`4 n`, all zero exactly if the circuit is satisfied with that instance, whose
weighted sum is the constraint part minus `k(y)`. -/
theorem constraint_rows {c : Circ F} (hu : c.WellUsed) (φ : Base → F) {inst : List F}
    (hl : inst.length = c.outs.length) :
    ∃ rows : List (Row F),
      (∀ r ∈ rows, consExp (floorPlan c.counts) r.seg r.loc < totalCons c.counts) ∧
      (rows.Pairwise fun a b => consExp (floorPlan c.counts) a.seg a.loc ≠
        consExp (floorPlan c.counts) b.seg b.loc) ∧
      (∀ y, weigh (floorPlan c.counts) y (constraints φ c) - Ky.kyEval inst y =
        weigh (floorPlan c.counts) y rows) ∧
      ((∀ r ∈ rows, r.val = 0) ↔ Satisfies φ c inst) := by
  obtain ⟨s, es, os, h1, h2, h3, h4, h5, h6, h7⟩ := log_parts φ hu
  set one := φ ⟨.b, 0, 0⟩ with hone
  have hlo : os.length = inst.length := by rw [h3, hl]
  set df := List.zipWith (fun a b => a - b) os inst with hdf
  have hldf : df.length = os.length := by rw [hdf, List.length_zipWith]; omega
  set rows := s.log ++ (rowsFrom 0 s.pos.cons df ++ [⟨0, s.pos.cons + os.length, one - 1⟩]) with hrows
  have hpl : rows.map place = (constraints φ c).map place := by
    rw [hrows, h4]
    simp only [List.map_append, List.map_cons, List.map_nil]
    rw [rowsFrom_place 0 df os s.pos.cons hldf]
    rfl
  have hin : ∀ r ∈ rows, ∃ sg, (floorPlan c.counts)[r.seg]? = some sg ∧ r.loc < sg.numCons := by
    intro r hr
    have : place r ∈ (constraints φ c).map place := by rw [← hpl]; exact List.mem_map_of_mem hr
    obtain ⟨q, hq, hqr⟩ := List.mem_map.1 this
    obtain ⟨sg, a, b⟩ := h6 q hq
    simp only [place, Prod.mk.injEq] at hqr
    exact ⟨sg, by rw [← hqr.1]; exact a, by rw [← hqr.2]; exact b⟩
  refine ⟨rows, ?_, ?_, ?_, ?_⟩
  · intro r hr
    obtain ⟨sg, a, b⟩ := hin r hr
    exact consExp_lt a b
  · have hd : rows.Pairwise fun a b => place a ≠ place b := by
      have : (rows.map place).Pairwise (· ≠ ·) := by
        rw [hpl, List.pairwise_map]; exact h7
      rwa [List.pairwise_map] at this
    refine hd.imp_of_mem fun {a b} ha hb hab heq => hab ?_
    obtain ⟨sa, a1, a2⟩ := hin a ha
    obtain ⟨sb, b1, b2⟩ := hin b hb
    exact consExp_inj a1 b1 a2 b2 heq
  · intro y
    have h0 : (floorPlan c.counts)[0]? = some ⟨0, 0, (posRun c.main (Pos.gate {})).gates,
        (posRun c.main (Pos.gate {})).cons⟩ := rfl
    have hw : ∀ v : F, weigh (floorPlan c.counts) y [⟨0, s.pos.cons + os.length, v⟩] = v := by
      intro v
      simp only [weigh, List.map_cons, List.map_nil, List.sum_cons, List.sum_nil, consExp, h0,
        Option.map_some, Option.getD_some, h5]
      rw [show 0 + (s.pos.cons + os.length + 1) - 1 - (s.pos.cons + os.length) = 0 by omega]
      ring
    rw [h4, hrows]
    simp only [weigh_append, hw]
    rw [weigh_rows h0 y os s.pos.cons h5, weigh_rows h0 y df s.pos.cons (by rw [hldf]; exact h5),
      C21_ky, hldf, ← hlo]
    have : ∀ i ∈ range os.length, df.getD i 0 * y ^ (os.length - i) =
        os.getD i 0 * y ^ (os.length - i) - inst.getD i 0 * y ^ (os.length - i) := by
      intro i hi
      have hi := mem_range.1 hi
      rw [← sub_mul]
      congr 1
      rw [getD_lt (hldf ▸ hi), getD_lt hi,
        getD_lt (hlo ▸ hi)]
      simp [hdf]
    rw [sum_congr rfl this, sum_sub_distrib]
    ring
  · have hdz : (∀ v ∈ df, v = 0) ↔ os = inst := by
      rw [hdf]
      clear_value rows df
      clear hrows hpl hin hdf hldf h2 h3 h4 h5 hl
      induction os generalizing inst with
      | nil => cases inst with
        | nil => simp
        | cons _ _ => simp at hlo
      | cons x l ih => cases inst with
        | nil => simp at hlo
        | cons y m =>
          have := ih (inst := m) (by simpa using hlo)
          simp only [List.zipWith_cons_cons, List.mem_cons, forall_eq_or_imp, List.cons.injEq,
            sub_eq_zero]
          rw [this]
    constructor
    · intro hz
      have hos : os = inst := by
        refine hdz.1 fun v hv => ?_
        have : v ∈ (rowsFrom 0 s.pos.cons df).map Row.val := by rw [rowsFrom_val]; exact hv
        obtain ⟨r, hr, rfl⟩ := List.mem_map.1 this
        exact hz r (by rw [hrows]; simp [hr])
      refine ⟨s, es, h1, fun r hr => hz r (by rw [hrows]; simp [hr]), by rw [← hos]; exact h2, ?_⟩
      have := hz ⟨0, s.pos.cons + os.length, one - 1⟩ (by rw [hrows]; simp)
      exact sub_eq_zero.1 this
    · rintro ⟨s', es', g1, g2, g3, g4⟩
      rw [h1, Except.ok.injEq, Prod.mk.injEq] at g1
      obtain ⟨rfl, rfl⟩ := g1
      rw [h2, Except.ok.injEq] at g3
      intro r hr
      rw [hrows, List.mem_append, List.mem_append, List.mem_singleton] at hr
      rcases hr with hr | hr | rfl
      · exact g2 r hr
      · refine hdz.2 g3 _ ?_
        rw [← rowsFrom_val 0 df s.pos.cons]
        exact List.mem_map_of_mem hr
      · show one - 1 = 0
        rw [hone, g4, sub_self]

theorem claim_iff {c : Circ F} (hu : c.WellUsed) {n : ℕ} (hn : totalGates c.counts ≤ n)
    (hN : totalCons c.counts < 4 * n) {r : Sparse.Poly F} (hr : Spec.WellFormed (4 * n) r)
    (inst : List F) (y z : F) :
    ClaimHolds n (floorPlan c.counts) c r inst y z ↔
      gateSum n r z + (weigh (floorPlan c.counts) y
        (constraints (assignment n (floorPlan c.counts) r) c) - Ky.kyEval inst y) = 0 := by
  obtain ⟨sy, tz, b, h1, h2, h3, _, h5⟩ := revdot_claim hu hn hN hr y z
  constructor
  · rintro ⟨sy', tz', b', g1, g2, g3, g5⟩
    rw [h1, Except.ok.injEq] at g1; subst g1
    rw [h2, Option.some.injEq] at g2; subst g2
    rw [h3, Option.some.injEq] at g3; subst g3
    rw [h5] at g5
    linear_combination g5
  · intro h
    exact ⟨sy, tz, b, h1, h2, h3, by rw [h5]; linear_combination h⟩

/-- C19: if the values in a trace polynomial satisfy all gates and all constraints
with the given outputs, the check passes at every `y` and `z`. -/
theorem C19_completeness {c : Circ F} (hu : c.WellUsed) {n : ℕ} (hn : totalGates c.counts ≤ n)
    (hN : totalCons c.counts < 4 * n) {r : Sparse.Poly F} (hr : Spec.WellFormed (4 * n) r)
    (hg : GatesHold n r) {inst : List F}
    (hs : Satisfies (assignment n (floorPlan c.counts) r) c inst) (y z : F) :
    ClaimHolds n (floorPlan c.counts) c r inst y z := by
  have hl : inst.length = c.outs.length := by
    obtain ⟨s, es, os, h1, h2, h3, _⟩ := log_parts (assignment n (floorPlan c.counts) r) hu
    obtain ⟨s', es', g1, g2, g3, g4⟩ := hs
    rw [h1, Except.ok.injEq, Prod.mk.injEq] at g1
    obtain ⟨rfl, rfl⟩ := g1
    rw [h2, Except.ok.injEq] at g3
    rw [← g3, h3]
  obtain ⟨rows, _, _, hw, hz⟩ := constraint_rows hu (assignment n (floorPlan c.counts) r) hl
  rw [claim_iff hu hn hN hr, hw]
  have hz := hz.2 hs
  have h0 : weigh (floorPlan c.counts) y rows = 0 := by
    rw [weigh]
    refine List.sum_eq_zero fun v hv => ?_
    obtain ⟨q, hq, rfl⟩ := List.mem_map.1 hv
    rw [hz q hq, mul_zero]
  rw [h0, add_zero, gateSum]
  refine sum_eq_zero fun i hi => ?_
  obtain ⟨e1, e2⟩ := hg i (mem_range.1 hi)
  rw [e2, e1]
  ring

/-- Gate coefficients of the check as a polynomial in `z`. -/
def gateCoeff (n : ℕ) (r : Sparse.Poly F) (j : ℕ) : F :=
  if j < n then wireOf n r .c j * wireOf n r .d j
  else if j < 2 * n then wireOf n r .a (2 * n - 1 - j) * wireOf n r .b (2 * n - 1 - j) -
    wireOf n r .c (2 * n - 1 - j)
  else if j < 3 * n then wireOf n r .a (j - 2 * n) * wireOf n r .b (j - 2 * n) -
    wireOf n r .c (j - 2 * n)
  else wireOf n r .c (4 * n - 1 - j) * wireOf n r .d (4 * n - 1 - j)

theorem gateSum_coeffs (n : ℕ) (r : Sparse.Poly F) (z : F) :
    gateSum n r z = ∑ j ∈ range (4 * n), gateCoeff n r j * z ^ j := by
  rw [sum_views, gateSum]
  refine sum_congr rfl fun i hi => ?_
  have hi := mem_range.1 hi
  have e1 : 2 * n - 1 - (2 * n - 1 - i) = i := by omega
  have e2 : 2 * n + i - 2 * n = i := by omega
  have e3 : 4 * n - 1 - (4 * n - 1 - i) = i := by omega
  simp only [gateCoeff]
  rw [if_neg (show ¬ 2 * n - 1 - i < n by omega), if_pos (show 2 * n - 1 - i < 2 * n by omega),
    if_neg (show ¬ 2 * n + i < n by omega), if_neg (show ¬ 2 * n + i < 2 * n by omega),
    if_pos (show 2 * n + i < 3 * n by omega), if_neg (show ¬ 4 * n - 1 - i < n by omega),
    if_neg (show ¬ 4 * n - 1 - i < 2 * n by omega), if_neg (show ¬ 4 * n - 1 - i < 3 * n by omega),
    if_pos hi, e1, e2, e3]
  ring

theorem gates_of_coeffs {n : ℕ} {r : Sparse.Poly F}
    (h : ∀ j < 4 * n, 0 < j → gateCoeff n r j = 0) : GatesHold n r := by
  intro i hi
  constructor
  · have := h (2 * n + i) (by omega) (by omega)
    rw [gateCoeff, if_neg (by omega), if_neg (by omega), if_pos (by omega),
      show 2 * n + i - 2 * n = i by omega, sub_eq_zero] at this
    exact this
  · have := h (4 * n - 1 - i) (by omega) (by omega)
    rw [gateCoeff, if_neg (by omega), if_neg (by omega), if_neg (by omega),
      show 4 * n - 1 - (4 * n - 1 - i) = i by omega] at this
    exact this

open Classical in
/-- C20: if some gate or constraint is violated, or the outputs are not `inst`, or
the constant wire is not one, then among any set `S` of candidate challenges at most
`(4 n − 1) |S|` of the `|S|²` pairs `(y, z)` pass the check. -/
theorem C20_soundness {c : Circ F} (hu : c.WellUsed) {n : ℕ} (hn : totalGates c.counts ≤ n)
    (hN : totalCons c.counts < 4 * n) {r : Sparse.Poly F} (hr : Spec.WellFormed (4 * n) r)
    {inst : List F} (hl : inst.length = c.outs.length)
    (hbad : ¬ (GatesHold n r ∧ Satisfies (assignment n (floorPlan c.counts) r) c inst))
    (S : Finset F) :
    ((S ×ˢ S).filter fun p => ClaimHolds n (floorPlan c.counts) c r inst p.1 p.2).card ≤
      (4 * n - 1) * S.card := by
  obtain ⟨rows, hlt, hd, hw, hz⟩ := constraint_rows hu (assignment n (floorPlan c.counts) r) hl
  by_cases hg : GatesHold n r
  · -- the constraints are violated: `y` is a root
    have hsat : ¬ ∀ q ∈ rows, q.val = 0 := fun h => hbad ⟨hg, hz.1 h⟩
    have hgs : ∀ z, gateSum n r z = 0 := by
      intro z
      rw [gateSum]
      refine sum_eq_zero fun i hi => ?_
      obtain ⟨e1, e2⟩ := hg i (mem_range.1 hi)
      rw [e2, e1]
      ring
    have hcard : (S.filter fun y => weigh (floorPlan c.counts) y rows = 0).card ≤ 4 * n - 1 := by
      by_contra hc
      exact hsat (weigh_all_zero (N := 4 * n)
        (S.filter fun y => weigh (floorPlan c.counts) y rows = 0) (by omega) (fun q hq => (hlt q hq).trans hN) hd
        fun y hy => (mem_filter.1 hy).2)
    have hsub : ((S ×ˢ S).filter fun p => ClaimHolds n (floorPlan c.counts) c r inst p.1 p.2) ⊆
        (S.filter fun y => weigh (floorPlan c.counts) y rows = 0) ×ˢ S := by
      intro p hp
      obtain ⟨hp1, hp2⟩ := mem_filter.1 hp
      rw [claim_iff hu hn hN hr, hgs, zero_add, hw] at hp2
      obtain ⟨a, b⟩ := mem_product.1 hp1
      exact mem_product.2 ⟨mem_filter.2 ⟨a, hp2⟩, b⟩
    calc _ ≤ _ := card_le_card hsub
      _ = _ := card_product _ _
      _ ≤ _ := Nat.mul_le_mul_right _ hcard
  · -- a gate is violated: for every `y`, `z` is a root
    have hrow : ∀ y, (S.filter fun z => ClaimHolds n (floorPlan c.counts) c r inst y z).card ≤
        4 * n - 1 := by
      intro y
      by_contra hc
      refine hg (gates_of_coeffs fun j hj hj0 => ?_)
      have := coeffs_zero (N := 4 * n) (fun j => gateCoeff n r j + if j = 0 then
          weigh (floorPlan c.counts) y (constraints (assignment n (floorPlan c.counts) r) c) -
            Ky.kyEval inst y else 0)
        (S.filter fun z => ClaimHolds n (floorPlan c.counts) c r inst y z) (by omega) (by
          intro z hz
          have := (mem_filter.1 hz).2
          rw [claim_iff hu hn hN hr, gateSum_coeffs] at this
          refine Eq.trans ?_ this
          simp only [add_mul, sum_add_distrib, ite_mul, zero_mul]
          rw [sum_ite_eq', if_pos (mem_range.2 (by omega)), pow_zero, mul_one]) j hj
      simpa [if_neg (by omega : j ≠ 0)] using this
    rw [card_filter, sum_product]
    calc _ ≤ ∑ _y ∈ S, (4 * n - 1) := sum_le_sum fun y _ => by
          have := hrow y
          rw [card_filter] at this
          exact this
      _ = _ := by rw [sum_const, smul_eq_mul, mul_comm]

/-- C20: a trace polynomial that passes at all challenges of a set of at least
`4 n` points satisfies every gate and constraint with outputs `inst`. -/
theorem C20_all_pass {c : Circ F} (hu : c.WellUsed) {n : ℕ} (hn : totalGates c.counts ≤ n)
    (hN : totalCons c.counts < 4 * n) {r : Sparse.Poly F} (hr : Spec.WellFormed (4 * n) r)
    {inst : List F} (hl : inst.length = c.outs.length) (S : Finset F) (hS : 4 * n ≤ S.card)
    (h : ∀ y ∈ S, ∀ z ∈ S, ClaimHolds n (floorPlan c.counts) c r inst y z) :
    GatesHold n r ∧ Satisfies (assignment n (floorPlan c.counts) r) c inst := by
  classical
  by_contra hbad
  have := C20_soundness hu hn hN hr hl hbad S
  rw [filter_true_of_mem (fun p hp => by
    obtain ⟨a, b⟩ := mem_product.1 hp
    exact h _ a _ b), card_product] at this
  have h0 : 0 < S.card := by omega
  have := Nat.le_of_mul_le_mul_right this h0
  omega

/-- C19: for a circuit and witness the simulator accepts with outputs `inst`, every
trace, assembled with any blinding factor, passes the check at every `y`, `z`. -/
theorem C19_honest {c : Circ F} (hu : c.WellUsed) {n : ℕ} {m : Metrics}
    (hm : intoCircuitObject n c = .ok m) {inst : List F} (hsim : simulate c = .ok inst)
    {t : List (ASeg F)} (ht : TraceEval c t) (alpha : F) {r : Sparse.Poly F}
    (hr : assemble n (floorPlan m.segments) (t.map Prod.snd) alpha = .ok r) (y z : F) :
    ClaimHolds n (floorPlan m.segments) c r inst y z := by
  obtain ⟨hn, hN, hseg⟩ := registered hu hm
  rw [hseg] at hr ⊢
  obtain ⟨k, env, hk, _, hok, hfail⟩ := C56_simulator_emulator hu
  obtain ⟨r', hr', hwf, _, _, hone, _⟩ := C18_assemble hu hn ht alpha
  rw [hr, Except.ok.injEq] at hr'
  subst hr'
  obtain ⟨s, hs, hlog, hgate⟩ := C56_trace hu hn ht hr hk
  have hH : k.Hold := by
    by_contra hc
    rw [simulate, hfail hc] at hsim
    exact absurd hsim (by simp [bind, Except.bind])
  have h1 : assignment n (floorPlan c.counts) r ⟨.b, 0, 0⟩ = 1 := hone
  refine C19_completeness hu hn hN hwf (hgate.2 hH.1) ⟨s, env, hs, ?_, ?_, h1⟩ y z
  · intro row hrow
    exact hH.2 _ (by rw [← hlog]; exact List.mem_map_of_mem hrow)
  · obtain ⟨t', ht'⟩ := hok hH
    rw [simulate, ht'] at hsim
    rw [h1]
    exact hsim

-- a satisfying circuit, its trace with blinding factor 7, and the check at (5, 11)
example : ∃ m t r, intoCircuitObject 8 demoSat = .ok m ∧ TraceEval demoSat t ∧
    assemble 8 (floorPlan m.segments) (t.map Prod.snd) (7 : ZMod 97) = .ok r ∧
    ClaimHolds 8 (floorPlan m.segments) demoSat r [15, 28] 5 11 := by
  obtain ⟨t, ht⟩ := C18_produced demoSat_wellUsed
  have hm : intoCircuitObject 8 demoSat = .ok ⟨4, 3, 2, demoSat.counts⟩ := by rfl
  obtain ⟨r, hr⟩ := C22_assemble_no_failure demoSat_wellUsed hm ht (7 : ZMod 97)
  exact ⟨_, t, r, hm, ht, hr, C19_honest demoSat_wellUsed hm (by decide +kernel) ht 7 hr 5 11⟩

end Ragu.Props

/-
Stages: masks, stage polynomials and the stage builder.
-/
import Verif.Lemmas.Object
import Verif.Props.Revdot
import Verif.Spec.Staging

set_option linter.unusedSectionVars false

namespace Ragu.Circuit
open Ragu Ragu.Spec Finset
variable {F : Type} [Field F] [DecidableEq F]

/-! ### Masks -/

/-- The gate one of whose wires has the exponent `e` in wiring polynomials. -/
def gateOf (n e : ℕ) : ℕ :=
  if e < n then e else if e < 2 * n then 2 * n - 1 - e
  else if e < 3 * n then e - 2 * n else 4 * n - 1 - e

theorem gateOf_wiringExp {n j : ℕ} (hj : j < n) (k : Kind) : gateOf n (wiringExp n j k) = j := by
  cases k
  · rw [wiringExp, gateOf, if_neg (by omega), if_pos (by omega)]; omega
  · rw [wiringExp, gateOf, if_neg (by omega), if_neg (by omega), if_pos (by omega)]; omega
  · rw [wiringExp, gateOf, if_neg (by omega), if_neg (by omega), if_neg (by omega)]; omega
  · rw [wiringExp, gateOf, if_pos (by omega)]

theorem traceExp_wiringExp {n j : ℕ} (hj : j < n) (k : Kind) :
    4 * n - 1 - wiringExp n j k = traceExp n j k := by
  cases k <;> simp only [wiringExp, traceExp] <;> omega

theorem wiringExp_lt {n j : ℕ} (hj : j < n) (k : Kind) : wiringExp n j k < 4 * n := by
  cases k <;> simp only [wiringExp] <;> omega

/-- The coefficients, as a polynomial in `y`, of the check of `r` against a mask. -/
def maskCoeff (n skip num : ℕ) (r : Sparse.Poly F) (e : ℕ) : F :=
  if Masked skip num (gateOf n e) then coeff r (4 * n - 1 - e) else 0

theorem mask_revdot {n : ℕ} {m : StageMask} (hs : 0 < m.skipGates)
    (hn : m.skipGates + m.numGates ≤ n) {r : Sparse.Poly F} (hr : WellFormed (4 * n) r) (y : F) :
    ∃ q, (m.object n).sy y [] = some q ∧ WellFormed (4 * n) q ∧
      Sparse.revdot (4 * n) r q =
        ∑ e ∈ range (4 * n), maskCoeff n m.skipGates m.numGates r e * y ^ e := by
  obtain ⟨q, h1, h2, h3⟩ := StageMask.project_coeffs hs hn y
  refine ⟨q, h1, h2, ?_⟩
  rw [Props.C11_revdot _ _ _ hr h2, ← sum_range_reflect, Props.sum_views, Props.sum_views]
  refine sum_congr rfl fun j hj => ?_
  have hj := mem_range.1 hj
  have key : ∀ k, coeff r (4 * n - 1 - wiringExp n j k) *
      coeff q (4 * n - 1 - (4 * n - 1 - wiringExp n j k)) =
      maskCoeff n m.skipGates m.numGates r (wiringExp n j k) * y ^ wiringExp n j k := by
    intro k
    have := wiringExp_lt hj k
    rw [show 4 * n - 1 - (4 * n - 1 - wiringExp n j k) = wiringExp n j k by omega, h3 j hj k,
      maskCoeff, gateOf_wiringExp hj k]
    split_ifs <;> ring
  exact congrArg₂ (· + ·) (congrArg₂ (· + ·) (congrArg₂ (· + ·) (key .a) (key .b)) (key .c)) (key .d)

theorem onlyIn_iff {n skip num : ℕ} {r : Sparse.Poly F} :
    OnlyIn n skip num r ↔ ∀ e < 4 * n, maskCoeff n skip num r e = 0 := by
  constructor
  · intro h e he
    rw [maskCoeff]
    split_ifs with hm
    · have hk : ∃ k j, j < n ∧ e = wiringExp n j k := by
        by_cases h1 : e < n
        · exact ⟨.d, e, h1, rfl⟩
        by_cases h2 : e < 2 * n
        · exact ⟨.a, 2 * n - 1 - e, by omega, by simp only [wiringExp]; omega⟩
        by_cases h3 : e < 3 * n
        · exact ⟨.b, e - 2 * n, by omega, by simp only [wiringExp]; omega⟩
        · exact ⟨.c, 4 * n - 1 - e, by omega, by simp only [wiringExp]; omega⟩
      obtain ⟨k, j, hj, rfl⟩ := hk
      rw [gateOf_wiringExp hj] at hm
      rw [traceExp_wiringExp hj]
      exact h j hj hm k
    · rfl
  · intro h j hj hm k
    have := h _ (wiringExp_lt hj k)
    rw [maskCoeff, gateOf_wiringExp hj, if_pos hm, traceExp_wiringExp hj] at this
    exact this

/-! ### Chains -/

theorem skip_pos : ∀ c : Chain, 0 < c.skipGates
  | .base => Nat.one_pos
  | .child p _ => Nat.add_pos_left (skip_pos p) _

theorem ancestor_below {a c : Chain} (h : Ancestor a c) :
    a.skipGates + a.numGates ≤ c.skipGates := by
  induction h with
  | parent s => exact le_rfl
  | step s _ ih => exact ih.trans (Nat.le_add_right _ _)

/-! ### Stage polynomials -/

theorem pushSkipped_eq : ∀ (k : ℕ) (v : Sparse.View F), Chain.pushSkipped k v =
    ⟨v.a ++ List.replicate k 0, v.b ++ List.replicate k 0, v.c ++ List.replicate k 0,
      v.d ++ List.replicate k 0⟩
  | 0, v => by simp [Chain.pushSkipped]
  | k + 1, v => by
    rw [Chain.pushSkipped, pushSkipped_eq k]
    simp [Chain.pushGate, List.replicate_succ]

theorem pushValues_eq : ∀ (k : ℕ) (vs : List F) (v : Sparse.View F), Chain.pushValues k vs v =
    ⟨v.a ++ List.replicate k 0, v.b ++ (List.range k).map fun i => vs.getD (2 * i) 0,
      v.c ++ List.replicate k 0, v.d ++ (List.range k).map fun i => vs.getD (2 * i + 1) 0⟩
  | 0, vs, v => by simp [Chain.pushValues]
  | k + 1, [], v => by
    rw [Chain.pushValues, pushValues_eq k]
    simp [Chain.pushGate, List.replicate_succ, List.range_succ_eq_map, Function.comp_def]
  | k + 1, [b], v => by
    rw [Chain.pushValues, pushValues_eq k]
    simp [Chain.pushGate, List.replicate_succ, List.range_succ_eq_map, Function.comp_def]
  | k + 1, b :: d :: vs, v => by
    rw [Chain.pushValues, pushValues_eq k]
    have e1 : ∀ i, (b :: d :: vs).getD (2 * (i + 1)) 0 = vs.getD (2 * i) 0 := fun i => by
      rw [show 2 * (i + 1) = 2 * i + 1 + 1 by ring]; rfl
    have e2 : ∀ i, (b :: d :: vs).getD (2 * (i + 1) + 1) 0 = vs.getD (2 * i + 1) 0 := fun i => by
      rw [show 2 * (i + 1) = 2 * i + 1 + 1 by ring]; rfl
    simp only [Chain.pushGate, List.replicate_succ, List.range_succ_eq_map, List.map_cons,
      List.map_map, Function.comp_def, Nat.succ_eq_add_one, e1, e2, List.append_assoc]
    rfl

theorem getD_zeros_append (a : F) (k : ℕ) (l : List F) (j : ℕ) :
    ([a] ++ List.replicate k 0 ++ l).getD j 0 =
      if j = 0 then a else if j ≤ k then 0 else l.getD (j - 1 - k) 0 := by
  cases j with
  | zero => simp
  | succ j =>
    rw [if_neg (by omega), List.append_assoc, List.singleton_append, List.getD_cons_succ]
    simp only [List.getD_eq_getElem?_getD]
    by_cases h : j + 1 ≤ k
    · rw [if_pos h, List.getElem?_append_left (by simpa using h)]
      simp [show j < k by omega]
    · rw [if_neg h, List.getElem?_append_right (by simp; omega), List.length_replicate]
      congr 3

theorem map_range_getD (f : ℕ → F) (k j : ℕ) :
    ((List.range k).map f).getD j 0 = if j < k then f j else 0 := by
  rw [List.getD_eq_getElem?_getD]
  by_cases h : j < k
  · simp [h]
  · simp [h]

/-- The polynomial `rx` returns. -/
theorem rx_spec {n : ℕ} (c : Chain) (alpha : F) (vs : List F) (hv : vs.length ≤ c.values)
    (hn : c.skipGates + c.numGates ≤ n) :
    ∃ p, c.rx n alpha vs = .ok p ∧ WellFormed (4 * n) p ∧ ∀ j < n,
      wireOf n p .a j = 0 ∧ wireOf n p .c j = 0 ∧
      wireOf n p .b j = (if c.skipGates ≤ j then vs.getD (2 * (j - c.skipGates)) 0 else 0) ∧
      wireOf n p .d j = (if j = 0 then alpha else if c.skipGates ≤ j then
        vs.getD (2 * (j - c.skipGates) + 1) 0 else 0) := by
  have hs := skip_pos c
  set v : Sparse.View F := Chain.pushValues c.numGates vs (Chain.pushSkipped (c.skipGates - 1)
    (Chain.pushGate ⟨[], [], [], []⟩ 0 0 0 alpha)) with hvv
  have hve : v = ⟨[0] ++ List.replicate (c.skipGates - 1) 0 ++ List.replicate c.numGates 0,
      [0] ++ List.replicate (c.skipGates - 1) 0 ++ (List.range c.numGates).map fun i => vs.getD (2 * i) 0,
      [0] ++ List.replicate (c.skipGates - 1) 0 ++ List.replicate c.numGates 0,
      [alpha] ++ List.replicate (c.skipGates - 1) 0 ++
        (List.range c.numGates).map fun i => vs.getD (2 * i + 1) 0⟩ := by
    rw [hvv, pushSkipped_eq, pushValues_eq]
    simp only [Chain.pushGate, List.nil_append]
  obtain ⟨p, h1, h2, h3⟩ := Props.C13_trace_build n v (by rw [hve]; simp; omega)
    (by rw [hve]; simp; omega) (by rw [hve]; simp; omega) (by rw [hve]; simp; omega)
  refine ⟨p, ?_, h2, fun j hj => ?_⟩
  · rw [Chain.rx, if_neg (by omega)]
    simp only [← hvv, h1]
  · obtain ⟨ea, eb, ec, ed⟩ := h3 j hj
    have hval : c.values ≤ 2 * c.numGates := by rw [Chain.numGates]; omega
    have hz : ∀ j, (List.replicate c.numGates (0 : F)).getD j 0 = 0 := fun j => by
      rw [List.getD_eq_getElem?_getD, List.getElem?_replicate]
      split_ifs <;> rfl
    have hbig : ∀ m, c.numGates ≤ m → vs.getD (2 * m) 0 = 0 ∧ vs.getD (2 * m + 1) 0 = 0 := by
      intro m hm
      constructor <;> rw [List.getD_eq_getElem?_getD, List.getElem?_eq_none (by omega)] <;> rfl
    refine ⟨?_, ?_, ?_, ?_⟩
    · refine ea.trans ?_
      rw [hve]
      simp only [getD_zeros_append, hz, ite_self]
    · refine ec.trans ?_
      rw [hve]
      simp only [getD_zeros_append, hz, ite_self]
    · refine eb.trans ?_
      rw [hve]
      simp only [getD_zeros_append, map_range_getD]
      by_cases hj0 : j = 0
      · rw [if_pos hj0, if_neg (by omega)]
      · rw [if_neg hj0]
        by_cases hjs : c.skipGates ≤ j
        · rw [if_neg (by omega), if_pos hjs, show j - 1 - (c.skipGates - 1) = j - c.skipGates by omega]
          by_cases hlt : j - c.skipGates < c.numGates
          · rw [if_pos hlt]
          · rw [if_neg hlt, (hbig _ (by omega)).1]
        · rw [if_pos (by omega), if_neg hjs]
    · refine ed.trans ?_
      rw [hve]
      simp only [getD_zeros_append, map_range_getD]
      by_cases hj0 : j = 0
      · rw [if_pos hj0, if_pos hj0]
      · rw [if_neg hj0, if_neg hj0]
        by_cases hjs : c.skipGates ≤ j
        · rw [if_neg (by omega), if_pos hjs, show j - 1 - (c.skipGates - 1) = j - c.skipGates by omega]
          by_cases hlt : j - c.skipGates < c.numGates
          · rw [if_pos hlt]
          · rw [if_neg hlt, (hbig _ (by omega)).2]
        · rw [if_pos (by omega), if_neg hjs]

theorem rx_panics {n : ℕ} (c : Chain) (alpha : F) (vs : List F) (hv : vs.length ≤ c.values)
    (hn : n < c.skipGates + c.numGates) : c.rx n alpha vs = .error .panic := by
  have hs := skip_pos c
  set v : Sparse.View F := Chain.pushValues c.numGates vs (Chain.pushSkipped (c.skipGates - 1)
    (Chain.pushGate ⟨[], [], [], []⟩ 0 0 0 alpha)) with hvv
  have hl : n < v.a.length := by
    rw [hvv, pushSkipped_eq, pushValues_eq]
    simp [Chain.pushGate]; omega
  have h1 := (Props.C13_build_panics n v).2 (.inl hl)
  rw [Chain.rx, if_neg (by omega)]
  simp only [← hvv, h1]

/-! ### The builder -/

theorem padding_eq : ∀ (d g w : ℕ), 2 * g - w = d → w ≤ 2 * g → padding g w = 2 * g - w := by
  intro d
  induction d with
  | zero =>
    intro g w hd hw
    rw [padding, if_neg (by omega)]; omega
  | succ d ih =>
    intro g w hd hw
    rw [padding, if_pos (by omega), ih g (w + 1) (by omega) (by omega)]; omega

theorem allocZeros_add (a b : ℕ) (k : Prog F) :
    allocZeros a (allocZeros b k) = allocZeros (a + b) k := by
  induction a with
  | zero => simp [allocZeros]
  | succ a ih => rw [allocZeros, ih, show a + 1 + b = a + b + 1 by omega, allocZeros]

/-- A stage that fits allocates exactly the wires of its gates. -/
theorem configureStage_eq (p : Chain) (s : StageDef) (k : Prog F) :
    configureStage p s k = if s.values < s.numWires
      then .error (.gateBound (Chain.child p s).numGates)
      else .ok (allocZeros (2 * (Chain.child p s).numGates) k) := by
  rw [configureStage]
  by_cases h : s.values < s.numWires
  · rw [if_pos h, if_pos h]
  · rw [if_neg h, if_neg h]
    have hv : s.values ≤ 2 * (Chain.child p s).numGates := by
      rw [Chain.numGates, Chain.values]; omega
    rw [padding_eq _ _ _ rfl (by omega), allocZeros_add]
    congr 2; omega

/-- The total number of gates the stages of a chain reserve. -/
def chainGates : Chain → ℕ
  | .base => 0
  | .child p s => chainGates p + (Chain.child p s).numGates

theorem skip_chain : ∀ c : Chain, c.skipGates + c.numGates = 1 + chainGates c
  | .base => rfl
  | .child p s => by
    rw [chainGates, ← Nat.add_assoc, ← skip_chain p]; rfl

/-- Every stage's gadget fits the values it declares. -/
def StagesFit : Chain → Prop
  | .base => True
  | .child p s => StagesFit p ∧ s.numWires ≤ s.values

theorem multiStage_eq : ∀ (c : Chain) (k : Prog F), StagesFit c →
    multiStage c k = .ok (allocZeros (2 * chainGates c) k)
  | .base, k, _ => rfl
  | .child p s, k, h => by
    rw [multiStage, configureStage_eq, if_neg (by have := h.2; omega)]
    change multiStage p _ = _
    rw [multiStage_eq p _ h.1, allocZeros_add, chainGates]
    congr 2; omega

theorem multiStage_fails : ∀ (c : Chain) (k : Prog F), ¬StagesFit c →
    ∃ g, multiStage c k = .error (.gateBound g)
  | .base, k, h => absurd trivial h
  | .child p s, k, h => by
    rw [multiStage, configureStage_eq]
    by_cases hs : s.values < s.numWires
    · rw [if_pos hs]; exact ⟨_, rfl⟩
    · rw [if_neg hs]
      exact multiStage_fails p _ fun hp => h ⟨hp, by omega⟩

theorem firstWire_eq : ∀ c : Chain, firstWire c + 2 * c.numGates = 2 * chainGates c
  | .base => rfl
  | .child p s => by
    rw [firstWire, firstWire_eq p, chainGates]; ring

/-- Allocating the wires of `m` gates with no spare wire pending. -/
theorem run_allocs (φ : Base → F) (k : Prog F) : ∀ (m : ℕ) (pos : Pos) (log : List (Row F))
    (env : List F), pos.pend = none →
    run (semD φ) (allocZeros (2 * m) k) ⟨pos, log⟩ env =
      run (semD φ) k ⟨{ pos with gates := pos.gates + m }, log⟩
        (env ++ (List.range (2 * m)).map fun j =>
          φ ⟨(stageWire pos.gates j).1, pos.seg, (stageWire pos.gates j).2⟩)
  | 0, pos, log, env, _ => by simp [allocZeros]
  | m + 1, pos, log, env, hp => by
    rw [show 2 * (m + 1) = 2 * m + 1 + 1 by ring, allocZeros, allocZeros]
    have step : run (semD φ) (.alloc 0 (.alloc 0 (allocZeros (2 * m) k))) ⟨pos, log⟩ env =
        run (semD φ) (allocZeros (2 * m) k) ⟨{ pos with gates := pos.gates + 1 }, log⟩
          (env ++ [φ ⟨.b, pos.seg, pos.gates⟩] ++ [φ ⟨.d, pos.seg, pos.gates⟩]) := by
      obtain ⟨seg, nseg, gates, cons, pend⟩ := pos
      cases hp
      rfl
    rw [step, run_allocs φ k m { pos with gates := pos.gates + 1 } _ _ hp]
    congr 1
    · simp only [Nat.add_assoc, Nat.add_comm 1 m]
    · rw [List.range_succ_eq_map, List.range_succ_eq_map]
      simp only [List.map_cons, List.map_map, List.append_assoc, List.singleton_append,
        List.cons_append, List.nil_append]
      congr 3
      refine List.map_congr_left fun j _ => ?_
      simp only [Function.comp_apply, stageWire, Nat.succ_eq_add_one,
        show (j + 1 + 1) % 2 = j % 2 by omega, show (j + 1 + 1) / 2 = j / 2 + 1 by omega]
      congr 2; omega

theorem posRun_allocs (k : Prog F) : ∀ (m : ℕ) (pos : Pos), pos.pend = none →
    posRun (allocZeros (2 * m) k) pos = posRun k { pos with gates := pos.gates + m }
  | 0, pos, _ => by simp [allocZeros]
  | m + 1, pos, hp => by
    rw [show 2 * (m + 1) = 2 * m + 1 + 1 by ring, allocZeros, allocZeros]
    have step : posRun (.alloc (0 : F) (.alloc 0 (allocZeros (2 * m) k))) pos =
        posRun (allocZeros (2 * m) k) { pos with gates := pos.gates + 1 } := by
      obtain ⟨seg, nseg, gates, cons, pend⟩ := pos
      cases hp
      rfl
    rw [step, posRun_allocs k m { pos with gates := pos.gates + 1 } hp]
    congr 1
    simp only [Nat.add_assoc, Nat.add_comm 1 m]

theorem own_allocs (k : Prog F) : ∀ (m : ℕ) (g : TSeg F), Good g none →
    ∃ g', own (allocZeros (2 * m) k) g none = own k g' none ∧ Good g' none ∧
      g'.a.length = g.a.length + m ∧ ∀ κ i, (g'.col κ).getD i 0 = (g.col κ).getD i 0
  | 0, g, hg => ⟨g, rfl, hg, by simp, fun _ _ => rfl⟩
  | m + 1, g, hg => by
    obtain ⟨h1, h2, h3, _⟩ := id hg
    have hset : (g.d ++ [(0 : F)]).set g.a.length 0 = g.d ++ [0] := by
      rw [List.set_append_right _ _ (by omega)]
      simp [h3]
    have hstep : own (allocZeros (2 * (m + 1)) k) g none =
        own (allocZeros (2 * m) k) (g.push 0 0 0 0) none := by
      rw [show 2 * (m + 1) = 2 * m + 1 + 1 by ring, allocZeros, allocZeros]
      simp only [own, TSeg.push, hset]
    obtain ⟨g', e1, e2, e3, e4⟩ := own_allocs k m (g.push 0 0 0 0) (hg.push _ _ _ _)
    refine ⟨g', hstep.trans e1, e2, by rw [e3]; simp [TSeg.push]; omega, fun κ i => ?_⟩
    rw [e4]
    have hz : ∀ l : List F, (l ++ [0]).getD i 0 = l.getD i 0 := by
      intro l
      simp only [List.getD_eq_getElem?_getD]
      by_cases hi : i < l.length
      · rw [List.getElem?_append_left hi]
      · rw [List.getElem?_append_right (by omega), List.getElem?_eq_none (by omega : l.length ≤ i)]
        by_cases hi' : i - l.length = 0
        · simp [hi']
        · rw [List.getElem?_eq_none (by simp; omega)]
    cases κ <;> exact hz _

end Ragu.Circuit

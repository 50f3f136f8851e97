/-
The circuit of a stage mask: its constraints, counts and wiring polynomial.
-/
import Verif.Model.MaskCircuit
import Verif.Lemmas.Compile
import Verif.Lemmas.Bonding

set_option linter.unusedSectionVars false

namespace Ragu.Circuit
open Ragu Ragu.Spec Ragu.Unif Finset
variable {F : Type} [Field F] [DecidableEq F]

/-! ### Sequencing -/

theorem gatesThen_seq (q : Prog F) : ∀ (m : ℕ) (k : Prog F), (gatesThen m k).seq q = gatesThen m (k.seq q)
  | 0, _ => rfl
  | m + 1, k => by rw [gatesThen, Prog.seq, gatesThen_seq q m k]; rfl

theorem enforceThen_seq (q : Prog F) : ∀ (l : List (List (LcStep F WRef))) (k : Prog F),
    (enforceThen l k).seq q = enforceThen l (k.seq q)
  | [], _ => rfl
  | lc :: l, k => by rw [enforceThen, Prog.seq, enforceThen_seq q l k]; rfl

/-! ### Handles -/

theorem handles_gatesThen (k : Prog F) : ∀ (m : ℕ) (h : List ℕ),
    handles (gatesThen m k) h = handles k (h ++ ones (4 * m))
  | 0, h => by simp [gatesThen, ones]
  | m + 1, h => by
    rw [gatesThen, handles, handles_gatesThen k m, List.append_assoc]
    congr 2

theorem handles_enforceThen (k : Prog F) {h : List ℕ} : ∀ (l : List (List (LcStep F WRef))),
    (∀ lc ∈ l, usableLc h lc = true) → handles (enforceThen l k) h = handles k h
  | [], _ => rfl
  | lc :: l, hu => by
    rw [enforceThen, handles, if_pos (hu lc (by simp)),
      handles_enforceThen k l fun lc' h' => hu lc' (by simp [h'])]

/-! ### Counts -/

theorem posRun_gatesThen (k : Prog F) : ∀ (m : ℕ) (p : Pos),
    posRun (gatesThen m k) p = posRun k { p with gates := p.gates + m }
  | 0, _ => rfl
  | m + 1, p => by
    rw [gatesThen, posRun, posRun_gatesThen k m]
    simp only [Pos.gate, show p.gates + 1 + m = p.gates + (m + 1) by omega]

theorem posRun_enforceThen (k : Prog F) : ∀ (l : List (List (LcStep F WRef))) (p : Pos),
    posRun (enforceThen l k) p = posRun k { p with cons := p.cons + l.length }
  | [], _ => rfl
  | lc :: l, p => by
    rw [enforceThen, posRun, posRun_enforceThen k l]
    simp only [Pos.enforce, List.length_cons, show p.cons + 1 + l.length = p.cons + (l.length + 1) by omega]

theorem subCounts_gatesThen (k : Prog F) : ∀ m, subCounts (gatesThen m k) = subCounts k
  | 0 => rfl
  | m + 1 => by rw [gatesThen, subCounts, subCounts_gatesThen k m]

theorem subCounts_enforceThen (k : Prog F) : ∀ l, subCounts (enforceThen l k) = subCounts k
  | [] => rfl
  | lc :: l => by rw [enforceThen, subCounts, subCounts_enforceThen k l]

/-! ### Values -/

/-- The wires of the gates `g .. g + m` of the root. -/
def gateWires (φ : Base → F) : ℕ → ℕ → List F
  | _, 0 => []
  | g, m + 1 => [φ ⟨.a, 0, g⟩, φ ⟨.b, 0, g⟩, φ ⟨.c, 0, g⟩, φ ⟨.d, 0, g⟩] ++ gateWires φ (g + 1) m

theorem gateWires_get (φ : Base → F) (k : Kind) : ∀ (m g i : ℕ), i < m →
    (gateWires φ g m)[4 * i + k.place]? = some (φ ⟨k, 0, g + i⟩)
  | 0, _, _, h => absurd h (Nat.not_lt_zero _)
  | m + 1, g, 0, _ => by cases k <;> rfl
  | m + 1, g, i + 1, h => by
    have := gateWires_get φ k m (g + 1) i (by omega)
    rw [gateWires, show 4 * (i + 1) + k.place = 4 * i + k.place + 4 by ring,
      show g + (i + 1) = g + 1 + i by omega, ← this]
    rfl

theorem run_gatesThen (φ : Base → F) (k : Prog F) : ∀ (m g : ℕ) (log : List (Row F)) (env : List F),
    run (semD φ) (gatesThen m k) ⟨{ gates := g }, log⟩ env =
      run (semD φ) k ⟨{ gates := g + m }, log⟩ (env ++ gateWires φ g m)
  | 0, _, _, _ => by simp [gatesThen, gateWires]
  | m + 1, g, log, env => by
    have := run_gatesThen φ k m (g + 1) log
      (env ++ [φ ⟨.a, 0, g⟩, φ ⟨.b, 0, g⟩, φ ⟨.c, 0, g⟩, φ ⟨.d, 0, g⟩])
    rw [gatesThen, gateWires, ← List.append_assoc, show g + (m + 1) = g + 1 + m by omega, ← this]
    rfl

theorem run_enforceThen (φ : Base → F) (k : Prog F) {env : List F} {g : ℕ} :
    ∀ (l : List (List (LcStep F WRef))) (vs : List F) (c : ℕ) (log : List (Row F)),
    List.Forall₂ (fun lc v => ∃ lc', resolveLc (φ ⟨.b, 0, 0⟩) env lc = .ok lc' ∧ lcVal 1 lc' = v) l vs →
    run (semD φ) (enforceThen l k) ⟨{ gates := g, cons := c }, log⟩ env =
      run (semD φ) k ⟨{ gates := g, cons := c + vs.length }, log ++ rowsFrom 0 c vs⟩ env
  | [], _, _, _, .nil => by simp [enforceThen, rowsFrom]
  | lc :: l, v :: vs, c, log, .cons ⟨lc', h1, h2⟩ h => by
    have := run_enforceThen φ k (g := g) l vs (c + 1) (log ++ [⟨0, c, v⟩]) h
    rw [List.append_assoc, show c + 1 + vs.length = c + (v :: vs).length by simp; omega] at this
    rw [enforceThen, run]
    simp only [semD] at h1 ⊢
    rw [h1]
    subst h2
    exact this

/-! ### The weighted sum -/

theorem rowsFrom_append (s : ℕ) : ∀ (a b : List F) (k : ℕ),
    rowsFrom s k (a ++ b) = rowsFrom s k a ++ rowsFrom s (k + a.length) b
  | [], _, _ => by simp [rowsFrom]
  | x :: a, b, k => by
    simp only [List.cons_append, rowsFrom, rowsFrom_append s a b (k + 1), List.length_cons]
    rw [show k + 1 + a.length = k + (a.length + 1) by omega]

theorem weigh_rowsFrom {α : Type} (fp : List Seg) (y : F) (e : α → ℕ) (v : α → F) : ∀ (l : List α) (k : ℕ),
    (∀ i w, l[i]? = some w → consExp fp 0 (k + i) = e w) →
    weigh fp y (rowsFrom 0 k (l.map v)) = (l.map fun w => y ^ e w * v w).sum
  | [], _, _ => rfl
  | w :: l, k, h => by
    have := weigh_rowsFrom fp y e v l (k + 1) fun i w hi => by
      rw [← h (i + 1) w (by simpa using hi)]
      congr 1
      omega
    rw [weigh] at this ⊢
    simp only [List.map_cons, rowsFrom, List.sum_cons, this]
    rw [← h 0 w rfl, Nat.add_zero]

/-! ### The circuit of a mask -/

theorem isActive_iff (m : StageMask) (j : ℕ) : m.isActive j = true ↔ ¬Masked m.skipGates m.numGates j := by
  simp only [StageMask.isActive, Masked, Bool.or_eq_true, beq_iff_eq, Bool.and_eq_true,
    decide_eq_true_eq, ge_iff_le]
  tauto

theorem wireOrder_length {n : ℕ} (hn : 0 < n) : (StageMask.wireOrder n).length = 4 * n - 2 := by
  simp only [StageMask.wireOrder, List.length_append, List.length_map, List.length_drop,
    List.length_range, List.length_reverse]
  omega

theorem wireOrder_lt {n : ℕ} : ∀ w ∈ StageMask.wireOrder n, w.2 < n := by
  intro w hw
  simp only [StageMask.wireOrder, List.mem_append, List.mem_map, List.mem_reverse] at hw
  rcases hw with ((⟨j, h, rfl⟩ | ⟨j, h, rfl⟩) | ⟨j, h, rfl⟩) | ⟨j, h, rfl⟩
  · exact List.mem_range.1 (List.mem_of_mem_drop h)
  · exact List.mem_range.1 h
  · exact List.mem_range.1 h
  · exact List.mem_range.1 (List.mem_of_mem_drop h)

/-- The `i`-th constraint has the exponent of its wire. -/
theorem wireOrder_exp {n : ℕ} (hn : 0 < n) {i : ℕ} {w : Kind × ℕ}
    (h : (StageMask.wireOrder n)[i]? = some w) : 4 * n - 2 - i = wiringExp n w.2 w.1 := by
  simp only [StageMask.wireOrder, List.append_assoc, List.getElem?_append, List.length_map, List.length_drop,
    List.length_range, List.length_reverse, List.getElem?_map, List.getElem?_drop] at h
  split_ifs at h with h1 h2 h3 <;> rw [Option.map_eq_some_iff] at h
  · obtain ⟨j, hj, rfl⟩ := h
    rw [List.getElem?_range (by omega)] at hj
    cases hj
    simp only [wiringExp]; omega
  · obtain ⟨j, hj, rfl⟩ := h
    rw [List.getElem?_reverse (by simpa using h2), List.getElem?_range (by simp; omega)] at hj
    cases hj
    simp only [wiringExp, List.length_range]; omega
  · obtain ⟨j, hj, rfl⟩ := h
    rw [List.getElem?_range (by omega)] at hj
    cases hj
    simp only [wiringExp]; omega
  · obtain ⟨j, hj, rfl⟩ := h
    have hl := (List.getElem?_eq_some_iff.1 hj).1
    simp only [List.length_reverse, List.length_drop, List.length_range] at hl
    rw [List.getElem?_reverse (by simp; omega), List.getElem?_drop,
      List.getElem?_range (by simp; omega)] at hj
    cases hj
    simp only [wiringExp, List.length_drop, List.length_range]; omega

theorem mask_wellUsed (n : ℕ) (m : StageMask) : (m.circuit (F := F) n).WellUsed := by
  refine ⟨List.replicate (4 * (n - 1)) 0, ?_, fun i hi => List.eq_of_mem_replicate hi⟩
  rw [Circ.main, StageMask.circuit, gatesThen_seq, enforceThen_seq, handles_gatesThen, List.nil_append,
    handles_enforceThen]
  · show handles (.enforce [.add .one] (dropsProg (List.range (4 * (n - 1))))) _ = _
    rw [handles, if_pos (by simp [usableLc, LcStep.add, usable])]
    have := handles_drops (F := F) (4 * (n - 1)) 0
    simpa [List.range_eq_range'] using this
  · intro lc hlc
    obtain ⟨w, hw, rfl⟩ := List.mem_map.1 hlc
    rw [StageMask.wireConstraint]
    split_ifs with h
    · rfl
    · have h1 := wireOrder_lt w hw
      have h2 : w.2 ≠ 0 := fun h0 => h (by simp [StageMask.isActive, h0])
      have h3 : w.1.place < 4 := by cases w.1 <;> decide
      have : 4 * (w.2 - 1) + w.1.place < 4 * (n - 1) := by omega
      simp only [usableLc, LcStep.add, List.all_cons, List.all_nil, Bool.and_true]
      exact usable_ones this

theorem mask_counts {n : ℕ} (hn : 0 < n) (m : StageMask) :
    (m.circuit (F := F) n).counts = [(n, 4 * n - 1)] := by
  rw [Circ.counts, Circ.main, StageMask.circuit, gatesThen_seq, enforceThen_seq, subCounts_gatesThen,
    subCounts_enforceThen, posRun_gatesThen, posRun_enforceThen]
  have h1 : ∀ (l : List ℕ) p, posRun (l.foldr Prog.drop Prog.done : Prog F) p = p := posRun_drops
  have h2 : ∀ (l : List ℕ), subCounts (l.foldr Prog.drop Prog.done : Prog F) = [] := by
    intro l
    induction l with
    | nil => rfl
    | cons a l ih => exact ih
  simp only [epilogue, List.foldr_nil, Prog.seq, posRun, subCounts, h1, h2, Pos.enforce, Pos.gate,
    List.length_map, wireOrder_length hn]
  rw [show 0 + 1 + (n - 1) = n by omega, show 0 + (4 * n - 2) + 1 = 4 * n - 1 by omega]

/-- What the mask says of one wire. -/
def maskVal (φ : Base → F) (m : StageMask) (w : Kind × ℕ) : F :=
  if Masked m.skipGates m.numGates w.2 then φ ⟨w.1, 0, w.2⟩ else 0

theorem mask_constraints {n : ℕ} (hn : 0 < n) (m : StageMask) (φ : Base → F) :
    constraints φ (m.circuit (F := F) n) =
      rowsFrom 0 0 ((StageMask.wireOrder n).map (maskVal φ m)) ++ [⟨0, 4 * n - 2, φ ⟨.b, 0, 0⟩⟩] := by
  obtain ⟨s, es, os, h1, h2, h3, h4, -⟩ := log_parts φ (mask_wellUsed n m (F := F))
  have hos : os = [] := List.eq_nil_of_length_eq_zero h3
  subst hos
  rw [StageMask.circuit] at h1
  have hr := run_gatesThen φ (enforceThen ((StageMask.wireOrder n).map m.wireConstraint) .done)
    (n - 1) 1 [] []
  rw [show ({ pos := Pos.gate {} } : Sem F) = ⟨{ gates := 1 }, []⟩ from rfl, hr, List.nil_append,
    show ({ gates := 1 + (n - 1) } : Pos) = { gates := 1 + (n - 1), cons := 0 } from rfl,
    run_enforceThen φ .done _ ((StageMask.wireOrder n).map (maskVal φ m)), run] at h1
  · obtain ⟨rfl, -⟩ := Prod.mk.inj (Except.ok.inj h1)
    rw [h4]
    simp only [List.nil_append, rowsFrom, List.length_map, wireOrder_length hn, List.length_nil,
      Nat.zero_add, Nat.add_zero]
  · rw [List.forall₂_map_left_iff, List.forall₂_map_right_iff, List.forall₂_same]
    intro w hw
    rw [StageMask.wireConstraint, maskVal]
    by_cases h : Masked m.skipGates m.numGates w.2
    · rw [if_neg (by rw [isActive_iff]; exact not_not_intro h), if_pos h]
      have h5 := wireOrder_lt w hw
      have h6 : w.2 ≠ 0 := h.1
      have := gateWires_get φ w.1 (n - 1) 1 (w.2 - 1) (by omega)
      rw [show 1 + (w.2 - 1) = w.2 by omega] at this
      refine ⟨[.term (φ ⟨w.1, 0, w.2⟩) .one], ?_, ?_⟩
      · simp only [resolveLc, LcStep.add, resolve, this]
        rfl
      · simp [lcVal, Coeff.value]
    · rw [if_pos ((isActive_iff m w.2).2 h), if_neg h]
      exact ⟨[], rfl, rfl⟩

theorem list_sum_range (n : ℕ) (f : ℕ → F) : ((List.range n).map f).sum = ∑ j ∈ range n, f j := by
  induction n with
  | zero => rfl
  | succ n ih => rw [List.range_succ, List.map_append, List.sum_append, ih, sum_range_succ]; simp

theorem sum_drop_one {n : ℕ} (hn : 0 < n) (f : ℕ → F) (h0 : f 0 = 0) :
    (((List.range n).drop 1).map f).sum = ∑ j ∈ range n, f j := by
  obtain ⟨n, rfl⟩ : ∃ k, n = k + 1 := ⟨n - 1, by omega⟩
  rw [List.range_succ_eq_map, List.drop_one, List.tail_cons, List.map_map, sum_range_succ', h0, add_zero,
    ← list_sum_range]
  rfl

/-- The wiring polynomial of the circuit is the mask's, and the constraint on the constant wire. -/
theorem mask_wiring {n : ℕ} (hn : 0 < n) (m : StageMask) (x y : F) :
    wiringAt n (floorPlan (m.circuit (F := F) n).counts) (m.circuit n) x y =
      maskAt n m.skipGates m.numGates x y + x ^ (2 * n) := by
  rw [wiringAt, mask_constraints hn, mask_counts hn]
  have hfp : floorPlan [(n, 4 * n - 1)] = [⟨0, 0, n, 4 * n - 1⟩] := rfl
  rw [hfp, weigh_append, weigh_rowsFrom _ y (fun w => wiringExp n w.2 w.1) _ (StageMask.wireOrder n) 0]
  · have hlast : weigh [⟨0, 0, n, 4 * n - 1⟩] y [⟨0, 4 * n - 2,
        x ^ wiringExp n (absGate [⟨0, 0, n, 4 * n - 1⟩] ⟨.b, 0, 0⟩) .b⟩] = x ^ (2 * n) := by
      simp [weigh, consExp, wiringExp, absGate]
      rw [show 4 * n - 1 - 1 - (4 * n - 2) = 0 by omega, pow_zero, one_mul]
    rw [hlast]
    congr 1
    have h0 : ∀ k, maskVal (fun b => x ^ wiringExp n (absGate [⟨0, 0, n, 4 * n - 1⟩] b) b.kind) m (k, 0) =
        0 := fun k => by rw [maskVal, if_neg (fun h => h.1 rfl)]
    simp only [StageMask.wireOrder, List.map_append, List.map_map, List.map_reverse, List.sum_append,
      List.sum_reverse]
    rw [sum_drop_one hn _ (by simp only [Function.comp_apply, h0, mul_zero]),
      sum_drop_one hn _ (by simp only [Function.comp_apply, h0, mul_zero]),
      list_sum_range, list_sum_range, maskAt, ← sum_add_distrib, ← sum_add_distrib,
      ← sum_add_distrib]
    refine sum_congr rfl fun j _ => ?_
    simp only [Function.comp_apply, maskVal, absGate]
    split_ifs with h
    · simp only [List.getElem?_cons_zero, Option.map_some, Option.getD_some, Nat.zero_add, mul_pow]
      ring
    · ring
  · intro i w hw
    rw [← wireOrder_exp hn hw]
    simp only [consExp, List.getElem?_cons_zero, Option.map_some, Option.getD_some]
    omega

end Ragu.Circuit

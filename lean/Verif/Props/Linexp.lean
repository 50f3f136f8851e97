/-
Property C57: every representation of a linear expression means the same sum.
-/
import Verif.Lemmas.Exec
import Verif.Lemmas.WiringX
import Verif.Model.Sy
import Verif.Lemmas.TestField

set_option linter.unusedSectionVars false

namespace Ragu.Props
open Ragu Ragu.Circuit Finset
variable {F : Type} [Field F] [DecidableEq F]

/-- The product of the gains called so far, starting from `g`. -/
def gainsOf {W : Type} (g : F) : List (LcStep F W) → F
  | [] => g
  | .term _ _ :: r => gainsOf g r
  | .gain c :: r => gainsOf (g * c.value) r

/-- Independent specification: the sum over all positions `i` that hold a term of
wire × coefficient × (product of all gains before position `i`). -/
def meaning {W : Type} (val : W → F) (lc : List (LcStep F W)) : F :=
  ∑ i ∈ range lc.length, match lc[i]? with
    | some (.term w c) => val w * c.value * gainsOf 1 (lc.take i)
    | _ => 0

/-- Replace wires by their values. -/
def mapWires {W V : Type} (val : W → V) : List (LcStep F W) → List (LcStep F V)
  | [] => []
  | .term w c :: r => .term (val w) c :: mapWires val r
  | .gain c :: r => .gain c :: mapWires val r

theorem gainsOf_mul {W : Type} (lc : List (LcStep F W)) : ∀ g : F,
    gainsOf g lc = g * gainsOf 1 lc := by
  induction lc with
  | nil => intro g; simp [gainsOf]
  | cons s r ih =>
    intro g
    cases s with
    | term w c => simpa [gainsOf] using ih g
    | gain c =>
      simp only [gainsOf]
      rw [ih (g * c.value), ih (1 * c.value)]
      ring

theorem lcVal_meaning {W : Type} (val : W → F) (lc : List (LcStep F W)) : ∀ g : F,
    lcVal g (mapWires val lc) = g * meaning val lc := by
  induction lc with
  | nil => intro g; simp [lcVal, mapWires, meaning]
  | cons s r ih =>
    intro g
    cases s with
    | term w c =>
      simp only [mapWires, lcVal, ih, meaning, List.length_cons]
      rw [sum_range_succ']
      simp only [List.getElem?_cons_succ, List.take_succ_cons, gainsOf, List.getElem?_cons_zero,
        List.take_zero]
      ring
    | gain c =>
      simp only [mapWires, lcVal, ih, meaning, List.length_cons]
      rw [sum_range_succ']
      simp only [List.getElem?_cons_succ, List.take_succ_cons, gainsOf, List.getElem?_cons_zero,
        add_zero, mul_sum]
      refine sum_congr rfl fun i _ => ?_
      cases r[i]? with
      | none => simp
      | some s => cases s with
        | gain _ => simp
        | term w d =>
          simp only
          rw [gainsOf_mul _ (1 * c.value)]
          ring

theorem mapWires_id (lc : List (LcStep F F)) : mapWires (fun v => v) lc = lc := by
  induction lc with
  | nil => rfl
  | cons s r ih => cases s <;> simp [mapWires, ih]

/-- C57: the value accumulated when wires are field values. -/
theorem C57_direct_sum (lc : List (LcStep F F)) : directSum lc = meaning (fun v => v) lc := by
  rw [directSum_eq, ← mapWires_id lc, lcVal_meaning, mapWires_id, one_mul]

/-- C57: the value accumulated when wires are evaluations of monomials or the
constant wire. -/
theorem C57_wire_eval_sum (one : F) (lc : List (LcStep F (WireEval F))) :
    wireEvalSum one 0 .one lc = meaning (WireEval.val one) lc := by
  have : LcRel (fun w e => WireEval.val one e = w) (mapWires (WireEval.val one) lc) lc := by
    induction lc with
    | nil => exact .nil
    | cons s r ih => cases s with
      | term w c => exact .term rfl ih
      | gain c => exact .gain ih
  rw [wireEvalSum_eq one this, lcVal_meaning]
  simp [Coeff.value]

theorem collect_meaning (val : WIdx → F) (lc : List (LcStep F WIdx)) : ∀ (T : Table F) (g : Coeff F)
    {T' : Table F} {ts : List (WIdx × Coeff F)}, T.collect g lc = .ok (T', ts) →
    (ts.map fun t => t.2.value * val t.1).sum = lcVal g.value (mapWires val lc) := by
  induction lc with
  | nil =>
    intro T g T' ts h
    simp only [Table.collect, Except.ok.injEq, Prod.mk.injEq] at h
    rw [← h.2]; simp [lcVal, mapWires]
  | cons s r ih =>
    intro T g T' ts h
    cases s with
    | gain c =>
      simp only [Table.collect] at h
      rw [ih T _ h, mapWires, lcVal, C08_mul]
    | term w c =>
      simp only [Table.collect] at h
      cases h1 : T.incr w with
      | error e => rw [h1] at h; exact absurd h (by simp [bind, Except.bind])
      | ok T1 =>
        rw [h1, bind_ok] at h
        cases h2 : T1.collect g r with
        | error e => rw [h2] at h; exact absurd h (by simp [bind, Except.bind])
        | ok p =>
          obtain ⟨T2, ts2⟩ := p
          rw [h2, bind_ok] at h
          simp only [Except.ok.injEq, Prod.mk.injEq] at h
          rw [← h.2, List.map_cons, List.sum_cons, ih _ _ h2, mapWires, lcVal, C08_mul]

/-- C57: the terms recorded for a virtual wire, under every valuation of wires. -/
theorem C57_term_collector (val : WIdx → F) {T T' : Table F} {lc : List (LcStep F WIdx)}
    {ts : List (WIdx × Coeff F)} (h : T.collect .one lc = .ok (T', ts)) :
    (ts.map fun t => t.2.value * val t.1).sum = meaning val lc := by
  rw [collect_meaning val lc T .one h, lcVal_meaning]
  simp [Coeff.value]

/-- The weighted sum of everything accumulated in a table of buffers and virtual
wires, under a valuation of wires. -/
def tableSum (val : WIdx → F) (T : Table F) : F :=
  (∑ i ∈ range (T.buf .a).length, (T.buf .a).getD i 0 * val (.gate .a i)) +
  (∑ i ∈ range (T.buf .b).length, (T.buf .b).getD i 0 * val (.gate .b i)) +
  (∑ i ∈ range (T.buf .c).length, (T.buf .c).getD i 0 * val (.gate .c i)) +
  (∑ i ∈ range (T.buf .d).length, (T.buf .d).getD i 0 * val (.gate .d i)) +
  (∑ i ∈ range T.wires.length, ((T.wires.map fun w => w.value.value).getD i 0) * val (.virt i))

theorem sum_set_add (l : List F) (f : ℕ → F) {i : ℕ} (hi : i < l.length) (v : F) :
    ∑ j ∈ range (l.set i (l.getD i 0 + v)).length, (l.set i (l.getD i 0 + v)).getD j 0 * f j =
      ∑ j ∈ range l.length, l.getD j 0 * f j + v * f i := by
  rw [List.length_set]
  have : ∀ j ∈ range l.length, (l.set i (l.getD i 0 + v)).getD j 0 * f j =
      l.getD j 0 * f j + if j = i then v * f i else 0 := by
    intro j hj
    rw [getD_set _ _ _ _ hi]
    by_cases h : j = i
    · subst h; simp; ring
    · rw [if_neg h]; simp [h]
  rw [sum_congr rfl this, sum_add_distrib, sum_ite_eq', if_pos (mem_range.2 hi)]

theorem add_tableSum (val : WIdx → F) {T T' : Table F} {w : WIdx} {v : Coeff F}
    (h : T.add w v = .ok T') : tableSum val T' = tableSum val T + v.value * val w := by
  cases w with
  | gate k i =>
    simp only [Table.add] at h
    split at h
    case isFalse => cases h
    case isTrue hi =>
      simp only [Except.ok.injEq] at h
      subst h
      have hs := sum_set_add (T.buf k) (fun i => val (.gate k i)) hi v.value
      cases k <;>
        simp only [tableSum, Function.update_self, Function.update_of_ne, ne_eq, reduceCtorEq,
          not_false_eq_true, hs] <;> ring
  | virt i =>
    simp only [Table.add] at h
    split at h
    case h_2 => cases h
    case h_1 wv hw =>
      simp only [Except.ok.injEq] at h
      subst h
      have hi : i < T.wires.length := by
        by_contra hc
        rw [List.getElem?_eq_none (by omega)] at hw
        cases hw
      have hs := sum_set_add (T.wires.map fun w => w.value.value) (fun i => val (.virt i))
        (i := i) (by simpa using hi) v.value
      have hmap : (T.wires.set i { wv with value := Coeff.add wv.value v }).map
          (fun w => w.value.value) = (T.wires.map fun w => w.value.value).set i
          ((T.wires.map fun w => w.value.value).getD i 0 + v.value) := by
        rw [List.map_set, List.getD_eq_getElem?_getD, List.getElem?_map, hw]
        simp [C08_add]
      simp only [tableSum]
      rw [hmap, List.length_set]
      simp only [List.length_set, List.length_map] at hs
      rw [hs]
      ring

/-- C57: enforcing a constraint adds exactly the meaning of its expression, scaled
by the initial gain, under every valuation of wires. -/
theorem C57_term_enforcer (val : WIdx → F) (lc : List (LcStep F WIdx)) : ∀ {T T' : Table F}
    {g : Coeff F}, T.enforce g lc = .ok T' →
    tableSum val T' = tableSum val T + g.value * meaning val lc := by
  intro T T' g h
  rw [← lcVal_meaning]
  induction lc generalizing T g with
  | nil =>
    simp only [Table.enforce, Except.ok.injEq] at h
    subst h; simp [mapWires, lcVal]
  | cons s r ih =>
    cases s with
    | gain c =>
      simp only [Table.enforce] at h
      rw [ih h, mapWires, lcVal, C08_mul]
    | term w c =>
      simp only [Table.enforce] at h
      cases h1 : T.add w (Coeff.mul c g) with
      | error e => rw [h1] at h; exact absurd h (by simp [bind, Except.bind])
      | ok T1 =>
        rw [h1, bind_ok] at h
        rw [ih h, add_tableSum val h1, mapWires, lcVal, C08_mul]
        ring

-- 3·w + (gain 2) 5·v − (gain 2·−1) ... on values 10, 20, 30
example : directSum ([.term 10 (.arbitrary 3), .gain .two, .term 20 .one, .gain .negativeOne,
    .term 30 .two] : List (LcStep (ZMod 97) (ZMod 97))) = 30 + 40 - 120 := by decide +kernel
example : ∃ T' ts, (Table.mk [] [] (fun _ => [0, 0]) : Table (ZMod 97)).collect .one
    [.term (.gate .a 0) .two, .gain .two, .term (.gate .b 1) .one] = .ok (T', ts) := ⟨_, _, rfl⟩
example : ∃ T', (Table.mk [] [] (fun _ => [0, 0]) : Table (ZMod 97)).enforce .two
    [.term (.gate .a 0) .two, .gain .two, .term (.gate .b 1) .one] = .ok T' := ⟨_, rfl⟩

end Ragu.Props

/-
Properties C09, C10, C11, C13: block-sparse polynomials.
-/
import Verif.Lemmas.TestField
import Verif.Lemmas.Sparse2
import Mathlib.Data.ZMod.Basic
import Mathlib.Algebra.Field.ZMod
import Mathlib.Tactic.NormNum
import Mathlib.Tactic.NormNum.Prime

set_option linter.unusedSectionVars false

namespace Ragu.Props
open Ragu Spec Sparse Finset

section
variable {F : Type*} [Field F] [DecidableEq F]

/-! ### C09 -/

/-- C09: `from_coeffs` accepts exactly the vectors that fit, produces a
well-formed polynomial and keeps every coefficient. -/
theorem C09_from_coeffs (N : ℕ) (l : List F) (h : l.length ≤ N) :
    ∃ p, fromCoeffs N l = some p ∧ WellFormed N p ∧ ∀ k, coeff p k = l.getD k 0 := by
  have hwf : WellFormedFrom 0 N (extendRuns [] 0 l) := by
    have := extendRuns_wf (out := ([] : Poly F)) (base := 0) (lo := 0) (data := l) trivial le_rfl
    exact wf_weaken this (by omega)
  refine ⟨extendRuns [] 0 l, ?_, hwf, fun k => ?_⟩
  · rw [fromCoeffs, if_pos h, fromBlocks_eq_some hwf]
  · rw [extendRuns_coeff]; simp [blockCoeff]

/-- C09: … and panics on all others. -/
theorem C09_from_coeffs_panics (N : ℕ) (l : List F) :
    fromCoeffs N l = none ↔ N < l.length := by
  constructor
  · intro h
    by_contra hle
    obtain ⟨p, hp, _⟩ := C09_from_coeffs N l (by omega)
    rw [hp] at h; simp at h
  · intro h; rw [fromCoeffs, if_neg (by omega)]

theorem dense_slice_head (p : Poly F) (a b : ℕ) :
    ((List.range' a (b - a)).map (coeff p)).head? = if a < b then some (coeff p a) else none := by
  split
  · next h => rw [show b - a = (b - a - 1) + 1 by omega, List.range'_succ]; simp
  · next h => rw [show b - a = 0 by omega]; simp

theorem iter_aux (N : ℕ) (p : Poly F) (hp : WellFormed N p) (sched : List Bool)
    (it : CoeffIter F) (hinv : IterInv N p it) (hbb : it.backBlock ≤ p.length) :
    it.run sched = deque sched ((List.range' it.front (it.back - it.front)).map (coeff p)) := by
  induction sched generalizing it with
  | nil => rfl
  | cons s sched ih =>
    cases s with
    | false =>
      simp only [CoeffIter.run, deque]
      obtain ⟨n1, n2⟩ := next_spec hp it hinv
      rcases Nat.lt_or_ge it.front it.back with h | h
      · obtain ⟨it', e1, e2, e3, e4, e5⟩ := n2 h
        rw [e1, ih it' e2 (by rw [e5]; exact hbb), e3, e4]
        rw [show it.back - it.front = (it.back - (it.front + 1)) + 1 by omega, List.range'_succ]
        simp
      · rw [n1 h, ih it hinv hbb, show it.back - it.front = 0 by omega]
        simp
    | true =>
      simp only [CoeffIter.run, deque]
      obtain ⟨n1, n2⟩ := nextBack_spec hp it hinv hbb
      rcases Nat.lt_or_ge it.front it.back with h | h
      · obtain ⟨it', e1, e2, e3, e4, e5⟩ := n2 h
        rw [e1, ih it' e2 e5, e3, e4]
        rw [show it.back - it.front = (it.back - 1 - it.front) + 1 by omega, List.range'_concat]
        simp only [mul_one, one_mul, List.map_append, List.map_cons, List.map_nil,
          List.getLast?_append, List.getLast?_singleton, List.dropLast_concat, Option.some_or]
        rw [show it.front + (it.back - 1 - it.front) = it.back - 1 by omega]
      · rw [n1 h, ih it hinv hbb, show it.back - it.front = 0 by omega]
        simp

/-- C09: any interleaving of `next` and `next_back` calls on a well-formed
polynomial returns exactly what a double-ended iterator over the dense vector of
length `N` returns, including `None` forever once the ends meet. -/
theorem C09_iter (N : ℕ) (p : Poly F) (hp : WellFormed N p) (sched : List Bool) :
    (iterCoeffs N p).run sched = deque sched (dense N p) := by
  have := iter_aux N p hp sched (iterCoeffs N p)
    ⟨rfl, le_rfl, fun i hi => by simp [iterCoeffs] at hi, fun i hi b hb => by
      rw [List.getElem?_eq_none (by simpa [iterCoeffs] using hi)] at hb; simp at hb⟩
    (by simp [iterCoeffs])
  rw [this, dense, List.range_eq_range']
  simp [iterCoeffs]

/-- C09: compressing a dense vector and iterating it in any order gives back the
vector padded with zeros to length `N`. -/
theorem C09_round_trip (N : ℕ) (l : List F) (h : l.length ≤ N) (sched : List Bool) :
    ∃ p, fromCoeffs N l = some p ∧
      (iterCoeffs N p).run sched = deque sched (l ++ List.replicate (N - l.length) 0) := by
  obtain ⟨p, h1, h2, h3⟩ := C09_from_coeffs N l h
  refine ⟨p, h1, ?_⟩
  rw [C09_iter N p h2]
  congr 1
  apply List.ext_getElem
  · simp [dense]; omega
  · intro i hi hi'
    simp only [dense, List.getElem_map, List.getElem_range, h3]
    simp only [List.getElem_append, List.getD_eq_getElem?_getD]
    split
    · next hlt => simp [hlt]
    · next hlt => simp [Nat.not_lt.mp hlt]

theorem trimmed_aux (cs : List F) (pos : ℕ) (rs : Option ℕ) (run : List F) (zc : ℕ)
    (hr : rs.isSome → ∃ a m, (run = [a] ∧ a ≠ 0) ∨ (∃ z, run = a :: m ++ [z] ∧ a ≠ 0 ∧ z ≠ 0))
    (hn : rs = none → run = []) :
    ∀ b ∈ runsLoop pos rs run zc cs, b.2.head?.any (· ≠ 0) ∧ b.2.getLast?.any (· ≠ 0) := by
  induction cs generalizing pos rs run zc with
  | nil =>
    cases rs with
    | none => simp [runsLoop]
    | some s =>
      intro b hb
      simp only [runsLoop, List.mem_singleton] at hb
      subst hb
      obtain ⟨a, m, h | ⟨z, h, ha, hz⟩⟩ := hr rfl
      · simp [h.1, h.2]
      · simp [h, ha, hz, List.getLast?_append, List.getLast?_cons]
  | cons c cs ih =>
    cases rs with
    | none =>
      have hrun := hn rfl
      subst hrun
      simp only [runsLoop]
      split
      · exact ih _ _ _ _ (by simp) (by simp)
      · next hc =>
        exact ih _ _ _ _ (fun _ => ⟨c, [], Or.inl ⟨by simp, hc⟩⟩) (by simp)
    | some s =>
      simp only [runsLoop]
      split
      · split
        · intro b hb
          rcases List.mem_cons.mp hb with rfl | hb
          · obtain ⟨a, m, h | ⟨z, h, ha, hz⟩⟩ := hr rfl
            · simp [h.1, h.2]
            · simp [h, ha, hz, List.getLast?_append, List.getLast?_cons]
          · exact ih _ _ _ _ (by simp) (by simp) b hb
        · exact ih _ _ _ _ hr (by simp)
      · next hc =>
        refine ih _ _ _ _ (fun _ => ?_) (by simp)
        obtain ⟨a, m, h | ⟨z, h, ha, hz⟩⟩ := hr rfl
        · exact ⟨a, List.replicate zc 0, Or.inr ⟨c, by simp [h.1], h.2, hc⟩⟩
        · exact ⟨a, m ++ [z] ++ List.replicate zc 0, Or.inr ⟨c, by simp [h], ha, hc⟩⟩

/-- C09: every block stored by `from_coeffs` starts and ends with a non-zero value. -/
theorem C09_trimmed (N : ℕ) (l : List F) (p : Poly F) (h : fromCoeffs N l = some p) :
    ∀ b ∈ p, b.2.head?.any (· ≠ 0) ∧ b.2.getLast?.any (· ≠ 0) := by
  unfold fromCoeffs at h
  split at h
  · rw [(fromBlocks_some h).1]
    simpa [extendRuns] using trimmed_aux l 0 none [] 0 (by simp) (by simp)
  · simp at h

/-- No more than four zeros in a row. -/
def ShortGaps (l : List F) : Prop := ∀ i, i + 5 ≤ l.length → ∃ j < 5, l.getD (i + j) 0 ≠ 0

theorem shortGaps_append {run : List F} {zc : ℕ} {c : F} (h : ShortGaps run)
    (hl : run.getD (run.length - 1) 0 ≠ 0) (hz : zc ≤ 4) (hc : c ≠ 0) :
    ShortGaps (run ++ List.replicate zc 0 ++ [c]) ∧
      (run ++ List.replicate zc 0 ++ [c]).getD ((run ++ List.replicate zc 0 ++ [c]).length - 1) 0 ≠ 0 := by
  have hr : run.length ≠ 0 := fun e => hl (by rw [List.length_eq_zero_iff.1 e]; rfl)
  have last : (run ++ List.replicate zc 0 ++ [c]).getD (run.length + zc) 0 ≠ 0 := by
    rw [List.getD_eq_getElem?_getD, List.getElem?_append_right (by simp)]
    simpa using hc
  refine ⟨fun i hi => ?_, ?_⟩
  · simp only [List.length_append, List.length_replicate, List.length_singleton] at hi
    by_cases h1 : i + 5 ≤ run.length
    · obtain ⟨j, hj, hne⟩ := h i h1
      refine ⟨j, hj, ?_⟩
      rwa [List.append_assoc, List.getD_eq_getElem?_getD, List.getElem?_append_left (by omega),
        ← List.getD_eq_getElem?_getD]
    · by_cases h2 : i + 5 = run.length + zc + 1
      · exact ⟨4, by omega, by rw [show i + 4 = run.length + zc by omega]; exact last⟩
      · refine ⟨run.length - 1 - i, by omega, ?_⟩
        rw [List.append_assoc, List.getD_eq_getElem?_getD, List.getElem?_append_left (by omega),
          ← List.getD_eq_getElem?_getD, show i + (run.length - 1 - i) = run.length - 1 by omega]
        exact hl
  · have e : (run ++ List.replicate zc 0 ++ [c]).length - 1 = run.length + zc := by simp
    rw [e]
    exact last

theorem gaps_aux (l : List F) : ∀ (pos : ℕ) (o : Option ℕ) (run : List F) (zc : ℕ),
    (o = none → run = [] ∧ zc = 0) →
    (∀ s, o = some s → pos = s + run.length + zc ∧ zc ≤ 4 ∧ ShortGaps run ∧
      run.getD (run.length - 1) 0 ≠ 0) →
    (∀ b ∈ runsLoop pos o run zc l, ShortGaps b.2) ∧
    List.IsChain (fun b c : Block F => b.1 + b.2.length + 5 ≤ c.1) (runsLoop pos o run zc l) ∧
    ∀ b ∈ (runsLoop pos o run zc l).head?, o.getD pos ≤ b.1 := by
  induction l with
  | nil =>
    intro pos o run zc h1 h2
    cases o with
    | none => simp [runsLoop]
    | some s =>
      obtain ⟨-, -, h, -⟩ := h2 s rfl
      simpa [runsLoop] using h
  | cons c cs ih =>
    intro pos o run zc h1 h2
    cases o with
    | none =>
      obtain ⟨rfl, rfl⟩ := h1 rfl
      simp only [runsLoop]
      split
      · obtain ⟨a, b, d⟩ := ih (pos + 1) none [] 0 (fun _ => ⟨rfl, rfl⟩) (fun s h => by cases h)
        exact ⟨a, b, fun x hx => by have := d x hx; simp only [Option.getD_none] at this ⊢; omega⟩
      · rename_i hc
        obtain ⟨a, b, d⟩ := ih (pos + 1) (some pos) [c] 0 (fun h => by cases h) (fun s h => by
          cases h
          exact ⟨by simp, by omega, fun i hi => by simp at hi, by simpa using hc⟩)
        exact ⟨a, b, d⟩
    | some s =>
      obtain ⟨hp, hz, hg, hl⟩ := h2 s rfl
      simp only [runsLoop]
      split
      · split
        · rename_i hgt
          rw [gapTolerance] at hgt
          obtain ⟨a, b, d⟩ := ih (pos + 1) none [] 0 (fun _ => ⟨rfl, rfl⟩) (fun s h => by cases h)
          refine ⟨fun x hx => ?_, ?_, fun x hx => ?_⟩
          · rcases List.mem_cons.1 hx with rfl | hx
            · exact hg
            · exact a x hx
          · refine List.IsChain.cons b fun x hx => ?_
            have := d x hx
            simp only [Option.getD_none] at this
            dsimp only
            omega
          · cases hx
            exact le_rfl
        · rename_i hgt
          rw [gapTolerance] at hgt
          exact ih (pos + 1) (some s) run (zc + 1) (fun h => by cases h) (fun s' h => by
            cases h
            exact ⟨by omega, by omega, hg, hl⟩)
      · rename_i hc
        obtain ⟨e1, e2⟩ := shortGaps_append hg hl hz hc
        exact ih (pos + 1) (some s) _ 0 (fun h => by cases h) (fun s' h => by
          cases h
          exact ⟨by simp; omega, by omega, e1, e2⟩)

/-- C09: up to four zeros in a row are kept inside a block; five or more separate two blocks. -/
theorem C09_gaps (N : ℕ) (l : List F) (p : Poly F) (h : fromCoeffs N l = some p) :
    (∀ b ∈ p, ∀ i, i + 5 ≤ b.2.length → ∃ j < 5, b.2.getD (i + j) 0 ≠ 0) ∧
    List.IsChain (fun b c : Block F => b.1 + b.2.length + 5 ≤ c.1) p := by
  unfold fromCoeffs at h
  split at h
  · rw [(fromBlocks_some h).1]
    obtain ⟨a, b, -⟩ := gaps_aux l 0 none [] 0 (fun _ => ⟨rfl, rfl⟩) (fun s h => by cases h)
    exact ⟨a, b⟩
  · simp at h

example : fromCoeffs 16 [(0 : ZMod 97), 3, 0, 0, 0, 0, 5, 0, 0, 0, 0, 0, 7] =
    some [(1, [3, 0, 0, 0, 0, 5]), (12, [7])] := by decide +kernel

/-! ### C10 -/

/-- Register files correspond: same number of registers, each well formed with
the coefficients of its dense counterpart. -/
def RegsAgree (N : ℕ) (ps : List (Poly F)) (ds : List (ℕ → F)) : Prop :=
  ps.length = ds.length ∧
    ∀ (i : ℕ) (p : Poly F), ps[i]? = some p → WellFormed N p ∧ ds[i]? = some (coeff p)

theorem RegsAgree.get_none {N : ℕ} {ps : List (Poly F)} {ds : List (ℕ → F)}
    (h : RegsAgree N ps ds) {i : ℕ} (hi : ps[i]? = none) : ds[i]? = none := by
  rw [List.getElem?_eq_none_iff] at *
  have := h.1; omega

theorem RegsAgree.push {N : ℕ} {ps : List (Poly F)} {ds : List (ℕ → F)}
    (h : RegsAgree N ps ds) {p : Poly F} {d : ℕ → F} (hp : WellFormed N p)
    (hd : ∀ k, coeff p k = d k) : RegsAgree N (ps ++ [p]) (ds ++ [d]) := by
  refine ⟨by simp [h.1], fun i q hq => ?_⟩
  rw [List.getElem?_append] at hq ⊢
  rw [← h.1]
  split at hq
  · next hlt => rw [if_pos hlt]; exact h.2 i q hq
  · next hlt =>
    rw [if_neg hlt]
    rcases hm : i - ps.length with _ | m
    · rw [hm] at hq
      simp only [List.getElem?_cons_zero, Option.some.injEq] at hq
      subst hq
      exact ⟨hp, by simp only [List.getElem?_cons_zero, Option.some.injEq]; funext k; exact (hd k).symm⟩
    · rw [hm] at hq; simp at hq

theorem RegsAgree.set {N : ℕ} {ps : List (Poly F)} {ds : List (ℕ → F)}
    (h : RegsAgree N ps ds) {p : Poly F} {d : ℕ → F} (hp : WellFormed N p)
    (hd : ∀ k, coeff p k = d k) (i : ℕ) : RegsAgree N (ps.set i p) (ds.set i d) := by
  refine ⟨by simp [h.1], fun j q hq => ?_⟩
  rw [List.getElem?_set] at hq ⊢
  rw [← h.1]
  split at hq
  · next hij =>
    rw [if_pos hij]
    split at hq
    · next hlt =>
      rw [if_pos hlt]
      simp only [Option.some.injEq] at hq
      subst hq
      exact ⟨hp, by simp only [Option.some.injEq]; funext k; exact (hd k).symm⟩
    · simp at hq
  · next hij => rw [if_neg hij]; exact h.2 j q hq

theorem RegsAgree.mapM {N : ℕ} {ps : List (Poly F)} {ds : List (ℕ → F)}
    (h : RegsAgree N ps ds) (is : List ℕ) :
    (is.mapM (fun i => ps[i]?) = none ∧ is.mapM (fun i => ds[i]?) = none) ∨
    ∃ qs, is.mapM (fun i => ps[i]?) = some qs ∧ is.mapM (fun i => ds[i]?) = some (qs.map coeff) ∧
      ∀ q ∈ qs, WellFormed N q := by
  induction is with
  | nil => right; exact ⟨[], by simp⟩
  | cons i is ih =>
    simp only [List.mapM_cons]
    cases hi : ps[i]? with
    | none => left; simp [h.get_none hi]
    | some p =>
      obtain ⟨hw, hd⟩ := h.2 i p hi
      rw [hd]
      rcases ih with ⟨i1, i2⟩ | ⟨qs, i1, i2, i3⟩
      · left; simp [i1, i2]
      · right
        refine ⟨p :: qs, by simp [i1], by simp [i2], ?_⟩
        intro q hq
        rcases List.mem_cons.mp hq with rfl | hq
        · exact hw
        · exact i3 q hq

/-- C10: one operation, started from agreeing registers, either is rejected by
both machines or succeeds in both and keeps them in agreement. -/
theorem C10_step (N : ℕ) (op : PolyOp F) (ps : List (Poly F)) (ds : List (ℕ → F))
    (h : RegsAgree N ps ds) :
    (exec N op ps = none ∧ op.dense N ds = none) ∨
    ∃ ps' ds', exec N op ps = some ps' ∧ op.dense N ds = some ds' ∧ RegsAgree N ps' ds' := by
  cases op with
  | fromCoeffs l =>
    by_cases hl : l.length ≤ N
    · right
      obtain ⟨p, h1, h2, h3⟩ := C09_from_coeffs N l hl
      exact ⟨_, _, by simp only [exec, h1, Option.map_some], by simp only [PolyOp.dense, if_pos hl],
        h.push h2 h3⟩
    · left
      simp [exec, PolyOp.dense, hl, (C09_from_coeffs_panics N l).mpr (by omega)]
  | random l =>
    by_cases hl : l.length = N ∧ 0 < N
    · right
      have hw : WellFormed N [(0, l)] :=
        ⟨le_rfl, fun h0 => by rw [h0] at hl; simp at hl; omega, by omega, trivial⟩
      refine ⟨_, ds ++ [fun k => l.getD k 0], ?_, by simp only [PolyOp.dense, if_pos hl],
        h.push hw fun k => ?_⟩
      · rw [exec, if_pos hl.1, random, if_pos hl.2, fromBlocks_eq_some hw]; rfl
      · simp [blockCoeff]
    · left
      refine ⟨?_, by simp only [PolyOp.dense, if_neg hl]⟩
      by_cases h1 : l.length = N
      · rw [exec, if_pos h1, random, if_neg (by omega)]; rfl
      · rw [exec, if_neg h1]
  | add i j =>
    cases hi : ps[i]? with
    | none => left; simp [exec, PolyOp.dense, hi, h.get_none hi]
    | some p =>
      obtain ⟨hw, hd⟩ := h.2 i p hi
      cases hj : ps[j]? with
      | none => left; simp [exec, PolyOp.dense, hi, hj, hd, h.get_none hj]
      | some q =>
        obtain ⟨hw', hd'⟩ := h.2 j q hj
        obtain ⟨r, h1, h2, h3⟩ := combineAssign_spec N (fun a b => a + b) (by simp) p q hw hw'
        right
        exact ⟨ps.set i r, ds.set i fun k => coeff p k + coeff q k,
          by simp [exec, hi, hj, addAssign, h1], by simp [PolyOp.dense, hd, hd'], h.set h2 h3 i⟩
  | sub i j =>
    cases hi : ps[i]? with
    | none => left; simp [exec, PolyOp.dense, hi, h.get_none hi]
    | some p =>
      obtain ⟨hw, hd⟩ := h.2 i p hi
      cases hj : ps[j]? with
      | none => left; simp [exec, PolyOp.dense, hi, hj, hd, h.get_none hj]
      | some q =>
        obtain ⟨hw', hd'⟩ := h.2 j q hj
        obtain ⟨r, h1, h2, h3⟩ := combineAssign_spec N (fun a b => a - b) (by simp) p q hw hw'
        right
        exact ⟨ps.set i r, ds.set i fun k => coeff p k - coeff q k,
          by simp [exec, hi, hj, subAssign, h1], by simp [PolyOp.dense, hd, hd'], h.set h2 h3 i⟩
  | scale i s =>
    cases hi : ps[i]? with
    | none => left; simp [exec, PolyOp.dense, hi, h.get_none hi]
    | some p =>
      obtain ⟨hw, hd⟩ := h.2 i p hi
      right
      exact ⟨ps.set i (scale p s), ds.set i fun k => coeff p k * s, by simp [exec, hi],
        by simp [PolyOp.dense, hd], h.set (scale_wf hw s) (scale_coeff p s) i⟩
  | negate i =>
    cases hi : ps[i]? with
    | none => left; simp [exec, PolyOp.dense, hi, h.get_none hi]
    | some p =>
      obtain ⟨hw, hd⟩ := h.2 i p hi
      right
      exact ⟨ps.set i (negate p), ds.set i fun k => -coeff p k, by simp [exec, hi],
        by simp [PolyOp.dense, hd], h.set (negate_wf hw) (negate_coeff p) i⟩
  | dilate i z =>
    cases hi : ps[i]? with
    | none => left; simp [exec, PolyOp.dense, hi, h.get_none hi]
    | some p =>
      obtain ⟨hw, hd⟩ := h.2 i p hi
      right
      exact ⟨ps.set i (dilate p z), ds.set i fun k => coeff p k * z ^ k, by simp [exec, hi],
        by simp [PolyOp.dense, hd], h.set (dilate_wf hw z) (dilate_coeff hw z) i⟩
  | fold is s =>
    rcases h.mapM is with ⟨h1, h2⟩ | ⟨qs, h1, h2, h3⟩
    · left; simp [exec, PolyOp.dense, h1, h2]
    · right
      obtain ⟨r, r1, r2, r3⟩ := fold_spec N qs s h3
      refine ⟨ps ++ [r], _, by simp [exec, h1, r1], by simp only [PolyOp.dense, h2]; rfl,
        h.push r2 fun k => ?_⟩
      rw [r3 k, polyVal]
      simp only [List.length_map, List.length_reverse]
      rw [← sum_range_reflect]
      refine sum_congr rfl fun j hj => ?_
      have hj := mem_range.mp hj
      rw [coeffAt, List.map_reverse, getD_reverse _ _ (by simp; omega)]
      congr 1
      simp only [List.length_map, List.getD_eq_getElem?_getD, List.getElem?_map]
      rw [show qs.length - 1 - (qs.length - 1 - j) = j by omega, List.getElem?_eq_getElem hj]
      rfl

/-- C10: for every history of operations, the block-sparse implementation
panics exactly when the dense reference rejects the history; otherwise every
polynomial it holds is well formed (sorted, disjoint, in range, non-empty
blocks) and has exactly the reference coefficients. -/
theorem C10_history (N : ℕ) (ops : List (PolyOp F)) :
    (runHistory N ops = none ∧ ops.foldlM (fun regs op => op.dense N regs) [] = none) ∨
    ∃ ps ds, runHistory N ops = some ps ∧
      ops.foldlM (fun regs op => op.dense N regs) [] = some ds ∧ RegsAgree N ps ds := by
  unfold runHistory
  have gen : ∀ ps ds, RegsAgree N ps ds →
      (ops.foldlM (fun regs op => exec N op regs) ps = none ∧
        ops.foldlM (fun regs op => op.dense N regs) ds = none) ∨
      ∃ ps' ds', ops.foldlM (fun regs op => exec N op regs) ps = some ps' ∧
        ops.foldlM (fun regs op => op.dense N regs) ds = some ds' ∧ RegsAgree N ps' ds' := by
    induction ops with
    | nil => intro ps ds h; right; exact ⟨ps, ds, rfl, rfl, h⟩
    | cons op ops ih =>
      intro ps ds h
      simp only [List.foldlM_cons]
      rcases C10_step N op ps ds h with ⟨h1, h2⟩ | ⟨ps', ds', h1, h2, h3⟩
      · left; simp [h1, h2]
      · rw [h1, h2]; exact ih ps' ds' h3
  exact gen [] [] ⟨rfl, by simp⟩

/-! ### C11 -/

/-- C11: evaluation equals the sum of coefficient times power. -/
theorem C11_eval (N : ℕ) (p : Poly F) (h : WellFormed N p) (z : F) :
    Sparse.eval N p z = ∑ k ∈ range N, coeff p k * z ^ k := eval_spec N p z h

/-- C11: the reverse dot product equals its defining sum, for every pair of
block layouts. -/
theorem C11_revdot (N : ℕ) (p q : Poly F) (hp : WellFormed N p) (hq : WellFormed N q) :
    revdot N p q = ∑ k ∈ range N, coeff p k * coeff q (N - 1 - k) := revdot_spec N p q hp hq

/-- C11: the reverse dot product is symmetric. -/
theorem C11_revdot_comm (N : ℕ) (p q : Poly F) (hp : WellFormed N p) (hq : WellFormed N q) :
    revdot N p q = revdot N q p := by
  rw [C11_revdot N p q hp hq, C11_revdot N q p hq hp, ← sum_range_reflect]
  refine sum_congr rfl fun k hk => ?_
  have hk := mem_range.mp hk
  rw [show N - 1 - (N - 1 - k) = k by omega, mul_comm]

/-- C11: `dilate` by `z` turns `p(X)` into `p(zX)`. -/
theorem C11_dilate_eval (N : ℕ) (p : Poly F) (h : WellFormed N p) (z x : F) :
    Sparse.eval N (dilate p z) x = Sparse.eval N p (z * x) := by
  rw [C11_eval N _ (dilate_wf h z), C11_eval N p h]
  refine sum_congr rfl fun k _ => ?_
  rw [dilate_coeff h, mul_pow]; ring

/-- C11: `fold` never panics and evaluates to the Horner combination of the
evaluations, the first polynomial getting the highest power. -/
theorem C11_fold_eval (N : ℕ) (ps : List (Poly F)) (s x : F) (h : ∀ p ∈ ps, WellFormed N p) :
    ∃ r, Sparse.fold N ps s = some r ∧ WellFormed N r ∧
      Sparse.eval N r x = ∑ j ∈ range ps.length,
        s ^ (ps.length - 1 - j) * Sparse.eval N (ps.getD j []) x := by
  obtain ⟨r, h1, h2, h3⟩ := fold_spec N ps s h
  refine ⟨r, h1, h2, ?_⟩
  rw [C11_eval N r h2]
  simp only [h3]
  have he : ∀ j ∈ range ps.length, s ^ (ps.length - 1 - j) * Sparse.eval N (ps.getD j []) x =
      ∑ k ∈ range N, s ^ (ps.length - 1 - j) * (coeff (ps.getD j []) k * x ^ k) := by
    intro j hj
    rw [C11_eval N _ ?_, mul_sum]
    have hj := mem_range.mp hj
    simp only [List.getD_eq_getElem?_getD, List.getElem?_eq_getElem hj, Option.getD_some]
    exact h _ (List.getElem_mem hj)
  rw [sum_congr rfl he, sum_comm]
  refine sum_congr rfl fun k _ => ?_
  rw [polyVal, sum_mul]
  simp only [List.length_map, List.length_reverse]
  rw [← sum_range_reflect]
  refine sum_congr rfl fun j hj => ?_
  have hj := mem_range.mp hj
  rw [coeffAt, List.map_reverse, getD_reverse _ _ (by simp; omega)]
  simp only [List.length_map, List.getD_eq_getElem?_getD, List.getElem?_map]
  rw [show ps.length - 1 - (ps.length - 1 - j) = j by omega, List.getElem?_eq_getElem hj]
  simp only [Option.map_some, Option.getD_some]
  ring

/-- C11: the reverse dot product is bilinear over the polynomial operations. -/
theorem C11_revdot_linear (N : ℕ) (p q r : Poly F) (s : F) (hp : WellFormed N p)
    (hq : WellFormed N q) (hr : WellFormed N r) :
    ∃ t, addAssign N (scale p s) q = some t ∧
      revdot N t r = s * revdot N p r + revdot N q r := by
  obtain ⟨t, h1, h2, h3⟩ := combineAssign_spec N (fun a b => a + b) (by simp) (scale p s) q
    (scale_wf hp s) hq
  refine ⟨t, h1, ?_⟩
  rw [C11_revdot N t r h2 hr, C11_revdot N p r hp hr, C11_revdot N q r hq hr, mul_sum,
    ← sum_add_distrib]
  refine sum_congr rfl fun k _ => ?_
  rw [h3, scale_coeff]; ring

/-! ### C13 -/

theorem traceBlocks_wf (n : ℕ) (v : View F) (ha : v.a.length ≤ n) (hb : v.b.length ≤ n)
    (hc : v.c.length ≤ n) (hd : v.d.length ≤ n) : WellFormed (4 * n) (traceBlocks n v) := by
  obtain ⟨a, b, c, d⟩ := v
  simp only at ha hb hc hd
  unfold WellFormed
  have w4 : WellFormedFrom (3 * n) (4 * n)
      (if d.isEmpty then [] else [(4 * n - d.length, d.reverse)]) := by
    split
    · trivial
    · next h => exact ⟨by omega, by simpa using h, by simp; omega, trivial⟩
  have w3 : WellFormedFrom (2 * n) (3 * n) (if a.isEmpty then [] else [(2 * n, a)]) := by
    split
    · trivial
    · next h => exact ⟨le_rfl, by simpa using h, by omega, trivial⟩
  have w2 : WellFormedFrom n (2 * n)
      (if b.isEmpty then [] else [(2 * n - b.length, b.reverse)]) := by
    split
    · trivial
    · next h => exact ⟨by omega, by simpa using h, by simp; omega, trivial⟩
  have w1 : WellFormedFrom 0 n (if c.isEmpty then [] else [(0, c)]) := by
    split
    · trivial
    · next h => exact ⟨le_rfl, by simpa using h, by simp; omega, trivial⟩
  exact wf_append (wf_append (wf_append w1 (by omega) (by omega) w2) (by omega) (by omega) w3)
    (by omega) (by omega) w4

theorem buildTrace_eq (n : ℕ) (v : View F) (ha : v.a.length ≤ n) (hb : v.b.length ≤ n)
    (hc : v.c.length ≤ n) (hd : v.d.length ≤ n) :
    ∃ p, v.buildTrace n = some p ∧ WellFormed (4 * n) p ∧
      ∀ k, coeff p k = coeff (traceBlocks n v) k := by
  have hwf := traceBlocks_wf n v ha hb hc hd
  have hw := foldl_extendRuns_wf (traceBlocks n v) (fun b => b.2) (by simp) [] 0 (4 * n) trivial
    hwf (by omega)
  refine ⟨_, ?_, hw, fun k => ?_⟩
  · rw [View.buildTrace, View.build, if_pos ⟨ha, hb, hc, hd⟩]
    exact fromBlocks_eq_some hw
  · rw [foldl_extendRuns_coeff _ (fun b => b.2)]
    simp [coeff]

theorem ite_block_coeff (s : ℕ) (l m : List F) (k : ℕ) (h : l = [] → m = []) :
    coeff (if l.isEmpty then [] else [(s, m)]) k = blockCoeff (s, m) k := by
  by_cases hl : l = []
  · simp [hl, h hl]
  · simp [hl]

/-- C13: building a trace view places `a[i]` at degree `2n+i`, `b[i]` at
`2n-1-i`, `c[i]` at `i` and `d[i]` at `4n-1-i` (values beyond a buffer's end
count as zero), for every gate index. -/
theorem C13_trace_build (n : ℕ) (v : View F) (ha : v.a.length ≤ n) (hb : v.b.length ≤ n)
    (hc : v.c.length ≤ n) (hd : v.d.length ≤ n) :
    ∃ p, v.buildTrace n = some p ∧ WellFormed (4 * n) p ∧ ∀ i < n,
      coeff p (2 * n + i) = v.a.getD i 0 ∧ coeff p (2 * n - 1 - i) = v.b.getD i 0 ∧
      coeff p i = v.c.getD i 0 ∧ coeff p (4 * n - 1 - i) = v.d.getD i 0 := by
  obtain ⟨p, h1, h2, h3⟩ := buildTrace_eq n v ha hb hc hd
  refine ⟨p, h1, h2, fun i hi => ?_⟩
  have hcoef : ∀ k, coeff p k = blockCoeff (0, v.c) k +
      blockCoeff (2 * n - v.b.length, v.b.reverse) k + blockCoeff (2 * n, v.a) k +
      blockCoeff (4 * n - v.d.length, v.d.reverse) k := by
    intro k
    rw [h3, traceBlocks, coeff_append, coeff_append, coeff_append,
      ite_block_coeff _ _ _ _ id, ite_block_coeff _ _ _ _ (by simp), ite_block_coeff _ _ _ _ id,
      ite_block_coeff _ _ _ _ (by simp)]
  have hz : ∀ (l : List F) (j : ℕ), l.length ≤ j → l.getD j 0 = 0 := by
    intro l j hj
    rw [List.getD_eq_getElem?_getD, List.getElem?_eq_none hj]; rfl
  have hrev : ∀ (l : List F) (M : ℕ), l.length ≤ M → i < M →
      blockCoeff (M - l.length, l.reverse) (M - 1 - i) = l.getD i 0 := by
    intro l M hl hiM
    rcases Nat.lt_or_ge i l.length with h | h
    · rw [blockCoeff_in _ _ (show M - l.length ≤ M - 1 - i by omega)]
      simp only
      rw [getD_reverse _ _ (by omega)]
      congr 1; omega
    · rw [blockCoeff_lt _ _ (show M - 1 - i < M - l.length by omega), hz l i h]
  have hlow : ∀ (l : List F) (k : ℕ), n ≤ k → l.length ≤ n → blockCoeff (0, l) k = 0 :=
    fun l k hk hl => blockCoeff_ge _ _ (by simp only; omega)
  refine ⟨?_, ?_, ?_, ?_⟩
  · rw [hcoef, hlow _ _ (by omega) hc, blockCoeff_ge (2 * n - _, _) _ (by simp; omega),
      blockCoeff_lt (4 * n - _, _) _ (show 2 * n + i < 4 * n - v.d.length by omega),
      blockCoeff_in _ _ (show 2 * n ≤ 2 * n + i by omega)]
    simp
  · rw [hcoef, hlow _ _ (by omega) hc, hrev _ _ (by omega) (by omega),
      blockCoeff_lt (4 * n - _, _) _ (show 2 * n - 1 - i < 4 * n - v.d.length by omega),
      blockCoeff_lt (2 * n, _) _ (show 2 * n - 1 - i < 2 * n by omega)]
    simp
  · rw [hcoef, blockCoeff_lt (4 * n - _, _) _ (show i < 4 * n - v.d.length by omega),
      blockCoeff_lt (2 * n - _, _) _ (show i < 2 * n - v.b.length by omega),
      blockCoeff_lt (2 * n, _) _ (show i < 2 * n by omega), blockCoeff_in _ _ (Nat.zero_le i)]
    simp
  · rw [hcoef, hlow _ _ (by omega) hc, blockCoeff_ge (2 * n - _, _) _ (by simp; omega),
      hrev _ _ (by omega) (by omega), blockCoeff_ge (2 * n, _) _ (by simp; omega)]
    simp

/-- C13: a wiring view is the same with `a`/`b` and `c`/`d` exchanged. -/
theorem C13_wiring_build (n : ℕ) (v : View F) (ha : v.a.length ≤ n) (hb : v.b.length ≤ n)
    (hc : v.c.length ≤ n) (hd : v.d.length ≤ n) :
    ∃ p, v.buildWiring n = some p ∧ WellFormed (4 * n) p ∧ ∀ i < n,
      coeff p (2 * n - 1 - i) = v.a.getD i 0 ∧ coeff p (2 * n + i) = v.b.getD i 0 ∧
      coeff p (4 * n - 1 - i) = v.c.getD i 0 ∧ coeff p i = v.d.getD i 0 := by
  obtain ⟨p, h1, h2, h3⟩ := C13_trace_build n ⟨v.b, v.a, v.d, v.c⟩ hb ha hd hc
  refine ⟨p, ?_, h2, fun i hi => ?_⟩
  · rw [← h1]
    simp only [View.buildWiring, View.buildTrace, View.build, wiringBlocks]
    have : (v.a.length ≤ n ∧ v.b.length ≤ n ∧ v.c.length ≤ n ∧ v.d.length ≤ n) ↔
        (v.b.length ≤ n ∧ v.a.length ≤ n ∧ v.d.length ≤ n ∧ v.c.length ≤ n) := by tauto
    simp only [this]
  · obtain ⟨q1, q2, q3, q4⟩ := h3 i hi
    exact ⟨q2, q1, q4, q3⟩

/-- C13: `build` panics exactly when some buffer is longer than `n`. -/
theorem C13_build_panics (n : ℕ) (v : View F) :
    v.buildTrace n = none ↔
      n < v.a.length ∨ n < v.b.length ∨ n < v.c.length ∨ n < v.d.length := by
  constructor
  · intro h
    by_contra hcon
    push Not at hcon
    obtain ⟨p, hp, _⟩ := buildTrace_eq n v hcon.1 hcon.2.1 hcon.2.2.1 hcon.2.2.2
    rw [hp] at h; simp at h
  · intro h
    rw [View.buildTrace, View.build, if_neg (by omega)]

/-- C13: the reverse dot product of a trace view and a wiring view is the sum
over gates of the products of matching wires. -/
theorem C13_views_dual (n : ℕ) (v w : View F)
    (hv : v.a.length ≤ n ∧ v.b.length ≤ n ∧ v.c.length ≤ n ∧ v.d.length ≤ n)
    (hw : w.a.length ≤ n ∧ w.b.length ≤ n ∧ w.c.length ≤ n ∧ w.d.length ≤ n) :
    ∃ p q, v.buildTrace n = some p ∧ w.buildWiring n = some q ∧
      revdot (4 * n) p q = ∑ i ∈ range n,
        (v.a.getD i 0 * w.a.getD i 0 + v.b.getD i 0 * w.b.getD i 0 +
         v.c.getD i 0 * w.c.getD i 0 + v.d.getD i 0 * w.d.getD i 0) := by
  obtain ⟨p, p1, p2, p3⟩ := C13_trace_build n v hv.1 hv.2.1 hv.2.2.1 hv.2.2.2
  obtain ⟨q, q1, q2, q3⟩ := C13_wiring_build n w hw.1 hw.2.1 hw.2.2.1 hw.2.2.2
  refine ⟨p, q, p1, q1, ?_⟩
  rw [C11_revdot _ p q p2 q2, show 4 * n = n + n + n + n by ring, sum_range_add, sum_range_add,
    sum_range_add]
  rw [← sum_range_reflect (fun i => coeff p (n + i) * _) n]
  rw [← sum_range_reflect (fun i => coeff p (n + n + n + i) * _) n]
  rw [← sum_add_distrib, ← sum_add_distrib, ← sum_add_distrib]
  refine sum_congr rfl fun i hi => ?_
  have hi := mem_range.mp hi
  obtain ⟨a1, a2, a3, a4⟩ := p3 i hi
  obtain ⟨b1, b2, b3, b4⟩ := q3 i hi
  rw [show n + (n - 1 - i) = 2 * n - 1 - i by omega, show n + n + i = 2 * n + i by omega,
    show n + n + n + (n - 1 - i) = 4 * n - 1 - i by omega,
    show n + n + n + n - 1 - i = 4 * n - 1 - i by omega,
    show n + n + n + n - 1 - (2 * n - 1 - i) = 2 * n + i by omega,
    show n + n + n + n - 1 - (2 * n + i) = 2 * n - 1 - i by omega,
    show n + n + n + n - 1 - (4 * n - 1 - i) = i by omega,
    a1, a2, a3, a4, b1, b2, b3, b4]
  ring

end

/-! ### Concrete cases -/


/-- C09: a vector with an interior gap longer than the tolerance splits into two blocks. -/
example : fromCoeffs 16 ([0, 3, 0, 2, 0, 0, 0, 0, 0, 1, 0] : List (ZMod 7)) =
    some [(1, [3, 0, 2]), (9, [1])] := by decide +kernel
example : WellFormed 16 ([(1, [3, 0, 2]), (9, [1])] : Poly (ZMod 7)) := by
  simp [WellFormed, WellFormedFrom]
example : (iterCoeffs 4 ([(1, [3, 2])] : Poly (ZMod 7))).run [true, false, true, false, true] =
    [some 0, some 0, some 2, some 3, none] := by decide +kernel
/-- C10: a history with cancellation between adjacent and overlapping blocks. -/
example : ((runHistory 12 [.fromCoeffs ([1, 2, 3] : List (ZMod 7)),
    .fromCoeffs [0, 0, 4, 5, 0, 0, 0, 0, 0, 0, 6], .add 0 1, .scale 0 2, .sub 1 0, .dilate 1 3,
    .fold [0, 1, 0] 2]).map List.length) = some 3 := by decide +kernel
example : revdot 8 ([(1, [3, 2]), (6, [1, 1])] : Poly (ZMod 7)) [(0, [1, 2]), (5, [4, 4])] =
    1 * 2 + 1 * 1 + 3 * 4 + 2 * 4 := by decide +kernel
example : (View.buildTrace 4 (⟨[1, 2], [3], [4, 5], [6]⟩ : View (ZMod 7))) =
    some [(0, [4, 5]), (7, [3]), (8, [1, 2]), (15, [6])] := by decide +kernel

end Ragu.Props

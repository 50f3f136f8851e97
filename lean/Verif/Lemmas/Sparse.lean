import Verif.Model.Sparse
import Verif.Spec.Sparse
import Mathlib.Algebra.BigOperators.Ring.Finset
import Mathlib.Algebra.BigOperators.Ring.List
import Mathlib.Tactic.Ring
import Mathlib.Tactic.Linarith
import Mathlib.Tactic.LinearCombination

set_option linter.unusedSectionVars false

namespace Ragu.Sparse
open Finset Spec

variable {F : Type*} [Field F]

@[simp] theorem coeff_nil (k : ℕ) : coeff ([] : Poly F) k = 0 := by simp [coeff]
@[simp] theorem coeff_cons (b : Block F) (p : Poly F) (k : ℕ) :
    coeff (b :: p) k = blockCoeff b k + coeff p k := by simp [coeff]
@[simp] theorem coeff_append (p q : Poly F) (k : ℕ) :
    coeff (p ++ q) k = coeff p k + coeff q k := by simp [coeff]
theorem coeff_reverse (p : Poly F) (k : ℕ) : coeff p.reverse k = coeff p k := by
  induction p with
  | nil => simp
  | cons b p ih => simp [ih, add_comm]

theorem blockCoeff_lt (b : Block F) (k : ℕ) (h : k < b.1) : blockCoeff b k = 0 := by
  simp [blockCoeff, Nat.not_le.mpr h]

theorem blockCoeff_ge (b : Block F) (k : ℕ) (h : b.1 + b.2.length ≤ k) : blockCoeff b k = 0 := by
  unfold blockCoeff
  split
  · rw [List.getD_eq_getElem?_getD, List.getElem?_eq_none (by omega)]; rfl
  · rfl

theorem blockCoeff_in (b : Block F) (k : ℕ) (h : b.1 ≤ k) :
    blockCoeff b k = b.2.getD (k - b.1) 0 := by simp [blockCoeff, h]

@[simp] theorem blockCoeff_nil (s k : ℕ) : blockCoeff ((s, []) : Block F) k = 0 := by
  simp [blockCoeff]

theorem blockCoeff_cons (s : ℕ) (c : F) (l : List F) (k : ℕ) :
    blockCoeff (s, c :: l) k = (if k = s then c else 0) + blockCoeff (s + 1, l) k := by
  unfold blockCoeff
  rcases Nat.lt_trichotomy k s with h | h | h
  · simp [Nat.not_le.mpr h, Nat.ne_of_lt h, show ¬ (s + 1 ≤ k) by omega]
  · simp [h]
  · obtain ⟨j, rfl⟩ : ∃ j, k = s + 1 + j := ⟨k - s - 1, by omega⟩
    simp [show s ≤ s + 1 + j by omega, show s + 1 + j ≠ s by omega,
      show s + 1 + j - s = j + 1 by omega]

theorem blockCoeff_append (s : ℕ) (l m : List F) (k : ℕ) :
    blockCoeff (s, l ++ m) k = blockCoeff (s, l) k + blockCoeff (s + l.length, m) k := by
  induction l generalizing s with
  | nil => simp
  | cons c l ih =>
    rw [List.cons_append, blockCoeff_cons, blockCoeff_cons, ih, List.length_cons,
      show s + 1 + l.length = s + (l.length + 1) by omega]
    ring

theorem blockCoeff_replicate_zero (s m k : ℕ) :
    blockCoeff (s, List.replicate m (0 : F)) k = 0 := by
  unfold blockCoeff
  split
  · simp [List.getD_eq_getElem?_getD, List.getElem?_replicate]
    split <;> rfl
  · rfl

/-! ### well-formedness -/

theorem wf_mono {F : Type*} {lo lo' N : ℕ} {p : Poly F} (h : WellFormedFrom lo N p)
    (hl : lo' ≤ lo) : WellFormedFrom lo' N p := by
  cases p with
  | nil => trivial
  | cons b p => exact ⟨le_trans hl h.1, h.2⟩

theorem wf_append {F : Type*} {lo mid N : ℕ} {p q : Poly F}
    (hp : WellFormedFrom lo mid p) (hm : lo ≤ mid) (hN : mid ≤ N)
    (hq : WellFormedFrom mid N q) : WellFormedFrom lo N (p ++ q) := by
  induction p generalizing lo with
  | nil => exact wf_mono hq hm
  | cons b p ih =>
    obtain ⟨s, d⟩ := b
    obtain ⟨h1, h2, h3, h4⟩ := hp
    exact ⟨h1, h2, by omega, ih h4 h3⟩

theorem coeff_lt_of_wf {lo N : ℕ} {p : Poly F} (h : WellFormedFrom lo N p) {k : ℕ} (hk : k < lo) :
    coeff p k = 0 := by
  induction p generalizing lo with
  | nil => simp
  | cons b p ih =>
    obtain ⟨s, d⟩ := b
    obtain ⟨h1, h2, h3, h4⟩ := h
    rw [coeff_cons, blockCoeff_lt _ _ (show k < s by omega), ih h4 (by omega), add_zero]

theorem coeff_ge_of_wf {lo N : ℕ} {p : Poly F} (h : WellFormedFrom lo N p) {k : ℕ} (hk : N ≤ k) :
    coeff p k = 0 := by
  induction p generalizing lo with
  | nil => simp
  | cons b p ih =>
    obtain ⟨s, d⟩ := b
    obtain ⟨h1, h2, h3, h4⟩ := h
    rw [coeff_cons, blockCoeff_ge _ _ (show s + d.length ≤ k by omega), ih h4, add_zero]

theorem assertLoop_iff {F : Type*} (N prev : ℕ) (p : Poly F) :
    assertLoop N false prev p = true ↔ WellFormedFrom prev N p := by
  induction p generalizing prev with
  | nil => simp [assertLoop, WellFormedFrom]
  | cons b p ih =>
    obtain ⟨s, d⟩ := b
    simp only [assertLoop, WellFormedFrom, Bool.and_eq_true, ih, Bool.false_or, decide_eq_true_eq,
      Bool.not_eq_true', List.isEmpty_eq_false_iff]
    tauto

theorem assertInvariants_iff {F : Type*} (N : ℕ) (p : Poly F) :
    assertInvariants N p = true ↔ WellFormed N p := by
  unfold assertInvariants WellFormed
  cases p with
  | nil => simp [assertLoop, WellFormedFrom]
  | cons b p =>
    obtain ⟨s, d⟩ := b
    simp only [assertLoop, WellFormedFrom, Bool.and_eq_true, assertLoop_iff, Bool.true_or,
      decide_eq_true_eq, Bool.not_eq_true', List.isEmpty_eq_false_iff]
    simp; tauto

theorem fromBlocks_eq_some {F : Type*} {N : ℕ} {p : Poly F} (h : WellFormed N p) :
    fromBlocks N p = some p := by
  simp [fromBlocks, (assertInvariants_iff N p).mpr h]

theorem fromBlocks_some {F : Type*} {N : ℕ} {p q : Poly F} (h : fromBlocks N p = some q) :
    q = p ∧ WellFormed N p := by
  unfold fromBlocks at h
  split at h
  · next hw => exact ⟨by simpa using h.symm, (assertInvariants_iff N p).mp hw⟩
  · simp at h

/-! ### `extend_runs` -/
section
variable [DecidableEq F]


/-- State invariant of `extend_runs`. -/
def RunInv (pos : ℕ) (rs : Option ℕ) (run : List F) (zc : ℕ) : Prop :=
  match rs with
  | none => run = [] ∧ zc = 0
  | some s => s + run.length + zc = pos ∧ run ≠ []

theorem runsLoop_coeff (cs : List F) (pos : ℕ) (rs : Option ℕ) (run : List F) (zc k : ℕ)
    (hinv : RunInv pos rs run zc) :
    coeff (runsLoop pos rs run zc cs) k =
      (match rs with
        | none => 0
        | some s => blockCoeff (s, run) k) + blockCoeff (pos, cs) k := by
  induction cs generalizing pos rs run zc with
  | nil => cases rs <;> simp [runsLoop]
  | cons c cs ih =>
    cases rs with
    | none =>
      obtain ⟨rfl, rfl⟩ := hinv
      simp only [runsLoop]
      split
      · next h =>
        subst h
        rw [ih (pos + 1) none [] 0 ⟨rfl, rfl⟩, blockCoeff_cons]
        simp
      · next h =>
        rw [ih (pos + 1) (some pos) ([] ++ [c]) 0 (by simp [RunInv])]
        simp only [List.nil_append, blockCoeff_cons, zero_add]
        simp
    | some s =>
      obtain ⟨hp, hr⟩ := hinv
      simp only [runsLoop]
      split
      · next h =>
        subst h
        split
        · rw [coeff_cons, ih (pos + 1) none [] 0 ⟨rfl, rfl⟩, blockCoeff_cons]
          simp
        · rw [ih (pos + 1) (some s) run (zc + 1) ⟨by omega, hr⟩, blockCoeff_cons]
          simp
      · next h =>
        rw [ih (pos + 1) (some s) _ 0 ⟨by simp; omega, by simp⟩]
        simp only [List.append_assoc, blockCoeff_append, blockCoeff_replicate_zero, zero_add,
          List.length_replicate, blockCoeff_cons, blockCoeff_nil, add_zero]
        rw [hp]; ring

theorem runsLoop_wf (cs : List F) (lo N pos : ℕ) (rs : Option ℕ) (run : List F) (zc : ℕ)
    (hinv : RunInv pos rs run zc) (hlo : lo ≤ rs.getD pos) (hN : pos + cs.length ≤ N) :
    WellFormedFrom lo N (runsLoop pos rs run zc cs) := by
  induction cs generalizing pos rs run zc lo with
  | nil =>
    cases rs with
    | none => simp [runsLoop, WellFormedFrom]
    | some s =>
      obtain ⟨hp, hr⟩ := hinv
      simp only [Option.getD_some, List.length_nil] at hlo hN
      exact ⟨hlo, hr, by omega, trivial⟩
  | cons c cs ih =>
    simp only [List.length_cons] at hN
    cases rs with
    | none =>
      obtain ⟨rfl, rfl⟩ := hinv
      simp only [Option.getD_none] at hlo
      simp only [runsLoop]
      split
      · exact ih _ _ _ _ _ ⟨rfl, rfl⟩ (by simp; omega) (by omega)
      · exact ih _ _ _ _ _ (by simp [RunInv]) (by simpa using hlo) (by omega)
    | some s =>
      obtain ⟨hp, hr⟩ := hinv
      simp only [Option.getD_some] at hlo
      simp only [runsLoop]
      split
      · split
        · exact ⟨hlo, hr, by omega, ih _ _ _ _ _ ⟨rfl, rfl⟩ (by simp; omega) (by omega)⟩
        · exact ih _ _ _ _ _ ⟨by omega, hr⟩ (by simpa using hlo) (by omega)
      · exact ih _ _ _ _ _ ⟨by simp; omega, by simp⟩ (by simpa using hlo) (by omega)

theorem extendRuns_coeff (out : Poly F) (base : ℕ) (data : List F) (k : ℕ) :
    coeff (extendRuns out base data) k = coeff out k + blockCoeff (base, data) k := by
  have h := runsLoop_coeff data base none [] 0 k ⟨rfl, rfl⟩
  rw [extendRuns, coeff_append, h, zero_add]

theorem extendRuns_wf {out : Poly F} {base lo : ℕ} {data : List F}
    (hout : WellFormedFrom lo base out) (hlo : lo ≤ base) :
    WellFormedFrom lo (base + data.length) (extendRuns out base data) :=
  wf_append hout hlo (by omega) (runsLoop_wf _ _ _ _ _ _ _ ⟨rfl, rfl⟩ (by simp) le_rfl)

theorem wf_weaken {F : Type*} {lo N N' : ℕ} {p : Poly F} (h : WellFormedFrom lo N p)
    (hN : N ≤ N') : WellFormedFrom lo N' p := by
  induction p generalizing lo with
  | nil => trivial
  | cons b p ih =>
    obtain ⟨s, d⟩ := b
    obtain ⟨h1, h2, h3, h4⟩ := h
    exact ⟨h1, h2, by omega, ih h4⟩

/-- Folding `extend_runs` over a sorted block list (possibly with empty or
zero-padded data). -/
theorem foldl_extendRuns_coeff (bs : Poly F) (f : Block F → List F) (out : Poly F) (k : ℕ) :
    coeff (bs.foldl (fun out b => extendRuns out b.1 (f b)) out) k =
      coeff out k + (bs.map fun b => blockCoeff (b.1, f b) k).sum := by
  induction bs generalizing out with
  | nil => simp
  | cons b bs ih => simp [ih, extendRuns_coeff, add_assoc]

theorem foldl_extendRuns_wf (bs : Poly F) (f : Block F → List F)
    (hf : ∀ b ∈ bs, (f b).length = b.2.length) (out : Poly F) (mid N : ℕ)
    (hout : WellFormedFrom 0 mid out) (hbs : WellFormedFrom mid N bs) (hmid : mid ≤ N) :
    WellFormedFrom 0 N (bs.foldl (fun out b => extendRuns out b.1 (f b)) out) := by
  induction bs generalizing out mid with
  | nil => exact wf_weaken hout hmid
  | cons b bs ih =>
    obtain ⟨s, d⟩ := b
    obtain ⟨h1, h2, h3, h4⟩ := hbs
    simp only [List.foldl_cons]
    have hlen := hf (s, d) (by simp)
    refine ih (fun b hb => hf b (by simp [hb])) _ (s + d.length) ?_ h4 h3
    have := extendRuns_wf (data := f (s, d)) (wf_weaken hout h1) (Nat.zero_le s)
    simpa [hlen] using this

/-! ### `absorb` and clusters -/

theorem absorb_append (e : ℕ) (p : Poly F) : (absorb e p).1 ++ (absorb e p).2.1 = p := by
  induction p generalizing e with
  | nil => simp [absorb]
  | cons b p ih =>
    simp only [absorb]
    split
    · simp [ih]
    · simp

theorem absorb_end_ge (e : ℕ) (p : Poly F) : e ≤ (absorb e p).2.2 := by
  induction p generalizing e with
  | nil => simp [absorb]
  | cons b p ih =>
    simp only [absorb]
    split
    · exact le_trans (le_max_left _ _) (ih _)
    · simp

/-- The consumed blocks lie below the new end. -/
theorem absorb_consumed_wf {e lo N : ℕ} {p : Poly F} (h : WellFormedFrom lo N p) :
    WellFormedFrom lo (absorb e p).2.2 (absorb e p).1 := by
  induction p generalizing e lo with
  | nil => simp [absorb, WellFormedFrom]
  | cons b p ih =>
    obtain ⟨s, d⟩ := b
    obtain ⟨h1, h2, h3, h4⟩ := h
    simp only [absorb]
    split
    · refine ⟨h1, h2, ?_, ih h4⟩
      exact le_trans (le_max_right _ _) (absorb_end_ge _ _)
    · simp [WellFormedFrom]

/-- The remaining blocks start strictly after the new end. -/
theorem absorb_rest_wf {e lo N : ℕ} {p : Poly F} (h : WellFormedFrom lo N p) :
    WellFormedFrom ((absorb e p).2.2 + 1) N (absorb e p).2.1 := by
  induction p generalizing e lo with
  | nil => simp [absorb, WellFormedFrom]
  | cons b p ih =>
    obtain ⟨s, d⟩ := b
    obtain ⟨h1, h2, h3, h4⟩ := h
    simp only [absorb]
    split
    · exact ih h4
    · next hs => exact ⟨by simp only at hs ⊢; omega, h2, h3, h4⟩

theorem absorb_end_le {e lo N : ℕ} {p : Poly F} (h : WellFormedFrom lo N p) (he : e ≤ N) :
    (absorb e p).2.2 ≤ N := by
  induction p generalizing e lo with
  | nil => simpa [absorb] using he
  | cons b p ih =>
    obtain ⟨s, d⟩ := b
    obtain ⟨h1, h2, h3, h4⟩ := h
    simp only [absorb]
    split
    · exact ih h4 (by simp; omega)
    · exact he

theorem absorb_nil_iff (e : ℕ) (p : Poly F) :
    (absorb e p).1 = [] → absorb e p = ([], p, e) := by
  cases p with
  | nil => simp [absorb]
  | cons b p => simp only [absorb]; split <;> simp

/-- Facts about a finished cluster. -/
structure ClusterOk (cs N : ℕ) (lc0 rc0 lhs rhs : Poly F) (c : Cluster F) : Prop where
  lsplit : lc0 ++ lhs = c.lc ++ c.lhs
  rsplit : rc0 ++ rhs = c.rc ++ c.rhs
  lcWf : WellFormedFrom cs c.fin c.lc
  rcWf : WellFormedFrom cs c.fin c.rc
  lWf : WellFormedFrom (c.fin + 1) N c.lhs
  rWf : WellFormedFrom (c.fin + 1) N c.rhs
  finLe : c.fin ≤ N
  csLe : cs ≤ c.fin

theorem wf_split {F : Type*} {lo N : ℕ} {p q : Poly F} (h : WellFormedFrom lo N (p ++ q)) :
    WellFormedFrom lo N p ∧ WellFormedFrom lo N q := by
  induction p generalizing lo with
  | nil => exact ⟨trivial, h⟩
  | cons b p ih =>
    obtain ⟨s, d⟩ := b
    obtain ⟨h1, h2, h3, h4⟩ := h
    have := ih h4
    exact ⟨⟨h1, h2, h3, this.1⟩, wf_mono this.2 (by omega)⟩

/-- all blocks end at or before `e` -/
def EndsBy {F : Type*} (e : ℕ) (p : Poly F) : Prop := ∀ b ∈ p, b.1 + b.2.length ≤ e

theorem wf_of_endsBy {F : Type*} {lo N e : ℕ} {p : Poly F} (h : WellFormedFrom lo N p)
    (he : EndsBy e p) : WellFormedFrom lo e p := by
  induction p generalizing lo with
  | nil => trivial
  | cons b p ih =>
    obtain ⟨s, d⟩ := b
    obtain ⟨h1, h2, h3, h4⟩ := h
    exact ⟨h1, h2, he (s, d) (by simp), ih h4 fun b hb => he b (by simp [hb])⟩

theorem endsBy_of_wf {F : Type*} {lo N : ℕ} {p : Poly F} (h : WellFormedFrom lo N p) :
    EndsBy N p := by
  induction p generalizing lo with
  | nil => intro b hb; simp at hb
  | cons b p ih =>
    obtain ⟨s, d⟩ := b
    obtain ⟨h1, h2, h3, h4⟩ := h
    intro b hb
    rcases List.mem_cons.mp hb with rfl | hb
    · exact h3
    · exact ih h4 b hb

theorem clusterLoop_ok (fuel : ℕ) (cs e N lo lo' : ℕ) (lc rc lhs rhs : Poly F)
    (hfuel : lhs.length + rhs.length < fuel)
    (hl : WellFormedFrom cs N (lc ++ lhs)) (hr : WellFormedFrom cs N (rc ++ rhs))
    (hlc : EndsBy e lc) (hrc : EndsBy e rc)
    (hlhs : WellFormedFrom lo N lhs) (hrhs : WellFormedFrom lo' N rhs)
    (hcs : cs ≤ e) (he : e ≤ N) :
    ∃ c, clusterLoop fuel e lc rc lhs rhs = some c ∧ ClusterOk cs N lc rc lhs rhs c := by
  induction fuel generalizing e lc rc lhs rhs lo lo' with
  | zero => omega
  | succ fuel ih =>
    simp only [clusterLoop]
    by_cases hemp : (absorb e lhs).1 = [] ∧ (absorb (absorb e lhs).2.2 rhs).1 = []
    · rw [if_pos hemp]
      refine ⟨_, rfl, ?_⟩
      have h1 := absorb_nil_iff e lhs hemp.1
      have h2 := hemp.2
      rw [h1] at h2
      have h3 := absorb_nil_iff e rhs h2
      have l2 := absorb_rest_wf (e := e) hlhs
      have r2 := absorb_rest_wf (e := e) hrhs
      rw [h1] at l2
      rw [h3] at r2
      exact ⟨rfl, rfl, wf_of_endsBy (wf_split hl).1 hlc, wf_of_endsBy (wf_split hr).1 hrc,
        l2, r2, he, hcs⟩
    · rw [if_neg hemp]
      have al := absorb_append e lhs
      have ar := absorb_append (absorb e lhs).2.2 rhs
      have e1 := absorb_end_ge e lhs
      have e2 := absorb_end_ge (absorb e lhs).2.2 rhs
      have e1N := absorb_end_le (e := e) hlhs he
      have e2N := absorb_end_le (e := (absorb e lhs).2.2) hrhs e1N
      have cl := endsBy_of_wf (absorb_consumed_wf (e := e) hlhs)
      have cr := endsBy_of_wf (absorb_consumed_wf (e := (absorb e lhs).2.2) hrhs)
      have wl := absorb_rest_wf (e := e) hlhs
      have wr := absorb_rest_wf (e := (absorb e lhs).2.2) hrhs
      obtain ⟨c, hc1, hc2⟩ := ih (absorb (absorb e lhs).2.2 rhs).2.2 _ _
        (lc ++ (absorb e lhs).1) (rc ++ (absorb (absorb e lhs).2.2 rhs).1)
        (absorb e lhs).2.1 (absorb (absorb e lhs).2.2 rhs).2.1
        (by
          have h1 := congrArg List.length al
          have h2 := congrArg List.length ar
          simp only [List.length_append] at h1 h2
          have : 0 < (absorb e lhs).1.length + (absorb (absorb e lhs).2.2 rhs).1.length := by
            by_contra hh
            have h3 : (absorb e lhs).1.length = 0 := by omega
            have h4 : (absorb (absorb e lhs).2.2 rhs).1.length = 0 := by omega
            exact hemp ⟨List.length_eq_zero_iff.mp h3, List.length_eq_zero_iff.mp h4⟩
          omega)
        (by rw [List.append_assoc, al]; exact hl)
        (by rw [List.append_assoc, ar]; exact hr)
        (by
          intro b hb
          rcases List.mem_append.mp hb with hb | hb
          · exact le_trans (hlc b hb) (by omega)
          · exact le_trans (cl b hb) e2)
        (by
          intro b hb
          rcases List.mem_append.mp hb with hb | hb
          · exact le_trans (hrc b hb) (by omega)
          · exact cr b hb)
        wl wr (by omega) e2N
      refine ⟨c, hc1, ?_, ?_, hc2.lcWf, hc2.rcWf, hc2.lWf, hc2.rWf, hc2.finLe, hc2.csLe⟩
      · rw [← hc2.lsplit, List.append_assoc, al]
      · rw [← hc2.rsplit, List.append_assoc, ar]

/-- The first round of a cluster consumes at least one block. -/
theorem clusterLoop_progress (fuel cs : ℕ) {N : ℕ} (lhs rhs : Poly F) (c : Cluster F)
    (hcs : clusterStart lhs rhs = some cs)
    (h : clusterLoop fuel cs [] [] lhs rhs = some c)
    (hok : ClusterOk cs N [] [] lhs rhs c) :
    c.lhs.length + c.rhs.length < lhs.length + rhs.length := by
  have hl := congrArg List.length hok.lsplit
  have hr := congrArg List.length hok.rsplit
  simp only [List.nil_append, List.length_append] at hl hr
  have : c.lc ≠ [] ∨ c.rc ≠ [] := by
    by_contra hne
    push Not at hne
    have h1 := hok.lsplit
    have h2 := hok.rsplit
    rw [hne.1] at h1
    rw [hne.2] at h2
    simp only [List.nil_append] at h1 h2
    have hl' := hok.lWf
    have hr' := hok.rWf
    rw [← h1] at hl'
    rw [← h2] at hr'
    have := hok.csLe
    match lhs, rhs, hcs with
    | [], [], hcs => simp [clusterStart] at hcs
    | l :: _, [], hcs =>
      simp only [clusterStart, Option.some.injEq] at hcs
      have := hl'.1; omega
    | [], r :: _, hcs =>
      simp only [clusterStart, Option.some.injEq] at hcs
      have := hr'.1; omega
    | l :: _, r :: _, hcs =>
      simp only [clusterStart, Option.some.injEq] at hcs
      have := hl'.1; have := hr'.1; omega
  have : 0 < c.lc.length ∨ 0 < c.rc.length := by
    rcases this with h | h
    · exact Or.inl (List.length_pos_of_ne_nil h)
    · exact Or.inr (List.length_pos_of_ne_nil h)
  omega

/-! ### filling the cluster buffer -/

theorem getD_append_split (A B C : List F) (j : ℕ) :
    (A ++ B ++ C).getD j 0 =
      if j < A.length then A.getD j 0
      else if j < A.length + B.length then B.getD (j - A.length) 0
      else C.getD (j - (A.length + B.length)) 0 := by
  simp only [List.getD_eq_getElem?_getD]
  split
  · next h => rw [List.append_assoc, List.getElem?_append_left h]
  · next h =>
    split
    · next h2 =>
      rw [List.append_assoc, List.getElem?_append_right (by omega),
        List.getElem?_append_left (by omega)]
    · next h2 =>
      rw [List.getElem?_append_right (by simp; omega)]; simp

theorem splice_getD (data B : List F) (off j : ℕ) (h : off + B.length ≤ data.length) :
    (data.take off ++ B ++ data.drop (off + B.length)).getD j 0 =
      if off ≤ j ∧ j < off + B.length then B.getD (j - off) 0 else data.getD j 0 := by
  rw [getD_append_split]
  have ht : (data.take off).length = off := by rw [List.length_take]; omega
  rw [ht]
  simp only [List.getD_eq_getElem?_getD]
  by_cases h1 : j < off
  · rw [if_pos h1, if_neg (by omega), List.getElem?_take_of_lt h1]
  · rw [if_neg h1]
    by_cases h2 : j < off + B.length
    · rw [if_pos h2, if_pos ⟨by omega, h2⟩]
    · rw [if_neg h2, if_neg (by omega), List.getElem?_drop]
      congr 2; omega

theorem splice_length (data B : List F) (off : ℕ) (h : off + B.length ≤ data.length) :
    (data.take off ++ B ++ data.drop (off + B.length)).length = data.length := by
  simp; omega

theorem copyBlocks_spec (cs : ℕ) (bs : Poly F) (data : List F) (lo : ℕ) (hlo : cs ≤ lo)
    (hwf : WellFormedFrom lo (cs + data.length) bs)
    (hz : ∀ k, lo ≤ k → data.getD (k - cs) 0 = 0) :
    ∃ r, copyBlocks cs data bs = some r ∧ r.length = data.length ∧
      ∀ k, cs ≤ k → r.getD (k - cs) 0 = data.getD (k - cs) 0 + coeff bs k := by
  induction bs generalizing data lo with
  | nil => exact ⟨data, rfl, rfl, by simp⟩
  | cons b bs ih =>
    obtain ⟨s, d⟩ := b
    obtain ⟨h1, h2, h3, h4⟩ := hwf
    have hcond : cs ≤ s ∧ (s - cs) + d.length ≤ data.length := by omega
    simp only [copyBlocks, if_pos hcond]
    have hlen := splice_length data d (s - cs) hcond.2
    obtain ⟨r, hr1, hr2, hr3⟩ := ih (data.take (s - cs) ++ d ++ data.drop (s - cs + d.length))
      (s + d.length) (by omega) (by rw [hlen]; exact h4)
      (by
        intro k hk
        rw [splice_getD _ _ _ _ hcond.2, if_neg (by omega)]
        exact hz k (by omega))
    refine ⟨r, hr1, by rw [hr2, hlen], ?_⟩
    intro k hk
    rw [hr3 k hk, splice_getD _ _ _ _ hcond.2, coeff_cons]
    split
    · next hin =>
      rw [hz k (by omega), blockCoeff_in _ _ (show s ≤ k by omega), zero_add]
      simp only
      rw [show k - cs - (s - cs) = k - s by omega]
    · next hout =>
      have : blockCoeff (s, d) k = 0 := by
        rcases Nat.lt_or_ge k s with h | h
        · exact blockCoeff_lt _ _ h
        · exact blockCoeff_ge _ _ (by simp only; omega)
      rw [this]; ring

theorem zipWith_getD (op : F → F → F) (A B : List F) (j : ℕ) (h : A.length = B.length)
    (hj : j < B.length) : (List.zipWith op A B).getD j 0 = op (A.getD j 0) (B.getD j 0) := by
  simp only [List.getD_eq_getElem?_getD]
  rw [List.getElem?_zipWith]
  rw [List.getElem?_eq_getElem (by omega), List.getElem?_eq_getElem hj]
  simp

theorem applyBlocks_spec (op : F → F → F) (hop : ∀ a, op a 0 = a) (cs : ℕ) (bs : Poly F)
    (data : List F) (lo : ℕ) (hlo : cs ≤ lo)
    (hwf : WellFormedFrom lo (cs + data.length) bs) :
    ∃ r, applyBlocks op cs data bs = some r ∧ r.length = data.length ∧
      ∀ k, cs ≤ k → r.getD (k - cs) 0 = op (data.getD (k - cs) 0) (coeff bs k) := by
  induction bs generalizing data lo with
  | nil => exact ⟨data, rfl, rfl, by simp [hop]⟩
  | cons b bs ih =>
    obtain ⟨s, d⟩ := b
    obtain ⟨h1, h2, h3, h4⟩ := hwf
    have hcond : cs ≤ s ∧ (s - cs) + d.length ≤ data.length := by omega
    simp only [applyBlocks, if_pos hcond]
    set B := List.zipWith op ((data.drop (s - cs)).take d.length) d with hB
    have htl : ((data.drop (s - cs)).take d.length).length = d.length := by
      simp; omega
    have hBl : B.length = d.length := by simp [hB]; omega
    have hcond' : (s - cs) + B.length ≤ data.length := by omega
    have hlen := splice_length data B (s - cs) hcond'
    have hsp := fun j => splice_getD data B (s - cs) j hcond'
    rw [hBl] at hlen hsp
    obtain ⟨r, hr1, hr2, hr3⟩ := ih (data.take (s - cs) ++ B ++ data.drop (s - cs + d.length))
      (s + d.length) (by omega) (by rw [hlen]; exact h4)
    refine ⟨r, hr1, by rw [hr2, hlen], ?_⟩
    intro k hk
    rw [hr3 k hk, hsp, coeff_cons]
    split
    · next hin =>
      have hc : coeff bs k = 0 := coeff_lt_of_wf h4 (by omega)
      rw [hc, hop, add_zero, hB, zipWith_getD _ _ _ _ htl (by omega),
        blockCoeff_in _ _ (show s ≤ k by omega)]
      simp only [List.getD_eq_getElem?_getD]
      rw [List.getElem?_take_of_lt (by omega), List.getElem?_drop]
      rw [show s - cs + (k - cs - (s - cs)) = k - cs by omega,
        show k - cs - (s - cs) = k - s by omega]
    · next hout =>
      have : blockCoeff (s, d) k = 0 := by
        rcases Nat.lt_or_ge k s with h | h
        · exact blockCoeff_lt _ _ h
        · exact blockCoeff_ge _ _ (by simp only; omega)
      rw [this, zero_add]

theorem clusterData_spec (cs len : ℕ) (lc : Poly F) (hwf : WellFormedFrom cs (cs + len) lc) :
    ∃ r, clusterData cs len lc = some r ∧ r.length = len ∧
      ∀ k, cs ≤ k → r.getD (k - cs) 0 = coeff lc k := by
  have hcopy : ∃ r, copyBlocks cs (List.replicate len 0) lc = some r ∧ r.length = len ∧
      ∀ k, cs ≤ k → r.getD (k - cs) 0 = coeff lc k := by
    have hrep : ∀ j, (List.replicate len (0:F)).getD j 0 = 0 := by
      intro j
      simp only [List.getD_eq_getElem?_getD, List.getElem?_replicate]
      split <;> rfl
    obtain ⟨r, h1, h2, h3⟩ := copyBlocks_spec cs lc (List.replicate len 0) cs le_rfl
      (by simpa using hwf) (fun k _ => hrep _)
    exact ⟨r, h1, by simpa using h2, fun k hk => by rw [h3 k hk, hrep, zero_add]⟩
  unfold clusterData
  split
  · next s d =>
    split
    · next h =>
      obtain ⟨rfl, rfl⟩ := h
      exact ⟨d, rfl, rfl, fun k hk => by simp [blockCoeff_in _ _ (show (s, d).1 ≤ k from hk)]⟩
    · exact hcopy
  · exact hcopy

/-! ### the outer loop -/

theorem combineLoop_spec (N : ℕ) (op : F → F → F) (hop : ∀ a, op a 0 = a) (fuel : ℕ)
    (out lhs rhs : Poly F) (lo : ℕ)
    (hfuel : lhs.length + rhs.length < fuel)
    (hout : WellFormedFrom 0 lo out)
    (hl : WellFormedFrom lo N lhs) (hr : WellFormedFrom lo N rhs) (hloN : lo ≤ N + 1)
    (houtN : WellFormedFrom 0 N out) :
    ∃ r, combineLoop N op fuel out lhs rhs = some r ∧ WellFormedFrom 0 N r ∧
      ∀ k, coeff r k = if k < lo then coeff out k else op (coeff lhs k) (coeff rhs k) := by
  induction fuel generalizing out lhs rhs lo with
  | zero => omega
  | succ fuel ih =>
    rw [combineLoop]
    cases hcs : clusterStart lhs rhs with
    | none =>
      have hnil : lhs = [] ∧ rhs = [] := by
        match lhs, rhs, hcs with
        | [], [], _ => exact ⟨rfl, rfl⟩
        | _ :: _, [], h => simp [clusterStart] at h
        | [], _ :: _, h => simp [clusterStart] at h
        | _ :: _, _ :: _, h => simp [clusterStart] at h
      obtain ⟨rfl, rfl⟩ := hnil
      refine ⟨out, rfl, houtN, ?_⟩
      intro k
      split
      · rfl
      · next h => rw [coeff_nil, hop, coeff_ge_of_wf hout (by omega)]
    | some cs =>
      -- bounds on the cluster start
      have hstart : lo ≤ cs ∧ cs ≤ N ∧ WellFormedFrom cs N lhs ∧ WellFormedFrom cs N rhs := by
        match lhs, rhs, hcs, hl, hr with
        | [], [], h, _, _ => simp [clusterStart] at h
        | (s, d) :: l, [], h, hl, _ =>
          simp only [clusterStart, Option.some.injEq] at h
          obtain ⟨h1, h2, h3, h4⟩ := hl
          subst h
          exact ⟨h1, by omega, ⟨le_rfl, h2, h3, h4⟩, trivial⟩
        | [], (s, d) :: r, h, _, hr =>
          simp only [clusterStart, Option.some.injEq] at h
          obtain ⟨h1, h2, h3, h4⟩ := hr
          subst h
          exact ⟨h1, by omega, trivial, ⟨le_rfl, h2, h3, h4⟩⟩
        | (s, d) :: l, (s', d') :: r, h, hl, hr =>
          simp only [clusterStart, Option.some.injEq] at h
          obtain ⟨h1, h2, h3, h4⟩ := hl
          obtain ⟨h1', h2', h3', h4'⟩ := hr
          exact ⟨by omega, by omega, ⟨by omega, h2, h3, h4⟩, ⟨by omega, h2', h3', h4'⟩⟩
      obtain ⟨hlocs, hcsN, hl', hr'⟩ := hstart
      obtain ⟨c, hc1, hok⟩ := clusterLoop_ok (lhs.length + rhs.length + 1) cs cs N cs cs [] []
        lhs rhs (by omega) (by simpa using hl') (by simpa using hr')
        (by intro b hb; simp at hb) (by intro b hb; simp at hb) hl' hr' le_rfl hcsN
      have hprog := clusterLoop_progress _ cs lhs rhs c hcs hc1 hok
      simp only [hc1, Option.bind_some]
      have hlsp := hok.lsplit
      have hrsp := hok.rsplit
      simp only [List.nil_append] at hlsp hrsp
      have hcsfin := hok.csLe
      have hfinN := hok.finLe
      by_cases hrc : c.rc = []
      · rw [if_pos hrc]
        obtain ⟨r, hr1, hr2, hr3⟩ := ih (out ++ c.lc) c.lhs c.rhs (c.fin + 1) (by omega)
          (wf_append (wf_weaken hout hlocs) (Nat.zero_le _) (by omega)
            (wf_weaken hok.lcWf (by omega))) hok.lWf hok.rWf (by omega)
          (wf_append (wf_weaken hout hlocs) (Nat.zero_le _) (by omega)
            (wf_weaken hok.lcWf (by omega)))
        refine ⟨r, hr1, hr2, ?_⟩
        intro k
        rw [hr3 k, coeff_append, hlsp, hrsp, hrc, List.nil_append, coeff_append]
        by_cases hk1 : k < lo
        · rw [if_pos (by omega), if_pos hk1, coeff_lt_of_wf hok.lcWf (by omega), add_zero]
        · rw [if_neg hk1]
          by_cases hk2 : k < c.fin + 1
          · rw [if_pos hk2, coeff_lt_of_wf hok.lWf hk2, coeff_lt_of_wf hok.rWf hk2, hop,
              coeff_ge_of_wf hout (by omega), zero_add, add_zero]
          · rw [if_neg hk2, coeff_ge_of_wf hok.lcWf (by omega), zero_add]
      · rw [if_neg hrc]
        have hlen : cs + (c.fin - cs) = c.fin := by omega
        obtain ⟨data, hd1, hd2, hd3⟩ := clusterData_spec cs (c.fin - cs) c.lc
          (by rw [hlen]; exact hok.lcWf)
        simp only [hd1, Option.bind_some]
        obtain ⟨data', he1, he2, he3⟩ := applyBlocks_spec op hop cs c.rc data cs le_rfl
          (by rw [hd2, hlen]; exact hok.rcWf)
        simp only [he1, Option.bind_some]
        have hdl : data'.length = c.fin - cs := by rw [he2, hd2]
        have hcne : cs < c.fin := by
          obtain ⟨⟨s, d⟩, rest, hb⟩ := List.exists_cons_of_ne_nil hrc
          have := hok.rcWf
          rw [hb] at this
          obtain ⟨a1, a2, a3, a4⟩ := this
          have := List.length_pos_of_ne_nil a2
          omega
        set out' := (if cs = 0 ∧ c.fin - cs = N then out ++ [(cs, data')]
          else extendRuns out cs data') with hout'
        have hco : ∀ k, coeff out' k = coeff out k + blockCoeff (cs, data') k := by
          intro k
          rw [hout']
          split
          · simp
          · rw [extendRuns_coeff]
        have hwo : WellFormedFrom 0 c.fin out' := by
          rw [hout']
          split
          · refine wf_append (wf_weaken hout hlocs) (Nat.zero_le _) (by omega) ?_
            refine ⟨le_rfl, ?_, by simp only [hdl]; omega, trivial⟩
            intro h0
            rw [h0] at hdl
            simp at hdl
            omega
          · have := extendRuns_wf (data := data') (wf_weaken hout hlocs) (Nat.zero_le cs)
            rwa [hdl, hlen] at this
        obtain ⟨r, hr1, hr2, hr3⟩ := ih out' c.lhs c.rhs (c.fin + 1) (by omega)
          (wf_weaken hwo (by omega)) hok.lWf hok.rWf (by omega) (wf_weaken hwo (by omega))
        refine ⟨r, hr1, hr2, ?_⟩
        intro k
        rw [hr3 k, hco k, hlsp, hrsp, coeff_append, coeff_append]
        by_cases hk1 : k < lo
        · rw [if_pos (by omega), if_pos hk1, blockCoeff_lt _ _ (show k < cs by omega), add_zero]
        · rw [if_neg hk1]
          by_cases hk2 : k < c.fin + 1
          · rw [if_pos hk2, coeff_lt_of_wf hok.lWf hk2, coeff_lt_of_wf hok.rWf hk2,
              coeff_ge_of_wf hout (by omega), zero_add, add_zero, add_zero]
            by_cases hk3 : k < cs
            · rw [blockCoeff_lt _ _ hk3, coeff_lt_of_wf hok.lcWf hk3, coeff_lt_of_wf hok.rcWf hk3,
                hop]
            · rw [blockCoeff_in _ _ (show cs ≤ k by omega), he3 k (by omega), hd3 k (by omega)]
          · rw [if_neg hk2, coeff_ge_of_wf hok.lcWf (by omega), coeff_ge_of_wf hok.rcWf (by omega),
              zero_add, zero_add]

/-- `combine_assign` never panics on well-formed inputs and computes `op`
coefficient-wise. -/
theorem combineAssign_spec (N : ℕ) (op : F → F → F) (hop : ∀ a, op a 0 = a) (p q : Poly F)
    (hp : WellFormed N p) (hq : WellFormed N q) :
    ∃ r, combineAssign N op p q = some r ∧ WellFormed N r ∧
      ∀ k, coeff r k = op (coeff p k) (coeff q k) := by
  unfold combineAssign
  by_cases hq0 : q = []
  · exact ⟨p, by simp [hq0], hp, fun k => by simp [hq0, hop]⟩
  · rw [if_neg hq0]
    by_cases hp0 : p = []
    · rw [if_pos hp0]
      have hwf := foldl_extendRuns_wf q (fun b => b.2.map fun r => op 0 r) (by simp) [] 0 N
        trivial hq (Nat.zero_le _)
      refine ⟨_, fromBlocks_eq_some hwf, hwf, ?_⟩
      intro k
      rw [foldl_extendRuns_coeff q (fun b => b.2.map fun r => op 0 r)]
      rw [hp0, coeff_nil, zero_add]
      clear hwf hq0 hp0 hp
      unfold WellFormed at hq
      generalize 0 = lo at hq
      induction q generalizing lo with
      | nil => simp [hop]
      | cons b q ih =>
        obtain ⟨s, d⟩ := b
        obtain ⟨h1, h2, h3, h4⟩ := hq
        simp only [List.map_cons, List.sum_cons, coeff_cons]
        rw [ih _ h4]
        have hz : ∀ j, (List.map (fun r => op 0 r) d).getD j 0 = op 0 (d.getD j 0) := by
          intro j
          simp only [List.getD_eq_getElem?_getD, List.getElem?_map]
          cases d[j]? <;> simp [hop]
        by_cases hk : k < s + d.length
        · rw [coeff_lt_of_wf h4 hk, hop, add_zero, add_zero]
          unfold blockCoeff
          simp only
          split
          · rw [hz]
          · rw [hop]
        · rw [blockCoeff_ge _ _ (show s + (List.map (fun r => op 0 r) d).length ≤ k by simp; omega),
            blockCoeff_ge _ _ (show s + d.length ≤ k by omega), zero_add, zero_add]
    · rw [if_neg hp0]
      obtain ⟨r, h1, h2, h3⟩ := combineLoop_spec N op hop (p.length + q.length + 1) [] p q 0
        (by omega) trivial hp hq (by omega) trivial
      refine ⟨r, ?_, h2, ?_⟩
      · rw [h1, Option.bind_some, fromBlocks_eq_some h2]
      · intro k; rw [h3 k]; simp

/-! ### unary operations -/

theorem applyAll_wf {op : F → F} {lo N : ℕ} {p : Poly F} (h : WellFormedFrom lo N p) :
    WellFormedFrom lo N (applyAll op p) := by
  induction p generalizing lo with
  | nil => trivial
  | cons b p ih =>
    obtain ⟨s, d⟩ := b
    obtain ⟨h1, h2, h3, h4⟩ := h
    refine ⟨h1, by simpa using h2, by simpa using h3, ?_⟩
    have := ih h4
    simpa [applyAll] using this

theorem applyAll_coeff (g : F →+ F) (p : Poly F) (k : ℕ) :
    coeff (applyAll g p) k = g (coeff p k) := by
  induction p with
  | nil => simp [applyAll]
  | cons b p ih =>
    have h1 : blockCoeff (b.1, b.2.map g) k = g (blockCoeff b k) := by
      unfold blockCoeff
      split
      · simp only [List.getD_eq_getElem?_getD, List.getElem?_map]
        cases b.2[k - b.1]? <;> simp
      · simp
    have : applyAll (g : F → F) (b :: p) = (b.1, b.2.map g) :: applyAll g p := rfl
    rw [this, coeff_cons, ih, h1, coeff_cons, map_add]

theorem scale_coeff (p : Poly F) (s : F) (k : ℕ) : coeff (scale p s) k = coeff p k * s := by
  unfold scale
  split
  · next h => simp [h]
  · exact applyAll_coeff (AddMonoidHom.mulRight s) p k

theorem scale_wf {N : ℕ} {p : Poly F} (h : WellFormed N p) (s : F) : WellFormed N (scale p s) := by
  unfold scale
  split
  · trivial
  · exact applyAll_wf h

theorem negate_coeff (p : Poly F) (k : ℕ) : coeff (negate p) k = -coeff p k :=
  applyAll_coeff (-(AddMonoidHom.id F)) p k

theorem negate_wf {N : ℕ} {p : Poly F} (h : WellFormed N p) : WellFormed N (negate p) :=
  applyAll_wf h

theorem dilateData_spec (z power : F) (d : List F) (s k : ℕ) :
    (dilateData z power d).2 = power * z ^ d.length ∧
    (dilateData z power d).1.length = d.length ∧
    blockCoeff (s, (dilateData z power d).1) k = blockCoeff (s, d) k * (power * z ^ (k - s)) := by
  induction d generalizing power s with
  | nil => simp [dilateData]
  | cons c d ih =>
    obtain ⟨h1, h2, h3⟩ := ih (power * z) (s + 1)
    refine ⟨?_, ?_, ?_⟩
    · simp only [dilateData, h1, List.length_cons, pow_succ]; ring
    · simp [dilateData, h2]
    · simp only [dilateData]
      rw [blockCoeff_cons, h3, blockCoeff_cons s c d]
      rcases Nat.lt_trichotomy k s with h | h | h
      · simp [Nat.ne_of_lt h, blockCoeff_lt (s + 1, d) k (show k < s + 1 by omega)]
      · subst h; simp [blockCoeff_lt (k + 1, d) k (show k < k + 1 by omega)]
      · rw [if_neg (by omega), if_neg (by omega), show k - s = k - (s + 1) + 1 by omega, pow_succ]
        ring

theorem dilateLoop_spec (z power : F) (prev N : ℕ) (p : Poly F) (k : ℕ)
    (h : WellFormedFrom prev N p) :
    WellFormedFrom prev N (dilateLoop z power prev p) ∧
    coeff (dilateLoop z power prev p) k = coeff p k * (power * z ^ (k - prev)) := by
  induction p generalizing power prev with
  | nil => simp [dilateLoop, WellFormedFrom]
  | cons b p ih =>
    obtain ⟨s, d⟩ := b
    obtain ⟨h1, h2, h3, h4⟩ := h
    simp only [dilateLoop]
    have hpow : (if s - prev > 0 then power * z ^ (s - prev) else power) =
        power * z ^ (s - prev) := by
      split
      · rfl
      · next hh => rw [show s - prev = 0 by omega]; simp
    rw [hpow]
    obtain ⟨d1, d2, d3⟩ := dilateData_spec z (power * z ^ (s - prev)) d s k
    obtain ⟨i1, i2⟩ := ih (dilateData z (power * z ^ (s - prev)) d).2 (s + d.length) h4
    refine ⟨⟨h1, ?_, by rw [d2]; exact h3, by rw [d2]; exact i1⟩, ?_⟩
    · intro h0
      rw [h0] at d2
      exact h2 (List.length_eq_zero_iff.mp (by simpa using d2.symm))
    · rw [coeff_cons, coeff_cons, d3, i2, d1, add_mul]
      congr 1
      · rcases Nat.lt_or_ge k s with hk | hk
        · rw [blockCoeff_lt _ _ hk]; ring
        · rw [show k - prev = (s - prev) + (k - s) by omega, pow_add]; ring
      · rcases Nat.lt_or_ge k (s + d.length) with hk | hk
        · rw [coeff_lt_of_wf h4 hk]; ring
        · rw [show k - prev = (s - prev) + d.length + (k - (s + d.length)) by omega, pow_add,
            pow_add]
          ring

theorem dilate_wf {N : ℕ} {p : Poly F} (h : WellFormed N p) (z : F) : WellFormed N (dilate p z) :=
  (dilateLoop_spec z 1 0 N p 0 h).1

theorem dilate_coeff {N : ℕ} {p : Poly F} (h : WellFormed N p) (z : F) (k : ℕ) :
    coeff (dilate p z) k = coeff p k * z ^ k := by
  have := (dilateLoop_spec z 1 0 N p k h).2
  rw [one_mul, Nat.sub_zero] at this
  exact this

end
end Ragu.Sparse

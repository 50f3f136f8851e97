/-
The revdot identity, and its converse.
-/
import Verif.Spec.Revdot
import Verif.Lemmas.SySim
import Verif.Props.Tpoly
import Verif.Model.Ky
import Verif.Model.Claims
import Mathlib.Algebra.Polynomial.Roots

set_option linter.unusedSectionVars false

namespace Ragu.Circuit
open Ragu Finset
variable {F : Type} [Field F] [DecidableEq F]

/-- The polynomial `s(X, y)` as a linear functional: pairing it with any values of
the gate wires gives the weighted sum of the circuit's constraints. -/
theorem syEval_functional {c : Circ F} (hu : c.WellUsed) {n : ℕ} (hn : totalGates c.counts ≤ n)
    (hN : totalCons c.counts < 4 * n) (y : F) :
    ∃ p, syEval n (floorPlan c.counts) c y = .ok p ∧ Spec.WellFormed (4 * n) p ∧
      ∀ α : Kind → ℕ → F, ∑ i ∈ range n,
        (Spec.coeff p (2 * n - 1 - i) * α .a i + Spec.coeff p (2 * n + i) * α .b i +
          Spec.coeff p (4 * n - 1 - i) * α .c i + Spec.coeff p i * α .d i) =
        weigh (floorPlan c.counts) y
          (constraints (fun b => α b.kind (absGate (floorPlan c.counts) b)) c) := by
  have hf := circ_fits c hn (show totalCons c.counts ≤ 4 * n - 1 by omega)
  have hn0 : 0 < n := by
    obtain ⟨⟨sg, _, _, h⟩, _⟩ := hf
    omega
  have h0 : (floorPlan c.counts)[0]? = some ⟨0, 0, (posRun c.main (Pos.gate {})).gates,
      (posRun c.main (Pos.gate {})).cons⟩ := rfl
  have key : ∀ (v : Sparse.View F) (p : Sparse.Poly F), v.a.length ≤ n → v.b.length ≤ n →
      v.c.length ≤ n → v.d.length ≤ n → v.buildWiring n = some p → ∀ α : Kind → ℕ → F,
      ∑ i ∈ range n,
        (Spec.coeff p (2 * n - 1 - i) * α .a i + Spec.coeff p (2 * n + i) * α .b i +
          Spec.coeff p (4 * n - 1 - i) * α .c i + Spec.coeff p i * α .d i) =
      bufSum α .a v.a + bufSum α .b v.b + bufSum α .c v.c + bufSum α .d v.d := by
    intro v p ha hb hc hd hp α
    obtain ⟨p', h1, h2, h3⟩ := Props.C13_wiring_build n v ha hb hc hd
    rw [hp, Option.some.injEq] at h1
    subst h1
    rw [bufSum_extend _ _ _ ha, bufSum_extend _ _ _ hb, bufSum_extend _ _ _ hc,
      bufSum_extend _ _ _ hd, ← sum_add_distrib, ← sum_add_distrib, ← sum_add_distrib]
    refine sum_congr rfl fun i hi => ?_
    obtain ⟨e1, e2, e3, e4⟩ := h3 i (mem_range.1 hi)
    rw [e1, e2, e3, e4]
  by_cases hy : y = 0
  · subst hy
    obtain ⟨p, h1, h2, h3⟩ := wiring_view_eval (n := n) (v := ⟨[], [(1 : F)], [], []⟩) (by simp)
      (by simp; omega) (by simp) (by simp)
    refine ⟨p, by simp [syEval, h1], h2, fun α => ?_⟩
    rw [key _ p (by simp) (by simp; omega) (by simp) (by simp) h1, weigh_zero hu]
    simp [bufSum, abs_one]
  · obtain ⟨t, e, horch, hrt, hgs, hcs, hfree, hbuf, _⟩ := sy_run hu hn hN hy (fun _ _ => 0)
    have hlen : ∀ k, (t.table.buf k).length ≤ n := fun k => by rw [hbuf]; exact hn
    obtain ⟨p, h1, h2, h3⟩ := wiring_view_eval (n := n) (v := ⟨t.table.buf .a, t.table.buf .b,
      t.table.buf .c, t.table.buf .d⟩) (hlen _) (hlen _) (hlen _) (hlen _)
    refine ⟨p, ?_, h2, fun α => ?_⟩
    · have hm : 1 ≤ (posRun c.main (Pos.gate {})).cons := by
        rw [posRun_main]; simp [Pos.enforce]
      have htot : ((floorPlan c.counts).map Seg.numGates).sum = totalGates c.counts := by
        have := congrArg (List.map Prod.fst) (floorPlanFrom_counts c.counts 0 0)
        rw [List.map_map] at this
        rw [totalGates, ← this]
        rfl
      simp only [syEval, if_neg hy, h0]
      rw [if_neg (by omega), htot, horch, bind_ok]
      simp only
      rw [if_pos ⟨hrt, hgs, hcs⟩, if_pos hfree]
      simp only [h1]
    · obtain ⟨t', e', horch', _, _, _, _, _, h⟩ := sy_run hu hn hN hy α
      rw [horch, Except.ok.injEq, Prod.mk.injEq] at horch'
      rw [key _ p (hlen _) (hlen _) (hlen _) (hlen _) h1, ← h, horch'.1]

/-- Gate part of the identity. -/
def gateSum (n : ℕ) (r : Sparse.Poly F) (z : F) : F :=
  ∑ i ∈ range n,
    ((wireOf n r .a i * wireOf n r .b i - wireOf n r .c i) * (z ^ (2 * n - 1 - i) + z ^ (2 * n + i)) +
      wireOf n r .c i * wireOf n r .d i * (z ^ i + z ^ (4 * n - 1 - i)))

/-- The revdot product of a trace polynomial with the right-hand polynomial of its
claim, for every trace polynomial. -/
theorem revdot_claim {c : Circ F} (hu : c.WellUsed) {n : ℕ} (hn : totalGates c.counts ≤ n)
    (hN : totalCons c.counts < 4 * n) {r : Sparse.Poly F} (hr : Spec.WellFormed (4 * n) r) (y z : F) :
    ∃ sy tz b, syEval n (floorPlan c.counts) c y = .ok sy ∧ Tpoly.tz n z = some tz ∧
      claimB n r sy tz z = some b ∧ Spec.WellFormed (4 * n) b ∧
      Sparse.revdot (4 * n) r b = gateSum n r z +
        weigh (floorPlan c.counts) y (constraints (assignment n (floorPlan c.counts) r) c) := by
  obtain ⟨sy, hsy, hsywf, hfun⟩ := syEval_functional hu hn hN y
  obtain ⟨tz, htz, htzwf, htc⟩ := Props.C14_tz_coeffs n z
  obtain ⟨b1, hb1, hb1wf, hb1c⟩ := Sparse.combineAssign_spec (4 * n) (fun a b : F => a + b) (by simp)
    (Sparse.dilate r z) sy (Sparse.dilate_wf hr z) hsywf
  obtain ⟨b, hb, hbwf, hbc⟩ := Sparse.combineAssign_spec (4 * n) (fun a b : F => a + b) (by simp)
    b1 tz hb1wf htzwf
  refine ⟨sy, tz, b, hsy, htz, ?_, hbwf, ?_⟩
  · simp only [claimB, Sparse.addAssign, hb1, Option.bind_eq_bind, Option.bind_some, hb]
  · rw [Props.C11_revdot _ _ _ hr hbwf, Props.sum_views]
    have hf := hfun (fun k i => wireOf n r k i)
    rw [show (fun b : Base => wireOf n r b.kind (absGate (floorPlan c.counts) b)) =
      assignment n (floorPlan c.counts) r from rfl] at hf
    rw [← hf, gateSum, ← sum_add_distrib]
    refine sum_congr rfl fun i hi => ?_
    have hi := mem_range.1 hi
    obtain ⟨t1, t2, t3, t4⟩ := htc i hi
    have e1 : 4 * n - 1 - (2 * n - 1 - i) = 2 * n + i := by omega
    have e2 : 4 * n - 1 - (2 * n + i) = 2 * n - 1 - i := by omega
    have e3 : 4 * n - 1 - (4 * n - 1 - i) = i := by omega
    simp only [hbc, hb1c, Sparse.dilate_coeff hr, e1, e2, e3, t1, t2, t3, t4, wireOf, traceExp]
    ring

/-! ### Distinct places of constraints -/

/-- The constraints so far are at distinct places. -/
def DistRel (fp : List Seg) (_ : Unit) (s : Sem F) (es : List F) (h : List ℕ) (_ : Unit)
    (e : List Unit) : Prop :=
  (h.length = es.length ∧ h.length = e.length) ∧ s.pos.seg < s.pos.nseg ∧
  (∀ r ∈ s.log, s.pos.seg ≤ r.seg ∧ r.seg < s.pos.nseg ∧ (r.seg = s.pos.seg → r.loc < s.pos.cons) ∧
    ∃ sg, fp[r.seg]? = some sg ∧ r.loc < sg.numCons) ∧
  s.log.Pairwise fun a b => (a.seg, a.loc) ≠ (b.seg, b.loc)

theorem dist_sim {φ : Base → F} {fp : List Seg} {n N : ℕ} :
    Sim (unitD (F := F)) φ fp n N (DistRel fp) where
  len h := h.1
  gate := by
    intro c s es h t e _ _ _ _ hR hg
    exact ⟨(), (), (), (), (), rfl, ⟨by simp [hR.1.1], by simp [hR.1.2]⟩, hR.2⟩
  mul := by
    intro c s es h t e _ _ _ hR hg
    exact ⟨(), (), (), (), rfl, ⟨by simp [hR.1.1], by simp [hR.1.2]⟩, hR.2⟩
  alloc := by
    intro c s es h t e _ hR hg
    refine ⟨(), (), rfl, ⟨by simp [hR.1.1], by simp [hR.1.2]⟩, ?_⟩
    have := hR.2
    cases hq : s.pos.pend <;> simpa [Pos.alloc, hq] using this
  add := by
    intro c s es h t e lc lcS lcE hR hu hS hE
    exact ⟨(), (), rfl, ⟨by simp [hR.1.1], by simp [hR.1.2]⟩, hR.2⟩
  enforce := by
    intro c s es h t e lc lcS lcE hR hu hS hE hc
    obtain ⟨hl, hns, hlog, hd⟩ := hR
    refine ⟨(), rfl, hl, hns, ?_, ?_⟩
    · intro r hr
      simp only [List.mem_append, List.mem_cons, List.not_mem_nil, or_false] at hr
      simp only [Pos.enforce]
      rcases hr with hr | hr
      · obtain ⟨a, a', b, c⟩ := hlog r hr
        exact ⟨a, a', fun h => by have := b h; omega, c⟩
      · subst hr
        obtain ⟨sg, h1, h2, _⟩ := hc
        exact ⟨le_rfl, hns, fun _ => Nat.lt_succ_self _, sg, h1, h2⟩
    · rw [List.pairwise_append]
      refine ⟨hd, by simp, ?_⟩
      intro a ha b hb
      simp only [List.mem_cons, List.not_mem_nil, or_false] at hb
      subst hb
      obtain ⟨_, _, b, _⟩ := hlog a ha
      intro hc
      simp only [Prod.mk.injEq] at hc
      have := b hc.1
      omega
  routine := by
    intro c s es h t e sg call hR hsg
    obtain ⟨hl, hns, hlog, hd⟩ := hR
    refine ⟨(), (), rfl, ⟨hl, by simp [Pos.enter], by simp, by simp⟩, ?_⟩
    intro s1 es' h' t1 e' hR1 hseg hns1 _ _
    obtain ⟨hl1, hns1', hlog1, hd1⟩ := hR1
    refine ⟨(), rfl, hl1, ?_, ?_, ?_⟩
    · simp only [Pos.leave]; omega
    · intro r hr
      simp only [Pos.leave]
      rcases List.mem_append.1 hr with hr | hr
      · obtain ⟨a, a', b, c⟩ := hlog r hr
        exact ⟨a, by omega, b, c⟩
      · obtain ⟨a, a', b, c⟩ := hlog1 r hr
        rw [hseg] at a
        exact ⟨by omega, a', fun h => by omega, c⟩
    · rw [List.pairwise_append]
      refine ⟨hd, hd1, ?_⟩
      intro a ha b hb hc
      simp only [Prod.mk.injEq] at hc
      have h1 := (hlog a ha).2.1
      have h2 := (hlog1 b hb).1
      omega
  clone := by
    intro c s es h t e i w hR _ _
    exact ⟨(), rfl, by simpa using hR.1, hR.2⟩
  drop := by
    intro c s es h t e i w hR _ _
    exact ⟨(), rfl, by simpa using hR.1, hR.2⟩

/-- Rows at consecutive places of one segment. -/
def rowsFrom (seg : ℕ) : ℕ → List F → List (Row F)
  | _, [] => []
  | k, v :: r => ⟨seg, k, v⟩ :: rowsFrom seg (k + 1) r

theorem outs_run {φ : Base → F} (outs : List WRef) : ∀ {s : Sem F} {es : List F} {s' es'},
    run (semD φ) (outsProg outs) s es = .ok (s', es') → es' = es ∧
      ∃ os, outs.mapM (resolve (φ ⟨.b, 0, 0⟩) es) = .ok os ∧ os.length = outs.length ∧
        s' = { pos := { s.pos with cons := s.pos.cons + os.length },
               log := s.log ++ rowsFrom s.pos.seg s.pos.cons os } := by
  induction outs with
  | nil =>
    intro s es s' es' h
    simp only [outsProg, List.foldr_nil, run, Except.ok.injEq, Prod.mk.injEq] at h
    obtain ⟨rfl, rfl⟩ := h
    exact ⟨rfl, [], rfl, rfl, by simp [rowsFrom]⟩
  | cons w r ih =>
    intro s es s' es' h
    simp only [outsProg, List.foldr_cons, run, resolveLc, LcStep.add] at h
    have h1 : (semD φ).one = φ ⟨.b, 0, 0⟩ := rfl
    rw [h1] at h
    cases q : resolve (φ ⟨.b, 0, 0⟩) es w with
    | error x => simp [q, bind, Except.bind] at h
    | ok v =>
      simp only [q, bind_ok] at h
      obtain ⟨he, os, hm, hl, hs⟩ := ih h
      refine ⟨he, v :: os, ?_, by simp [hl], ?_⟩
      · rw [List.mapM_cons, q, bind_ok, hm]; rfl
      · rw [hs]
        simp only [Pos.enforce, rowsFrom, List.length_cons, List.append_assoc, List.cons_append,
          List.nil_append, lcVal, Coeff.value, one_mul, add_zero, Sem.mk.injEq, and_true]
        simp only [Pos.mk.injEq, true_and, and_true]
        omega

/-- The constraints of a circuit: those of the body, one per output, and the ONE
constraint, all at different exponents of `y`. -/
theorem log_parts (φ : Base → F) {c : Circ F} (hu : c.WellUsed) :
    ∃ s es os, run (semD φ) c.body { pos := Pos.gate {} } [] = .ok (s, es) ∧
      c.outs.mapM (resolve (φ ⟨.b, 0, 0⟩) es) = .ok os ∧ os.length = c.outs.length ∧
      constraints φ c = s.log ++ (rowsFrom 0 s.pos.cons os ++
        [⟨0, s.pos.cons + os.length, φ ⟨.b, 0, 0⟩⟩]) ∧
      (posRun c.main (Pos.gate {})).cons = s.pos.cons + os.length + 1 ∧
      (∀ r ∈ constraints φ c, ∃ sg, (floorPlan c.counts)[r.seg]? = some sg ∧ r.loc < sg.numCons) ∧
      (constraints φ c).Pairwise fun a b => (a.seg, a.loc) ≠ (b.seg, b.loc) := by
  obtain ⟨h', hh, _⟩ := hu
  have hf := (circ_fits c le_rfl le_rfl).2
  have hR0 : DistRel (floorPlan c.counts) () { pos := Pos.gate {}, log := [] } ([] : List F) [] () [] :=
    ⟨⟨rfl, rfl⟩, by simp [Pos.gate], by simp, by simp⟩
  obtain ⟨s, es, _, _, hrun, _, hR, hp⟩ := sim_run (dist_sim (φ := φ) (fp := floorPlan c.counts)
    (n := totalGates c.counts) (N := totalCons c.counts)) c.main () _ _ _ _ _ h' hR0 hh hf
  have hfull := hrun
  rw [main_eq, run_seq, run_seq] at hrun
  cases q1 : run (semD φ) c.body { pos := Pos.gate {} } [] with
  | error x => simp [q1, bind, Except.bind] at hrun
  | ok r1 =>
    obtain ⟨s1, e1⟩ := r1
    rw [q1, bind_ok] at hrun
    cases q2 : run (semD φ) (outsProg c.outs) s1 e1 with
    | error x => simp [q2, bind, Except.bind] at hrun
    | ok r2 =>
      obtain ⟨s2, e2⟩ := r2
      simp only [q2, bind_ok] at hrun
      obtain ⟨rfl, os, hm, hl, hs2⟩ := outs_run c.outs q2
      have hs : s = { pos := s2.pos.enforce, log := s2.log ++ [⟨s2.pos.seg, s2.pos.cons,
          φ ⟨.b, 0, 0⟩⟩] } := by
        simp only [run, resolveLc, resolve, LcStep.add, bind_ok] at hrun
        have := sem_drops _ hrun
        rw [this]
        simp [semD, lcVal, Coeff.value]
      have hseg : s1.pos.seg = 0 := by
        have h1 : s.pos.seg = 0 := by rw [hp, posRun_seg]; rfl
        rw [hs, hs2] at h1
        exact h1
      have hc : constraints φ c = s.log := constraints_eq hfull
      refine ⟨s1, e2, os, rfl, hm, hl, ?_, ?_, ?_, ?_⟩
      · rw [hc, hs, hs2, hseg]
        simp [List.append_assoc]
      · rw [← hp, hs, hs2]
        simp [Pos.enforce]
      · rw [hc]; exact fun r hr => (hR.2.2.1 r hr).2.2.2
      · rw [hc]; exact hR.2.2.2

theorem consExp_inj {c : Circ F} {a b : Row F} {sa sb : Seg}
    (ha : (floorPlan c.counts)[a.seg]? = some sa) (hb : (floorPlan c.counts)[b.seg]? = some sb)
    (la : a.loc < sa.numCons) (lb : b.loc < sb.numCons)
    (h : consExp (floorPlan c.counts) a.seg a.loc = consExp (floorPlan c.counts) b.seg b.loc) :
    (a.seg, a.loc) = (b.seg, b.loc) := by
  simp only [consExp, ha, hb, Option.map_some, Option.getD_some] at h
  obtain ⟨h1, h2⟩ := ordered_inj (floorPlanFrom_ordered c.counts 0 0) ha hb
    (show sa.numCons - 1 - a.loc < sa.numCons by omega)
    (show sb.numCons - 1 - b.loc < sb.numCons by omega) (by omega)
  rw [h1] at ha
  rw [ha, Option.some.injEq] at hb
  subst hb
  rw [Prod.mk.injEq]
  exact ⟨h1, by omega⟩

theorem consExp_lt {c : Circ F} {a : Row F} {sa : Seg}
    (ha : (floorPlan c.counts)[a.seg]? = some sa) (la : a.loc < sa.numCons) :
    consExp (floorPlan c.counts) a.seg a.loc < totalCons c.counts := by
  have := floorPlanFrom_bound c.counts 0 0 sa (List.mem_of_getElem? ha)
  simp only [consExp, ha, Option.map_some, Option.getD_some]
  omega

/-! ### Polynomial identities from evaluations -/

theorem coeffs_zero {N : ℕ} (f : ℕ → F) (S : Finset F) (hS : N ≤ S.card)
    (h : ∀ z ∈ S, ∑ j ∈ range N, f j * z ^ j = 0) : ∀ j < N, f j = 0 := by
  intro j hj
  set P : Polynomial F := ∑ i ∈ range N, Polynomial.monomial i (f i) with hP
  have hev : ∀ z ∈ S, P.eval z = 0 := by
    intro z hz
    rw [hP, Polynomial.eval_finset_sum, ← h z hz]
    exact sum_congr rfl fun i _ => by simp
  have hdeg : P.natDegree < S.card := by
    refine lt_of_lt_of_le ?_ hS
    refine lt_of_le_of_lt (Polynomial.natDegree_sum_le_of_forall_le (n := N - 1) _ _ ?_) (by omega)
    intro i hi
    exact (Polynomial.natDegree_monomial_le _).trans (by have := mem_range.1 hi; omega)
  have h0 := Polynomial.eq_zero_of_natDegree_lt_card_of_eval_eq_zero' P S hev hdeg
  have : P.coeff j = f j := by
    rw [hP, Polynomial.finset_sum_coeff]
    simp only [Polynomial.coeff_monomial]
    rw [sum_ite_eq' (range N) j f]
    simp [hj]
  rw [← this, h0, Polynomial.coeff_zero]

theorem weigh_by_exp (fp : List Seg) (y : F) (N : ℕ) (log : List (Row F))
    (hlt : ∀ r ∈ log, consExp fp r.seg r.loc < N) :
    weigh fp y log = ∑ j ∈ range N,
      (log.map fun r => if consExp fp r.seg r.loc = j then r.val else 0).sum * y ^ j := by
  induction log with
  | nil => simp [weigh]
  | cons r l ih =>
    have := ih (fun x hx => hlt x (List.mem_cons_of_mem _ hx))
    simp only [weigh, List.map_cons, List.sum_cons, add_mul, sum_add_distrib] at this ⊢
    rw [this]
    congr 1
    rw [sum_eq_single (consExp fp r.seg r.loc)]
    · simp [mul_comm]
    · intro j _ hj
      simp [hj.symm]
    · intro hj
      exact absurd (mem_range.2 (hlt r (by simp))) hj

theorem val_by_exp (fp : List Seg) (log : List (Row F))
    (hd : log.Pairwise fun a b => consExp fp a.seg a.loc ≠ consExp fp b.seg b.loc) :
    ∀ r ∈ log, (log.map fun q => if consExp fp q.seg q.loc = consExp fp r.seg r.loc
      then q.val else 0).sum = r.val := by
  induction log with
  | nil => simp
  | cons a l ih =>
    rw [List.pairwise_cons] at hd
    intro r hr
    rw [List.map_cons, List.sum_cons]
    rcases List.mem_cons.1 hr with rfl | hr
    · have hz : (l.map fun q => if consExp fp q.seg q.loc = consExp fp r.seg r.loc
          then q.val else 0).sum = 0 := by
        apply List.sum_eq_zero
        intro v hv
        simp only [List.mem_map] at hv
        obtain ⟨q, hq, rfl⟩ := hv
        rw [if_neg (hd.1 q hq).symm]
      rw [hz]
      simp
    · rw [if_neg (hd.1 r hr), zero_add]
      exact ih hd.2 r hr

/-- A weighted sum that vanishes at enough points has only zero entries. -/
theorem weigh_all_zero {fp : List Seg} {N : ℕ} {log : List (Row F)} (S : Finset F)
    (hS : N ≤ S.card) (hlt : ∀ r ∈ log, consExp fp r.seg r.loc < N)
    (hd : log.Pairwise fun a b => consExp fp a.seg a.loc ≠ consExp fp b.seg b.loc)
    (h : ∀ y ∈ S, weigh fp y log = 0) : ∀ r ∈ log, r.val = 0 := by
  intro r hr
  rw [← val_by_exp fp log hd r hr]
  refine coeffs_zero (fun j => (log.map fun q => if consExp fp q.seg q.loc = j
      then q.val else 0).sum) S hS ?_ _ (hlt r hr)
  intro y hy
  rw [← weigh_by_exp fp y N log hlt, h y hy]

/-! ### `k(y)` -/

theorem foldl_write (y : F) (l : List F) : ∀ a, l.foldl (Ky.write y) (some a) =
    some (a * y ^ l.length + ∑ i ∈ range l.length, l.getD i 0 * y ^ (l.length - 1 - i)) := by
  induction l with
  | nil => intro a; simp
  | cons x l ih =>
    intro a
    rw [List.foldl_cons, Ky.write, ih, List.length_cons, sum_range_succ']
    simp only [Option.some.injEq, List.getD_cons_zero, List.getD_cons_succ]
    have : ∀ i ∈ range l.length, l.getD i 0 * y ^ (l.length + 1 - 1 - (i + 1)) =
        l.getD i 0 * y ^ (l.length - 1 - i) := by
      intro i _; congr 2; omega
    rw [sum_congr rfl this]
    simp only [Nat.add_sub_cancel, Nat.sub_zero]
    ring

theorem kyEval_eq (inst : List F) (y : F) : Ky.kyEval inst y =
    ∑ i ∈ range inst.length, inst.getD i 0 * y ^ (inst.length - i) + 1 := by
  cases inst with
  | nil => simp [Ky.kyEval, Ky.writeAll, Ky.finishKy, Ky.finish, Ky.write]
  | cons x l =>
    simp only [Ky.kyEval, Ky.writeAll, List.foldl_cons]
    rw [show Ky.write y none x = some x from rfl, foldl_write]
    simp only [Ky.finishKy, Ky.finish, Ky.write, Option.getD_some, List.length_cons]
    rw [sum_range_succ']
    simp only [List.getD_cons_zero, List.getD_cons_succ, Nat.sub_zero]
    rw [add_mul, sum_mul]
    have : ∀ i ∈ range l.length, l.getD i 0 * y ^ (l.length - 1 - i) * y =
        l.getD i 0 * y ^ (l.length + 1 - (i + 1)) := by
      intro i hi
      have := mem_range.1 hi
      rw [mul_assoc, ← pow_succ]
      congr 2; omega
    rw [sum_congr rfl this]
    ring

theorem weigh_rows {fp : List Seg} {g m : ℕ} (h0 : fp[0]? = some ⟨0, 0, g, m⟩) (y : F)
    (os : List F) : ∀ k, m = k + os.length + 1 →
      weigh fp y (rowsFrom 0 k os) = ∑ i ∈ range os.length, os.getD i 0 * y ^ (os.length - i) := by
  induction os with
  | nil => intro k _; simp [weigh, rowsFrom]
  | cons x l ih =>
    intro k hm
    have := ih (k + 1) (by simp only [List.length_cons] at hm; omega)
    simp only [weigh, rowsFrom, List.map_cons, List.sum_cons] at this ⊢
    rw [this, List.length_cons, sum_range_succ']
    simp only [List.getD_cons_zero, List.getD_cons_succ, Nat.sub_zero]
    have he : consExp fp 0 k = l.length + 1 := by
      simp only [consExp, h0, Option.map_some, Option.getD_some]
      simp only [List.length_cons] at hm
      omega
    rw [he, add_comm, mul_comm]
    congr 1
    refine sum_congr rfl fun i _ => ?_
    congr 2; omega

end Ragu.Circuit

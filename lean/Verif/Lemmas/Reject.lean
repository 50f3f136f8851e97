/-
Why a proof cannot name something other than a step: the constant and the linear term of the public
input polynomial.
-/
import Verif.Lemmas.Accept

set_option linter.unusedSectionVars false

namespace Ragu.Circuit
open Ragu
variable {F : Type} [Field F] [DecidableEq F]

/-- The values that the wires of a program can have, whether or not they satisfy its gates and
constraints. -/
def Prog.reach : Prog F → List F → List F → Prop
  | .done, env, env' => env' = env
  | .gate _ _ _ _ k, env, env' => ∃ a b c d, k.reach (env ++ [a, b, c, d]) env'
  | .mul _ _ _ k, env, env' => ∃ a b c, k.reach (env ++ [a, b, c]) env'
  | .alloc _ k, env, env' => ∃ v, k.reach (env ++ [v]) env'
  | .add lc k, env, env' => ∃ l, resolveLc 1 env lc = .ok l ∧ k.reach (env ++ [lcVal 1 l]) env'
  | .enforce _ k, env, env' => k.reach env env'
  | .routine _ b k, env, env' => ∃ env1, b.reach env env1 ∧ k.reach env1 env'
  | .clone _ k, env, env' => k.reach env env'
  | .drop _ k, env, env' => k.reach env env'

theorem reach_seq (p q : Prog F) : ∀ env env',
    (p.seq q).reach env env' ↔ ∃ e, p.reach env e ∧ q.reach e env' := by
  induction p with
  | done => intro env env'; simp [Prog.seq, Prog.reach]
  | gate a b c d k ih =>
    intro env env'
    simp only [Prog.seq, Prog.reach, ih]
    constructor
    · rintro ⟨a, b, c, d, e, h3, h4⟩; exact ⟨e, ⟨a, b, c, d, h3⟩, h4⟩
    · rintro ⟨e, ⟨a, b, c, d, h3⟩, h4⟩; exact ⟨a, b, c, d, e, h3, h4⟩
  | mul a b c k ih =>
    intro env env'
    simp only [Prog.seq, Prog.reach, ih]
    constructor
    · rintro ⟨a, b, c, e, h3, h4⟩; exact ⟨e, ⟨a, b, c, h3⟩, h4⟩
    · rintro ⟨e, ⟨a, b, c, h3⟩, h4⟩; exact ⟨a, b, c, e, h3, h4⟩
  | alloc v k ih =>
    intro env env'
    simp only [Prog.seq, Prog.reach, ih]
    constructor
    · rintro ⟨v, e, h1, h2⟩; exact ⟨e, ⟨v, h1⟩, h2⟩
    · rintro ⟨e, ⟨v, h1⟩, h2⟩; exact ⟨v, e, h1, h2⟩
  | add lc k ih =>
    intro env env'
    simp only [Prog.seq, Prog.reach, ih]
    constructor
    · rintro ⟨v, h0, e, h1, h2⟩; exact ⟨e, ⟨v, h0, h1⟩, h2⟩
    · rintro ⟨e, ⟨v, h0, h1⟩, h2⟩; exact ⟨v, h0, e, h1, h2⟩
  | enforce lc k ih | clone w k ih | drop w k ih => intro env env'; exact ih _ _
  | routine c b k ihb ihk =>
    intro env env'
    simp only [Prog.seq, Prog.reach, ihk]
    constructor
    · rintro ⟨v, h0, e, h1, h2⟩; exact ⟨e, ⟨v, h0, h1⟩, h2⟩
    · rintro ⟨e, ⟨v, h0, h1⟩, h2⟩; exact ⟨v, h0, e, h1, h2⟩

/-- Every assignment whose constant wire is one gives wires that can be reached. -/
theorem sem_reach {φ : Base → F} (h1 : φ ⟨.b, 0, 0⟩ = 1) (p : Prog F) :
    ∀ (s : Sem F) (env : List F) s' env', run (semD φ) p s env = .ok (s', env') → p.reach env env' := by
  have hone : (semD φ).one = 1 := h1
  induction p with
  | done =>
    intro s env s' env' h
    simp only [run, Except.ok.injEq, Prod.mk.injEq] at h
    exact h.2.symm
  | gate a b c d k ih => intro s env s' env' h; exact ⟨_, _, _, _, ih _ _ _ _ h⟩
  | mul a b c k ih => intro s env s' env' h; exact ⟨_, _, _, ih _ _ _ _ h⟩
  | alloc v k ih => intro s env s' env' h; exact ⟨_, ih _ _ _ _ h⟩
  | add lc k ih =>
    intro s env s' env' h
    simp only [run, hone] at h
    cases hq : resolveLc 1 env lc with
    | error e => rw [hq] at h; cases h
    | ok l => rw [hq] at h; exact ⟨l, hq, ih _ _ _ _ h⟩
  | enforce lc k ih =>
    intro s env s' env' h
    simp only [run, hone] at h
    cases hq : resolveLc 1 env lc with
    | error e => rw [hq] at h; cases h
    | ok l => rw [hq] at h; exact ih _ _ _ _ h
  | routine c b k ihb ihk =>
    intro s env s' env' h
    have e1 : (semD φ).enter c s = .ok { pos := s.pos.enter, log := [] } := rfl
    simp only [run, e1, bind_ok] at h
    cases hq : run (semD φ) b { pos := s.pos.enter, log := [] } env with
    | error e => rw [hq] at h; cases h
    | ok x =>
      rw [hq] at h
      obtain ⟨s1, env1⟩ := x
      have e2 : (semD φ).leave c s s1 =
        .ok { pos := s.pos.leave s1.pos, log := s.log ++ s1.log } := rfl
      simp only [bind_ok, e2] at h
      exact ⟨env1, ihb _ _ _ _ hq, ihk _ _ _ _ h⟩
  | clone w k ih | drop w k ih =>
    intro s env s' env' h
    simp only [run] at h
    cases hq : resolve (semD φ).one env (.idx w) with
    | error e => rw [hq] at h; cases h
    | ok l => rw [hq] at h; exact ih _ _ _ _ h

theorem reach_allocZeros (k : Prog F) : ∀ (m : ℕ) (env env' : List F),
    (allocZeros m k).reach env env' → ∃ es, es.length = m ∧ k.reach (env ++ es) env'
  | 0, env, env', h => ⟨[], rfl, by simpa [allocZeros] using h⟩
  | m + 1, env, env', h => by
    obtain ⟨v, h⟩ := h
    obtain ⟨es, e1, e2⟩ := reach_allocZeros k m _ _ h
    exact ⟨v :: es, by simp [e1], by simpa using e2⟩

end Ragu.Circuit

namespace Ragu.Gadget
open Ragu Ragu.Circuit
variable {F α β : Type} [Field F] [DecidableEq F]

/-- Whatever the wires of the code are, its result has the property. -/
inductive Syn.Always (P : α → Prop) : Syn F α → Prop
  | ret {a} : P a → Always P (.ret a)
  | gate {w k} : (∀ a b c d, Always P (k a b c d)) → Always P (.gate w k)
  | alloc {w k} : (∀ v, Always P (k v)) → Always P (.alloc w k)
  | enforce {v k} : Always P k → Always P (.enforce v k)
  | check {e k} : Always P k → Always P (.check e k)
  | panic : Always P .panic

theorem Syn.Always.bind {P : β → Prop} (x : Syn F α) {f : α → Syn F β}
    (h : ∀ a, (f a).Always P) : (x >>= f).Always P := by
  induction x with
  | ret a => exact h a
  | gate w k ih => exact .gate fun a b c d => ih a b c d
  | alloc w k ih => exact .alloc fun v => ih v
  | enforce v k ih => exact .enforce ih
  | check e k ih => exact .check ih
  | panic => exact .panic

theorem Calls.reach {Q : List F → α → Prop} {P : α → Prop} {p : Prog F} {env : List F} {x : Syn F α}
    (h : Calls Q p env x) : x.Always P → ∀ {env'}, p.reach env env' → ∃ r, P r ∧ Q env' r := by
  induction h with
  | ret hq => intro ha env' hs; cases hs; cases ha with | ret h => exact ⟨_, h, hq⟩
  | gate _ ih =>
    rintro (_ | ha) env' ⟨a, b, c, d, h3⟩
    exact ih a b c d (ha _ _ _ _) h3
  | mul _ _ ih =>
    rintro (_ | ha) env' ⟨a, b, c, h3⟩
    exact ih a b c 0 (ha _ _ _ _) h3
  | alloc _ ih =>
    intro ha env' ⟨v, h3⟩
    cases ha with | alloc ha => exact ih v (ha _) h3
  | enforce hl hv _ ih =>
    intro ha env' h3
    cases ha with | enforce ha => exact ih ha h3
  | add hl _ ih =>
    rintro ha env' ⟨l, h1, h3⟩
    rw [hl, Except.ok.injEq] at h1
    subst h1
    exact ih ha h3
  | routine _ ih => intro ha env' hs; exact ih ha ((reach_seq _ _ _ _).2 hs)
  | clone _ ih | drop _ ih => intro ha env' hs; exact ih ha hs
  | check _ ih =>
    intro ha env' hs
    cases ha with | check ha => exact ih ha hs

end Ragu.Gadget

namespace Ragu.Props
open Ragu Ragu.Circuit Ragu.Registry Ragu.Spec Ragu.Gadget Ragu.Pcd Finset
variable {F : Type} [Field F] [DecidableEq F]

/-- If the code of a circuit always ends its output with zero, the circuit does so under every
assignment whose constant wire is one. -/
theorem realizes_last {ch : Chain} {c : Circ F} {x : List F → Syn F (List F)} (h : Realizes ch c x)
    {P : List F → Prop} (hx : ∀ es, (x es).Always P) {φ : Base → F} (h1 : φ ⟨.b, 0, 0⟩ = 1) {s es os}
    (hrun : run (semD φ) c.body { pos := Pos.gate {} } [] = .ok (s, es))
    (hout : c.outs.mapM (resolve 1 es) = .ok os) : P os := by
  obtain ⟨k, hb, hk⟩ := h
  have hfit : StagesFit ch := ((C28_exact ch k).2.1).1 ⟨_, hb⟩
  have hr := sem_reach h1 _ _ _ _ _ hrun
  rw [multiStage_eq ch k hfit, Except.ok.injEq] at hb
  rw [← hb] at hr
  obtain ⟨es', e1, e2⟩ := reach_allocZeros _ _ _ _ hr
  obtain ⟨r, r1, r2⟩ := (hk es' (by rw [e1, firstWire_eq])).reach (hx es') e2
  rw [hout, Except.ok.injEq] at r2
  subst r2
  exact r1

/-! ### Counting -/

/-- A polynomial in `z` plus a polynomial in `y`: if a coefficient other than the constant one is not
zero, or the constants do not cancel, few pairs are zeros. -/
theorem sum_zeros {n D : ℕ} (hn : 0 < n) (hD : 4 * n ≤ D) (G g : ℕ → F) (A : Finset F)
    (h : (∃ j, 0 < j ∧ j < 4 * n ∧ G j ≠ 0) ∨ G 0 + g 0 ≠ 0 ∨ ∃ e, 0 < e ∧ e < D ∧ g e ≠ 0) :
    ((A ×ˢ A).filter fun p => ∑ j ∈ range (4 * n), G j * p.2 ^ j +
      ∑ e ∈ range D, g e * p.1 ^ e = 0).card ≤ (D - 1 + (4 * n - 1)) * A.card := by
  have e : ∀ y z : F, ∑ j ∈ range (4 * n), G j * z ^ j + ∑ e ∈ range D, g e * y ^ e =
      ∑ i ∈ range (4 * n), z ^ (4 * n - 1 - i) * (G (4 * n - 1 - i) +
        if i = 4 * n - 1 then ∑ e ∈ range D, g e * y ^ e else 0) := by
    intro y z
    simp only [mul_add, sum_add_distrib]
    congr 1
    · rw [← sum_range_reflect]
      exact sum_congr rfl fun i _ => mul_comm _ _
    · refine Eq.symm ?_
      rw [sum_eq_single (4 * n - 1)]
      · rw [if_pos rfl, Nat.sub_self, pow_zero, one_mul]
      · intro b _ hb
        rw [if_neg hb, mul_zero]
      · intro hb
        exact absurd (mem_range.2 (by omega)) hb
  simp only [e]
  have key : ∃ i < 4 * n, (A.filter fun y => (G (4 * n - 1 - i) +
      if i = 4 * n - 1 then ∑ e ∈ range D, g e * y ^ e else 0) = 0).card ≤ D - 1 := by
    rcases h with ⟨j, j0, j1, hj⟩ | h
    · refine ⟨4 * n - 1 - j, by omega, ?_⟩
      rw [filter_false_of_mem, card_empty]
      · exact Nat.zero_le _
      · intro y _
        rw [if_neg (by omega), add_zero, show 4 * n - 1 - (4 * n - 1 - j) = j by omega]
        exact hj
    · refine ⟨4 * n - 1, by omega, ?_⟩
      have : ∃ e < D, (if e = 0 then G 0 + g 0 else g e) ≠ 0 := by
        rcases h with h | ⟨e, e0, e1, he⟩
        · exact ⟨0, by omega, by simpa using h⟩
        · exact ⟨e, e1, by rwa [if_neg (by omega)]⟩
      obtain ⟨e0, he, hne⟩ := this
      refine le_trans (le_of_eq (congrArg Finset.card (filter_congr fun y _ => ?_)))
        (roots_le (k := D) (fun e => if e = 0 then G 0 + g 0 else g e) he hne A)
      rw [if_pos rfl, Nat.sub_self]
      refine Eq.congr_left ?_
      obtain ⟨d, rfl⟩ : ∃ d, D = d + 1 := ⟨D - 1, by omega⟩
      rw [sum_range_succ', sum_range_succ']
      simp only [if_true, Nat.add_eq_zero_iff, one_ne_zero, and_false, if_false]
      ring
  obtain ⟨i, hi, hc⟩ := key
  exact pairs_card (k := 4 * n) (fun i y => G (4 * n - 1 - i) +
    if i = 4 * n - 1 then ∑ e ∈ range D, g e * y ^ e else 0) hi A hc

theorem gateCoeff_ends {n : ℕ} (hn : 0 < n) (r : Sparse.Poly F) :
    gateCoeff n r (4 * n - 1) = gateCoeff n r 0 := by
  rw [gateCoeff, gateCoeff, if_pos hn, if_neg (by omega), if_neg (by omega), if_neg (by omega),
    show 4 * n - 1 - (4 * n - 1) = 0 by omega]

/-- The part of a claim that does not depend on the wiring. -/
theorem gate_part (n : ℕ) {r : Sparse.Poly F} (z : F) :
    ∑ k ∈ range (4 * n), coeff r k * (coeff r (4 * n - 1 - k) * z ^ (4 * n - 1 - k) +
      tCoeff n z (4 * n - 1 - k)) = ∑ j ∈ range (4 * n), gateCoeff n r j * z ^ j := by
  rw [← gateSum_coeffs, sum_views, gateSum]
  obtain ⟨tz, htz, -, htc⟩ := C14_tz_coeffs n z
  simp only [tz_coeffs htz] at htc
  refine sum_congr rfl fun i hi => ?_
  have hi := mem_range.1 hi
  obtain ⟨t1, t2, t3, t4⟩ := htc i hi
  have e1 : 4 * n - 1 - (2 * n - 1 - i) = 2 * n + i := by omega
  have e2 : 4 * n - 1 - (2 * n + i) = 2 * n - 1 - i := by omega
  have e3 : 4 * n - 1 - (4 * n - 1 - i) = i := by omega
  simp only [e1, e2, e3, t1, t2, t3, t4, wireOf, traceExp]
  ring

/-- The coefficients in `y` of the public input polynomial. -/
def instCoeff (inst : List F) (e : ℕ) : F :=
  if e = 0 then 1 else if e ≤ inst.length then inst.getD (inst.length - e) 0 else 0

theorem instanceAt_coeffs (inst : List F) {D : ℕ} (hD : inst.length < D) (y : F) :
    instanceAt inst y = ∑ e ∈ range D, instCoeff inst e * y ^ e := by
  rw [instanceAt_ky, ky_coeffs]
  have h1 : ∀ e ∈ range (inst.length + 1), (if e = 0 then 1 else inst.getD (inst.length - e) 0) * y ^ e =
      instCoeff inst e * y ^ e := by
    intro e he
    have := mem_range.1 he
    rw [instCoeff]
    congr 1
    split_ifs <;> first | rfl | omega
  rw [sum_congr rfl h1]
  refine sum_subset (range_subset_range.2 hD) ?_
  intro e _ he
  have : inst.length < e := by simpa using he
  rw [instCoeff, if_neg (by omega), if_neg (by omega), zero_mul]

open Classical in
/-- A claim of the form of a circuit claim holds for few pairs if the wiring part, as a polynomial in
`y`, does not have constant term one, or has not the instance's last element as its linear term. -/
theorem claim_rejected {n : ℕ} (hn : 0 < n) (r : Sparse.Poly F) {inst : List F}
    (hl : inst.length < 4 * n) {v : ℕ → F} (hv : v 0 ≠ 1 ∨ v 1 ≠ instCoeff inst 1) (A : Finset F) :
    ((A ×ˢ A).filter fun p => ∑ j ∈ range (4 * n), gateCoeff n r j * p.2 ^ j +
      ∑ e ∈ range (4 * n), v e * p.1 ^ e = instanceAt inst p.1).card ≤ (8 * n - 2) * A.card := by
  have := sum_zeros hn le_rfl (gateCoeff n r) (fun e => v e - instCoeff inst e) A (by
    rcases hv with hv | hv
    · by_cases h0 : gateCoeff n r 0 = 0
      · right; left
        rw [h0, zero_add, instCoeff, if_pos rfl, sub_ne_zero]
        exact hv
      · left
        exact ⟨4 * n - 1, by omega, by omega, by rwa [gateCoeff_ends hn]⟩
    · right; right
      exact ⟨1, by omega, by omega, sub_ne_zero.2 hv⟩)
  rw [show 4 * n - 1 + (4 * n - 1) = 8 * n - 2 by omega] at this
  refine le_trans (card_le_card fun p hp => ?_) this
  rw [mem_filter] at hp ⊢
  refine ⟨hp.1, ?_⟩
  have h2 := hp.2
  rw [instanceAt_coeffs inst hl] at h2
  simp only [sub_mul, sum_sub_distrib]
  linear_combination h2

/-- A circuit claim about one polynomial. -/
theorem claim_split {n : ℕ} {r : Sparse.Poly F} {s : ℕ → F} {z t : F}
    (h : ∑ k ∈ range (4 * n), sumCoeff [r] k * (sumCoeff [r] (4 * n - 1 - k) * z ^ (4 * n - 1 - k) +
      s (4 * n - 1 - k) + tCoeff n z (4 * n - 1 - k)) = t) :
    ∑ j ∈ range (4 * n), gateCoeff n r j * z ^ j +
      ∑ k ∈ range (4 * n), coeff r k * s (4 * n - 1 - k) = t := by
  rw [← gate_part, ← sum_add_distrib, ← h]
  refine sum_congr rfl fun k _ => ?_
  simp only [sumCoeff, List.map_cons, List.map_nil, List.sum_cons, List.sum_nil, add_zero]
  ring

theorem maskTerm_const {n skip num : ℕ} (hn : 0 < n) (key : F) (r : Sparse.Poly F) :
    maskTerm n skip num key r 0 = 0 := by
  rw [maskTerm, if_neg (by omega), add_zero, maskCoeff, if_neg]
  intro h
  exact h.1 (by rw [gateOf, if_pos hn])

/-- The constant and linear coefficients of the weighted constraints: the constant wire and the last
output. -/
theorem weigh_low {c : Circ F} (hu : c.WellUsed) (φ : Base → F) {N : ℕ} (hN : totalCons c.counts ≤ N)
    (ho : c.outs ≠ []) : ∃ (s : Sem F) (es os : List F) (v : ℕ → F),
    run (semD φ) c.body { pos := Pos.gate {} } [] = .ok (s, es) ∧
    c.outs.mapM (resolve (φ ⟨.b, 0, 0⟩) es) = .ok os ∧
    (∀ y, weigh (floorPlan c.counts) y (constraints φ c) = ∑ e ∈ range N, v e * y ^ e) ∧
    v 0 = φ ⟨.b, 0, 0⟩ ∧ v 1 = os.getLastD 0 := by
  obtain ⟨s, es, os, h1, h2, h3, h4, h5, h6, h7⟩ := log_parts φ hu
  have hd : (constraints φ c).Pairwise fun a b => consExp (floorPlan c.counts) a.seg a.loc ≠
      consExp (floorPlan c.counts) b.seg b.loc := by
    refine h7.imp_of_mem fun {a b} ha hb hab heq => hab ?_
    obtain ⟨sa, a1, a2⟩ := h6 a ha
    obtain ⟨sb, b1, b2⟩ := h6 b hb
    exact consExp_inj a1 b1 a2 b2 heq
  have h0 : (floorPlan c.counts)[0]? = some ⟨0, 0, (posRun c.main (Pos.gate {})).gates,
      (posRun c.main (Pos.gate {})).cons⟩ := rfl
  have hexp : ∀ k, consExp (floorPlan c.counts) 0 k = s.pos.cons + os.length - k := by
    intro k
    simp only [consExp, h0, Option.map_some, Option.getD_some, h5]
    omega
  refine ⟨s, es, os, fun j => ((constraints φ c).map fun r =>
    if consExp (floorPlan c.counts) r.seg r.loc = j then r.val else 0).sum, h1, h2, fun y => ?_, ?_, ?_⟩
  · refine weigh_by_exp _ y N _ fun r hr => ?_
    obtain ⟨sg, a, b⟩ := h6 r hr
    exact (consExp_lt a b).trans_le hN
  · have := val_by_exp _ _ hd ⟨0, s.pos.cons + os.length, φ ⟨.b, 0, 0⟩⟩ (by rw [h4]; simp)
    rw [hexp, Nat.sub_self] at this
    exact this
  · have hne : os ≠ [] := by
      intro hc
      rw [hc] at h3
      exact ho (List.length_eq_zero_iff.1 h3.symm)
    have hpos : 0 < os.length := List.length_pos_iff.2 hne
    have hmem : ∀ (l : List F) (k : ℕ) (hl : l ≠ []),
        (⟨0, k + (l.length - 1), l.getLastD 0⟩ : Row F) ∈ rowsFrom 0 k l := by
      intro l
      induction l with
      | nil => intro k h; exact absurd rfl h
      | cons x l ih =>
        intro k _
        rcases l with _ | ⟨x', l⟩
        · simp [rowsFrom]
        · have := ih (k + 1) (by simp)
          rw [rowsFrom, List.mem_cons]
          right
          simpa [Nat.add_assoc, Nat.add_comm 1] using this
    have := val_by_exp _ _ hd ⟨0, s.pos.cons + (os.length - 1), os.getLastD 0⟩
      (by rw [h4]; simp only [List.mem_append]; exact .inr (.inl (hmem os _ hne)))
    rw [hexp, show s.pos.cons + os.length - (s.pos.cons + (os.length - 1)) = 1 by omega] at this
    exact this

end Ragu.Props

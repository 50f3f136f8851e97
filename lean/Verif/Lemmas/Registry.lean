/-
The registry evaluates one polynomial.
-/
import Verif.Spec.Registry
import Verif.Props.Fft
import Verif.Lemmas.Object

set_option linter.unusedSectionVars false

namespace Ragu.Registry
open Ragu Ragu.Circuit Ragu.Spec Ragu.Fft Finset
variable {F : Type} [Field F] [DecidableEq F]

theorem consts_ok {E : Env F} (hE : EnvOk E) : E.consts.Ok :=
  ⟨hE.consts.1, hE.consts.2.1, hE.consts.2.2⟩

theorem reverseBits_extend (k : ℕ) : ∀ (m i : ℕ), i < 2 ^ k →
    reverseBits (k + m) i = 2 ^ m * reverseBits k i
  | 0, i, _ => by simp
  | m + 1, i, h => by
    have hlt : i < 2 ^ (k + m) := lt_of_lt_of_le h (Nat.pow_le_pow_right (by omega) (by omega))
    rw [show k + (m + 1) = (k + m) + 1 by ring, reverseBits_high, reverseBits_extend k m i h,
      Nat.div_eq_of_lt hlt, pow_succ]
    simp only [Nat.zero_mod, Nat.add_zero]
    ring

theorem halveTimes_omega : ∀ (j : ℕ) (d d' : Domain F), Domain.halveTimes j d = some d' →
    d'.omega = d.omega ^ 2 ^ j
  | 0, d, d', h => by cases h; simp
  | j + 1, d, d', h => by
    rw [Domain.halveTimes] at h
    rcases h1 : d.halve with _ | d1
    · rw [h1] at h; cases h
    · rw [h1, Option.bind_some] at h
      rw [halveTimes_omega j d1 d' h]
      rw [Domain.halve] at h1
      split at h1
      · cases h1
        change (d.omega * d.omega) ^ _ = _
        rw [← pow_two, ← pow_mul, pow_succ]; congr 1; ring
      · cases h1

theorem new_omega {c : FieldConsts F} {k : ℕ} {d : Domain F} (h : Domain.new c k = some d) :
    d.omega = c.root ^ 2 ^ (c.S - k) := by
  rw [Domain.new] at h
  split at h
  · rcases h1 : Domain.halveTimes (c.S - k) (Domain.default c) with _ | d1
    · rw [h1] at h; cases h
    · rw [h1, Option.bind_some] at h
      split at h
      · cases h; exact halveTimes_omega _ _ _ h1
      · cases h
  · cases h

/-- The element assigned to index `i` is `ω^(rev i)` in every domain that has room for `i`. -/
theorem omegaJ_eq {E : Env F} (hE : EnvOk E) {k : ℕ} (hk : k ≤ E.consts.S) {d : Domain F}
    (hd : Domain.new E.consts k = some d) {i : ℕ} (hi : i < 2 ^ k) :
    omegaJ E i = d.omega ^ reverseBits k i := by
  rw [omegaJ, bitreverse_eq hE.small (lt_of_lt_of_le hi (Nat.pow_le_pow_right (by omega) hk)),
    new_omega hd, ← pow_mul]
  have := reverseBits_extend k (E.consts.S - k) i hi
  rw [show k + (E.consts.S - k) = E.consts.S by omega] at this
  rw [this]

theorem omegaJ_inj {E : Env F} (hE : EnvOk E) {i j : ℕ} (hi : i < 2 ^ E.consts.S)
    (hj : j < 2 ^ E.consts.S) (h : omegaJ E i = omegaJ E j) : i = j := by
  rw [omegaJ, omegaJ, bitreverse_eq hE.small hi, bitreverse_eq hE.small hj] at h
  have := hE.consts.1.pow_inj (reverseBits_lt _ _) (reverseBits_lt _ _) h
  rw [← reverseBits_invol _ _ hi, this, reverseBits_invol _ _ hj]

theorem omegaJ_injOn {E : Env F} (hE : EnvOk E) {k : ℕ} (hk : k ≤ E.consts.S) :
    Set.InjOn (omegaJ E) (range (2 ^ k) : Finset ℕ) := by
  intro i hi j hj h
  have hi := mem_range.1 hi
  have hj := mem_range.1 hj
  have : 2 ^ k ≤ 2 ^ E.consts.S := Nat.pow_le_pow_right (by omega) hk
  exact omegaJ_inj hE (by omega) (by omega) h

/-- The value at `w` of the basis polynomial of the `i`-th element. -/
noncomputable def weight (E : Env F) (k i : ℕ) (w : F) : F :=
  (Lagrange.basis (range (2 ^ k)) (omegaJ E) i).eval w

theorem weight_eq {E : Env F} (hE : EnvOk E) {k : ℕ} (hk : k ≤ E.consts.S) {d : Domain F}
    (hd : Domain.new E.consts k = some d) (w : F) {i : ℕ} (hi : i < 2 ^ k) :
    weight E k i w = ∏ j ∈ (range (2 ^ k)).erase (reverseBits k i),
      (w - d.omega ^ j) / (d.omega ^ reverseBits k i - d.omega ^ j) := by
  rw [weight, Lagrange.basis, Polynomial.eval_prod]
  refine prod_nbij' (reverseBits k) (reverseBits k) ?_ ?_ ?_ ?_ ?_
  · intro j hj
    rw [mem_erase, mem_range] at hj
    rw [mem_erase, mem_range]
    refine ⟨fun h => hj.1 ?_, reverseBits_lt _ _⟩
    rw [← reverseBits_invol _ _ hj.2, h, reverseBits_invol _ _ hi]
  · intro j hj
    rw [mem_erase, mem_range] at hj
    rw [mem_erase, mem_range]
    refine ⟨fun h => hj.1 ?_, reverseBits_lt _ _⟩
    rw [← h, reverseBits_invol _ _ hj.2]
  · intro j hj
    exact reverseBits_invol _ _ (mem_range.1 (mem_erase.1 hj).2)
  · intro j hj
    exact reverseBits_invol _ _ (mem_range.1 (mem_erase.1 hj).2)
  · intro j hj
    have hj := mem_range.1 (mem_erase.1 hj).2
    rw [Lagrange.basisDivisor, omegaJ_eq hE hk hd hi, omegaJ_eq hE hk hd hj]
    simp only [Polynomial.eval_mul, Polynomial.eval_C, Polynomial.eval_sub, Polynomial.eval_X]
    rw [div_eq_mul_inv, mul_comm]

theorem weight_node {E : Env F} (hE : EnvOk E) {k : ℕ} (hk : k ≤ E.consts.S) {i j : ℕ}
    (hi : i < 2 ^ k) (hj : j < 2 ^ k) : weight E k i (omegaJ E j) = if i = j then 1 else 0 := by
  by_cases h : i = j
  · subst h
    rw [if_pos rfl]
    exact Lagrange.eval_basis_self (omegaJ_injOn hE hk) (mem_range.2 hi)
  · rw [if_neg h]
    exact Lagrange.eval_basis_of_ne h (mem_range.2 hj)

/-- What a registry built for `2^k` circuits looks like, whatever its key. -/
structure Good (E : Env F) (n k : ℕ) (r : Registry F) : Prop where
  env : EnvOk E
  hk : k ≤ E.consts.S
  dom : Domain.new E.consts k = some r.domain
  len : r.circuits.length ≤ 2 ^ k
  cap : 2 ^ k ≤ 4 * n
  plans : r.floorPlans = r.circuits.map fun o => floorPlan o.segmentRecords
  table : r.omegaLookup = fillLookup E r.domain.omega k r.circuits.length 0 []
  keys : KeysDistinct E k

theorem Good.good {E : Env F} {n k : ℕ} {r : Registry F} (h : Good E n k r) : r.domain.Good k := by
  obtain ⟨d, h1, h2⟩ := Domain.new_good (consts_ok h.env) h.hk
  rw [h.dom] at h1; cases h1; exact h2

theorem Good.small {E : Env F} {n k : ℕ} {r : Registry F} (h : Good E n k r) : k ≤ 32 :=
  h.hk.trans h.env.small

theorem Good.npos {E : Env F} {n k : ℕ} {r : Registry F} (h : Good E n k r) : 0 < n := by
  have := h.cap
  have : 0 < 2 ^ k := by positivity
  omega

theorem Good.plan {E : Env F} {n k : ℕ} {r : Registry F} (h : Good E n k r) {i : ℕ}
    {o : CircuitObject F} (ho : r.circuits[i]? = some o) :
    r.floorPlans[i]? = some (floorPlan o.segmentRecords) := by
  rw [h.plans, List.getElem?_map, ho]; rfl

/-! ### The lookup table -/

theorem lookup_fill {E : Env F} {omega : F} {k : ℕ} (hk : k ≤ 32)
    (hinj : ∀ i j, i < 2 ^ k → j < 2 ^ k → omegaKey E (omega ^ reverseBits k i) =
      omegaKey E (omega ^ reverseBits k j) → i = j) {j : ℕ} (hj : j < 2 ^ k) :
    ∀ (cnt i : ℕ) (m : List (ℕ × ℕ)), i + cnt ≤ 2 ^ k →
      (fillLookup E omega k cnt i m).lookup (omegaKey E (omega ^ reverseBits k j)) =
        if i ≤ j ∧ j < i + cnt then some j
        else m.lookup (omegaKey E (omega ^ reverseBits k j))
  | 0, i, m, _ => by rw [fillLookup, if_neg (by omega)]
  | cnt + 1, i, m, h => by
    rw [fillLookup, lookup_fill hk hinj hj cnt (i + 1) _ (by omega),
      bitreverse_eq hk (show i < 2 ^ k by omega)]
    by_cases h1 : i + 1 ≤ j ∧ j < i + 1 + cnt
    · rw [if_pos h1, if_pos (by omega)]
    · rw [if_neg h1, List.lookup_cons]
      by_cases h2 : j = i
      · subst h2
        simp
      · have : omegaKey E (omega ^ reverseBits k j) ≠ omegaKey E (omega ^ reverseBits k i) :=
          fun he => h2 (hinj _ _ hj (by omega) he)
        rw [beq_eq_false_iff_ne.2 this, if_neg (by omega)]

theorem Good.lookup {E : Env F} {n k : ℕ} {r : Registry F} (h : Good E n k r) {j : ℕ}
    (hj : j < 2 ^ k) : r.omegaLookup.lookup (omegaKey E (omegaJ E j)) =
      if j < r.circuits.length then some j else none := by
  rw [h.table, omegaJ_eq h.env h.hk h.dom hj]
  have hg := h.good
  have hroot : ∀ i, (r.domain.omega ^ i) ^ 2 ^ k = 1 := fun i => by
    rw [← pow_mul, mul_comm, pow_mul, hg.prim.pow_eq_one, one_pow]
  rw [lookup_fill h.small ?_ hj _ _ _ (by have := h.len; omega)]
  · by_cases hl : j < r.circuits.length
    · rw [if_pos ⟨by omega, by omega⟩, if_pos hl]
    · rw [if_neg (by omega), if_neg hl]; rfl
  · intro i i' hi hi' he
    have he := h.keys _ _ (hroot _) (hroot _) he
    have := hg.prim.pow_inj (reverseBits_lt _ _) (reverseBits_lt _ _) he
    rw [← reverseBits_invol _ _ hi, this, reverseBits_invol _ _ hi']

/-! ### The restriction at `w` -/

section
variable {T ι : Type}

/-- `add` adds `coeff * v i` to the measure `φ` when run on circuit `i`, keeping `I`. -/
def AddsTo (r : Registry F) (add : CircuitObject F → List Seg → F → T → Option T) (I : T → Prop)
    (φ : T → ι → F) (v : ℕ → ι → F) : Prop :=
  ∀ (i : ℕ) (o : CircuitObject F), r.circuits[i]? = some o → ∀ c t, I t →
    ∃ t', add o (floorPlan o.segmentRecords) c t = some t' ∧ I t' ∧
      ∀ a, φ t' a = φ t a + c * v i a

variable {E : Env F} {n k : ℕ} {r : Registry F} {I : T → Prop} {φ : T → ι → F} {v : ℕ → ι → F}
  {add : CircuitObject F → List Seg → F → T → Option T}

theorem addAt_spec (h : Good E n k r) (ha : AddsTo r add I φ v) (i : ℕ) (c : F) (t : T) (ht : I t) :
    ∃ t', r.addAt add i c t = some t' ∧ I t' ∧
      ∀ a, φ t' a = φ t a + if i < r.circuits.length then c * v i a else 0 := by
  rw [Registry.addAt]
  rcases hc : r.circuits[i]? with _ | o
  · refine ⟨t, rfl, ht, fun a => ?_⟩
    rw [if_neg (by simpa using List.getElem?_eq_none_iff.1 hc), add_zero]
  · simp only [h.plan hc]
    obtain ⟨t', h1, h2, h3⟩ := ha i o hc c t ht
    refine ⟨t', h1, h2, fun a => ?_⟩
    rw [if_pos (List.getElem?_eq_some_iff.1 hc).1, h3]

theorem wLoop_spec (h : Good E n k r) (ha : AddsTo r add I φ v) : ∀ (cs : List F) (j : ℕ) (t : T),
    I t → ∃ t', r.wLoop add j cs t = some t' ∧ I t' ∧ ∀ a, φ t' a = φ t a +
      ∑ l ∈ range cs.length, if bitreverse (j + l) k < r.circuits.length then
        cs.getD l 0 * v (bitreverse (j + l) k) a else 0
  | [], j, t, ht => ⟨t, rfl, ht, fun a => by simp⟩
  | c :: cs, j, t, ht => by
    obtain ⟨t1, h1, h2, h3⟩ := addAt_spec h ha (bitreverse j k) c t ht
    obtain ⟨t2, g1, g2, g3⟩ := wLoop_spec h ha cs (j + 1) t1 h2
    refine ⟨t2, ?_, g2, fun a => ?_⟩
    · rw [Registry.wLoop, h.good.log, h1, Option.bind_some, g1]
    · rw [g3, h3, List.length_cons, sum_range_succ']
      simp only [List.getD_cons_succ, List.getD_cons_zero, Nat.add_zero]
      have hs : ∀ l, j + 1 + l = j + (l + 1) := fun l => by ring
      simp only [hs]
      ring

/-- Binding the registry to `w` and adding up: circuit `i` enters with the value at `w` of its
basis polynomial, inside and outside the domain. -/
theorem wCached_spec (h : Good E n k r) (ha : AddsTo r add I φ v) (w : F) (t : T) (ht : I t) :
    ∃ cache t', r.at E w = some cache ∧ r.wCached cache t add = some t' ∧ I t' ∧
      ∀ a, φ t' a = φ t a + ∑ i ∈ range r.circuits.length, weight E k i w * v i a := by
  have hg := h.good
  have hsz := hg.size
  have hlen := h.len
  by_cases hw : w ^ r.domain.n = 1
  · have he : r.domain.ell w r.domain.n = some none := by
      rw [Domain.ell, if_pos le_rfl]; simp only [hw, if_true]
    rw [hsz] at hw
    obtain ⟨m, hm, hmw⟩ := hg.prim.eq_pow_of_pow_eq_one hw
    set j := reverseBits k m with hj
    have hjk : j < 2 ^ k := reverseBits_lt _ _
    have hwj : w = omegaJ E j := by
      rw [omegaJ_eq h.env h.hk h.dom hjk, hj, reverseBits_invol _ _ hm, hmw]
    have hl := h.lookup hjk
    rw [← hwj] at hl
    by_cases hjl : j < r.circuits.length
    · rw [if_pos hjl] at hl
      obtain ⟨t', h1, h2, h3⟩ := addAt_spec h ha j 1 t ht
      refine ⟨.direct j, t', ?_, h1, h2, fun a => ?_⟩
      · simp [Registry.at, he, hl]
      · rw [h3, if_pos hjl, hwj]
        congr 1
        rw [sum_congr rfl fun i hi => by
          rw [weight_node h.env h.hk (show i < 2 ^ k by have := mem_range.1 hi; omega) hjk, ite_mul,
            one_mul, zero_mul], sum_ite_eq' (range _) j, if_pos (mem_range.2 hjl), one_mul]
    · rw [if_neg hjl] at hl
      refine ⟨.empty, t, ?_, rfl, ht, fun a => ?_⟩
      · simp [Registry.at, he, hl]
      · rw [sum_eq_zero, add_zero]
        intro i hi
        have hi := mem_range.1 hi
        rw [hwj, weight_node h.env h.hk (by omega) hjk, if_neg (by omega), zero_mul]
  · have he : ∃ l, r.domain.ell w r.domain.n = some (some l) ∧ l.length = r.domain.n ∧
        ∀ i < r.domain.n, l.getD i 0 = ∏ j ∈ (range r.domain.n).erase i,
          (w - r.domain.omega ^ j) / (r.domain.omega ^ i - r.domain.omega ^ j) := by
      obtain ⟨l, h1, h2, h3⟩ := (Props.C07_ell (consts_ok h.env) h.dom w r.domain.n).2.2 le_rfl (by
        rintro ⟨i, -, rfl⟩
        apply hw
        rw [← pow_mul, mul_comm, pow_mul, hsz, hg.prim.pow_eq_one, one_pow])
      exact ⟨l, h1, h2, fun i hi => by
        rw [List.getD_eq_getElem?_getD, h3 i hi, Option.getD_some]⟩
    obtain ⟨l, he, hll, hle⟩ := he
    obtain ⟨t', h1, h2, h3⟩ := wLoop_spec h ha l 0 t ht
    refine ⟨.interpolate l, t', by simp [Registry.at, he], h1, h2, fun a => ?_⟩
    rw [h3, hll, hsz]
    congr 1
    have : ∀ j ∈ range (2 ^ k), (if bitreverse (0 + j) k < r.circuits.length then
        l.getD j 0 * v (bitreverse (0 + j) k) a else 0) =
        if reverseBits k j < r.circuits.length then
          weight E k (reverseBits k j) w * v (reverseBits k j) a else 0 := by
      intro j hj
      have hj := mem_range.1 hj
      rw [Nat.zero_add, bitreverse_eq h.small hj]
      split
      · rw [weight_eq h.env h.hk h.dom w (reverseBits_lt k j), reverseBits_invol _ _ hj,
          hle j (by rw [hsz]; exact hj), hsz]
      · rfl
    rw [sum_congr rfl this]
    rw [← sum_nbij' (s := range (2 ^ k)) (t := range (2 ^ k))
      (f := fun i => if i < r.circuits.length then weight E k i w * v i a else 0)
      (reverseBits k) (reverseBits k)
      (fun j _ => mem_range.2 (reverseBits_lt _ _)) (fun j _ => mem_range.2 (reverseBits_lt _ _))
      (fun j hj => reverseBits_invol _ _ (mem_range.1 hj))
      (fun j hj => reverseBits_invol _ _ (mem_range.1 hj)) (fun j hj => by
        rw [reverseBits_invol _ _ (mem_range.1 hj)])]
    rw [← sum_filter]
    refine sum_congr ?_ fun _ _ => rfl
    ext i
    simp only [mem_filter, mem_range]
    omega

end
end Ragu.Registry

namespace Ragu.Registry
open Ragu Ragu.Circuit Ragu.Spec Ragu.Fft Finset
variable {F : Type} [Field F] [DecidableEq F] {E : Env F} {n k : ℕ} {r : Registry F}

theorem addScaled_spec (h : Good E n k r)
    (ev : CircuitObject F → List Seg → Option (Sparse.Poly F)) (ps : ℕ → Sparse.Poly F)
    (hp : ∀ (i : ℕ) o, r.circuits[i]? = some o → ev o (floorPlan o.segmentRecords) = some (ps i) ∧
      WellFormed (4 * n) (ps i)) :
    AddsTo r (fun o fp c poly => do
      let tmp ← ev o fp
      Sparse.addAssign (4 * n) poly (Sparse.scale tmp c)) (WellFormed (4 * n)) coeff
      (fun i => coeff (ps i)) := by
  intro i o ho c t ht
  obtain ⟨h1, h2⟩ := hp i o ho
  obtain ⟨t', g1, g2, g3⟩ := Sparse.combineAssign_spec (4 * n) (fun a b => a + b) (by simp) t
    (Sparse.scale (ps i) c) ht (Sparse.scale_wf h2 c)
  refine ⟨t', ?_, g2, fun a => ?_⟩
  · simp only [h1, Option.bind_eq_bind, Option.bind_some]; exact g1
  · rw [g3, Sparse.scale_coeff, mul_comm]

/-- The coefficients of the restriction `m(w, X, y)`. -/
theorem wy_spec (h : Good E n k r) (w y : F) (ps : ℕ → Sparse.Poly F)
    (hp : ∀ (i : ℕ) o, r.circuits[i]? = some o →
      o.sy y (floorPlan o.segmentRecords) = some (ps i) ∧ WellFormed (4 * n) (ps i)) :
    ∃ t, r.wy E n w y = some t ∧ WellFormed (4 * n) t ∧ ∀ a, coeff t a =
      ∑ i ∈ range r.circuits.length, weight E k i w * coeff (ps i) a +
        if a = 4 * n - 1 then r.key * y ^ (4 * n - 1) else 0 := by
  have hn := h.npos
  obtain ⟨cache, t, h1, h2, h3, h4⟩ := wCached_spec h
    (addScaled_spec h (fun o fp => o.sy y fp) ps hp) w [] trivial
  simp only [Registry.wy, h1, Option.bind_some, Registry.atY]
  rw [show (r.wCached cache [] fun o fp coeff poly => do
      let tmp ← o.sy y fp
      Sparse.addAssign (4 * n) poly (Sparse.scale tmp coeff)) = some t from h2]
  simp only [Option.bind_eq_bind, Option.bind_some]
  by_cases hy : y = 0
  · rw [if_neg (by simpa using hy)]
    refine ⟨t, rfl, h3, fun a => ?_⟩
    rw [h4, Sparse.coeff_nil, zero_add, hy, zero_pow (by omega), mul_zero, ite_self, add_zero]
  · rw [if_pos hy]
    obtain ⟨q, hq, hqw, hqc⟩ := Props.C13_wiring_build (F := F) n
      ⟨[], [], [r.key * y ^ (4 * n - 1)], []⟩ (by simp) (by simp) (by simp; omega) (by simp)
    obtain ⟨t', g1, g2, g3⟩ := Sparse.combineAssign_spec (4 * n) (fun a b => a + b) (by simp) t q
      h3 hqw
    refine ⟨t', by rw [hq, Option.bind_some]; exact g1, g2, fun a => ?_⟩
    rw [g3, h4, Sparse.coeff_nil, zero_add]
    congr 1
    by_cases ha : a < 4 * n
    · by_cases h1 : a < n
      · rw [(hqc a h1).2.2.2, if_neg (by omega)]; simp
      · by_cases h2 : a < 2 * n
        · have := (hqc (2 * n - 1 - a) (by omega)).1
          rw [show 2 * n - 1 - (2 * n - 1 - a) = a by omega] at this
          rw [this, if_neg (by omega)]; simp
        · by_cases h3 : a < 3 * n
          · have := (hqc (a - 2 * n) (by omega)).2.1
            rw [show 2 * n + (a - 2 * n) = a by omega] at this
            rw [this, if_neg (by omega)]; simp
          · have := (hqc (4 * n - 1 - a) (by omega)).2.2.1
            rw [show 4 * n - 1 - (4 * n - 1 - a) = a by omega] at this
            rw [this]
            by_cases he : a = 4 * n - 1
            · rw [if_pos he, show 4 * n - 1 - a = 0 by omega]; simp
            · rw [if_neg he, show 4 * n - 1 - a = (4 * n - 1 - a - 1) + 1 by omega]; simp
    · rw [Sparse.coeff_ge_of_wf hqw (by omega), if_neg (by omega)]

/-- The coefficients of the restriction `m(w, x, Y)`. -/
theorem wx_spec (h : Good E n k r) (w x : F) (ps : ℕ → Sparse.Poly F)
    (hp : ∀ (i : ℕ) o, r.circuits[i]? = some o →
      o.sx x (floorPlan o.segmentRecords) = some (ps i) ∧ WellFormed (4 * n) (ps i)) :
    ∃ t, r.wx E n w x = some t ∧ WellFormed (4 * n) t ∧ ∀ a, coeff t a =
      ∑ i ∈ range r.circuits.length, weight E k i w * coeff (ps i) a +
        if a = 4 * n - 1 then r.key * x ^ (4 * n - 1) else 0 := by
  have hn := h.npos
  obtain ⟨cache, t, h1, h2, h3, h4⟩ := wCached_spec h
    (addScaled_spec h (fun o fp => o.sx x fp) ps hp) w [] trivial
  simp only [Registry.wx, h1, Option.bind_some, Registry.atX]
  rw [show (r.wCached cache [] fun o fp coeff poly => do
      let tmp ← o.sx x fp
      Sparse.addAssign (4 * n) poly (Sparse.scale tmp coeff)) = some t from h2]
  simp only [Option.bind_eq_bind, Option.bind_some]
  by_cases hx : x = 0
  · rw [if_neg (by simpa using hx)]
    refine ⟨t, rfl, h3, fun a => ?_⟩
    rw [h4, Sparse.coeff_nil, zero_add, hx, zero_pow (by omega), mul_zero, ite_self, add_zero]
  · rw [if_pos hx]
    obtain ⟨q, hq, hqw, hqc⟩ := Props.C09_from_coeffs (F := F) (4 * n)
      ((List.replicate (4 * n) 0).set (4 * n - 1) (r.key * x ^ (4 * n - 1))) (by simp)
    obtain ⟨t', g1, g2, g3⟩ := Sparse.combineAssign_spec (4 * n) (fun a b => a + b) (by simp) t q
      h3 hqw
    refine ⟨t', by rw [hq, Option.bind_some]; exact g1, g2, fun a => ?_⟩
    rw [g3, h4, Sparse.coeff_nil, zero_add, hqc]
    congr 1
    rw [List.getD_eq_getElem?_getD, List.getElem?_set]
    by_cases ha : a = 4 * n - 1
    · rw [if_pos ha.symm, if_pos ha, if_pos (by simp; omega)]; rfl
    · rw [if_neg (Ne.symm ha), if_neg ha, List.getElem?_replicate]
      split <;> rfl

theorem keySxy_eq (hn : 0 < n) (r : Registry F) (x y : F) :
    r.keySxy n x y = r.key * (x * y) ^ (4 * n - 1) := by
  rw [Registry.keySxy]
  split
  · next h =>
    rw [show x * y = 0 by rcases h with h | h <;> simp [h], zero_pow (by omega), mul_zero]
  · rfl

theorem wxy_spec (h : Good E n k r) (w x y : F) (vs : ℕ → F)
    (hp : ∀ (i : ℕ) o, r.circuits[i]? = some o →
      o.sxy x y (floorPlan o.segmentRecords) = some (vs i)) :
    r.wxy E n w x y = some (∑ i ∈ range r.circuits.length, weight E k i w * vs i +
      r.key * (x * y) ^ (4 * n - 1)) := by
  have ha : AddsTo r (fun o fp coeff result => do
      let v ← o.sxy x y fp
      some (result + v * coeff)) (fun _ : F => True) (fun t (_ : Unit) => t) (fun i _ => vs i) := by
    intro i o ho c t _
    refine ⟨t + vs i * c, ?_, trivial, fun _ => by ring⟩
    simp only [hp i o ho, Option.bind_eq_bind, Option.bind_some]
  obtain ⟨cache, t, h1, h2, -, h4⟩ := wCached_spec h ha w 0 trivial
  have h4 := h4 ()
  simp only [zero_add] at h4
  rw [Registry.wxy, h1, Option.bind_some, Registry.atXY]
  rw [show (r.wCached cache (0 : F) fun o fp coeff result => do
      let v ← o.sxy x y fp
      some (result + v * coeff)) = some t from h2]
  simp only [Option.bind_eq_bind, Option.bind_some]
  rw [h4, keySxy_eq h.npos]

/-! ### The restriction unrestricted in `W` -/

theorem place_spec (h : Good E n k r) (x y : F) (vs : ℕ → F)
    (hp : ∀ (i : ℕ) o, r.circuits[i]? = some o →
      o.sxy x y (floorPlan o.segmentRecords) = some (vs i)) :
    ∀ (os : List (CircuitObject F)) (i : ℕ) (l : List F), r.circuits.drop i = os → l.length = 4 * n →
      ∃ l', r.place x y i os l = some l' ∧ l'.length = 4 * n ∧ ∀ j, l'.getD j 0 =
        if j < 2 ^ k ∧ i ≤ reverseBits k j ∧ reverseBits k j < r.circuits.length then
          vs (reverseBits k j) else l.getD j 0
  | [], i, l, hd, hl => by
    refine ⟨l, rfl, hl, fun j => ?_⟩
    have : r.circuits.length ≤ i := by simpa using hd
    rw [if_neg (by omega)]
  | o :: os, i, l, hd, hl => by
    have hi : i < r.circuits.length := by
      by_contra hc
      rw [List.drop_eq_nil_of_le (by omega)] at hd
      cases hd
    have hik : i < 2 ^ k := by have := h.len; omega
    have ho : r.circuits[i]? = some o := by
      have := congrArg List.head? hd
      rwa [List.head?_drop, List.head?_cons] at this
    have hd' : r.circuits.drop (i + 1) = os := by
      rw [← List.tail_drop, hd]; rfl
    have hlt : reverseBits k i < 4 * n := lt_of_lt_of_le (reverseBits_lt k i) h.cap
    obtain ⟨l', h1, h2, h3⟩ := place_spec h x y vs hp os (i + 1) (l.set (reverseBits k i) (vs i)) hd'
      (by simpa using hl)
    refine ⟨l', ?_, h2, fun j => ?_⟩
    · rw [Registry.place, h.plan ho]
      simp only [hp i o ho, Option.bind_some, h.good.log, bitreverse_eq h.small hik]
      rw [if_pos (by omega), h1]
    · rw [h3]
      by_cases hj : j < 2 ^ k
      · by_cases he : reverseBits k j = i
        · rw [if_neg (by omega), if_pos ⟨hj, by omega, by omega⟩, List.getD_eq_getElem?_getD,
            List.getElem?_set, if_pos (by rw [← he, reverseBits_invol _ _ hj]),
            if_pos (by omega), he]
          rfl
        · have hne : reverseBits k i ≠ j := fun hc => he (by
            rw [← hc, reverseBits_invol _ _ hik])
          have hset : (l.set (reverseBits k i) (vs i)).getD j 0 = l.getD j 0 := by
            rw [List.getD_eq_getElem?_getD, List.getElem?_set_ne hne, ← List.getD_eq_getElem?_getD]
          rw [hset]
          by_cases hc : i + 1 ≤ reverseBits k j ∧ reverseBits k j < r.circuits.length
          · rw [if_pos ⟨hj, hc⟩, if_pos ⟨hj, by omega, by omega⟩]
          · rw [if_neg (by omega), if_neg (by omega)]
      · have hne : reverseBits k i ≠ j := fun hc => hj (by rw [← hc]; exact reverseBits_lt _ _)
        have hset : (l.set (reverseBits k i) (vs i)).getD j 0 = l.getD j 0 := by
          rw [List.getD_eq_getElem?_getD, List.getElem?_set_ne hne, ← List.getD_eq_getElem?_getD]
        rw [if_neg (by omega), if_neg (by omega), hset]

/-- `ifft` finds the polynomial with the given values on the domain. -/
theorem ifft_values {d : Domain F} (hg : d.Good k) (hk : k ≤ 32) {threads : ℕ} (ht : 0 < threads)
    (v : ℕ → F) : ∃ f : ℕ → F, d.ifft threads (tab (2 ^ k) v) = some (tab (2 ^ k) f) ∧
      ∀ j < 2 ^ k, ∑ m ∈ range (2 ^ k), f m * (d.omega ^ j) ^ m = v j := by
  refine ⟨fun m => d.nInv * dft (2 ^ k) d.omegaInv v m, ?_, ?_⟩
  · rw [Domain.ifft, hg.log, Fft.fft_tab threads ht d.omegaInv k hk hg.half_inv, Option.map_some]
    congr 1
    rw [tab, List.map_map]
    rfl
  · intro j hj
    have h1 := dft_inv (M := F) hg.inv_prim (by rw [mul_comm]; exact hg.inv) v hj
    simp only [dft, smul_eq_mul] at h1 ⊢
    have : ∀ m ∈ range (2 ^ k), d.nInv * (∑ l ∈ range (2 ^ k), d.omegaInv ^ (m * l) * v l) *
        (d.omega ^ j) ^ m =
        d.nInv * (d.omega ^ (j * m) * ∑ l ∈ range (2 ^ k), d.omegaInv ^ (m * l) * v l) := by
      intro m _; rw [← pow_mul]; ring
    rw [sum_congr rfl this, ← mul_sum, h1]
    have := hg.ninv
    push_cast
    linear_combination v j * this

/-- The registry polynomial as a sum over the circuits. -/
theorem registryAt_eq (h : Good E n k r) (ss : List (F → F → F))
    (hl : ss.length = r.circuits.length) (w x y : F) :
    registryAt n (2 ^ k) (omegaJ E) ss r.key w x y =
      ∑ i ∈ range r.circuits.length, weight E k i w * ((ss[i]?.map fun s => s x y).getD 0) +
        r.key * (x * y) ^ (4 * n - 1) := by
  rw [registryAt, Lagrange.interpolate_apply, Polynomial.eval_finsetSum]
  congr 1
  have := h.len
  rw [← sum_subset (range_subset_range.2 this)]
  · refine sum_congr rfl fun i _ => ?_
    rw [Polynomial.eval_mul, Polynomial.eval_C, weight, mul_comm]
  · intro i _ hi
    rw [mem_range] at hi
    rw [List.getElem?_eq_none (by omega)]
    simp

theorem xy_spec (h : Good E n k r) (x y : F) (ss : List (F → F → F))
    (hl : ss.length = r.circuits.length)
    (hp : ∀ (i : ℕ) o s, r.circuits[i]? = some o → ss[i]? = some s →
      o.sxy x y (floorPlan o.segmentRecords) = some (s x y)) :
    ∃ t, r.xy E n x y = some t ∧ WellFormed (4 * n) t ∧
      ∀ w, Sparse.eval (4 * n) t w = registryAt n (2 ^ k) (omegaJ E) ss r.key w x y := by
  have hn := h.npos
  have hg := h.good
  set vs : ℕ → F := fun i => (ss[i]?.map fun s => s x y).getD 0 with hvs
  have hp' : ∀ (i : ℕ) o, r.circuits[i]? = some o →
      o.sxy x y (floorPlan o.segmentRecords) = some (vs i) := by
    intro i o ho
    have hi : i < ss.length := by rw [hl]; exact (List.getElem?_eq_some_iff.1 ho).1
    have := hp i o ss[i] ho (List.getElem?_eq_getElem hi)
    rw [this, hvs]
    simp [List.getElem?_eq_getElem hi]
  obtain ⟨l, h1, h2, h3⟩ := place_spec h x y vs hp' r.circuits 0 (List.replicate (4 * n) 0) rfl
    (by simp)
  have hz : ∀ j, (List.replicate (4 * n) (0 : F)).getD j 0 = 0 := fun j => by
    rw [List.getD_eq_getElem?_getD, List.getElem?_replicate]; split <;> rfl
  simp only [hz, Nat.zero_le, true_and] at h3
  have htake : l.take (2 ^ k) = tab (2 ^ k) fun j => vs (reverseBits k j) := by
    apply List.ext_getElem
    · simp [h2, h.cap]
    · intro j g1 g2
      have hj : j < 2 ^ k := by simpa using g2
      have := h3 j
      rw [List.getD_eq_getElem?_getD, List.getElem?_eq_getElem (by have := h.cap; omega),
        Option.getD_some] at this
      rw [List.getElem_take, this]
      have e := tab_getElem? (2 ^ k) (fun j => vs (reverseBits k j)) j hj
      rw [List.getElem?_eq_getElem g2, Option.some.injEq] at e
      rw [e]
      by_cases hc : reverseBits k j < r.circuits.length
      · rw [if_pos ⟨hj, hc⟩]
      · rw [if_neg (by omega), hvs]
        simp only
        rw [List.getElem?_eq_none (by omega)]; rfl
  have hdrop : ∀ j, (l.drop (2 ^ k)).getD j 0 = 0 := by
    intro j
    have := h3 (2 ^ k + j)
    rw [if_neg (by omega)] at this
    rw [List.getD_eq_getElem?_getD, List.getElem?_drop, ← List.getD_eq_getElem?_getD, this]
  obtain ⟨f, hf, hfv⟩ := ifft_values hg h.small h.env.threads fun j => vs (reverseBits k j)
  have hpos : 0 < 2 ^ k := by positivity
  set key := r.keySxy n x y with hkey
  have hadd : addHead key (tab (2 ^ k) f ++ l.drop (2 ^ k)) =
      some ((f 0 + key) :: ((tab (2 ^ k) f ++ l.drop (2 ^ k)).drop 1)) := by
    have : tab (2 ^ k) f = f 0 :: tab (2 ^ k - 1) (fun i => f (i + 1)) := by
      conv_lhs => rw [show 2 ^ k = 2 ^ k - 1 + 1 by omega, tab_succ]
    rw [this]; rfl
  have hlen : ((f 0 + key) :: ((tab (2 ^ k) f ++ l.drop (2 ^ k)).drop 1)).length = 4 * n := by
    have := h.cap
    simp [h2]; omega
  obtain ⟨t, ht, htw, htc⟩ := Props.C09_from_coeffs (4 * n) _ hlen.le
  refine ⟨t, ?_, htw, fun w => ?_⟩
  · simp only [Registry.xy, h1, Option.bind_eq_bind, Option.bind_some, hg.size]
    rw [if_pos (by have := h.cap; omega), htake, hf, Option.bind_some, ← hkey, hadd]
    exact ht
  · have hco : ∀ a < 4 * n, coeff t a = (if a < 2 ^ k then f a else 0) + if a = 0 then key else 0 := by
      intro a _
      rw [htc]
      cases a with
      | zero => simp [hpos]
      | succ a =>
        rw [List.getD_cons_succ, List.getD_eq_getElem?_getD, List.getElem?_drop,
          if_neg (show ¬a + 1 = 0 by omega), add_zero, show 1 + a = a + 1 by ring]
        by_cases ha : a + 1 < 2 ^ k
        · rw [if_pos ha, List.getElem?_append_left (by simpa using ha), tab_getElem? _ _ _ ha]; rfl
        · rw [if_neg ha, List.getElem?_append_right (by simpa using ha), tab_length,
            ← List.getD_eq_getElem?_getD, hdrop]
    have hev : Sparse.eval (4 * n) t w = ∑ m ∈ range (2 ^ k), f m * w ^ m + key := by
      rw [Props.C11_eval _ _ htw, sum_congr rfl fun a ha => by rw [hco a (mem_range.1 ha)]]
      simp only [add_mul, sum_add_distrib, ite_mul, zero_mul]
      congr 1
      · rw [← sum_subset (range_subset_range.2 h.cap)]
        · exact sum_congr rfl fun a ha => by rw [if_pos (mem_range.1 ha)]
        · intro a _ ha
          rw [mem_range] at ha
          rw [if_neg ha]
      · rw [sum_ite_eq' (range _) 0, if_pos (mem_range.2 (by omega))]; simp
    rw [hev, registryAt, hkey, keySxy_eq hn]
    congr 1
    set P : Polynomial F := ∑ m ∈ range (2 ^ k), Polynomial.monomial m (f m) with hP
    have hPe : ∀ z, P.eval z = ∑ m ∈ range (2 ^ k), f m * z ^ m := fun z => by
      rw [hP, Polynomial.eval_finsetSum]
      exact sum_congr rfl fun m _ => by simp
    have hdeg : P.degree < ((range (2 ^ k)).card : ℕ) := by
      rw [card_range, hP, Polynomial.degree_lt_iff_coeff_zero]
      intro m hm
      rw [Polynomial.finsetSum_coeff]
      refine sum_eq_zero fun i hi => ?_
      have := mem_range.1 hi
      rw [Polynomial.coeff_monomial, if_neg (by omega)]
    have := Lagrange.eq_interpolate_of_eval_eq (f := P) (s := range (2 ^ k)) (v := omegaJ E)
      (r := vs) (omegaJ_injOn h.env h.hk) hdeg (by
        intro i hi
        have hi := mem_range.1 hi
        rw [hPe, omegaJ_eq h.env h.hk h.dom hi, hfv _ (reverseBits_lt _ _),
          reverseBits_invol _ _ hi])
    rw [← hPe w, this]

end Ragu.Registry

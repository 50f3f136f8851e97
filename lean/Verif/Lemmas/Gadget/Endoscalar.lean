import Verif.Model.Gadget.Endoscalar
import Verif.Lemmas.Gadget.Point
import Mathlib.Data.Nat.Bitwise
import Mathlib.Data.Nat.BitIndices
import Mathlib.GroupTheory.OrderOfElement
import Mathlib.Tactic.Positivity

set_option linter.unusedSectionVars false

namespace Ragu.Gadget
open Ragu Ragu.Circuit Syn
variable {F : Type} [Field F] [DecidableEq F]

theorem shift_bit (v i : ℕ) : ((v >>> i) % 2 == 1) = v.testBit i := by
  rw [Nat.testBit_eq_decide_div_mod_eq, Nat.shiftRight_eq_div_pow]
  rfl

/-- The bits `i, …, i+k-1` of `v`. -/
def bitsFrom (v i k : ℕ) : List Bool := (List.range' i k).map fun j => v.testBit j

theorem bitsFrom_succ (v i k : ℕ) : bitsFrom v i (k + 1) = v.testBit i :: bitsFrom v (i + 1) k := by
  simp [bitsFrom, List.range'_succ]

/-- Lifting read off a list of bits. -/
def liftBits {R : Type} [Ring R] (zeta : R) : ℕ → List Bool → R → R
  | k + 1, n :: e :: rest, acc =>
    liftBits zeta k rest (acc + acc + (if n then -1 else 1) * (if e then zeta else 1))
  | _, _, acc => acc

theorem liftNativeLoop_eq {R : Type} [Ring R] (zeta : R) (v : ℕ) : ∀ (k i : ℕ) (acc : R),
    liftNativeLoop zeta v i k acc = liftBits zeta k (bitsFrom v (2 * i) (2 * k)) acc
  | 0, i, acc => by simp [liftNativeLoop, liftBits]
  | k + 1, i, acc => by
    rw [show 2 * (k + 1) = 2 * k + 1 + 1 from by ring, bitsFrom_succ, bitsFrom_succ, liftBits,
      liftNativeLoop, liftNativeLoop_eq zeta v k]
    have h1 : v.testBit (2 * i) = decide ((v >>> (2 * i)) % 2 ≠ 0) := by
      rw [← shift_bit]
      rcases Nat.mod_two_eq_zero_or_one (v >>> (2 * i)) with h | h <;> simp [h]
    have h2 : v.testBit (2 * i + 1) = decide ((v >>> (2 * i)) / 2 % 2 ≠ 0) := by
      rw [← shift_bit, Nat.shiftRight_succ]
      rcases Nat.mod_two_eq_zero_or_one (v >>> (2 * i) / 2) with h | h <;> simp [h]
    rw [show 2 * i + 1 + 1 = 2 * (i + 1) from by ring, h1, h2]
    congr 2
    by_cases ha : (v >>> (2 * i)) % 2 = 0 <;> by_cases hb : (v >>> (2 * i)) / 2 % 2 = 0 <;>
      simp [ha, hb]

theorem liftBits_map {R S : Type} [Ring R] [Ring S] (f : R →+* S) (zeta : R) :
    ∀ (k : ℕ) (bs : List Bool) (acc : R),
      f (liftBits zeta k bs acc) = liftBits (f zeta) k bs (f acc)
  | 0, bs, acc => by simp [liftBits]
  | k + 1, [], acc => by simp [liftBits]
  | k + 1, [_], acc => by simp [liftBits]
  | k + 1, n :: e :: rest, acc => by
    rw [liftBits, liftBits, liftBits_map f zeta k]
    congr 1
    cases n <;> cases e <;> simp

theorem liftNative_map {R S : Type} [Ring R] [Ring S] (f : R →+* S) (nbits : ℕ) (zeta : R)
    (v : ℕ) : f (liftNative nbits zeta v) = liftNative nbits (f zeta) v := by
  simp [liftNative, liftNativeLoop_eq, liftBits_map]

namespace Endoscalar

theorem liftLoop_sat (zeta : F) : ∀ (k : ℕ) (bs : List (Boolean F)) (acc : Element F) (c : F)
    (r : Element F × F) (w : List Bool), bs.map (·.wire) = w.map fe →
    (liftLoop zeta k bs acc c).sat r → r.1.wire + r.2 = liftBits zeta k w (acc.wire + c)
  | 0, bs, acc, c, r, w, _, h => by
    simp only [liftLoop, sat_pure] at h
    simp [h, liftBits]
  | k + 1, [], acc, c, r, w, _, h => h.elim
  | k + 1, [_], acc, c, r, w, _, h => h.elim
  | k + 1, n :: e :: rest, acc, c, r, w, hw, h => by
    match w, hw with
    | [_], hw => simp at hw
    | wn :: we :: w, hw =>
      simp only [List.map_cons, List.cons.injEq] at hw
      simp only [liftLoop, sat_bind, Boolean.and_sat, exists_eq_left] at h
      have := liftLoop_sat zeta k rest _ _ r w hw.2.2 h
      rw [this, liftBits]
      congr 1
      simp only [Element.add_wire, Element.double_wire, Element.scale_wire, Boolean.element_wire,
        Coeff.value, hw.1, hw.2.1]
      cases wn <;> cases we <;> simp [fe] <;> ring

theorem liftLoop_sim (zeta : F) : ∀ (k : ℕ) (bs : List (Boolean F)) (acc : Element F) (c : F),
    2 * k ≤ bs.length → (∀ b ∈ bs, b.Honest) → acc.Honest →
    ∃ r, (liftLoop zeta k bs acc c).sim = .ok r ∧ r.1.Honest
  | 0, bs, acc, c, _, _, ha => ⟨_, rfl, ha⟩
  | k + 1, [], acc, c, h, _, _ => by simp at h
  | k + 1, [_], acc, c, h, _, _ => by simp at h; omega
  | k + 1, n :: e :: rest, acc, c, h, hb, ha => by
    have hn := hb n (by simp)
    have he := hb e (by simp)
    rw [liftLoop, sim_bind_ok (Boolean.and_sim hn he)]
    refine liftLoop_sim zeta k rest _ _ (by simp at h; omega) (fun b hb' => hb b (by simp [hb'])) ?_
    refine Point.honest_add (Point.honest_add (Point.honest_add (Point.honest_double ha)
      (Point.honest_scale (show n.element.Honest from hn) _))
      (Point.honest_scale (show e.element.Honest from he) _)) (Point.honest_scale ?_ _)
    have hn' : fe n.value = n.wire := hn
    have he' : fe e.value = e.wire := he
    simp only [Element.Honest, Boolean.element_value, Boolean.element_wire]
    rw [← fe_and, hn', he']

theorem allocLoop_sat (v : ℕ) : ∀ (k i : ℕ) (r : List F), (allocLoop v i k).sat r →
    r.length = k ∧ ∀ w ∈ r, w = 0 ∨ w = 1
  | 0, i, r, h => by
    simp only [allocLoop, sat_pure] at h
    simp [h]
  | k + 1, i, r, h => by
    simp only [allocLoop, sat_bind, Boolean.alloc_sat, sat_pure] at h
    obtain ⟨b, ⟨-, hb⟩, rest, h1, rfl⟩ := h
    obtain ⟨h2, h3⟩ := allocLoop_sat v k (i + 1) rest h1
    refine ⟨by simp [h2], ?_⟩
    simp only [List.mem_cons, forall_eq_or_imp]
    exact ⟨hb, h3⟩

theorem allocLoop_sim (v : ℕ) : ∀ (k i : ℕ),
    (allocLoop (F := F) v i k).sim = .ok ((bitsFrom v i k).map fe)
  | 0, i => rfl
  | k + 1, i => by
    rw [allocLoop, sim_bind_ok (Boolean.alloc_sim _), sim_bind_ok (allocLoop_sim v k (i + 1)),
      bitsFrom_succ, sim_pure, shift_bit]
    rfl

theorem allocLoop_complete (v : ℕ) : ∀ (k i : ℕ) (w : List Bool), w.length = k →
    (allocLoop (F := F) v i k).sat (w.map fe)
  | 0, i, w, h => by
    simp only [allocLoop, sat_pure]
    simpa using h
  | k + 1, i, [], h => by simp at h
  | k + 1, i, b :: w, h => by
    simp only [allocLoop, sat_bind, Boolean.alloc_sat, sat_pure]
    refine ⟨⟨fe b, _⟩, ⟨rfl, by cases b <;> simp [fe]⟩, w.map fe,
      allocLoop_complete v k (i + 1) w (by simpa using h), rfl⟩

theorem toBits_wire (e : Endoscalar F) : e.toBits.map (·.wire) = e.bits := by
  apply List.ext_getElem
  · simp [toBits]
  · intro i h1 h2
    simp [toBits]

theorem extractLoop_sat (sqrt : F → Option F) (gen : F) (elem : Element F) :
    ∀ (k i : ℕ) (c c0 c1 : F) (v : ℕ) (r : List F × ℕ),
    c0 = c * gen → c1 = c * (1 - gen) → (extractLoop sqrt gen elem i k c c0 c1 v).sat r →
    r.1.length = k ∧ ∀ j (h : j < r.1.length), (r.1[j] = 0 ∨ r.1[j] = 1) ∧
      ∃ s : F, s * s = r.1[j] * (elem.wire + c + j) + (1 - r.1[j]) * ((elem.wire + c + j) * gen)
  | 0, i, c, c0, c1, v, r, _, _, h => by
    simp only [extractLoop, sat_pure] at h
    simp [h]
  | k + 1, i, c, c0, c1, v, r, h0, h1, h => by
    simp only [extractLoop, sat_bind, sat_pure, Boolean.alloc_sat, Element.allocSquare_sat,
      Element.mul_sat, exists_eq_left, enforceZero_sat, exists_const] at h
    obtain ⟨_, -, b, ⟨-, hb⟩, ⟨s, sq⟩, ⟨-, hs⟩, hl, ⟨rest, v'⟩, hrest, rfl⟩ := h
    obtain ⟨hlen, ih⟩ := extractLoop_sat sqrt gen elem k (i + 1) (c + 1) _ _ _ _
      (by rw [h0]; ring) (by rw [h1]; ring) hrest
    refine ⟨by simp at hlen; simp [hlen], fun j hj => ?_⟩
    cases j with
    | zero =>
      refine ⟨hb, s.wire, ?_⟩
      have hs' : sq.wire = s.wire * s.wire := by rw [show sq = _ from hs]
      simp only [lin_eq, lcVal, LcStep.sub, Coeff.value, ONE_eq, hs', Boolean.element_wire] at hl
      simp only [List.getElem_cons_zero, Nat.cast_zero, add_zero]
      rw [h0, h1] at hl
      linear_combination -hl
    | succ j =>
      obtain ⟨h3, s', h4⟩ := ih j (by simpa using hj)
      refine ⟨h3, s', ?_⟩
      simp only [List.getElem_cons_succ, Nat.cast_succ]
      rw [h4]
      ring

theorem extractLoop_sim {sqrt : F → Option F} {gen : F} {elem : Element F} (he : elem.Honest)
    (hs : ∀ v s, sqrt v = some s → s * s = v) :
    ∀ (k i : ℕ) (c c0 c1 : F) (v : ℕ), c0 = c * gen → c1 = c * (1 - gen) →
    (∀ j < k, ∃ w, extractWitness sqrt gen (elem.wire + c + j) = some w) →
    ∃ bs v', (extractLoop sqrt gen elem i k c c0 c1 v).sim = .ok (bs, v') ∧
      extractNativeLoop sqrt gen elem.wire i k c v = some v' ∧
      bs.length = k ∧ ∀ j < k, ∀ s bit,
        extractWitness sqrt gen (elem.wire + c + j) = some (s, bit) → bs[j]? = some (fe bit)
  | 0, i, c, c0, c1, v, _, _, _ => ⟨_, _, rfl, rfl, rfl, fun j hj => by omega⟩
  | k + 1, i, c, c0, c1, v, h0, h1, hw => by
    obtain ⟨⟨s, bit⟩, hw0⟩ := hw 0 (by omega)
    simp only [Nat.cast_zero, add_zero] at hw0
    obtain ⟨bs, v', ih1, ih2, ih3, ih4⟩ := extractLoop_sim (gen := gen) he hs k (i + 1) (c + 1) (c0 + gen)
      (c1 + (1 - gen)) (if bit then v ||| (1 <<< i) else v)
      (by rw [h0]; ring) (by rw [h1]; ring) (fun j hj => by
        obtain ⟨w, h⟩ := hw (j + 1) (by omega)
        refine ⟨w, ?_⟩
        rw [← h]; congr 1; push_cast; ring)
    refine ⟨fe bit :: bs, v', ?_, ?_, by simp [ih3], fun j hj s' bit' hj' => ?_⟩
    · rw [extractLoop]
      simp only [show elem.value = elem.wire from he, hw0]
      rw [sim_bind_ok (a := ()) rfl]
      simp only [Option.getD_some]
      rw [sim_bind_ok (Boolean.alloc_sim bit), sim_bind_ok (Element.allocSquare_sim s)]
      simp only
      rw [sim_bind_ok (Element.mul_sim he (show (Boolean.element ⟨fe bit, bit⟩).Honest from rfl)),
        sim_bind, enforceZero_sim, if_pos]
      · rw [bind_ok', sim_bind_ok ih1]; rfl
      · simp only [lin_eq, lcVal, LcStep.sub, Coeff.value, ONE_eq, Boolean.element_wire, h0, h1]
        unfold extractWitness at hw0
        split at hw0
        · rename_i s' hs'
          have := hs _ _ hs'
          simp only [Option.some.injEq, Prod.mk.injEq] at hw0
          rw [← hw0.1, ← hw0.2]
          simp only [fe, if_true]
          linear_combination -this
        · split at hw0
          · rename_i s' hs'
            have := hs _ _ hs'
            simp only [Option.some.injEq, Prod.mk.injEq] at hw0
            rw [← hw0.1, ← hw0.2]
            simp only [fe]
            simp only [Bool.false_eq_true, if_false]
            linear_combination -this
          · cases hw0
    · rw [extractNativeLoop, hw0]
      exact ih2
    · cases j with
      | zero =>
        simp only [Nat.cast_zero, add_zero, hw0, Option.some.injEq, Prod.mk.injEq] at hj'
        simp [hj'.2]
      | succ j =>
        rw [List.getElem?_cons_succ]
        refine ih4 j (by omega) s' bit' ?_
        rw [← hj']; congr 1; push_cast; ring

theorem extractNativeLoop_bits {sqrt : F → Option F} {gen elem : F} :
    ∀ (k i : ℕ) (c : F) (v v' : ℕ), v < 2 ^ i →
    extractNativeLoop sqrt gen elem i k c v = some v' →
    v' < 2 ^ (i + k) ∧ (∀ j < i, v'.testBit j = v.testBit j) ∧
    ∀ j < k, ∃ s, extractWitness sqrt gen (elem + c + j) = some (s, v'.testBit (i + j))
  | 0, i, c, v, v', hv, h => by
    simp only [extractNativeLoop, Option.some.injEq] at h
    subst h
    exact ⟨by simpa using hv, fun _ _ => rfl, fun j hj => by omega⟩
  | k + 1, i, c, v, v', hv, h => by
    rw [extractNativeLoop] at h
    cases hw : extractWitness sqrt gen (elem + c) with
    | none => simp [hw] at h
    | some w =>
      obtain ⟨s, bit⟩ := w
      simp only [hw] at h
      have hlt : (if bit then v ||| (1 <<< i) else v) < 2 ^ (i + 1) := by
        split
        · refine Nat.or_lt_two_pow (lt_trans hv (by gcongr <;> omega)) ?_
          rw [Nat.shiftLeft_eq, one_mul]
          gcongr <;> omega
        · exact lt_trans hv (by gcongr <;> omega)
      have hbit : (if bit then v ||| (1 <<< i) else v).testBit i = bit := by
        have : v.testBit i = false := Nat.testBit_lt_two_pow hv
        cases bit <;> simp [this, Nat.testBit_or]
      obtain ⟨h1, h2, h3⟩ := extractNativeLoop_bits k (i + 1) (c + 1) _ v' hlt h
      refine ⟨by rw [show i + (k + 1) = i + 1 + k from by ring]; exact h1, fun j hj => ?_,
        fun j hj => ?_⟩
      · rw [h2 j (by omega)]
        cases bit
        · simp
        · have : ¬ i = j := by omega
          simp [Nat.testBit_or, Nat.testBit_shiftLeft, this]
          omega
      · cases j with
        | zero =>
          refine ⟨s, ?_⟩
          rw [add_zero, h2 i (by omega), hbit]
          simpa using hw
        | succ j =>
          obtain ⟨s', hs'⟩ := h3 j (by omega)
          refine ⟨s', ?_⟩
          rw [show i + (j + 1) = i + 1 + j from by ring, ← hs']
          congr 1
          push_cast; ring

end Endoscalar

/-- The number spelled by bits, least significant first. -/
def natOfBits : List Bool → ℕ
  | [] => 0
  | b :: bs => b.toNat + 2 * natOfBits bs

theorem natOfBits_lt : ∀ bs : List Bool, natOfBits bs < 2 ^ bs.length
  | [] => by simp [natOfBits]
  | b :: bs => by
    have := natOfBits_lt bs
    have hb : b.toNat ≤ 1 := by cases b <;> simp
    simp only [natOfBits, List.length_cons, pow_succ]
    omega

theorem natOfBits_testBit : ∀ (bs : List Bool) (i : ℕ) (h : i < bs.length),
    (natOfBits bs).testBit i = bs[i]
  | [], i, h => by simp at h
  | b :: bs, 0, _ => by
    simp only [natOfBits, Nat.testBit_zero, List.getElem_cons_zero]
    cases b <;> simp
  | b :: bs, i + 1, h => by
    rw [Nat.testBit_succ, List.getElem_cons_succ, ← natOfBits_testBit bs i (by simpa using h)]
    congr 1
    simp only [natOfBits]
    cases b <;> simp <;> omega

theorem natOfBits_bitsFrom (bs : List Bool) : bitsFrom (natOfBits bs) 0 bs.length = bs := by
  apply List.ext_getElem
  · simp [bitsFrom]
  · intro i h1 h2
    simp [bitsFrom, natOfBits_testBit bs i h2]

end Ragu.Gadget

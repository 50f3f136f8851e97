/-
Certificates of primality that the kernel can evaluate.
-/
import Mathlib.NumberTheory.LucasPrimality
import Mathlib.Data.ZMod.Basic
import Mathlib.Data.Nat.Prime.Basic

namespace Ragu.Cert

/-- `b ^ e % m`, by repeated squaring; `k` bounds the number of bits of `e`. -/
def powMod (m b : ℕ) : ℕ → ℕ → ℕ
  | 0, _ => 1 % m
  | k + 1, e =>
    if e % 2 = 1 then powMod m b k (e / 2) * powMod m b k (e / 2) * b % m
    else powMod m b k (e / 2) * powMod m b k (e / 2) % m

theorem powMod_eq (m b : ℕ) : ∀ k e : ℕ, e < 2 ^ k → powMod m b k e = b ^ e % m
  | 0, e, h => by
    have : e = 0 := by simpa using h
    subst this
    simp [powMod]
  | k + 1, e, h => by
    have hk := powMod_eq m b k (e / 2) (by rw [pow_succ] at h; omega)
    rw [powMod, hk]
    have h2 : e = e / 2 + e / 2 + e % 2 := by omega
    split
    · next h1 =>
      rw [h1] at h2
      conv_rhs => rw [h2, pow_succ, pow_add]
      simp [Nat.mul_mod]
    · next h1 =>
      have h0 : e % 2 = 0 := by omega
      rw [h0, add_zero] at h2
      conv_rhs => rw [h2, pow_add]
      simp [Nat.mul_mod]

theorem powMod_cast {R : Type*} [CommRing R] {m : ℕ} (hm : (m : R) = 0) {b k e : ℕ} (he : e < 2 ^ k) :
    (b : R) ^ e = (powMod m b k e : R) := by
  rw [powMod_eq m b k e he, ← Nat.cast_pow]
  conv_lhs => rw [← Nat.div_add_mod (b ^ e) m]
  push_cast
  rw [hm]
  ring

/-- `p - 1` is the product of the listed prime powers, and `a` has order `p - 1` modulo `p`. -/
def prattCheck (p a : ℕ) (factors : List (ℕ × ℕ)) : Bool :=
  decide (1 < p) && decide (p < 2 ^ 256) &&
    (factors.foldr (fun f acc => f.1 ^ f.2 * acc) 1 == p - 1) &&
    (powMod p a 256 (p - 1) == 1) &&
    factors.all fun f => powMod p a 256 ((p - 1) / f.1) != 1

theorem prime_dvd_factors {r : ℕ} (hr : r.Prime) : ∀ {factors : List (ℕ × ℕ)},
    (∀ f ∈ factors, f.1.Prime) → r ∣ factors.foldr (fun f acc => f.1 ^ f.2 * acc) 1 →
    ∃ f ∈ factors, f.1 = r
  | [], _, h => by simp [hr.one_lt.ne'] at h
  | f :: fs, hf, h => by
    simp only [List.foldr_cons] at h
    rcases (Nat.Prime.dvd_mul hr).1 h with h | h
    · exact ⟨f, by simp, ((Nat.prime_dvd_prime_iff_eq hr (hf f (by simp))).1
        (hr.dvd_of_dvd_pow h)).symm⟩
    · obtain ⟨g, hg, e⟩ := prime_dvd_factors hr (fun x hx => hf x (by simp [hx])) h
      exact ⟨g, by simp [hg], e⟩

theorem pratt {p a : ℕ} {factors : List (ℕ × ℕ)} (h : prattCheck p a factors = true)
    (hf : ∀ f ∈ factors, f.1.Prime) : p.Prime := by
  simp only [prattCheck, Bool.and_eq_true, decide_eq_true_eq, beq_iff_eq, bne_iff_ne, ne_eq,
    List.all_eq_true] at h
  obtain ⟨⟨⟨⟨h1, h2⟩, h3⟩, h4⟩, h5⟩ := h
  have hz : ((p : ℕ) : ZMod p) = 0 := ZMod.natCast_self p
  refine lucas_primality p (a : ZMod p) ?_ fun r hr hd => ?_
  · rw [powMod_cast hz (k := 256) (by omega), h4, Nat.cast_one]
  · rw [← h3] at hd
    obtain ⟨f, hm, rfl⟩ := prime_dvd_factors hr hf hd
    have hle : (p - 1) / f.1 < 2 ^ 256 := lt_of_le_of_lt (Nat.div_le_self _ _) (by omega)
    rw [powMod_cast hz hle]
    intro e
    apply h5 f hm
    have : ((powMod p a 256 ((p - 1) / f.1) : ℕ) : ZMod p) = ((1 : ℕ) : ZMod p) := by
      rw [e, Nat.cast_one]
    rw [ZMod.natCast_eq_natCast_iff'] at this
    rw [Nat.mod_eq_of_lt h1, powMod_eq _ _ _ _ hle, Nat.mod_mod] at this
    rw [powMod_eq _ _ _ _ hle, this]

end Ragu.Cert

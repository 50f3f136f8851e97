/-
Property C89: the blinding factor.
-/
import Verif.Spec.Blinding
import Verif.Props.Trace
import Verif.Props.Staging
import Verif.Props.Msm
import Verif.Props.MultiStage
import Verif.Props.Pasta

set_option linter.unusedSectionVars false

namespace Ragu.Props
open Ragu Ragu.Circuit Ragu.Spec Finset
variable {F : Type} [Field F] [DecidableEq F] {G : Type} [AddCommGroup G] [Module F G]

theorem exists_wire {n k : ℕ} (h : k < 4 * n) : ∃ i < n, ∃ w, traceExp n i w = k := by
  rcases (by omega : k < n ∨ (n ≤ k ∧ k < 2 * n) ∨ (2 * n ≤ k ∧ k < 3 * n) ∨ 3 * n ≤ k) with h1 | h1 | h1 | h1
  · exact ⟨k, h1, .c, rfl⟩
  · exact ⟨2 * n - 1 - k, by omega, .b, by simp only [traceExp]; omega⟩
  · exact ⟨k - 2 * n, by omega, .a, by simp only [traceExp]; omega⟩
  · exact ⟨4 * n - 1 - k, by omega, .d, by simp only [traceExp]; omega⟩

theorem last_wire {n i : ℕ} {w : Kind} (hi : i < n) (h : traceExp n i w = 4 * n - 1) : w = .d ∧ i = 0 := by
  cases w <;> simp only [traceExp] at h <;> first | omega | exact ⟨rfl, by omega⟩

/-- The blinding factor is the last coefficient, and changes no other. -/
theorem blinded_coeff {n : ℕ} {make : F → Except Circuit.Err (Sparse.Poly F)} (h : Blinded n make) :
    0 < n ∧ ∃ f : ℕ → F, ∀ alpha, ∃ r, make alpha = .ok r ∧ WellFormed (4 * n) r ∧
      ∀ k < 4 * n, coeff r k = if k = 4 * n - 1 then alpha else f k := by
  cases h with
  | stage c vs hv hn =>
    have hs := skip_pos c
    refine ⟨by omega, ?_⟩
    obtain ⟨p0, -, -, q0⟩ := rx_spec (n := n) c 0 vs hv hn
    refine ⟨coeff p0, fun alpha => ?_⟩
    obtain ⟨p, h1, h2, q⟩ := rx_spec (n := n) c alpha vs hv hn
    refine ⟨p, h1, h2, fun k hk => ?_⟩
    obtain ⟨i, hi, w, rfl⟩ := exists_wire hk
    obtain ⟨a1, a2, a3, a4⟩ := q i hi
    obtain ⟨b1, b2, b3, b4⟩ := q0 i hi
    simp only [wireOf] at a1 a2 a3 a4 b1 b2 b3 b4
    split
    · obtain ⟨rfl, rfl⟩ := last_wire hi ‹_›
      rw [a4, if_pos rfl]
    · rename_i hne
      cases w
      · rw [a1, b1]
      · rw [a3, b3]
      · rw [a2, b2]
      · have : i ≠ 0 := fun e => hne (by subst e; rfl)
        rw [a4, b4, if_neg this, if_neg this]
  | trace c t hu hn ht =>
    have hpos : 0 < totalGates c.counts := by
      have := (posRun_mono c.main (Pos.gate {})).1
      simp only [totalGates, Circ.counts, List.map_cons, List.sum_cons, Pos.gate] at this ⊢
      omega
    refine ⟨by omega, ?_⟩
    rw [traceEval_segs hu ht]
    obtain ⟨p0, -, -, q0⟩ := assemble_eq c hn 0
    refine ⟨coeff p0, fun alpha => ?_⟩
    obtain ⟨p, h1, h2, q⟩ := assemble_eq c hn alpha
    refine ⟨p, h1, h2, fun k hk => ?_⟩
    obtain ⟨i, hi, w, rfl⟩ := exists_wire hk
    have a := q i hi w
    have b := q0 i hi w
    simp only [wireOf] at a b
    split
    · obtain ⟨rfl, rfl⟩ := last_wire hi ‹_›
      rw [a]; rfl
    · rename_i hne
      rw [a, b]
      cases w <;> try rfl
      have : i ≠ 0 := fun e => hne (by subst e; rfl)
      simp only [traced, if_neg this]

/-- C89: the commitment is a point that does not depend on the blinding factor, plus the factor times the
last generator. -/
theorem C89_commitment {n numBits : ℕ} {repr : F → List UInt8} (hr : ReprOk numBits repr) {g : List G}
    (hg : 4 * n ≤ g.length) {make : F → Except Circuit.Err (Sparse.Poly F)} (h : Blinded n make) :
    ∃ Q, ∀ alpha, blindCommit n numBits repr g make alpha = some (Q + alpha • g.getD (4 * n - 1) 0) := by
  obtain ⟨hn, f, hf⟩ := blinded_coeff h
  refine ⟨∑ k ∈ range (4 * n - 1), f k • g.getD k 0, fun alpha => ?_⟩
  obtain ⟨r, h1, h2, h3⟩ := hf alpha
  simp only [blindCommit, h1]
  rw [C12_commit (4 * n) numBits repr hr r g h2 hg]
  congr 1
  obtain ⟨m, hm⟩ : ∃ m, 4 * n = m + 1 := ⟨4 * n - 1, by omega⟩
  rw [hm] at h3 ⊢
  simp only [Nat.add_sub_cancel] at h3 ⊢
  rw [sum_range_succ, h3 m (by omega), if_pos rfl]
  congr 1
  refine sum_congr rfl fun k hk => ?_
  have := mem_range.1 hk
  rw [h3 k (by omega), if_neg (by omega)]

/-- C89: no two blinding factors give the same commitment; so at most one gives the identity, which
cannot be used as a commitment. -/
theorem C89_injective {n numBits : ℕ} {repr : F → List UInt8} (hr : ReprOk numBits repr) {g : List G}
    (hg : 4 * n ≤ g.length) (h0 : g.getD (4 * n - 1) 0 ≠ 0)
    {make : F → Except Circuit.Err (Sparse.Poly F)} (h : Blinded n make) {a b : F}
    (hab : blindCommit n numBits repr g make a = blindCommit n numBits repr g make b) : a = b := by
  obtain ⟨Q, hQ⟩ := C89_commitment hr hg h
  rw [hQ, hQ, Option.some.injEq, add_right_inj] at hab
  by_contra hne
  have : (a - b) • g.getD (4 * n - 1) 0 = 0 := by rw [sub_smul, hab, sub_self]
  rcases smul_eq_zero.1 this with h | h
  · exact hne (sub_eq_zero.1 h)
  · exact h0 h

/-- C89: in a group with as many elements as the field, every point is the commitment for exactly one
blinding factor, whatever is committed to: so the commitment says nothing about it. -/
theorem C89_hides [Finite F] (hc : Nat.card G = Nat.card F) {n numBits : ℕ} {repr : F → List UInt8}
    (hr : ReprOk numBits repr) {g : List G} (hg : 4 * n ≤ g.length) (h0 : g.getD (4 * n - 1) 0 ≠ 0)
    {make : F → Except Circuit.Err (Sparse.Poly F)} (h : Blinded n make) (P : G) :
    ∃! alpha, blindCommit n numBits repr g make alpha = some P := by
  obtain ⟨Q, hQ⟩ := C89_commitment hr hg h
  have : Finite G := Nat.finite_of_card_ne_zero (by rw [hc]; exact Nat.card_pos.ne')
  have hi : Function.Injective fun alpha : F => Q + alpha • g.getD (4 * n - 1) 0 := by
    intro a b hab
    exact C89_injective hr hg h0 h (by rw [hQ, hQ]; exact congrArg some hab)
  have hb : Function.Bijective fun alpha : F => Q + alpha • g.getD (4 * n - 1) 0 :=
    (Nat.bijective_iff_injective_and_card _).2 ⟨hi, hc.symm⟩
  obtain ⟨a, ha⟩ := hb.2 P
  refine ⟨a, by dsimp only; rw [hQ]; exact congrArg some ha, fun b hb' => ?_⟩
  dsimp only at hb'
  rw [hQ, Option.some.injEq] at hb'
  exact hi (hb'.trans ha.symm)

/-- C89: the same for any number of commitments published one after the other, where what is committed to
may depend on the commitments before: every list of points comes from exactly one list of blinding
factors. -/
theorem C89_publish [Finite F] (hc : Nat.card G = Nat.card F) {n numBits : ℕ} {repr : F → List UInt8}
    (hr : ReprOk numBits repr) {g : List G} (hg : 4 * n ≤ g.length) (h0 : g.getD (4 * n - 1) 0 ≠ 0)
    {make : List G → F → Except Circuit.Err (Sparse.Poly F)} (h : ∀ ps, Blinded n (make ps))
    (ps : List G) : ∃! alphas, publish n numBits repr g make alphas = some ps := by
  induction ps with
  | nil =>
    refine ⟨[], rfl, fun l hl => ?_⟩
    cases l with
    | nil => rfl
    | cons a l =>
      simp only [publish] at hl
      split at hl
      · cases hl
      · rw [Option.map_eq_some_iff] at hl
        obtain ⟨_, -, e⟩ := hl
        cases e
  | cons p ps ih =>
    obtain ⟨l, h1, h2⟩ := ih
    obtain ⟨a, h3, h4⟩ := C89_hides hc hr hg h0 (h ps) p
    refine ⟨a :: l, by simp only [publish, h1, h3, Option.map_some], fun m hm => ?_⟩
    cases m with
    | nil => cases hm
    | cons b m =>
      simp only [publish] at hm
      split at hm
      · cases hm
      · rename_i qs hqs
        rw [Option.map_eq_some_iff] at hm
        obtain ⟨q, hq, e⟩ := hm
        rw [List.cons.injEq] at e
        obtain ⟨rfl, rfl⟩ := e
        rw [h2 m hqs, h4 b hq]

/-- C89: a stage of which all values are zero has the identity as its commitment exactly if its blinding
factor is zero. -/
theorem C89_zero_stage {n numBits : ℕ} {repr : F → List UInt8} (hr : ReprOk numBits repr) {g : List G}
    (hg : 4 * n ≤ g.length) (h0 : g.getD (4 * n - 1) 0 ≠ 0) {c : Chain} {k : ℕ} (hk : k ≤ c.values)
    (hn : c.skipGates + c.numGates ≤ n) (alpha : F) :
    blindCommit n numBits repr g (fun alpha => c.rx n alpha (List.replicate k 0)) alpha = some 0 ↔
      alpha = 0 := by
  have hb : Blinded n fun alpha => c.rx n alpha (List.replicate k (0 : F)) :=
    .stage c _ (by simpa using hk) hn
  have hz : blindCommit n numBits repr g (fun alpha => c.rx n alpha (List.replicate k 0)) 0 = some 0 := by
    obtain ⟨p, h1, h2, h3⟩ := rx_spec (n := n) c (0 : F) (List.replicate k 0) (by simpa using hk) hn
    simp only [blindCommit, h1]
    rw [C12_commit (4 * n) numBits repr hr p g h2 hg]
    congr 1
    refine sum_eq_zero fun j hj => ?_
    obtain ⟨i, hi, w, rfl⟩ := exists_wire (mem_range.1 hj)
    obtain ⟨a1, a2, a3, a4⟩ := h3 i hi
    have hd : ∀ i, (List.replicate k (0 : F)).getD i 0 = 0 := fun i => by
      rw [List.getD_eq_getElem?_getD, List.getElem?_replicate]
      split <;> rfl
    simp only [wireOf, hd, ite_self] at a1 a2 a3 a4
    cases w
    · rw [a1, zero_smul]
    · rw [a3, zero_smul]
    · rw [a2, zero_smul]
    · rw [a4, zero_smul]
  constructor
  · intro h
    exact C89_injective hr hg h0 hb (h.trans hz.symm)
  · rintro rfl
    exact hz

section
open Ragu.Pasta

/-- C89: over the Pasta cycle the commitments to traces on the host curve are like that, for any
generators of which the one for the blinding factor is not the identity. -/
theorem C89_pasta {n : ℕ} {gens : List Vesta} (hg : 4 * n ≤ gens.length)
    (h0 : gens.getD (4 * n - 1) 0 ≠ 0) {make : List Vesta → Fp → Except Circuit.Err (Sparse.Poly Fp)}
    (h : ∀ ps, Blinded n (make ps)) (ps : List Vesta) :
    ∃! alphas, publish n numBits reprP gens make alphas = some ps :=
  C89_publish C75_curves.2 C75_repr hg h0 h ps

end

/-! ### Examples -/

def reprSmall (a : ZMod 97) : List UInt8 := [UInt8.ofNat a.val]

theorem reprSmall_ok : ReprOk 7 reprSmall := by
  intro a
  have h : a.val < 97 := a.val_lt
  have e : leValue (reprSmall a) = a.val := by
    simp [leValue, reprSmall]; omega
  rw [e]
  exact ⟨ZMod.natCast_zmod_val a, by omega⟩

/-- Non-vacuity of C89: a session of a stage and then a trace, over a group of 97 elements. -/
example : ∃ make : List (ZMod 97) → ZMod 97 → Except Circuit.Err (Sparse.Poly (ZMod 97)),
    (∀ ps, Blinded 8 (make ps)) ∧
    make [] 5 = twoStages.rx 8 5 [15, 9] ∧
    (∃ t, TraceEval demoSat t ∧ ∀ p ps,
      make (p :: ps) 5 = assemble 8 (floorPlan demoSat.counts) (t.map Prod.snd) 5) ∧
    (List.replicate 32 (3 : ZMod 97)).getD (4 * 8 - 1) 0 ≠ 0 ∧
    Nat.card (ZMod 97) = Nat.card (ZMod 97) := by
  obtain ⟨t, ht⟩ := C18_produced demoSat_wellUsed
  refine ⟨fun ps alpha => if ps = [] then twoStages.rx 8 alpha [15, 9] else
    assemble 8 (floorPlan demoSat.counts) (t.map Prod.snd) alpha, fun ps => ?_, rfl,
    ⟨t, ht, fun p ps => rfl⟩, by decide, rfl⟩
  by_cases h : ps = []
  · subst h
    exact .stage twoStages [15, 9] (by decide) (by decide)
  · simp only [if_neg h]
    exact .trace demoSat t demoSat_wellUsed (by decide) ht

/-- A stage of zeros with and without a blinding factor. -/
example : blindCommit 4 7 reprSmall (List.replicate 16 (3 : ZMod 97))
      (fun alpha => twoStages.rx 4 alpha [0, 0]) 0 = some 0 ∧
    blindCommit 4 7 reprSmall (List.replicate 16 (3 : ZMod 97))
      (fun alpha => twoStages.rx 4 alpha [0, 0]) 5 = some 15 := by decide +kernel

example : ReprOk 7 reprSmall := reprSmall_ok

end Ragu.Props

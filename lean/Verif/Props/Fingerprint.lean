/-
C85: what the records and fingerprints of routine calls say about the code that was called.
-/
import Verif.Lemmas.FingerprintTable
import Verif.Lemmas.Pasta.Keys
import Mathlib.Data.Int.Interval

set_option linter.unusedSectionVars false

namespace Ragu.Props
open Ragu Ragu.Spec Ragu.Circuit
variable {F : Type} [Field F] [DecidableEq F]

/-! ### Records -/

/-- The code with which synthesis ends: the public outputs and the constant. -/
def closing (outs : List WRef) : Code F :=
  outs.foldr (fun w k => .enforce [.add w] k) (.enforce [.add .one] .done)

theorem closing_facts (outs : List WRef) (P : FpPoints F) (low : F → ℕ) (n : ℕ)
    (h : ∀ w ∈ outs, RefBelow n w) :
    UsesOwn (closing outs : Code F) n ∧ recordsOf P low (closing outs) = [] ∧
      (∀ s, ownGates s (closing outs : Code F) = 0) ∧
      ownCons (closing outs : Code F) = outs.length + 1 := by
  induction outs with
  | nil =>
    refine ⟨⟨?_, trivial⟩, rfl, fun _ => rfl, rfl⟩
    intro st hst
    rw [List.mem_singleton.1 hst]
    trivial
  | cons w outs ih =>
    obtain ⟨h1, h2, h3, h4⟩ := ih fun w hw => h w (by simp [hw])
    refine ⟨⟨?_, h1⟩, h2, h3, ?_⟩
    · intro st hst
      rw [List.mem_singleton.1 hst]
      exact h w (by simp)
    · have : ownCons (closing (w :: outs) : Code F) = ownCons (closing outs : Code F) + 1 := by
        simp only [closing, List.foldr_cons, ownCons]
      rw [this, h4]
      rfl

theorem records_some (P : FpPoints F) (low : F → ℕ) (c : Code F) :
    (recordsOf P low c).filter (·.identity.isNone) = [] := by
  induction c with
  | done => rfl
  | call kinds input body output k ih1 ih2 =>
    rw [recordsOf, List.filter_cons, List.filter_append, ih1, ih2]
    rfl
  | _ => assumption

/-- Measuring a circuit never stops at one of its consistency checks, and what it returns is this: the
root's record with the root's own gates (with that of the constant) and constraints (with those for the
outputs and the constant), then one record for each call in the order in which calls start. The record of
a call has the numbers of its own gates and constraints and a fingerprint which is a function of the two
type ids, of the number of input wires and of the routine's code: it is the same wherever and whenever the
call is made. -/
theorem C85_records (P : FpPoints F) (low : F → ℕ) (c : Code F) (outs : List WRef) (h : UsesOwn c 0)
    (ho : ∀ w ∈ outs, RefBelow (wiresAfter c 0) w) :
    FpCounter.eval P low c outs =
      let records : List SegmentRecord :=
        ⟨(countsOf c).1 + 1, (countsOf c).2 + outs.length + 1, none⟩ :: recordsOf P low c
      .ok ((records.map (·.numGates)).sum, (records.map (·.numCons)).sum, records) := by
  have hg : (FpCounter.new P).gate P = .ok (⟨⟨none, 0, P.x0 * P.x0, P.x1 * P.x1, P.x2 * P.x2, P.x3 * P.x3,
      P.h⟩, 0, 1, [⟨1, 0, none⟩], true⟩, P.x0, P.x1, P.x2, P.x3) := rfl
  obtain ⟨t, h1, h2, h3, h4, h5⟩ := FpCounter.run_walk P low c
    ⟨⟨none, 0, P.x0 * P.x0, P.x1 * P.x1, P.x2 * P.x2, P.x3 * P.x3, P.h⟩, 0, 1, [⟨1, 0, none⟩], true⟩
    { next := 1 } h rfl Nat.zero_lt_one (by simp [FpCounter.At, pow_two]) rfl rfl
  have h2 : t.current = 0 := h2
  have hw := (walk_counts (fun _ place => atPoints P place) c { next := 1 }).2.2
  obtain ⟨k1, k2, k3, k4⟩ := closing_facts outs P low (wiresAfter c 0) ho
  obtain ⟨t', g1, -⟩ := FpCounter.run_walk P low (closing outs)
    ⟨t, 0 + ownCons c + ((recordsOf P low c).map (·.numCons)).sum,
      1 + ownGates false c + ((recordsOf P low c).map (·.numGates)).sum,
      ⟨1 + ownGates false c, 0 + ownCons c, none⟩ :: recordsOf P low c, true⟩
    _ (by rw [hw]; exact k1) rfl (by rw [h2]; exact Nat.succ_pos _) h3 h4 h5
  have h1' : FpCounter.run P low c ⟨⟨none, 0, P.x0 * P.x0, P.x1 * P.x1, P.x2 * P.x2, P.x3 * P.x3, P.h⟩, 0, 1,
      [⟨1, 0, none⟩], true⟩ [] = .ok (⟨t, 0 + ownCons c + ((recordsOf P low c).map (·.numCons)).sum,
      1 + ownGates false c + ((recordsOf P low c).map (·.numGates)).sum,
      ⟨1 + ownGates false c, 0 + ownCons c, none⟩ :: recordsOf P low c, true⟩,
      (walk (fun _ place => atPoints P place) c { next := 1 }).env.map .value) := h1
  simp only [h2, k2, k3, k4, List.map_nil, List.sum_nil, Nat.add_zero, List.append_nil,
    List.modify_zero_cons, FpCounter.plus] at g1
  rw [FpCounter.eval, hg]
  simp only [bind, Except.bind, pure, Except.pure]
  rw [h1']
  simp only
  rw [show (outs.foldr (fun w k => Code.enforce [.add w] k) (.enforce [.add .one] .done) : Code F) =
    closing outs from rfl, g1]
  simp only [countsOf_eq, List.map_cons, List.sum_cons, List.head?_cons, Option.map_some,
    List.filter_cons, records_some]
  rw [if_pos]
  · congr 3
    · omega
    · omega
    · congr 2
      · omega
      · omega
  · exact ⟨trivial, by omega, trivial, rfl⟩

/-- Code with two nested calls, as the theorem asks for. -/
example : UsesOwn (F := ZMod 7) (.mul (.call (1, 2) [.idx 0, .idx 2]
    (.alloc (.call (1, 1) [.idx 0] (.enforce [.add (.idx 0)] .done) [] (.enforce [.sub (.idx 1)] .done)))
    [.idx 2, .idx 0] (.enforce [.add (.idx 4)] .done))) 0 := by
  simp [UsesOwn, LcBelow, RefBelow, wiresAfter, LcStep.add, LcStep.sub]

/-! ### What a fingerprint depends on -/

/-- Fingerprints do not depend on what nested calls do, nor on the wires that they are given. -/
theorem C85_local (P : FpPoints F) (low : F → ℕ) (kinds : ℕ × ℕ) (nin : ℕ) {c c' : Code F}
    (h : SameOutside c c') : fingerprintOf P low kinds nin c = fingerprintOf P low kinds nin c' := by
  rw [fingerprintOf, fingerprintOf, scalarOf, scalarOf, countsOf, countsOf, bodyOf, bodyOf, bodyOf, bodyOf,
    walk_outside _ h, walk_outside _ h]

/-- Code with the same gates and calls whose constraints have the same values for all values of wires has
the same fingerprint, for all points. -/
theorem C85_same (nin : ℕ) {c c' : Code F} (hs : steps false c = steps false c')
    (h : ∀ φ : Name → F, constraintValues φ nin c = constraintValues φ nin c') (P : FpPoints F)
    (low : F → ℕ) (kinds : ℕ × ℕ) :
    fingerprintOf P low kinds nin c = fingerprintOf P low kinds nin c' := by
  have hf := values_forms hs h
  have h1 : (countsOf c).1 = (countsOf c').1 := by
    simp only [countsOf, bodyOf]
    rw [steps_own, steps_own, show (Option.isSome (none : Option F)) = false from rfl, hs]
  have h2 : (countsOf c).2 = (countsOf c').2 := by rw [← forms_length nin, ← forms_length nin, hf]
  rw [fingerprintOf, fingerprintOf, h1, h2, scalarOf, scalarOf, rows_forms, rows_forms, hf]

/-- Two ways to write one constraint. -/
example : let c : Code (ZMod 7) := .mul (.add [.add (.idx 0), .add (.idx 1)] (.enforce [.add (.idx 4)] .done))
    let c' : Code (ZMod 7) := .gate (.enforce [.add (.idx 1), .add (.idx 2)] .done)
    steps false c = steps false c' := by decide

/-! ### Different code -/

section
variable [Fintype F]
open MvPolynomial

theorem eval_zero_rows (rows : List (Sym →₀ F)) : eval 0 (rowsPoly rows) = 0 := by
  have hs : ∀ p : Sym, eval (0 : Fin 7 → F) (symPoly p) = 0 := by
    intro p
    rcases p with _ | ⟨k, i⟩
    · simp [symPoly]
    · cases k <;> simp [symPoly]
  have hf : ∀ r : Sym →₀ F, eval (0 : Fin 7 → F) (formPoly r) = 0 := by
    intro r
    rw [formPoly, Finsupp.linearCombination_apply, Finsupp.sum, map_sum]
    refine Finset.sum_eq_zero fun p _ => ?_
    rw [smul_eval, hs, mul_zero]
  induction rows using List.reverseRecOn with
  | nil => simp [rowsPoly]
  | append_singleton l r ih =>
    rw [rowsPoly, List.foldl_append, List.foldl_cons, List.foldl_nil, ← rowsPoly, map_add, map_mul, hf, ih]
    simp

/-- The points at which a polynomial vanishes are few. -/
theorem few_zeros {p : MvPolynomial (Fin 7) F} (hp : p ≠ 0) {d : ℕ} (hd : p.totalDegree ≤ d) :
    (Finset.univ.filter fun x : Fin 7 → F => eval x p = 0).card * Fintype.card F ≤
      d * Fintype.card F ^ 7 := by
  have h := schwartz_zippel_totalDegree hp (Finset.univ : Finset F)
  rw [Fintype.piFinset_univ, Finset.card_univ] at h
  have hF : (0 : ℚ≥0) < Fintype.card F := by exact_mod_cast Fintype.card_pos
  rw [div_le_div_iff₀ (by positivity) hF] at h
  have h' : (Finset.univ.filter fun x : Fin 7 → F => eval x p = 0).card * Fintype.card F ≤
      p.totalDegree * Fintype.card F ^ 7 := by exact_mod_cast h
  exact h'.trans (Nat.mul_le_mul_right _ hd)

/-- Routines with different constraints: the scalars, and even what `low` keeps of them, are different for
all but few choices of the seven points. `Δ` has the differences of values with the same `low`. -/
theorem C85_separates (low : F → ℕ) (Δ : Finset F) (hΔ : ∀ a b, low a = low b → a - b ∈ Δ) (nin nin' : ℕ)
    {c c' : Code F} (h : constraintForms nin c ≠ constraintForms nin' c') :
    (Finset.univ.filter fun x : Fin 7 → F =>
        low (scalarOf (pointsOf x) nin c) = low (scalarOf (pointsOf x) nin' c')).card * Fintype.card F ≤
      Δ.card * max (spanOf nin c) (spanOf nin' c') * Fintype.card F ^ 7 := by
  set D : F → MvPolynomial (Fin 7) F := fun δ =>
    rowsPoly (constraintForms nin c) - rowsPoly (constraintForms nin' c') - C δ
  have hD : ∀ δ, D δ ≠ 0 := by
    intro δ h0
    have h1 := congrArg (eval (0 : Fin 7 → F)) h0
    simp only [D, map_sub, eval_zero_rows, eval_C, sub_zero, zero_sub, map_zero, neg_eq_zero] at h1
    have h2 : rowsPoly (constraintForms nin c) - rowsPoly (constraintForms nin' c') = 0 := by
      have := h0
      simp only [D, h1, map_zero, sub_zero] at this
      exact this
    exact h (rowsPoly_inj (sub_eq_zero.1 h2))
  have hd : ∀ δ, (D δ).totalDegree ≤ max (spanOf nin c) (spanOf nin' c') := by
    intro δ
    refine (totalDegree_sub_C_le _ _).trans ((totalDegree_sub _ _).trans ?_)
    exact max_le_max (span_degree nin c) (span_degree nin' c')
  have hsub : (Finset.univ.filter fun x : Fin 7 → F =>
      low (scalarOf (pointsOf x) nin c) = low (scalarOf (pointsOf x) nin' c')) ⊆
      Δ.biUnion fun δ => Finset.univ.filter fun x : Fin 7 → F => eval x (D δ) = 0 := by
    intro x hx
    have hx := (Finset.mem_filter.1 hx).2
    refine Finset.mem_biUnion.2 ⟨_, hΔ _ _ hx, Finset.mem_filter.2 ⟨Finset.mem_univ _, ?_⟩⟩
    simp only [D, map_sub, eval_C]
    rw [← scalar_poly, ← scalar_poly, sub_self]
  calc _ ≤ (∑ δ ∈ Δ, (Finset.univ.filter fun x : Fin 7 → F => eval x (D δ) = 0).card) *
        Fintype.card F := Nat.mul_le_mul_right _ ((Finset.card_le_card hsub).trans Finset.card_biUnion_le)
    _ = ∑ δ ∈ Δ, (Finset.univ.filter fun x : Fin 7 → F => eval x (D δ) = 0).card * Fintype.card F :=
        Finset.sum_mul ..
    _ ≤ ∑ _δ ∈ Δ, max (spanOf nin c) (spanOf nin' c') * Fintype.card F ^ 7 :=
        Finset.sum_le_sum fun δ _ => few_zeros (hD δ) (hd δ)
    _ = _ := by rw [Finset.sum_const, smul_eq_mul, mul_assoc]

end

/-- The differences of numbers below `m` with the same low 64 bits. -/
def lowDifferences (m : ℕ) : Finset (ZMod m) :=
  (Finset.Icc (-(m / 2 ^ 64 : ℕ) : ℤ) (m / 2 ^ 64 : ℕ)).image fun k => ((k * 2 ^ 64 : ℤ) : ZMod m)

theorem lowDifferences_card (m : ℕ) : (lowDifferences m).card ≤ 2 * (m / 2 ^ 64) + 1 := by
  refine Finset.card_image_le.trans ?_
  rw [Int.card_Icc]
  omega

theorem mem_lowDifferences {m : ℕ} [NeZero m] (a b : ZMod m)
    (h : Pasta.lowU64 a.val = Pasta.lowU64 b.val) : a - b ∈ lowDifferences m := by
  rw [Pasta.lowU64_eq, Pasta.lowU64_eq] at h
  refine Finset.mem_image.2 ⟨(a.val / 2 ^ 64 : ℕ) - (b.val / 2 ^ 64 : ℕ), ?_, ?_⟩
  · have ha : a.val / 2 ^ 64 ≤ m / 2 ^ 64 := Nat.div_le_div_right (ZMod.val_lt a).le
    have hb : b.val / 2 ^ 64 ≤ m / 2 ^ 64 := Nat.div_le_div_right (ZMod.val_lt b).le
    rw [Finset.mem_Icc]
    omega
  · have e : (((a.val / 2 ^ 64 : ℕ) - (b.val / 2 ^ 64 : ℕ)) * 2 ^ 64 : ℤ) = (a.val : ℤ) - b.val := by
      have h1 := Nat.div_add_mod a.val (2 ^ 64)
      have h2 := Nat.div_add_mod b.val (2 ^ 64)
      omega
    rw [e]
    push_cast
    rw [ZMod.natCast_zmod_val, ZMod.natCast_zmod_val]

/-- A prime field: two routines whose constraints differ for some values of the wires have the same
fingerprint, with its 64 bits, for at most a fraction of about `2^{-63}` times their length of the choices
of the points, if they have the same number of inputs and their gates and calls come in the same
order. -/
theorem C85_fingerprints (m : ℕ) [Fact m.Prime] (kinds kinds' : ℕ × ℕ) (nin : ℕ) {c c' : Code (ZMod m)}
    (hs : steps false c = steps false c')
    (h : ∃ φ : Name → ZMod m, constraintValues φ nin c ≠ constraintValues φ nin c') :
    (Finset.univ.filter fun x : Fin 7 → ZMod m =>
        fingerprintOf (pointsOf x) (fun v => Pasta.lowU64 v.val) kinds nin c =
          fingerprintOf (pointsOf x) (fun v => Pasta.lowU64 v.val) kinds' nin c').card * m ≤
      (2 * (m / 2 ^ 64) + 1) * max (spanOf nin c) (spanOf nin c') * m ^ 7 := by
  have hf : constraintForms nin c ≠ constraintForms nin c' := by
    intro he
    obtain ⟨φ, hφ⟩ := h
    exact hφ (forms_values hs he φ)
  have h1 := C85_separates (fun v : ZMod m => Pasta.lowU64 v.val) (lowDifferences m) mem_lowDifferences
    nin nin hf
  rw [ZMod.card] at h1
  refine le_trans (Nat.mul_le_mul_right _ (Finset.card_le_card ?_)) (h1.trans ?_)
  · intro x hx
    refine Finset.mem_filter.2 ⟨Finset.mem_univ _, ?_⟩
    exact congrArg Fingerprint.eval (Finset.mem_filter.1 hx).2
  · exact Nat.mul_le_mul_right _ (Nat.mul_le_mul_right _ (lowDifferences_card m))

/-- The same for any two routines that make no calls: their gates need not be known to agree. -/
theorem C85_leaf (m : ℕ) [Fact m.Prime] (kinds kinds' : ℕ × ℕ) (nin : ℕ) {c c' : Code (ZMod m)}
    (hc : NoCalls c) (hc' : NoCalls c')
    (h : (countsOf c).1 ≠ (countsOf c').1 ∨
      ∃ φ : Name → ZMod m, constraintValues φ nin c ≠ constraintValues φ nin c') :
    (Finset.univ.filter fun x : Fin 7 → ZMod m =>
        fingerprintOf (pointsOf x) (fun v => Pasta.lowU64 v.val) kinds nin c =
          fingerprintOf (pointsOf x) (fun v => Pasta.lowU64 v.val) kinds' nin c').card * m ≤
      (2 * (m / 2 ^ 64) + 1) * max (spanOf nin c) (spanOf nin c') * m ^ 7 := by
  by_cases hg : (countsOf c).1 = (countsOf c').1
  · exact C85_fingerprints m kinds kinds' nin (leaf_steps hc hc' hg) (h.resolve_left (not_not_intro hg))
  · rw [Finset.filter_false_of_mem]
    · simp
    · intro x _ hx
      exact hg (congrArg Fingerprint.numGates hx)

/-- `2 a = b` and `a = b` for two inputs. -/
example : let c : Code Pasta.Fp := .enforce [.add (.idx 0), .add (.idx 0), .sub (.idx 1)] .done
    let c' : Code Pasta.Fp := .enforce [.add (.idx 0), .sub (.idx 1)] .done
    NoCalls c ∧ NoCalls c' ∧
      ∃ φ : Name → Pasta.Fp, constraintValues φ 2 c ≠ constraintValues φ 2 c' := by
  refine ⟨trivial, trivial, fun _ => 1, ?_⟩
  simp [constraintValues, bodyOf, walk, lcSum, wireVal, LcStep.add, LcStep.sub, Coeff.value]

/-! ### What a fingerprint does not show -/

/-- A call with one output, then an allocation; the output must be zero. -/
def callFirst : Code F := .call (1, 1) [] .done [.one] (.alloc (.enforce [.add (.idx 0)] .done))

/-- An allocation, then the same call; the allocated wire must be zero. -/
def allocFirst : Code F := .alloc (.call (1, 1) [] .done [.one] (.enforce [.add (.idx 0)] .done))

/-- With calls, the order of gates and calls matters: two routines with the same fingerprint for all
points, although one constrains what a call returns and the other constrains a wire of its own. -/
theorem C85_collision :
    UsesOwn (callFirst : Code F) 0 ∧ UsesOwn (allocFirst : Code F) 0 ∧
    (∀ (P : FpPoints F) (low : F → ℕ) (kinds : ℕ × ℕ),
      fingerprintOf P low kinds 0 (callFirst : Code F) = fingerprintOf P low kinds 0 allocFirst) ∧
    ∃ φ : Name → F, constraintValues φ 0 (callFirst : Code F) ≠ constraintValues φ 0 allocFirst := by
  refine ⟨?_, ?_, fun P low kinds => rfl, fun n => if n = .output 0 0 then 1 else 0, ?_⟩
  · simp [callFirst, UsesOwn, LcBelow, RefBelow, wiresAfter, LcStep.add]
  · simp [allocFirst, UsesOwn, LcBelow, RefBelow, wiresAfter, LcStep.add]
  · simp [constraintValues, bodyOf, walk, callFirst, allocFirst, lcSum, wireVal, LcStep.add, Coeff.value]

theorem outside_refl (c : Code F) : SameOutside c c := by
  induction c with
  | done => trivial
  | gate k ih => exact ih
  | mul k ih => exact ih
  | alloc k ih => exact ih
  | add lc k ih => exact ⟨rfl, ih⟩
  | enforce lc k ih => exact ⟨rfl, ih⟩
  | call kinds input body output k _ ih => exact ⟨rfl, ih⟩

/-- Nothing that measuring returns depends on which of its wires a routine returns. -/
theorem C85_outputs (P : FpPoints F) (low : F → ℕ) (kinds : ℕ × ℕ) (input : List WRef) (body : Code F)
    (output output' : List WRef) (k : Code F) (outs : List WRef) (hl : output.length = output'.length)
    (h : UsesOwn (.call kinds input body output k) 0) (h' : UsesOwn (.call kinds input body output' k) 0)
    (ho : ∀ w ∈ outs, RefBelow (wiresAfter k output.length) w) :
    FpCounter.eval P low (.call kinds input body output k) outs =
      FpCounter.eval P low (.call kinds input body output' k) outs := by
  rw [C85_records P low _ outs h (by simpa [wiresAfter] using ho),
    C85_records P low _ outs h' (by simpa [wiresAfter, ← hl] using ho)]
  have hs : SameOutside (.call kinds input body output k) (.call kinds input body output' k) :=
    ⟨hl, outside_refl k⟩
  rw [countsOf, countsOf, bodyOf, bodyOf, walk_outside _ hs]
  rfl

/-- A routine with two inputs that returns the first or the second of them. -/
example : UsesOwn (F := ZMod 7) (.call (1, 2) [.one, .one] .done [.idx 0] .done) 0 ∧
    UsesOwn (F := ZMod 7) (.call (1, 2) [.one, .one] .done [.idx 1] .done) 0 := by
  simp [UsesOwn, RefBelow, wiresAfter]

end Ragu.Props

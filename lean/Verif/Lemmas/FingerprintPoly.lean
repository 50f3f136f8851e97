/-
The scalar of a fingerprint as a polynomial in the points.
-/
import Verif.Lemmas.Fingerprint
import Mathlib.Algebra.MvPolynomial.SchwartzZippel
import Mathlib.RingTheory.MvPolynomial.Basic
import Mathlib.LinearAlgebra.Finsupp.LinearCombination

set_option linter.unusedSectionVars false

namespace Ragu.Circuit
open Ragu Ragu.Spec
variable {F : Type} [Field F] [DecidableEq F]

section
variable {M N : Type} [AddCommGroup M] [Module F M] [AddCommGroup N] [Module F N]

/-- Apply a map to all values. -/
def mapBody (L : M → N) (b : Body M) : Body N :=
  { own := b.own, next := b.next, calls := b.calls, spare := b.spare.map L, env := b.env.map L,
    rows := b.rows.map L }

theorem wireVal_map (L : M →ₗ[F] N) (one : M) (env : List M) (w : WRef) :
    wireVal (L one) (env.map L) w = L (wireVal one env w) := by
  cases w with
  | one => rfl
  | idx i =>
    simp only [wireVal, List.getD_eq_getElem?_getD, List.getElem?_map]
    cases env[i]? with
    | none => simp
    | some v => rfl

theorem lcSum_map (L : M →ₗ[F] N) (one : M) (env : List M) (lc : List (LcStep F WRef)) : ∀ g : F,
    lcSum (L one) (env.map L) g lc = L (lcSum one env g lc) := by
  induction lc with
  | nil => intro g; simp [lcSum]
  | cons st lc ih =>
    intro g
    cases st with
    | term w c => simp only [lcSum, ih, wireVal_map, map_add, map_smul]
    | gain c => simp only [lcSum, ih]

theorem walk_map (L : M →ₗ[F] N) (α : Name → Sym → M) (c : Code F) : ∀ b : Body M,
    walk (fun n p => L (α n p)) c (mapBody L b) = mapBody L (walk α c b) := by
  induction c with
  | done => intro b; rfl
  | gate k ih =>
    intro b
    simp only [walk]
    rw [← ih]
    simp [mapBody]
  | mul k ih =>
    intro b
    simp only [walk]
    rw [← ih]
    simp [mapBody]
  | alloc k ih =>
    intro b
    rcases hs : b.spare with _ | w
    · simp only [walk, hs]
      rw [← ih]
      simp [mapBody, hs]
    · simp only [walk, hs]
      rw [← ih]
      simp [mapBody, hs]
  | add lc k ih =>
    intro b
    simp only [walk]
    rw [← ih]
    simp [mapBody, lcSum_map]
  | enforce lc k ih =>
    intro b
    simp only [walk]
    rw [← ih]
    simp [mapBody, lcSum_map]
  | call kinds input body output k _ ih =>
    intro b
    simp only [walk]
    rw [← ih]
    simp [mapBody, Function.comp_def]

theorem bodyOf_map (L : M →ₗ[F] N) (α : Name → Sym → M) (nin : ℕ) (c : Code F) :
    bodyOf (fun n p => L (α n p)) nin c = mapBody L (bodyOf α nin c) := by
  rw [bodyOf, bodyOf, ← walk_map]
  simp [mapBody, Function.comp_def]

end

/-- The value of a linear form. -/
noncomputable def formVal (ψ : Sym → F) : (Sym →₀ F) →ₗ[F] F := Finsupp.linearCombination F ψ

@[simp] theorem formVal_single (ψ : Sym → F) (p : Sym) : formVal ψ (.single p 1) = ψ p := by
  simp [formVal]

theorem rows_forms (ψ : Sym → F) (nin : ℕ) (c : Code F) :
    (bodyOf (fun _ p => ψ p) nin c).rows = (constraintForms nin c).map (formVal ψ) := by
  have h := bodyOf_map (formVal ψ) (fun _ place => Finsupp.single place (1 : F)) nin c
  simp only [formVal_single] at h
  rw [h]
  rfl

theorem next_eq {M N : Type} [AddCommGroup M] [Module F M] [AddCommGroup N] [Module F N]
    (α : Name → Sym → M) (β : Name → Sym → N) (nin : ℕ) (c : Code F) :
    (bodyOf α nin c).next = (bodyOf β nin c).next := by
  have h1 := bodyOf_map (0 : M →ₗ[F] F) α nin c
  have h2 := bodyOf_map (0 : N →ₗ[F] F) β nin c
  have h3 := congrArg Body.next (h1.symm.trans h2)
  exact h3

/-! ### The polynomial -/

open MvPolynomial

/-- The monomial of a place. -/
noncomputable def symExp : Sym → (Fin 7 →₀ ℕ)
  | .one => .single 6 1
  | .wire .a i => .single 0 (i + 1)
  | .wire .b i => .single 1 (i + 1)
  | .wire .c i => .single 2 (i + 1)
  | .wire .d i => .single 3 (i + 1)

theorem symExp_inj : Function.Injective symExp := by
  intro p q h
  have key : ∀ i j : Fin 7, ∀ m n : ℕ, Finsupp.single i (m + 1) = Finsupp.single j (n + 1) → i = j ∧ m = n := by
    intro i j m n e
    rcases (Finsupp.single_eq_single_iff _ _ _ _).1 e with ⟨e1, e2⟩ | ⟨e1, -⟩
    · exact ⟨e1, by omega⟩
    · omega
  rcases p with _ | ⟨k, i⟩ <;> rcases q with _ | ⟨k', i'⟩
  · rfl
  · cases k' <;> exact absurd (key 6 _ 0 _ h).1 (by decide)
  · cases k <;> exact absurd (key _ 6 _ 0 h).1 (by decide)
  · cases k <;> cases k' <;> first
      | exact absurd (key _ _ _ _ h).1 (by decide)
      | rw [(key _ _ _ _ h).2]

/-- The polynomial of a place. -/
noncomputable def symPoly : Sym → MvPolynomial (Fin 7) F
  | .one => X 6
  | .wire .a i => X 0 ^ (i + 1)
  | .wire .b i => X 1 ^ (i + 1)
  | .wire .c i => X 2 ^ (i + 1)
  | .wire .d i => X 3 ^ (i + 1)

theorem symPoly_eq (p : Sym) : symPoly p = monomial (symExp p) (1 : F) := by
  rcases p with _ | ⟨k, i⟩
  · rfl
  · cases k <;> exact X_pow_eq_monomial

/-- The polynomial of a linear form. -/
noncomputable def formPoly : (Sym →₀ F) →ₗ[F] MvPolynomial (Fin 7) F := Finsupp.linearCombination F symPoly

theorem formPoly_inj : Function.Injective (formPoly (F := F)) := by
  have h := (MvPolynomial.basisMonomials (Fin 7) F).linearIndependent.comp symExp symExp_inj
  have h' : LinearIndependent F (symPoly (F := F)) := by
    have e : symPoly (F := F) = MvPolynomial.basisMonomials (Fin 7) F ∘ symExp := by
      funext p
      simp [symPoly_eq, MvPolynomial.coe_basisMonomials]
    rw [e]
    exact h
  exact h'

/-- The polynomial of a list of linear forms. -/
noncomputable def rowsPoly (rows : List (Sym →₀ F)) : MvPolynomial (Fin 7) F :=
  rows.foldl (fun acc r => acc * X 4 + formPoly r) (X 5)

theorem eval_formPoly (x : Fin 7 → F) (r : Sym →₀ F) :
    eval x (formPoly r) = formVal (atPoints (pointsOf x)) r := by
  have h : (MvPolynomial.aeval x).toLinearMap ∘ₗ formPoly = formVal (atPoints (pointsOf x)) := by
    refine Finsupp.lhom_ext' fun p => LinearMap.ext_ring ?_
    rcases p with _ | ⟨k, i⟩
    · simp [formPoly, symPoly, formVal, atPoints, pointsOf]
    · cases k <;> simp [formPoly, symPoly, formVal, atPoints, pointsOf]
  have h' := LinearMap.congr_fun h r
  simpa [MvPolynomial.coe_aeval_eq_eval] using h'

theorem eval_rowsPoly (x : Fin 7 → F) (rows : List (Sym →₀ F)) :
    eval x (rowsPoly rows) = monicAt (x 5) (x 4) (rows.map (formVal (atPoints (pointsOf x)))) := by
  rw [rowsPoly, monicAt, List.foldl_map]
  have : ∀ (acc : MvPolynomial (Fin 7) F) (v : F), eval x acc = v →
      eval x (rows.foldl (fun acc r => acc * X 4 + formPoly r) acc) =
        rows.foldl (fun acc r => acc * x 4 + formVal (atPoints (pointsOf x)) r) v := by
    induction rows with
    | nil => intro acc v h; exact h
    | cons r rows ih =>
      intro acc v h
      rw [List.foldl_cons, List.foldl_cons]
      exact ih _ _ (by rw [map_add, map_mul, h, eval_X, eval_formPoly])
  exact this _ _ (eval_X _)

/-- Put zero for one variable. -/
noncomputable def kill (j : Fin 7) : MvPolynomial (Fin 7) F →ₐ[F] MvPolynomial (Fin 7) F :=
  aeval fun i => if i = j then 0 else X i

theorem kill_form (j : Fin 7) (hj : j = 4 ∨ j = 5) (r : Sym →₀ F) : kill j (formPoly r) = formPoly r := by
  have h : (kill j).toLinearMap ∘ₗ formPoly = formPoly (F := F) := by
    refine Finsupp.lhom_ext' fun p => LinearMap.ext_ring ?_
    rcases hj with rfl | rfl
    · rcases p with _ | ⟨k, i⟩
      · simp [formPoly, symPoly, kill]
      · cases k <;> simp [formPoly, symPoly, kill]
    · rcases p with _ | ⟨k, i⟩
      · simp [formPoly, symPoly, kill]
      · cases k <;> simp [formPoly, symPoly, kill]
  exact LinearMap.congr_fun h r

theorem kill_self (j : Fin 7) : kill j (X j : MvPolynomial (Fin 7) F) = 0 := by simp [kill]

theorem h_ne (r : Sym →₀ F) (p : MvPolynomial (Fin 7) F) : (X 5 : MvPolynomial (Fin 7) F) ≠ p * X 4 + formPoly r := by
  intro h
  have h4 := congrArg (kill 4) h
  rw [map_add, map_mul, kill_form 4 (.inl rfl), kill_self, mul_zero, zero_add,
    show kill 4 (X 5 : MvPolynomial (Fin 7) F) = X 5 by simp [kill]] at h4
  have h5 := congrArg (kill 5) h4
  rw [kill_form 5 (.inr rfl), ← h4, kill_self] at h5
  exact X_ne_zero _ h5.symm

theorem rowsPoly_inj {rows rows' : List (Sym →₀ F)} (h : rowsPoly rows = rowsPoly rows') : rows = rows' := by
  have hs : ∀ (l : List (Sym →₀ F)) r, rowsPoly (l ++ [r]) = rowsPoly l * X 4 + formPoly r := fun l r => by
    simp [rowsPoly, List.foldl_append]
  induction rows using List.reverseRecOn generalizing rows' with
  | nil =>
    rcases List.eq_nil_or_concat rows' with rfl | ⟨l, r, rfl⟩
    · rfl
    · rw [List.concat_eq_append, hs] at h
      exact absurd h (h_ne _ _)
  | append_singleton l r ih =>
    rcases List.eq_nil_or_concat rows' with rfl | ⟨l', r', rfl⟩
    · rw [hs] at h
      exact absurd h.symm (h_ne _ _)
    · rw [List.concat_eq_append, hs, hs] at h
      rw [List.concat_eq_append]
      have h4 := congrArg (kill 4) h
      rw [map_add, map_add, map_mul, map_mul, kill_form 4 (.inl rfl), kill_form 4 (.inl rfl),
        kill_self, mul_zero, mul_zero, zero_add, zero_add] at h4
      have hr := formPoly_inj h4
      subst hr
      have hl := mul_right_cancel₀ (X_ne_zero 4) (add_right_cancel h)
      rw [ih hl]

/-! ### Its degree -/

/-- A place in the first `n` gates. -/
def Below (n : ℕ) : Sym → Prop
  | .one => True
  | .wire _ i => i < n

theorem Below.mono {n m : ℕ} (h : n ≤ m) {p : Sym} (hp : Below n p) : Below m p := by
  cases p with
  | one => trivial
  | wire k i => exact Nat.lt_of_lt_of_le hp h

theorem below_placeOf {n m i : ℕ} (h : i < m) : Below (n + (m + 1) / 2) (placeOf n i) := by
  simp only [placeOf, Below]
  omega

section
variable {M : Type} [AddCommGroup M] [Module F M]

theorem lcSum_mem (S : Submodule F M) {one : M} {env : List M} (h1 : one ∈ S) (h : ∀ v ∈ env, v ∈ S)
    (lc : List (LcStep F WRef)) : ∀ g : F, lcSum one env g lc ∈ S := by
  induction lc with
  | nil => intro g; exact S.zero_mem
  | cons st lc ih =>
    intro g
    cases st with
    | gain c => exact ih _
    | term w c =>
      refine S.add_mem (S.smul_mem _ ?_) (ih _)
      cases w with
      | one => exact h1
      | idx i =>
        simp only [wireVal, List.getD_eq_getElem?_getD]
        rcases hi : env[i]? with _ | v
        · exact S.zero_mem
        · exact h v (List.mem_of_getElem? hi)

theorem walk_next (α : Name → Sym → M) (c : Code F) : ∀ b : Body M, b.next ≤ (walk α c b).next := by
  induction c with
  | done => intro b; exact Nat.le_refl _
  | gate k ih => intro b; simp only [walk]; refine Nat.le_trans ?_ (ih _); simp
  | mul k ih => intro b; simp only [walk]; refine Nat.le_trans ?_ (ih _); simp
  | alloc k ih =>
    intro b
    rcases hs : b.spare with _ | w <;> (simp only [walk, hs]; refine Nat.le_trans ?_ (ih _); simp)
  | add lc k ih => intro b; simp only [walk]; refine Nat.le_trans ?_ (ih _); simp
  | enforce lc k ih => intro b; simp only [walk]; refine Nat.le_trans ?_ (ih _); simp
  | call kinds input body output k _ ih =>
    intro b; simp only [walk]; refine Nat.le_trans ?_ (ih _); simp

/-- The constraints are in a submodule that has all wires that are created. -/
theorem walk_mem (S : Submodule F M) (α : Name → Sym → M) (c : Code F) : ∀ b : Body M,
    (∀ n p, Below (walk α c b).next p → α n p ∈ S) → (∀ w ∈ b.spare, w ∈ S) → (∀ v ∈ b.env, v ∈ S) →
    (∀ r ∈ b.rows, r ∈ S) → ∀ r ∈ (walk α c b).rows, r ∈ S := by
  induction c with
  | done => intro b _ _ _ h; exact h
  | gate k ih =>
    intro b hα hs he hr
    refine ih _ hα hs ?_ hr
    have hn := walk_next α k { b with
      own := b.own + 1, next := b.next + 1,
      env := b.env ++ [.a, .b, .c, .d].map fun j => α (.gate b.own j) (.wire j b.next) }
    intro v hv
    rcases List.mem_append.1 hv with hv | hv
    · exact he v hv
    · obtain ⟨j, -, rfl⟩ := List.mem_map.1 hv
      exact hα _ _ (Nat.lt_of_succ_le hn)
  | mul k ih =>
    intro b hα hs he hr
    refine ih _ hα hs ?_ hr
    have hn := walk_next α k { b with
      own := b.own + 1, next := b.next + 1,
      env := b.env ++ [.a, .b, .c].map fun j => α (.gate b.own j) (.wire j b.next) }
    intro v hv
    rcases List.mem_append.1 hv with hv | hv
    · exact he v hv
    · obtain ⟨j, -, rfl⟩ := List.mem_map.1 hv
      exact hα _ _ (Nat.lt_of_succ_le hn)
  | alloc k ih =>
    intro b hα hs he hr
    rcases hsp : b.spare with _ | w
    · simp only [walk, hsp] at hα ⊢
      have hn := walk_next α k { b with
        own := b.own + 1, next := b.next + 1, spare := some (α (.gate b.own .d) (.wire .d b.next)),
        env := b.env ++ [α (.gate b.own .b) (.wire .b b.next)] }
      refine ih _ hα ?_ ?_ hr
      · intro w hw
        cases hw
        exact hα _ _ (Nat.lt_of_succ_le hn)
      · intro v hv
        rcases List.mem_append.1 hv with hv | hv
        · exact he v hv
        · rw [List.mem_singleton.1 hv]
          exact hα _ _ (Nat.lt_of_succ_le hn)
    · simp only [walk, hsp] at hα ⊢
      refine ih _ hα (fun w hw => by cases hw) ?_ hr
      intro v hv
      rcases List.mem_append.1 hv with hv | hv
      · exact he v hv
      · rw [List.mem_singleton.1 hv]
        exact hs w (by rw [hsp]; rfl)
  | add lc k ih =>
    intro b hα hs he hr
    refine ih _ hα hs ?_ hr
    intro v hv
    rcases List.mem_append.1 hv with hv | hv
    · exact he v hv
    · rw [List.mem_singleton.1 hv]
      exact lcSum_mem S (hα .one .one trivial) he lc 1
  | enforce lc k ih =>
    intro b hα hs he hr
    refine ih _ hα hs he ?_
    intro v hv
    rcases List.mem_append.1 hv with hv | hv
    · exact hr v hv
    · rw [List.mem_singleton.1 hv]
      exact lcSum_mem S (hα .one .one trivial) he lc 1
  | call kinds input body output k _ ih =>
    intro b hα hs he hr
    refine ih _ hα hs ?_ hr
    have hn := walk_next α k { b with
      next := b.next + (output.length + 1) / 2, calls := b.calls + 1,
      env := b.env ++ (List.range output.length).map fun i => α (.output b.calls i) (placeOf b.next i) }
    intro v hv
    rcases List.mem_append.1 hv with hv | hv
    · exact he v hv
    · obtain ⟨i, hi, rfl⟩ := List.mem_map.1 hv
      exact hα _ _ ((below_placeOf (List.mem_range.1 hi)).mono hn)

end

/-- The linear forms in the first `n` gates. -/
def formsBelow (n : ℕ) : Submodule F (Sym →₀ F) := Finsupp.supported F F {p | Below n p}

theorem forms_below (nin : ℕ) (c : Code F) :
    ∀ r ∈ constraintForms nin c, r ∈ formsBelow (F := F) (bodyOf (M := F) (fun _ _ => 0) nin c).next := by
  intro r hr
  rw [next_eq (F := F) (fun _ _ => (0 : F)) (fun _ place => Finsupp.single place (1 : F)) nin c]
  have hn := walk_next (F := F) (fun _ place => Finsupp.single place (1 : F)) c {
    next := (nin + 1) / 2
    env := (List.range nin).map fun i => Finsupp.single (placeOf 0 i) 1 }
  refine walk_mem (formsBelow _) (fun _ place => Finsupp.single place (1 : F)) c _ ?_ ?_ ?_ ?_ r hr
  · intro n p hp
    exact Finsupp.single_mem_supported F _ hp
  · intro w hw; cases hw
  · intro v hv
    obtain ⟨i, hi, rfl⟩ := List.mem_map.1 hv
    have h0 := below_placeOf (n := 0) (List.mem_range.1 hi)
    rw [Nat.zero_add] at h0
    exact Finsupp.single_mem_supported F _ (h0.mono hn)
  · intro r hr; cases hr

theorem symPoly_degree {n : ℕ} {p : Sym} (h : Below n p) :
    (symPoly p : MvPolynomial (Fin 7) F).totalDegree ≤ n + 1 := by
  rcases p with _ | ⟨k, i⟩
  · simp [symPoly, totalDegree_X]
  · have hi : i < n := h
    cases k <;> (simp only [symPoly]; rw [totalDegree_X_pow]; omega)

theorem formPoly_degree {n : ℕ} {r : Sym →₀ F} (h : r ∈ formsBelow (F := F) n) :
    (formPoly r).totalDegree ≤ n + 1 := by
  rw [formPoly, Finsupp.linearCombination_apply, Finsupp.sum]
  refine totalDegree_finsetSum_le fun p hp => ?_
  exact (totalDegree_smul_le _ _).trans (symPoly_degree ((Finsupp.mem_supported F r).1 h hp))

theorem rowsPoly_degree {n : ℕ} {rows : List (Sym →₀ F)} (h : ∀ r ∈ rows, r ∈ formsBelow (F := F) n) :
    (rowsPoly rows).totalDegree ≤ n + rows.length + 1 := by
  induction rows using List.reverseRecOn with
  | nil => simp [rowsPoly, totalDegree_X]
  | append_singleton l r ih =>
    rw [rowsPoly, List.foldl_append, List.foldl_cons, List.foldl_nil, ← rowsPoly]
    refine (totalDegree_add _ _).trans (max_le ?_ ?_)
    · refine (totalDegree_mul _ _).trans ?_
      rw [totalDegree_X]
      have := ih fun r hr => h r (by simp [hr])
      simp only [List.length_append, List.length_singleton]
      omega
    · refine (formPoly_degree (h r (by simp))).trans ?_
      simp only [List.length_append, List.length_singleton]
      omega

theorem forms_length (nin : ℕ) (c : Code F) : (constraintForms nin c).length = (countsOf c).2 := by
  rw [countsOf_eq, constraintForms, bodyOf, (walk_counts _ c _).2.1]
  simp

theorem span_degree (nin : ℕ) (c : Code F) :
    (rowsPoly (constraintForms nin c)).totalDegree ≤ spanOf nin c := by
  refine (rowsPoly_degree (forms_below nin c)).trans ?_
  rw [forms_length, spanOf]

theorem scalar_poly (x : Fin 7 → F) (nin : ℕ) (c : Code F) :
    scalarOf (pointsOf x) nin c = eval x (rowsPoly (constraintForms nin c)) := by
  rw [eval_rowsPoly, scalarOf, rows_forms]
  rfl

end Ragu.Circuit

/-
The wires of a routine's body by name and by place.
-/
import Verif.Lemmas.FingerprintPoly

set_option linter.unusedSectionVars false

namespace Ragu.Circuit
open Ragu Ragu.Spec
variable {F : Type} [Field F] [DecidableEq F]

/-- The names and places of the wires that steps create. -/
def table (own next calls : ℕ) : List Step → List (Name × Sym)
  | [] => []
  | .gate :: s => [Kind.a, .b, .c, .d].map (fun j => (Name.gate own j, Sym.wire j next)) ++
      table (own + 1) (next + 1) calls s
  | .call m :: s => (List.range m).map (fun i => (Name.output calls i, placeOf next i)) ++
      table own (next + (m + 1) / 2) (calls + 1) s

/-- The names and places of all wires of a body. -/
def tableOf (nin : ℕ) (st : List Step) : List (Name × Sym) :=
  (.one, .one) :: ((List.range nin).map (fun i => (Name.input i, placeOf 0 i)) ++
    table 0 ((nin + 1) / 2) 0 st)

theorem placeOf_inj {n i j : ℕ} (h : placeOf n i = placeOf n j) : i = j := by
  simp only [placeOf, Sym.wire.injEq] at h
  obtain ⟨h1, h2⟩ := h
  by_cases hi : i % 2 = 0 <;> by_cases hj : j % 2 = 0
  · omega
  · rw [if_pos hi, if_neg hj] at h1; cases h1
  · rw [if_neg hi, if_pos hj] at h1; cases h1
  · omega

/-- Places from a gate on. -/
def FromPlace (n : ℕ) : Sym → Prop
  | .one => False
  | .wire _ i => n ≤ i

/-- Names from a gate and a call on. -/
def FromName (own calls : ℕ) : Name → Prop
  | .gate n _ => own ≤ n
  | .output k _ => calls ≤ k
  | _ => False

theorem table_from (st : List Step) : ∀ own next calls : ℕ, ∀ e ∈ table own next calls st,
    FromName own calls e.1 ∧ FromPlace next e.2 := by
  induction st with
  | nil => intro own next calls e he; cases he
  | cons s st ih =>
    intro own next calls e he
    cases s with
    | gate =>
      rcases List.mem_append.1 he with he | he
      · obtain ⟨j, -, rfl⟩ := List.mem_map.1 he
        exact ⟨Nat.le_refl _, Nat.le_refl _⟩
      · obtain ⟨h1, h2⟩ := ih _ _ _ e he
        obtain ⟨n, p⟩ := e
        refine ⟨?_, ?_⟩
        · cases n <;> simp only [FromName] at h1 ⊢ <;> omega
        · cases p <;> simp only [FromPlace] at h2 ⊢ <;> omega
    | call m =>
      rcases List.mem_append.1 he with he | he
      · obtain ⟨j, -, rfl⟩ := List.mem_map.1 he
        exact ⟨Nat.le_refl _, Nat.le_add_right _ _⟩
      · obtain ⟨h1, h2⟩ := ih _ _ _ e he
        obtain ⟨n, p⟩ := e
        refine ⟨?_, ?_⟩
        · cases n <;> simp only [FromName] at h1 ⊢ <;> omega
        · cases p <;> simp only [FromPlace] at h2 ⊢ <;> omega

theorem table_names (st : List Step) : ∀ own next calls : ℕ,
    ((table own next calls st).map Prod.fst).Nodup := by
  induction st with
  | nil => intro own next calls; exact List.nodup_nil
  | cons s st ih =>
    intro own next calls
    cases s with
    | gate =>
      simp only [table, List.map_append, List.map_map]
      refine List.Nodup.append ?_ (ih _ _ _) ?_
      · simp
      · intro n h1 h2
        obtain ⟨j, -, rfl⟩ := List.mem_map.1 h1
        obtain ⟨e, he, h⟩ := List.mem_map.1 h2
        have h3 := (table_from _ _ _ _ e he).1
        rw [h] at h3
        simp only [Function.comp, FromName] at h3
        omega
    | call m =>
      simp only [table, List.map_append, List.map_map]
      refine List.Nodup.append ?_ (ih _ _ _) ?_
      · refine List.Nodup.map ?_ List.nodup_range
        intro i j h
        simpa using h
      · intro n h1 h2
        obtain ⟨j, -, rfl⟩ := List.mem_map.1 h1
        obtain ⟨e, he, h⟩ := List.mem_map.1 h2
        have h3 := (table_from _ _ _ _ e he).1
        rw [h] at h3
        simp only [Function.comp, FromName] at h3
        omega

theorem table_places (st : List Step) : ∀ own next calls : ℕ,
    ((table own next calls st).map Prod.snd).Nodup := by
  induction st with
  | nil => intro own next calls; exact List.nodup_nil
  | cons s st ih =>
    intro own next calls
    cases s with
    | gate =>
      simp only [table, List.map_append, List.map_map]
      refine List.Nodup.append ?_ (ih _ _ _) ?_
      · simp
      · intro n h1 h2
        obtain ⟨j, -, rfl⟩ := List.mem_map.1 h1
        obtain ⟨e, he, h⟩ := List.mem_map.1 h2
        have h3 := (table_from _ _ _ _ e he).2
        rw [h] at h3
        simp only [Function.comp, FromPlace] at h3
        omega
    | call m =>
      simp only [table, List.map_append, List.map_map]
      refine List.Nodup.append ?_ (ih _ _ _) ?_
      · refine List.Nodup.map ?_ List.nodup_range
        intro i j h
        exact placeOf_inj h
      · intro n h1 h2
        obtain ⟨j, hj, rfl⟩ := List.mem_map.1 h1
        obtain ⟨e, he, h⟩ := List.mem_map.1 h2
        have h3 := (table_from _ _ _ _ e he).2
        rw [h] at h3
        have hj := List.mem_range.1 hj
        simp only [Function.comp, placeOf, FromPlace] at h3
        omega

theorem tableOf_names (nin : ℕ) (st : List Step) : ((tableOf nin st).map Prod.fst).Nodup := by
  simp only [tableOf, List.map_cons, List.map_append, List.map_map]
  refine List.nodup_cons.2 ⟨?_, List.Nodup.append ?_ (table_names _ _ _ _) ?_⟩
  · intro h
    rcases List.mem_append.1 h with h | h
    · obtain ⟨j, -, h⟩ := List.mem_map.1 h; cases h
    · obtain ⟨e, he, h⟩ := List.mem_map.1 h
      have h3 := (table_from _ _ _ _ e he).1
      rw [h] at h3
      exact h3
  · refine List.Nodup.map ?_ List.nodup_range
    intro i j h
    simpa using h
  · intro n h1 h2
    obtain ⟨j, -, rfl⟩ := List.mem_map.1 h1
    obtain ⟨e, he, h⟩ := List.mem_map.1 h2
    have h3 := (table_from _ _ _ _ e he).1
    rw [h] at h3
    exact h3

theorem tableOf_places (nin : ℕ) (st : List Step) : ((tableOf nin st).map Prod.snd).Nodup := by
  simp only [tableOf, List.map_cons, List.map_append, List.map_map]
  refine List.nodup_cons.2 ⟨?_, List.Nodup.append ?_ (table_places _ _ _ _) ?_⟩
  · intro h
    rcases List.mem_append.1 h with h | h
    · obtain ⟨j, -, h⟩ := List.mem_map.1 h; cases h
    · obtain ⟨e, he, h⟩ := List.mem_map.1 h
      have h3 := (table_from _ _ _ _ e he).2
      rw [h] at h3
      exact h3
  · refine List.Nodup.map ?_ List.nodup_range
    intro i j h
    exact placeOf_inj h
  · intro n h1 h2
    obtain ⟨j, hj, rfl⟩ := List.mem_map.1 h1
    obtain ⟨e, he, h⟩ := List.mem_map.1 h2
    have h3 := (table_from _ _ _ _ e he).2
    rw [h] at h3
    have hj := List.mem_range.1 hj
    simp only [Function.comp, placeOf, FromPlace] at h3
    omega

section
variable {M : Type} [AddCommGroup M] [Module F M]

/-- Walking looks only at the wires of the table. -/
theorem walk_congr {α β : Name → Sym → M} (h1 : α .one .one = β .one .one) (c : Code F) : ∀ b : Body M,
    (∀ e ∈ table b.own b.next b.calls (steps b.spare.isSome c), α e.1 e.2 = β e.1 e.2) →
    walk α c b = walk β c b := by
  induction c with
  | done => intro b _; rfl
  | gate k ih =>
    intro b h
    have hj : ∀ j ∈ [Kind.a, .b, .c, .d], α (.gate b.own j) (.wire j b.next) =
        β (.gate b.own j) (.wire j b.next) := fun j hj =>
      h (Name.gate b.own j, Sym.wire j b.next)
        (List.mem_append_left _ (List.mem_map.2 ⟨j, hj, rfl⟩))
    simp only [walk]
    rw [List.map_congr_left hj]
    exact ih _ fun e he => h e (List.mem_append_right _ he)
  | mul k ih =>
    intro b h
    have hj : ∀ j ∈ [Kind.a, .b, .c], α (.gate b.own j) (.wire j b.next) =
        β (.gate b.own j) (.wire j b.next) := fun j hj =>
      h (Name.gate b.own j, Sym.wire j b.next)
        (List.mem_append_left _ (List.mem_map.2 ⟨j, by revert hj; cases j <;> decide, rfl⟩))
    simp only [walk]
    rw [List.map_congr_left hj]
    exact ih _ fun e he => h e (List.mem_append_right _ he)
  | alloc k ih =>
    intro b h
    rcases hs : b.spare with _ | w
    · simp only [steps, hs, Option.isSome_none] at h
      rw [if_neg (by simp)] at h
      have hj : ∀ j ∈ [Kind.a, .b, .c, .d], α (.gate b.own j) (.wire j b.next) =
          β (.gate b.own j) (.wire j b.next) := fun j hj =>
        h (Name.gate b.own j, Sym.wire j b.next)
          (List.mem_append_left _ (List.mem_map.2 ⟨j, hj, rfl⟩))
      simp only [walk, hs]
      rw [hj .b (by decide), hj .d (by decide)]
      exact ih _ fun e he => h e (List.mem_append_right _ he)
    · simp only [steps, hs, Option.isSome_some] at h
      rw [if_pos trivial] at h
      simp only [walk, hs]
      exact ih _ h
  | add lc k ih => intro b h; simp only [walk, h1]; exact ih _ h
  | enforce lc k ih => intro b h; simp only [walk, h1]; exact ih _ h
  | call kinds input body output k _ ih =>
    intro b h
    have hi : ∀ i ∈ List.range output.length, α (.output b.calls i) (placeOf b.next i) =
        β (.output b.calls i) (placeOf b.next i) := fun i hi =>
      h (Name.output b.calls i, placeOf b.next i)
        (List.mem_append_left _ (List.mem_map.2 ⟨i, hi, rfl⟩))
    simp only [walk]
    rw [List.map_congr_left hi]
    exact ih _ fun e he => h e (List.mem_append_right _ he)

theorem bodyOf_congr {α β : Name → Sym → M} {nin : ℕ} {c : Code F}
    (h : ∀ e ∈ tableOf nin (steps false c), α e.1 e.2 = β e.1 e.2) : bodyOf α nin c = bodyOf β nin c := by
  have hi : ∀ i ∈ List.range nin, α (.input i) (placeOf 0 i) = β (.input i) (placeOf 0 i) := fun i hi =>
    h (Name.input i, placeOf 0 i)
      (List.mem_cons_of_mem _ (List.mem_append_left _ (List.mem_map.2 ⟨i, hi, rfl⟩)))
  rw [bodyOf, bodyOf, List.map_congr_left hi]
  exact walk_congr (h _ List.mem_cons_self) c _ fun e he =>
    h e (List.mem_cons_of_mem _ (List.mem_append_right _ he))

end

/-- A function on the second components that agrees with one on the first. -/
theorem transfer {A B : Type} (T : List (A × B)) (h : (T.map Prod.snd).Nodup) (φ : A → F) :
    ∃ ψ : B → F, ∀ e ∈ T, ψ e.2 = φ e.1 := by
  classical
  refine ⟨fun p => if hp : ∃ n, (n, p) ∈ T then φ hp.choose else 0, ?_⟩
  intro e he
  have hp : ∃ n, (n, e.2) ∈ T := ⟨e.1, he⟩
  simp only [dif_pos hp]
  exact congrArg (fun q : A × B => φ q.1) (List.inj_on_of_nodup_map h hp.choose_spec he rfl)

theorem forms_values {nin : ℕ} {c c' : Code F} (hs : steps false c = steps false c')
    (h : constraintForms nin c = constraintForms nin c') (φ : Name → F) :
    constraintValues φ nin c = constraintValues φ nin c' := by
  obtain ⟨ψ, hψ⟩ := transfer _ (tableOf_places nin (steps false c)) φ
  rw [constraintValues, constraintValues,
    bodyOf_congr (α := fun name _ => φ name) (β := fun _ p => ψ p) (c := c)
      (fun e he => (hψ e he).symm),
    bodyOf_congr (α := fun name _ => φ name) (β := fun _ p => ψ p) (c := c')
      (fun e he => (hψ e (by rw [hs]; exact he)).symm), rows_forms, rows_forms, h]

theorem forms_ext {l l' : List (Sym →₀ F)} (h : ∀ ψ : Sym → F, l.map (formVal ψ) = l'.map (formVal ψ)) :
    l = l' := by
  have hl : l.length = l'.length := by simpa using congrArg List.length (h 0)
  refine List.ext_getElem hl fun i h1 h2 => ?_
  ext p
  have h3 := congrArg (·[i]?) (h (Pi.single p 1))
  simp only [List.getElem?_map, List.getElem?_eq_getElem h1, List.getElem?_eq_getElem h2,
    Option.map_some, Option.some.injEq] at h3
  have hv : ∀ r : Sym →₀ F, formVal (Pi.single p 1) r = r p := by
    intro r
    rw [formVal, Finsupp.linearCombination_apply, Finsupp.sum]
    rw [Finset.sum_eq_single p]
    · simp
    · intro q _ hq; simp [Pi.single_eq_of_ne hq]
    · intro hp; simp [Finsupp.notMem_support_iff.1 hp]
  rwa [hv, hv] at h3

theorem values_forms {nin : ℕ} {c c' : Code F} (hs : steps false c = steps false c')
    (h : ∀ φ : Name → F, constraintValues φ nin c = constraintValues φ nin c') :
    constraintForms nin c = constraintForms nin c' := by
  refine forms_ext fun ψ => ?_
  have hn : (((tableOf nin (steps false c)).map Prod.swap).map Prod.snd).Nodup := by
    have := tableOf_names nin (steps false c)
    rwa [List.map_map]
  obtain ⟨φ, hφ⟩ := transfer _ hn ψ
  have hφ' : ∀ e ∈ tableOf nin (steps false c), φ e.1 = ψ e.2 := fun e he =>
    hφ e.swap (List.mem_map_of_mem he)
  rw [← rows_forms, ← rows_forms]
  have h1 := h φ
  rw [constraintValues, constraintValues,
    bodyOf_congr (α := fun name _ => φ name) (β := fun _ p => ψ p) (c := c) hφ',
    bodyOf_congr (α := fun name _ => φ name) (β := fun _ p => ψ p) (c := c')
      (fun e he => hφ' e (by rw [hs]; exact he))] at h1
  exact h1

theorem steps_leaf {c : Code F} (h : NoCalls c) : ∀ spare, steps spare c =
    List.replicate (steps spare c).length .gate := by
  induction c with
  | done => intro s; rfl
  | gate k ih => intro s; simp only [steps, List.length_cons, List.replicate_succ]; rw [← ih h s]
  | mul k ih => intro s; simp only [steps, List.length_cons, List.replicate_succ]; rw [← ih h s]
  | alloc k ih =>
    intro s
    cases s
    · simp only [steps, Bool.false_eq_true, if_false, List.length_cons, List.replicate_succ]
      rw [← ih h true]
    · simp only [steps, if_true]; rw [← ih h false]
  | add lc k ih => intro s; exact ih h s
  | enforce lc k ih => intro s; exact ih h s
  | call kinds input body output k _ ih => cases h

theorem steps_own {M : Type} [AddCommGroup M] [Module F M] (α : Name → Sym → M) (c : Code F) :
    ∀ b : Body M, (walk α c b).own = b.own + (steps b.spare.isSome c).count .gate := by
  induction c with
  | done => intro b; rfl
  | gate k ih => intro b; simp only [walk, steps]; rw [ih]; simp; omega
  | mul k ih => intro b; simp only [walk, steps]; rw [ih]; simp; omega
  | alloc k ih =>
    intro b
    rcases hs : b.spare with _ | w
    · simp only [walk, hs, steps, Option.isSome_none, Bool.false_eq_true, if_false]; rw [ih]; simp; omega
    · simp only [walk, hs, steps, Option.isSome_some, if_true]; rw [ih]; simp
  | add lc k ih => intro b; simp only [walk, steps]; rw [ih]
  | enforce lc k ih => intro b; simp only [walk, steps]; rw [ih]
  | call kinds input body output k _ ih => intro b; simp only [walk, steps]; rw [ih]; simp

theorem leaf_steps {c c' : Code F} (h : NoCalls c) (h' : NoCalls c')
    (hc : (countsOf c).1 = (countsOf c').1) : steps false c = steps false c' := by
  have e : ∀ c : Code F, NoCalls c → (countsOf c).1 = (steps false c).length := by
    intro c h
    have := steps_own (M := F) (fun _ _ => 0) c
      { next := (0 + 1) / 2, env := (List.range 0).map fun _ => 0 }
    simp only [countsOf, bodyOf]
    rw [this]
    rw [show (Option.isSome (none : Option F)) = false from rfl]
    rw [steps_leaf h false]
    simp
  rw [steps_leaf h false, steps_leaf h' false, ← e c h, ← e c' h', hc]

/-- What calls do inside does not matter. -/
theorem walk_outside {M : Type} [AddCommGroup M] [Module F M] (α : Name → Sym → M) {c c' : Code F} :
    SameOutside c c' → ∀ b : Body M, walk α c b = walk α c' b := by
  induction c generalizing c' with
  | done => intro h b; cases c' <;> first | rfl | exact h.elim
  | gate k ih => intro h b; cases c' <;> first | exact ih h _ | exact h.elim
  | mul k ih => intro h b; cases c' <;> first | exact ih h _ | exact h.elim
  | alloc k ih =>
    intro h b
    cases c' with
    | alloc k' =>
      rcases hs : b.spare with _ | w
      · simp only [walk, hs]; exact ih h _
      · simp only [walk, hs]; exact ih h _
    | _ => exact h.elim
  | add lc k ih =>
    intro h b
    cases c' with
    | add lc' k' => obtain ⟨rfl, h⟩ := h; exact ih h _
    | _ => exact h.elim
  | enforce lc k ih =>
    intro h b
    cases c' with
    | enforce lc' k' => obtain ⟨rfl, h⟩ := h; exact ih h _
    | _ => exact h.elim
  | call kinds input body output k _ ih =>
    intro h b
    cases c' with
    | call kinds' input' body' output' k' =>
      obtain ⟨ho, h⟩ := h
      simp only [walk]
      rw [ho]
      exact ih h _
    | _ => exact h.elim

end Ragu.Circuit

/-
Code that makes the same calls for all witnesses is realized by one circuit.
-/
import Verif.Lemmas.Unif
import Verif.Spec.Size

set_option linter.unusedSectionVars false

namespace Ragu.Unif
open Ragu Ragu.Circuit Ragu.Gadget Ragu.Spec
variable {W F α β : Type} [Field F] [DecidableEq F] {m : ℕ}

abbrev ones (m : ℕ) : List ℕ := List.replicate m 1
abbrev vals (env : List F) : ℕ → F := fun i => env.getD i 0

theorem ones_append (m k : ℕ) : ones m ++ ones k = ones (m + k) := List.replicate_append_replicate

theorem vals_append (env l : List F) : Agree env.length (vals env) (vals (env ++ l)) := by
  intro i hi
  simp [vals, List.getElem?_append_left hi]

theorem usable_ones {i : ℕ} (h : i < m) : usable (ones m) (.idx i) = true := by
  simp [usable, h]

theorem resolve_idx {env : List F} {i : ℕ} (h : i < env.length) :
    resolve (1 : F) env (.idx i) = .ok (vals env i) := by
  simp [resolve, vals, List.getElem?_eq_getElem h]

/-- The linear combination `c + Σ a_i σ_i`. -/
def combo (c : F) (l : List (F × ℕ)) : List (LcStep F WRef) :=
  .term .one (.arbitrary c) :: l.map fun p => .term (.idx p.2) (.arbitrary p.1)

theorem combo_usable (c : F) {l : List (F × ℕ)} (h : ∀ p ∈ l, p.2 < m) :
    usableLc (ones m) (combo c l) = true := by
  simp only [usableLc, combo, List.all_cons, usable, Bool.true_and, List.all_map, List.all_eq_true]
  intro p hp
  exact usable_ones (h p hp)

theorem combo_resolve (c : F) {l : List (F × ℕ)} {env : List F} (h : ∀ p ∈ l, p.2 < env.length) :
    ∃ r, resolveLc 1 env (combo c l) = .ok r ∧
      lcVal 1 r = c + (l.map fun p => p.1 * vals env p.2).sum := by
  have h2 : ∃ r, resolveLc 1 env (l.map fun p => LcStep.term (.idx p.2) (.arbitrary p.1)) = .ok r ∧
      lcVal 1 r = (l.map fun p => p.1 * vals env p.2).sum := by
    induction l with
    | nil => exact ⟨[], rfl, rfl⟩
    | cons p l ih =>
      obtain ⟨r, e1, e2⟩ := ih fun q hq => h q (List.mem_cons_of_mem _ hq)
      refine ⟨.term (vals env p.2) (.arbitrary p.1) :: r, ?_, ?_⟩
      · simp only [List.map_cons, resolveLc, resolve_idx (h p (List.mem_cons_self ..)), e1, bind,
          Except.bind]
      · simp [lcVal, e2, Coeff.value]
  obtain ⟨r, e1, e2⟩ := h2
  refine ⟨.term 1 (.arbitrary c) :: r, ?_, ?_⟩
  · simp only [combo, resolveLc, resolve, e1, bind, Except.bind]
  · simp [lcVal, e2, Coeff.value]

/-! ### Outputs -/

theorem add_outputs (ls : List (Fam W F F)) (h : ∀ f ∈ ls, Aff m f) : ∃ q : Prog F,
    q.AllocsOutside ∧ (∀ M, m ≤ M → handles q (ones M) = some (ones (M + ls.length))) ∧
    ∀ (Q : List F → List F → Prop) w env r, m ≤ env.length →
      Q (env ++ ls.map fun f => f w (vals env)) r → Calls Q q env (.ret r) := by
  induction ls with
  | nil => exact ⟨.done, trivial, fun M _ => rfl, fun Q w env r _ hq => .ret (by simpa using hq)⟩
  | cons f ls ih =>
    obtain ⟨q, h0, h1, h2⟩ := ih fun g hg => h g (List.mem_cons_of_mem _ hg)
    obtain ⟨c, l, hl, hf⟩ := h f (List.mem_cons_self ..)
    refine ⟨.add (combo c l) q, h0, fun M hM => ?_, fun Q w env r hm hq => ?_⟩
    · have := combo_usable (m := M) c fun p hp => lt_of_lt_of_le (hl p hp) hM
      simp only [handles, this, if_true]
      rw [show ones M ++ [1] = ones (M + 1) from ones_append M 1, h1 _ (by omega)]
      congr 2
      simp only [List.length_cons]; omega
    · obtain ⟨r', e1, e2⟩ := combo_resolve c (env := env) fun p hp => lt_of_lt_of_le (hl p hp) hm
      refine .add e1 (h2 Q w _ r (by simp; omega) ?_)
      rw [e2, ← hf w]
      have : (ls.map fun g => g w (vals (env ++ [f w (vals env)]))) =
          ls.map fun g => g w (vals env) :=
        List.map_congr_left fun g hg => ((h g (List.mem_cons_of_mem _ hg)).loc w _ _
          ((vals_append env _).mono hm)).symm
      rw [this]
      simpa using hq

theorem mapM_resolve : ∀ (l : List WRef) (env : List F) (out : List F), l.length = out.length →
    (∀ j, (hj : j < l.length) → resolve 1 env l[j] = .ok (out.getD j 0)) →
    l.mapM (resolve 1 env) = .ok out
  | [], env, [], _, _ => rfl
  | w :: l, env, o :: out, hl, h => by
    have h0 := h 0 (by simp)
    simp only [List.getElem_cons_zero, List.getD_cons_zero] at h0
    have := mapM_resolve l env out (by simpa using hl) fun j hj => by
      have := h (j + 1) (by simpa using hj)
      simpa using this
    rw [List.mapM_cons, h0, this]
    rfl

/-- The wires from `m` on. -/
def outRefs (m k : ℕ) : List WRef := (List.range k).map fun j => .idx (m + j)

theorem outRefs_resolve (env out : List F) :
    (outRefs env.length out.length).mapM (resolve 1 (env ++ out)) = .ok out := by
  refine mapM_resolve _ _ _ (by simp [outRefs]) fun j hj => ?_
  have hj' : j < out.length := by simpa [outRefs] using hj
  simp only [outRefs, List.getElem_map, List.getElem_range]
  rw [resolve_idx (by simp; omega)]
  simp [vals, hj']

/-! ### Programs -/

/-- A list of `n` wires. -/
def OutsR (n m : ℕ) (a : Fam W F (List F)) : Prop :=
  ∃ ls : List (Fam W F F), ls.length = n ∧ (∀ f ∈ ls, Aff m f) ∧ ∀ w σ, a w σ = ls.map fun f => f w σ

theorem UnifR.compile {n : ℕ} {x : Fam W F (Syn F (List F))} (h : UnifR (OutsR n) m x) :
    ∃ (p : Prog F) (M : ℕ) (outs : List WRef), p.AllocsOutside ∧ outs.length = n ∧
    handles p (ones m) = some (ones M) ∧ (∀ o ∈ outs, usable (ones M) o = true) ∧
    ∀ w env, env.length = m →
      Calls (fun env out => outs.mapM (resolve 1 env) = .ok out) p env (x w (vals env)) := by
  induction h with
  | @ret m x a e r =>
    obtain ⟨ls, h0, h1, h2⟩ := r
    obtain ⟨q, hq, h3, h4⟩ := add_outputs ls h1
    refine ⟨q, m + ls.length, outRefs m ls.length, hq, by simpa [outRefs] using h0, h3 m le_rfl, ?_, fun w env he => ?_⟩
    · intro o ho
      obtain ⟨j, hj, rfl⟩ := List.mem_map.1 ho
      exact usable_ones (by have := List.mem_range.1 hj; omega)
    · rw [e]
      refine h4 _ w env _ (by omega) ?_
      have := outRefs_resolve env (ls.map fun f => f w (vals env))
      rw [List.length_map, he] at this
      rw [this, h2]
  | @mul m x h k e l _ ih =>
    obtain ⟨p, M, outs, hq, h0, h1, h2, h3⟩ := ih
    refine ⟨.mul 0 0 0 p, M, outs, hq, h0, ?_, h2, fun w env he => ?_⟩
    · simp only [handles]
      rw [show ones m ++ [1, 1, 1] = ones (m + 3) from ones_append m 3, h1]
    · rw [e]
      refine .mul rfl fun a b c d => ?_
      have := h3 w (env ++ [a, b, c]) (by simp [he])
      have ag := vals_append env [a, b, c]
      rw [he] at ag
      rw [l w _ _ ag]
      have e0 : vals (env ++ [a, b, c]) m = a := by simp [vals, ← he]
      have e1 : vals (env ++ [a, b, c]) (m + 1) = b := by simp [vals, ← he]
      have e2 : vals (env ++ [a, b, c]) (m + 2) = c := by simp [vals, ← he]
      dsimp only at this
      rwa [e0, e1, e2] at this
  | @alloc m x h k e l _ ih =>
    obtain ⟨p, M, outs, hq, h0, h1, h2, h3⟩ := ih
    refine ⟨.alloc 0 p, M, outs, hq, h0, ?_, h2, fun w env he => ?_⟩
    · simp only [handles]
      rw [show ones m ++ [1] = ones (m + 1) from ones_append m 1, h1]
    · rw [e]
      refine .alloc fun a => ?_
      have := h3 w (env ++ [a]) (by simp [he])
      have ag := vals_append env [a]
      rw [he] at ag
      rw [l w _ _ ag]
      have e0 : vals (env ++ [a]) m = a := by simp [vals, ← he]
      dsimp only at this
      rwa [e0] at this
  | @enforce m x v k e l _ ih =>
    obtain ⟨p, M, outs, hq, h0, h1, h2, h3⟩ := ih
    obtain ⟨c, l, hl, hv⟩ := l
    refine ⟨.enforce (combo c l) p, M, outs, hq, h0, ?_, h2, fun w env he => ?_⟩
    · simp only [handles, combo_usable c hl, if_true, h1]
    · rw [e]
      obtain ⟨r, e1, e2⟩ := combo_resolve c (env := env) (by rw [he]; exact hl)
      exact .enforce e1 (by rw [e2, hv]) (h3 w env he)
  | @check m x k e _ ih =>
    obtain ⟨p, M, outs, hq, h0, h1, h2, h3⟩ := ih
    refine ⟨p, M, outs, hq, h0, h1, h2, fun w env he => ?_⟩
    rcases e w (vals env) with h | ⟨err, h⟩ <;> rw [h]
    · exact h3 w env he
    · exact .check (h3 w env he)

/-! ### Circuits -/

theorem handles_allocZeros (p : Prog F) : ∀ (k m : ℕ),
    handles (allocZeros k p) (ones m) = handles p (ones (m + k))
  | 0, m => rfl
  | k + 1, m => by
    simp only [allocZeros, handles]
    rw [show ones m ++ [1] = ones (m + 1) from ones_append m 1, handles_allocZeros p k (m + 1)]
    congr 2; omega

theorem allocsOutside_zeros {p : Prog F} (h : p.AllocsOutside) : ∀ k, (allocZeros k p).AllocsOutside
  | 0 => h
  | k + 1 => allocsOutside_zeros h k

theorem handles_outs (outs : List WRef) {h : List ℕ} (hu : ∀ o ∈ outs, usable h o = true) :
    handles (outsProg (F := F) outs) h = some h := by
  induction outs with
  | nil => rfl
  | cons o outs ih =>
    have := ih fun o ho => hu o (List.mem_cons_of_mem _ ho)
    simp only [outsProg, List.foldr_cons, handles] at this ⊢
    rw [if_pos]
    · exact this
    · simp [usableLc, LcStep.add, hu o (List.mem_cons_self ..)]

theorem handles_drops : ∀ (k i : ℕ),
    handles (dropsProg (F := F) (List.range' i k)) (List.replicate i 0 ++ ones k) =
      some (List.replicate (i + k) 0)
  | 0, i => by simp [dropsProg, handles]
  | k + 1, i => by
    have e : (List.replicate i 0 ++ ones (k + 1)).set i 0 = List.replicate (i + 1) 0 ++ ones k := by
      rw [List.set_append_right _ _ (by simp)]
      rw [List.replicate_succ', List.append_assoc]
      simp [ones, List.replicate_succ]
    have g : (List.replicate i 0 ++ ones (k + 1)).getD i 0 = 1 := by
      simp [ones, List.replicate_succ]
    simp only [List.range'_succ, dropsProg, List.foldr_cons, handles, g, Nat.zero_lt_one, if_true,
      Nat.sub_self, e]
    rw [show i + (k + 1) = i + 1 + k by omega]
    exact handles_drops k (i + 1)

/-- One circuit for all witnesses. -/
theorem realize {n : ℕ} {ch : Chain} (hf : StagesFit ch) {x : W → List F → Syn F (List F)}
    {y : Fam W F (Syn F (List F))} (hy : UnifR (OutsR n) (firstWire ch + 2 * ch.numGates) y)
    (hxy : ∀ w es, es.length = firstWire ch + 2 * ch.numGates → x w es = y w (vals es)) :
    ∃ c : Circ F, c.WellUsed ∧ c.body.AllocsOutside ∧ c.outs.length = n ∧ ∀ w, Realizes ch c (x w) := by
  obtain ⟨p, M, outs, hq, h0, h1, h2, h3⟩ := UnifR.compile hy
  refine ⟨⟨allocZeros (2 * chainGates ch) p, outs, List.range M⟩, ?_, allocsOutside_zeros hq _, h0, fun w => ?_⟩
  · refine ⟨List.replicate M 0, ?_, fun i hi => List.eq_of_mem_replicate hi⟩
    simp only [Circ.main, epilogue_eq]
    rw [handles_seq, show ([] : List ℕ) = ones 0 from rfl, handles_allocZeros, ← firstWire_eq,
      Nat.zero_add, h1]
    simp only [Option.bind]
    rw [handles_seq, handles_outs outs h2]
    simp only [Option.bind, handles]
    rw [if_pos (by simp [usableLc, LcStep.add, usable])]
    have := handles_drops (F := F) M 0
    simpa [List.range_eq_range'] using this
  · refine ⟨p, multiStage_eq ch p hf, fun es hes => ?_⟩
    rw [hxy w es hes]
    exact h3 w es hes

end Ragu.Unif

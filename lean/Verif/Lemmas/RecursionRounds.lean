/-
The rounds of a fuse: in each of them a wrong message survives few challenges.
-/
import Verif.Lemmas.RecursionClaims

set_option linter.unusedSectionVars false

namespace Ragu.Props
open Ragu Ragu.Circuit Ragu.Registry Ragu.Spec Ragu.Gadget Ragu.Pcd Finset Function
variable {F G HC : Type} [Field F] [DecidableEq F] [Field G] [DecidableEq G]
  [AddCommGroup HC] [DecidableEq HC] [Module F HC]

/-! ### Queries by index -/

/-- The `i`-th query. -/
def nthQuery (i : ℕ) : Query := Query.all.getD i .a

theorem query_length : Query.all.length = 55 := rfl

theorem descending_queries (alpha : F) (g : Query → F) :
    descending alpha (Query.all.map g) = ∑ i ∈ range 55, alpha ^ (54 - i) * g (nthQuery i) := by
  rw [descending, List.length_map, query_length]
  refine sum_congr rfl fun i hi => ?_
  have hi : i < Query.all.length := by rw [query_length]; exact mem_range.1 hi
  rw [getD_map_zero, nthQuery, List.getD_eq_getElem?_getD, List.getElem?_eq_getElem hi]
  rfl

theorem query_mem (q : Query) : q ∈ Query.all := by
  cases q with
  | rx s i => cases s <;> cases i <;> simp [Query.all, RxIndex.all]
  | xyInternal id => cases id <;> simp [Query.all, NativeId.all]
  | _ => first
    | (rename_i s; cases s <;> simp [Query.all])
    | simp [Query.all]

theorem query_index (q : Query) : ∃ i < 55, nthQuery i = q := by
  obtain ⟨i, hi, he⟩ := List.getElem_of_mem (query_mem q)
  refine ⟨i, by rwa [query_length] at hi, ?_⟩
  rw [nthQuery, List.getD_eq_getElem?_getD, List.getElem?_eq_getElem hi, ← he]
  rfl

theorem evalOf_map {K L : Type} (f : K → L) (e : EvalOutput K) (q : Query) :
    evalOf (EvalOutput.map f e) q = f (evalOf e q) := by
  cases q with
  | wxChildY s => cases s <;> rfl
  | wxY s => cases s <;> rfl
  | childP s => cases s <;> rfl
  | childRegistry s => cases s <;> rfl
  | childA s => cases s <;> rfl
  | childB s => cases s <;> rfl
  | rx s i => cases s <;> rfl
  | _ => rfl

theorem evalList_length (e : EvalOutput F) : (evalList e).length = 36 := rfl

theorem evalList_inj {e e' : EvalOutput F} (h : evalList e = evalList e') (q : Query) :
    evalOf e q = evalOf e' q := by
  simp only [evalList, RxIndex.all, List.flatMap_cons, List.flatMap_nil, List.map_cons, List.map_nil,
    List.cons_append, List.nil_append, List.append_nil, List.cons.injEq, and_true] at h
  cases q with
  | wxChildY s => cases s <;> simp only [evalOf, h]
  | wxY s => cases s <;> simp only [evalOf, h]
  | childP s => cases s <;> simp only [evalOf, EvalOutput.child, h]
  | childRegistry s => cases s <;> simp only [evalOf, EvalOutput.child, h]
  | childA s => cases s <;> simp only [evalOf, EvalOutput.child, h]
  | childB s => cases s <;> simp only [evalOf, EvalOutput.child, h]
  | rx s i => cases s <;> cases i <;> simp only [evalOf, EvalOutput.child, h]
  | _ => simp only [evalOf, h]

/-! ### The rounds -/

section
variable (n : ℕ) (om : ℕ → F) (l r : FuseChild F G HC) (σ : FuseProver F)

/-- The polynomial of a query. -/
def qPoly (c : Draw F) (q : Query) : ℕ → F := evalOf (batched l r σ c) q

/-- The point of a query. -/
def qPoint (c : Draw F) (q : Query) : F := (drawPoints om l r c).at q

/-- How wrong the answer of a query is. -/
def qDelta (c : Draw F) (q : Query) : F :=
  polyAt n (qPoly l r σ c q) (qPoint om l r c q) - fuseAnswer n l r σ c q

/-- What the claimed evaluations should be, and what they are. -/
def trueList (c : Draw F) : List F :=
  polyAt n (σ.f (c.upTo 9)) c.u :: evalList (EvalOutput.map (fun p => polyAt n p c.u) (batched l r σ c))

def sentList (c : Draw F) : List F :=
  quotientSum c.alpha c.u (drawPoints om l r c) (evalOf (σ.eval (c.upTo 10)))
    (fuseAnswer n l r σ c) :: evalList (σ.eval (c.upTo 10))

/-- In the last round wrong evaluations have the right combination. -/
def BadBeta (c : Draw F) : Prop :=
  descending c.beta (trueList n l r σ c) = descending c.beta (sentList n om l r σ c) ∧
    trueList n l r σ c ≠ sentList n om l r σ c

theorem badBeta_le (B : Finset F) (c : Draw F) :
    (B.filter fun a => descending a (trueList n l r σ c) = descending a (sentList n om l r σ c) ∧
      trueList n l r σ c ≠ sentList n om l r σ c).card ≤ 36 := by
  by_cases h : trueList n l r σ c = sentList n om l r σ c
  · simp [h]
  · refine le_trans (card_le_card fun a ha => ?_) (descending_le (k := 37) rfl rfl h B)
    rw [mem_filter] at ha ⊢
    exact ⟨ha.1, ha.2.1⟩

/-- The combination of the wrong answers at `ξ`. -/
def residue (c : Draw F) (ξ : F) : F :=
  ∑ i ∈ (range 55).filter (fun i => qPoint om l r c (nthQuery i) = ξ),
    c.alpha ^ (54 - i) * qDelta n om l r σ c (nthQuery i)

/-- At `u` quotients that are no polynomials agree with one. -/
def BadU (c : Draw F) : Prop :=
  ((∀ i < 55, c.u ≠ qPoint om l r c (nthQuery i)) ∧ polyAt n (σ.f (c.upTo 9)) c.u =
    ∑ i ∈ range 55, c.alpha ^ (54 - i) * ((polyAt n (qPoly l r σ c (nthQuery i)) c.u -
      fuseAnswer n l r σ c (nthQuery i)) / (c.u - qPoint om l r c (nthQuery i)))) ∧
  ∃ ξ, residue n om l r σ c ξ ≠ 0

/-- With `alpha` wrong answers cancel. -/
def BadAlpha (c : Draw F) : Prop :=
  (∀ ξ, residue n om l r σ c ξ = 0) ∧ ∃ i < 55, qDelta n om l r σ c (nthQuery i) ≠ 0

/-- The polynomial that `a` should be. -/
def aStar (c : Draw F) : ℕ → F :=
  folded GROUP_SIZE NUM_GROUPS c.mu⁻¹ c.muPrime⁻¹ (claimLeft c.z) (recClaims l r)

/-- The polynomial that `b` should be. -/
def bStar (sup : F → ℕ → ℕ → F) (c : Draw F) : ℕ → F :=
  folded GROUP_SIZE NUM_GROUPS (c.mu * c.nu) (c.muPrime * c.nuPrime)
    (claimRight (sup c.y) (tCoeff n c.z) c.z) (recClaims l r)

def BadA (c : Draw F) : Prop :=
  c.z ≠ 0 ∧ polyAt n (σ.a (c.upTo 7)) (c.x * c.z) = polyAt n (aStar l r c) (c.x * c.z) ∧
    ∃ k < 4 * n, σ.a (c.upTo 7) k ≠ aStar l r c k

def BadB (sup : F → ℕ → ℕ → F) (c : Draw F) : Prop :=
  polyAt n (σ.b (c.upTo 7)) c.x = polyAt n (bStar n l r sup c) c.x ∧
    ∃ k < 4 * n, σ.b (c.upTo 7) k ≠ bStar n l r sup c k

def BadWy (mwy : F → F → ℕ → F) (c : Draw F) : Prop :=
  polyAt n (σ.wy (c.upTo 3)) c.x = polyAt n (mwy c.w c.y) c.x ∧
    ∃ k < 4 * n, σ.wy (c.upTo 3) k ≠ mwy c.w c.y k

def BadOuter (sup : F → ℕ → ℕ → F) (c : Draw F) : Prop :=
  (c.muPrime ≠ 0 ∧ foldedClaim NUM_GROUPS c.muPrime⁻¹ (c.muPrime * c.nuPrime)
    (outerDiff n GROUP_SIZE NUM_GROUPS c.mu c.nu (claimLeft c.z) (claimRight (sup c.y) (tCoeff n c.z) c.z)
      (recClaims l r) (σ.innerErrs (c.upTo 3)) (σ.outerErrs (c.upTo 5))
      (claimedValues c.y (l.values om) (r.values om))) = 0) ∧
  ∃ K < NUM_GROUPS, outerDiff n GROUP_SIZE NUM_GROUPS c.mu c.nu (claimLeft c.z)
      (claimRight (sup c.y) (tCoeff n c.z) c.z)
      (recClaims l r) (σ.innerErrs (c.upTo 3)) (σ.outerErrs (c.upTo 5))
      (claimedValues c.y (l.values om) (r.values om)) K K ≠ 0

def BadInner (sup : F → ℕ → ℕ → F) (c : Draw F) : Prop :=
  (c.mu ≠ 0 ∧ ∀ K < NUM_GROUPS, foldedClaim GROUP_SIZE c.mu⁻¹ (c.mu * c.nu)
    (groupDiff n GROUP_SIZE (claimLeft c.z) (claimRight (sup c.y) (tCoeff n c.z) c.z)
      (recClaims l r) (σ.innerErrs (c.upTo 3)) (claimedValues c.y (l.values om) (r.values om)) K) = 0) ∧
  ∃ K < NUM_GROUPS, ∃ i < GROUP_SIZE, groupDiff n GROUP_SIZE (claimLeft c.z)
      (claimRight (sup c.y) (tCoeff n c.z) c.z) (recClaims l r) (σ.innerErrs (c.upTo 3))
      (claimedValues c.y (l.values om) (r.values om)) K i i ≠ 0

def BadWx (mwx : F → F → ℕ → F) (s : Side) (x0 : F) (c : Draw F) : Prop :=
  polyAt n (σ.wx s (c.upTo 1)) c.y = polyAt n (mwx c.w x0) c.y ∧
    ∃ k < 4 * n, σ.wx s (c.upTo 1) k ≠ mwx c.w x0 k

def BadW (p q : ℕ → F) (c : Draw F) : Prop :=
  polyAt n p c.w = polyAt n q c.w ∧ ∃ k < 4 * n, p k ≠ q k

end

section
variable {n : ℕ} {om : ℕ → F} {l r : FuseChild F G HC} {σ : FuseProver F} (A B : Finset F)

theorem agree_le' {n : ℕ} (p q : ℕ → F) (A : Finset F) :
    (A.filter fun x => polyAt n p x = polyAt n q x ∧ ∃ k < 4 * n, p k ≠ q k).card ≤ 4 * n - 1 := by
  by_cases h : ∃ k < 4 * n, p k ≠ q k
  · refine le_trans (card_le_card fun a ha => ?_) (agree_le h A)
    rw [mem_filter] at ha ⊢
    exact ⟨ha.1, ha.2.1⟩
  · rw [filter_false_of_mem fun a _ ha => h ha.2]
    simp

open Classical in
theorem round_beta (c : Draw F) :
    (B.filter fun a => BadBeta n om l r σ (update c 10 a)).card ≤ 36 := by
  refine le_trans (card_le_card fun a ha => ?_)
    (badBeta_le n om l r σ B c)
  rw [mem_filter] at ha ⊢
  refine ⟨ha.1, ?_⟩
  have := ha.2
  have e1 : trueList n l r σ (update c 10 a) = trueList n l r σ c := by
    simp only [trueList, batched, Draw.u, upTo_update _ _ _ _ (show 9 ≤ ((10 : Fin 11) : ℕ) by decide),
      upTo_update _ _ _ _ (show 8 ≤ ((10 : Fin 11) : ℕ) by decide),
      upTo_update _ _ _ _ (show 7 ≤ ((10 : Fin 11) : ℕ) by decide),
      upTo_update _ _ _ _ (show 3 ≤ ((10 : Fin 11) : ℕ) by decide),
      upTo_update _ _ _ _ (show 1 ≤ ((10 : Fin 11) : ℕ) by decide),
      update_apply, Fin.reduceEq, if_false]
  have e2 : sentList n om l r σ (update c 10 a) = sentList n om l r σ c := by
    simp only [sentList, drawPoints, fuseAnswer, Draw.u, Draw.w, Draw.y, Draw.z, Draw.x, Draw.mu,
      Draw.nu, Draw.muPrime, Draw.nuPrime, Draw.alpha,
      upTo_update _ _ _ _ (show 10 ≤ ((10 : Fin 11) : ℕ) by decide),
      upTo_update _ _ _ _ (show 8 ≤ ((10 : Fin 11) : ℕ) by decide),
      update_apply, Fin.reduceEq, if_false]
  rw [BadBeta, e1, e2] at this
  simpa only [Draw.beta, update_self] using this

open Classical in
theorem count_beta : ((draws A B).filter (BadBeta n om l r σ)).card ≤
    36 * A.card ^ 10 :=
  count_last A B _ 36 fun c => round_beta B c

open Classical in
theorem round_u (c : Draw F) :
    (A.filter fun a => BadU n om l r σ (update c 9 a)).card ≤ (4 * n - 1 + 55) := by
  have e1 : ∀ a q, qPoint om l r (update c 9 a) q = qPoint om l r c q := by
    intro a q
    simp only [qPoint, drawPoints, Draw.w, Draw.y, Draw.z, Draw.x, update_apply, Fin.reduceEq, if_false]
  have e2 : ∀ a q, qPoly l r σ (update c 9 a) q = qPoly l r σ c q := by
    intro a q
    simp only [qPoly, batched, upTo_update _ _ _ _ (show 8 ≤ ((9 : Fin 11) : ℕ) by decide),
      upTo_update _ _ _ _ (show 7 ≤ ((9 : Fin 11) : ℕ) by decide),
      upTo_update _ _ _ _ (show 3 ≤ ((9 : Fin 11) : ℕ) by decide),
      upTo_update _ _ _ _ (show 1 ≤ ((9 : Fin 11) : ℕ) by decide)]
  have e3 : ∀ a q, fuseAnswer n l r σ (update c 9 a) q = fuseAnswer n l r σ c q := by
    intro a q
    simp only [fuseAnswer, Draw.z, Draw.x, Draw.mu, Draw.nu, Draw.muPrime, Draw.nuPrime,
      upTo_update _ _ _ _ (show 8 ≤ ((9 : Fin 11) : ℕ) by decide), update_apply, Fin.reduceEq, if_false]
  have e4 : ∀ a, Draw.alpha (update c 9 a) = c.alpha := by
    intro a; simp only [Draw.alpha, update_apply, Fin.reduceEq, if_false]
  have e5 : ∀ a, Draw.u (update c 9 a) = a := by intro a; simp only [Draw.u, update_self]
  by_cases h : ∃ ξ, residue n om l r σ c ξ ≠ 0
  · obtain ⟨ξ, hξ⟩ := h
    refine le_trans (card_le_card fun a ha => ?_) (quotient_le (k := 55) (n := n) (σ.f (c.upTo 9))
      (fun i => qPoly l r σ c (nthQuery i)) (fun i => qPoint om l r c (nthQuery i))
      (fun i => fuseAnswer n l r σ c (nthQuery i)) (fun i => c.alpha ^ (54 - i)) ξ hξ A)
    rw [mem_filter] at ha ⊢
    obtain ⟨h1, h2, -⟩ := ha
    refine ⟨h1, ?_⟩
    simpa only [e1, e2, e3, e4, e5, upTo_update _ _ _ _ (show 9 ≤ ((9 : Fin 11) : ℕ) by decide)] using h2
  · rw [filter_false_of_mem, card_empty]
    · exact Nat.zero_le _
    · rintro a - ⟨-, ξ, hξ⟩
      apply h
      refine ⟨ξ, ?_⟩
      simpa only [residue, qDelta, e1, e2, e3, e4] using hξ

open Classical in
theorem count_u : ((draws A B).filter (BadU n om l r σ)).card ≤
    (4 * n - 1 + 55) * (A.card ^ 9 * B.card) :=
  count_one A B _ 9 (by decide) _ fun c => round_u A c

open Classical in
theorem round_alpha (c : Draw F) :
    (A.filter fun a => BadAlpha n om l r σ (update c 8 a)).card ≤ 54 := by
  have e1 : ∀ a q, qPoint om l r (update c 8 a) q = qPoint om l r c q := by
    intro a q
    simp only [qPoint, drawPoints, Draw.w, Draw.y, Draw.z, Draw.x, update_apply, Fin.reduceEq, if_false]
  have e2 : ∀ a q, qDelta n om l r σ (update c 8 a) q = qDelta n om l r σ c q := by
    intro a q
    simp only [qDelta, e1, qPoly, batched, fuseAnswer, Draw.z, Draw.x, Draw.mu, Draw.nu, Draw.muPrime,
      Draw.nuPrime, upTo_update _ _ _ _ (show 8 ≤ ((8 : Fin 11) : ℕ) by decide),
      upTo_update _ _ _ _ (show 7 ≤ ((8 : Fin 11) : ℕ) by decide),
      upTo_update _ _ _ _ (show 3 ≤ ((8 : Fin 11) : ℕ) by decide),
      upTo_update _ _ _ _ (show 1 ≤ ((8 : Fin 11) : ℕ) by decide), update_apply, Fin.reduceEq, if_false]
  have e5 : ∀ a, Draw.alpha (update c 8 a) = a := by intro a; simp only [Draw.alpha, update_self]
  by_cases h : ∃ i < 55, qDelta n om l r σ c (nthQuery i) ≠ 0
  · obtain ⟨i, hi, hne⟩ := h
    set ξ := qPoint om l r c (nthQuery i) with hξ
    refine le_trans (card_le_card fun a ha => ?_) (roots_le' (k := 55) (fun j =>
      if qPoint om l r c (nthQuery (54 - j)) = ξ then qDelta n om l r σ c (nthQuery (54 - j)) else 0)
      (j0 := 54 - i) (by omega)
      (by rw [show 54 - (54 - i) = i by omega, if_pos hξ.symm]; exact hne) A)
    rw [mem_filter] at ha ⊢
    obtain ⟨h1, h2, -⟩ := ha
    refine ⟨h1, ?_⟩
    have := h2 ξ
    simp only [residue, e1, e2, e5] at this
    rw [← sum_range_reflect]
    rw [sum_filter] at this
    refine Eq.trans (sum_congr rfl fun j hj => ?_) this
    have := mem_range.1 hj
    rw [show 54 - (55 - 1 - j) = j by omega, show 55 - 1 - j = 54 - j by omega]
    split_ifs <;> ring
  · rw [filter_false_of_mem, card_empty]
    · exact Nat.zero_le _
    · rintro a - ⟨-, i, hi, hne⟩
      exact h ⟨i, hi, by rwa [e2] at hne⟩

open Classical in
theorem count_alpha : ((draws A B).filter (BadAlpha n om l r σ)).card ≤
    54 * (A.card ^ 9 * B.card) :=
  count_one A B _ 8 (by decide) _ fun c => round_alpha A c

open Classical in
theorem round_a (c : Draw F) :
    (A.filter fun a => BadA n l r σ (update c 7 a)).card ≤ (4 * n - 1) := by
  have e : ∀ a, BadA n l r σ (update c 7 a) ↔ c.z ≠ 0 ∧
      polyAt n (σ.a (c.upTo 7)) (a * c.z) = polyAt n (aStar l r c) (a * c.z) ∧
      ∃ k < 4 * n, σ.a (c.upTo 7) k ≠ aStar l r c k := by
    intro a
    simp only [BadA, aStar, Draw.z, Draw.x, Draw.mu, Draw.muPrime,
      upTo_update _ _ _ _ (show 7 ≤ ((7 : Fin 11) : ℕ) by decide), update_apply, Fin.reduceEq, if_false,
      if_true]
  simp only [e]
  by_cases hz : c.z = 0
  · simp [hz]
  refine le_trans (card_le_card_of_injOn (fun a => a * c.z) ?_ ?_)
    (agree_le' (n := n) (σ.a (c.upTo 7)) (aStar l r c) (A.image fun a => a * c.z))
  · intro a ha
    rw [mem_coe, mem_filter] at ha ⊢
    exact ⟨mem_image_of_mem _ ha.1, ha.2.2⟩
  · intro a _ b _ h
    exact mul_right_cancel₀ hz h

open Classical in
theorem count_a : ((draws A B).filter (BadA n l r σ)).card ≤
    (4 * n - 1) * (A.card ^ 9 * B.card) :=
  count_one A B _ 7 (by decide) _ fun c => round_a A c

open Classical in
theorem round_b (sup : F → ℕ → ℕ → F) (c : Draw F) :
    (A.filter fun a => BadB n l r σ sup (update c 7 a)).card ≤ (4 * n - 1) := by
  have e : ∀ a, BadB n l r σ sup (update c 7 a) ↔
      polyAt n (σ.b (c.upTo 7)) a = polyAt n (bStar n l r sup c) a ∧
      ∃ k < 4 * n, σ.b (c.upTo 7) k ≠ bStar n l r sup c k := by
    intro a
    simp only [BadB, bStar, Draw.y, Draw.z, Draw.x, Draw.mu, Draw.nu, Draw.muPrime, Draw.nuPrime,
      upTo_update _ _ _ _ (show 7 ≤ ((7 : Fin 11) : ℕ) by decide), update_apply, Fin.reduceEq, if_false,
      if_true]
  simp only [e]
  exact agree_le' _ _ A

open Classical in
theorem count_b (sup : F → ℕ → ℕ → F) : ((draws A B).filter (BadB n l r σ sup)).card ≤
    (4 * n - 1) * (A.card ^ 9 * B.card) :=
  count_one A B _ 7 (by decide) _ fun c => round_b A sup c

open Classical in
theorem round_wy (mwy : F → F → ℕ → F) (c : Draw F) :
    (A.filter fun a => BadWy n σ mwy (update c 7 a)).card ≤ (4 * n - 1) := by
  have e : ∀ a, BadWy n σ mwy (update c 7 a) ↔
      polyAt n (σ.wy (c.upTo 3)) a = polyAt n (mwy c.w c.y) a ∧
      ∃ k < 4 * n, σ.wy (c.upTo 3) k ≠ mwy c.w c.y k := by
    intro a
    simp only [BadWy, Draw.w, Draw.y, Draw.x,
      upTo_update _ _ _ _ (show 3 ≤ ((7 : Fin 11) : ℕ) by decide), update_apply, Fin.reduceEq, if_false,
      if_true]
  simp only [e]
  exact agree_le' _ _ A

open Classical in
theorem count_wy (mwy : F → F → ℕ → F) : ((draws A B).filter (BadWy n σ mwy)).card ≤
    (4 * n - 1) * (A.card ^ 9 * B.card) :=
  count_one A B _ 7 (by decide) _ fun c => round_wy A mwy c

theorem pairs_le' {k : ℕ} (D : ℕ → ℕ → F) (A : Finset F) :
    ((A ×ˢ A).filter fun p => (p.1 ≠ 0 ∧ foldedClaim k p.1⁻¹ (p.1 * p.2) D = 0) ∧
      ∃ i < k, D i i ≠ 0).card ≤ (2 * (k - 1) + 1) * A.card := by
  by_cases h : ∃ i < k, D i i ≠ 0
  · refine le_trans (card_le_card fun a ha => ?_) (pairs_le h A)
    rw [mem_filter] at ha ⊢
    exact ⟨ha.1, ha.2.1⟩
  · rw [filter_false_of_mem fun a _ ha => h ha.2]
    simp

open Classical in
theorem round_outer (sup : F → ℕ → ℕ → F) (c : Draw F) :
    ((A ×ˢ A).filter fun p => BadOuter n om l r σ sup (update (update c 5 p.1) 6 p.2)).card ≤ 37 * A.card := by
  have e : ∀ p : F × F, BadOuter n om l r σ sup (update (update c 5 p.1) 6 p.2) ↔
      (p.1 ≠ 0 ∧ foldedClaim NUM_GROUPS p.1⁻¹ (p.1 * p.2)
        (outerDiff n GROUP_SIZE NUM_GROUPS c.mu c.nu (claimLeft c.z)
          (claimRight (sup c.y) (tCoeff n c.z) c.z) (recClaims l r) (σ.innerErrs (c.upTo 3))
          (σ.outerErrs (c.upTo 5)) (claimedValues c.y (l.values om) (r.values om))) = 0) ∧
      ∃ K < NUM_GROUPS, outerDiff n GROUP_SIZE NUM_GROUPS c.mu c.nu (claimLeft c.z)
          (claimRight (sup c.y) (tCoeff n c.z) c.z) (recClaims l r) (σ.innerErrs (c.upTo 3))
          (σ.outerErrs (c.upTo 5)) (claimedValues c.y (l.values om) (r.values om)) K K ≠ 0 := by
    intro p
    simp only [BadOuter, Draw.y, Draw.z, Draw.mu, Draw.nu, Draw.muPrime, Draw.nuPrime,
      upTo_update _ _ _ _ (show 5 ≤ ((6 : Fin 11) : ℕ) by decide),
      upTo_update _ _ _ _ (show 3 ≤ ((6 : Fin 11) : ℕ) by decide),
      upTo_update _ _ _ _ (show 5 ≤ ((5 : Fin 11) : ℕ) by decide),
      upTo_update _ _ _ _ (show 3 ≤ ((5 : Fin 11) : ℕ) by decide), update_apply, Fin.reduceEq, if_false,
      if_true]
  simp only [e]
  exact pairs_le' (k := NUM_GROUPS) _ A

open Classical in
theorem count_outer (sup : F → ℕ → ℕ → F) : ((draws A B).filter (BadOuter n om l r σ sup)).card ≤
    37 * (A.card ^ 9 * B.card) :=
  count_two A B _ 5 6 (by decide) (by decide) (by decide) _ fun c => round_outer A sup c

open Classical in
theorem round_inner (sup : F → ℕ → ℕ → F) (c : Draw F) :
    ((A ×ˢ A).filter fun p => BadInner n om l r σ sup (update (update c 3 p.1) 4 p.2)).card ≤ 13 * A.card := by
  have e : ∀ p : F × F, BadInner n om l r σ sup (update (update c 3 p.1) 4 p.2) ↔
      (p.1 ≠ 0 ∧ ∀ K < NUM_GROUPS, foldedClaim GROUP_SIZE p.1⁻¹ (p.1 * p.2)
        (groupDiff n GROUP_SIZE (claimLeft c.z) (claimRight (sup c.y) (tCoeff n c.z) c.z)
          (recClaims l r) (σ.innerErrs (c.upTo 3))
          (claimedValues c.y (l.values om) (r.values om)) K) = 0) ∧
      ∃ K < NUM_GROUPS, ∃ i < GROUP_SIZE, groupDiff n GROUP_SIZE (claimLeft c.z)
          (claimRight (sup c.y) (tCoeff n c.z) c.z) (recClaims l r) (σ.innerErrs (c.upTo 3))
          (claimedValues c.y (l.values om) (r.values om)) K i i ≠ 0 := by
    intro p
    simp only [BadInner, Draw.y, Draw.z, Draw.mu, Draw.nu,
      upTo_update _ _ _ _ (show 3 ≤ ((4 : Fin 11) : ℕ) by decide),
      upTo_update _ _ _ _ (show 3 ≤ ((3 : Fin 11) : ℕ) by decide), update_apply, Fin.reduceEq, if_false,
      if_true]
  simp only [e]
  by_cases h : ∃ K < NUM_GROUPS, ∃ i < GROUP_SIZE, groupDiff n GROUP_SIZE (claimLeft c.z)
          (claimRight (sup c.y) (tCoeff n c.z) c.z) (recClaims l r) (σ.innerErrs (c.upTo 3))
          (claimedValues c.y (l.values om) (r.values om)) K i i ≠ 0
  · obtain ⟨K, hK, hb⟩ := h
    refine le_trans (card_le_card fun a ha => ?_) (pairs_le (k := GROUP_SIZE) hb A)
    rw [mem_filter] at ha ⊢
    exact ⟨ha.1, ha.2.1.1, ha.2.1.2 K hK⟩
  · rw [filter_false_of_mem fun a _ ha => h ha.2]
    simp

open Classical in
theorem count_inner (sup : F → ℕ → ℕ → F) : ((draws A B).filter (BadInner n om l r σ sup)).card ≤
    13 * (A.card ^ 9 * B.card) :=
  count_two A B _ 3 4 (by decide) (by decide) (by decide) _ fun c => round_inner A sup c

open Classical in
theorem round_wx (mwx : F → F → ℕ → F) (s : Side) (x0 : F) (c : Draw F) :
    (A.filter fun a => BadWx n σ mwx s x0 (update c 1 a)).card ≤ (4 * n - 1) := by
  have e : ∀ a, BadWx n σ mwx s x0 (update c 1 a) ↔
      polyAt n (σ.wx s (c.upTo 1)) a = polyAt n (mwx c.w x0) a ∧
      ∃ k < 4 * n, σ.wx s (c.upTo 1) k ≠ mwx c.w x0 k := by
    intro a
    simp only [BadWx, Draw.w, Draw.y,
      upTo_update _ _ _ _ (show 1 ≤ ((1 : Fin 11) : ℕ) by decide), update_apply, Fin.reduceEq, if_false,
      if_true]
  simp only [e]
  exact agree_le' _ _ A

open Classical in
theorem count_wx (mwx : F → F → ℕ → F) (s : Side) (x0 : F) : ((draws A B).filter (BadWx n σ mwx s x0)).card ≤
    (4 * n - 1) * (A.card ^ 9 * B.card) :=
  count_one A B _ 1 (by decide) _ fun c => round_wx A mwx s x0 c

open Classical in
theorem round_w (p q : ℕ → F) (c : Draw F) :
    (A.filter fun a => BadW n p q (update c 0 a)).card ≤ (4 * n - 1) := by
  simp only [BadW, Draw.w, update_self]
  exact agree_le' _ _ A

open Classical in
theorem count_w (p q : ℕ → F) : ((draws A B).filter (BadW n p q)).card ≤
    (4 * n - 1) * (A.card ^ 9 * B.card) :=
  count_one A B _ 0 (by decide) _ fun c => round_w A p q c

/-- The claims hold for `y` and `z` although the traces of a child are not sound. -/
def BadJoint (C : CycleEnv F G HC) (n : ℕ) (P : StepParams F) (app : Application F G)
    (sup : F → ℕ → ℕ → F) (l r : FuseChild F G HC) (c : Draw F) : Prop :=
  JointClaims n sup l r c.y c.z ∧ ¬ (TracesSound C n P app l ∧ TracesSound C n P app r)

open Classical in
theorem round_joint [Finite F] {C : CycleEnv F G HC} {P : StepParams F} {cs : Circuits F G}
    {steps : List (StepDef F)} {app : Application F G} (hA : AppOk C n P cs steps app)
    {ss : List (F → F → F)} {sup : F → ℕ → ℕ → F}
    (hsup : ∀ y, WiringOf C.native n app.nativeRegistry ss y (sup y))
    (hsup' : ∀ y i x, ∑ k ∈ range (4 * n), sup y i k * x ^ k =
      (app.nativeRegistry.wxy C.native n (omegaJ C.native i) x y).getD 0)
    (hl : ChildFit C n P.headerSize app l) (hr : ChildFit C n P.headerSize app r) (c : Draw F) :
    ((A ×ˢ A).filter fun p => BadJoint C n P app sup l r (update (update c 1 p.1) 2 p.2)).card ≤ 8 * n * A.card := by
  simp only [BadJoint, Draw.y, Draw.z, update_apply, Fin.reduceEq, if_false, if_true]
  by_cases h : TracesSound C n P app l ∧ TracesSound C n P app r
  · simp [h]
  · refine le_trans (card_le_card fun a ha => ?_) (joint_le hA hsup hsup' hl hr A h)
    rw [mem_filter] at ha ⊢
    exact ⟨ha.1, ha.2.1⟩

open Classical in
theorem count_joint [Finite F] {C : CycleEnv F G HC} {P : StepParams F} {cs : Circuits F G}
    {steps : List (StepDef F)} {app : Application F G} (hA : AppOk C n P cs steps app)
    {ss : List (F → F → F)} {sup : F → ℕ → ℕ → F}
    (hsup : ∀ y, WiringOf C.native n app.nativeRegistry ss y (sup y))
    (hsup' : ∀ y i x, ∑ k ∈ range (4 * n), sup y i k * x ^ k =
      (app.nativeRegistry.wxy C.native n (omegaJ C.native i) x y).getD 0)
    (hl : ChildFit C n P.headerSize app l) (hr : ChildFit C n P.headerSize app r) : ((draws A B).filter (BadJoint C n P app sup l r)).card ≤
    8 * n * (A.card ^ 9 * B.card) :=
  count_two A B _ 1 2 (by decide) (by decide) (by decide) _ fun c => round_joint A hA hsup hsup' hl hr c

end
end Ragu.Props

/-
The rounds of a fuse whose challenges are answers to questions.
-/
import Verif.Lemmas.RecursionRounds
import Verif.Spec.Oracle

set_option linter.unusedSectionVars false

namespace Ragu.Props
open Ragu Ragu.Circuit Ragu.Registry Ragu.Spec Ragu.Gadget Ragu.Pcd Finset Function
variable {F G HC : Type} [Field F] [DecidableEq F] [Field G] [DecidableEq G]
  [AddCommGroup HC] [DecidableEq HC] [Module F HC]

theorem upTo_get {c c' : Draw F} {k : ℕ} (h : c.upTo k = c'.upTo k) (i : Fin 11) (hi : (i : ℕ) < k) :
    c i = c' i := by
  have := congrArg (fun l => l[(i : ℕ)]?) h
  simp only [Draw.upTo, List.getElem?_take, if_pos hi] at this
  fin_cases i <;> simpa using this

/-- Something bad happens in the round after `k` challenges. -/
def RoundBad (C : CycleEnv F G HC) (n : ℕ) (P : StepParams F) (app : Application F G)
    (sup : F → ℕ → ℕ → F) (mwy mwx mxy : F → F → ℕ → F) (k : ℕ) (l r : FuseChild F G HC)
    (σ : FuseProver F) (c : Draw F) : Prop :=
  match k with
  | 0 => BadW n (coeff l.proof.query.native.registryXyPoly)
        (mxy l.proof.challenges.x l.proof.challenges.y) c ∨
      BadW n (coeff r.proof.query.native.registryXyPoly)
        (mxy r.proof.challenges.x r.proof.challenges.y) c
  | 1 => BadJoint C n P app sup l r c ∨ BadWx n σ mwx .left l.proof.challenges.x c ∨
      BadWx n σ mwx .right r.proof.challenges.x c
  | 3 => BadInner n (omegaJ C.native) l r σ sup c
  | 5 => BadOuter n (omegaJ C.native) l r σ sup c
  | 7 => BadA n l r σ c ∨ BadB n l r σ sup c ∨ BadWy n σ mwy c
  | 8 => BadAlpha n (omegaJ C.native) l r σ c
  | 9 => BadU n (omegaJ C.native) l r σ c
  | 10 => BadBeta n (omegaJ C.native) l r σ c
  | _ => False

/-- The challenges with those of one round replaced. -/
def setRound (k : ℕ) (t : Answer F) (c : Draw F) : Draw F :=
  match k with
  | 0 => update c 0 t.1.1
  | 1 => update (update c 1 t.1.1) 2 t.1.2
  | 3 => update (update c 3 t.1.1) 4 t.1.2
  | 5 => update (update c 5 t.1.1) 6 t.1.2
  | 7 => update c 7 t.1.1
  | 8 => update c 8 t.1.1
  | 9 => update c 9 t.1.1
  | _ => update c 10 t.2

section
variable {C : CycleEnv F G HC} {n : ℕ} {P : StepParams F} {app : Application F G}
  {sup : F → ℕ → ℕ → F} {mwy mwx mxy : F → F → ℕ → F} {l r : FuseChild F G HC}
  {m m' : FuseMessages F} {c c' : Draw F} {t : Answer F}

/-- Whether a round is bad depends on the question and its answer only. -/
theorem roundBad_congr {k : ℕ} (hk : k ∈ rounds) (hq : question k l r m c = question k l r m' c')
    (ht : AnsweredBy k t c) (h : RoundBad C n P app sup mwy mwx mxy k l r m.prover c) :
    RoundBad C n P app sup mwy mwx mxy k l r m'.prover (setRound k t c') := by
  have hd : c.upTo k = c'.upTo k := congrArg Question.drawn hq
  have hc := fun i hi => upTo_get hd i hi
  obtain ⟨a1, a2, a3, a4, a5, a6, a7, a8, a9, a10⟩ := m
  obtain ⟨b1, b2, b3, b4, b5, b6, b7, b8, b9, b10⟩ := m'
  simp only [rounds, List.mem_cons, List.not_mem_nil, or_false] at hk
  rcases hk with rfl | rfl | rfl | rfl | rfl | rfl | rfl | rfl <;>
    simp only [question, Nat.reduceLeDiff, if_true, if_false, Question.mk.injEq, Option.some.injEq,
      true_and] at hq <;> simp only [AnsweredBy] at ht <;>
    simp only [RoundBad, setRound, FuseMessages.prover] at h ⊢
  · simpa only [BadW, Draw.w, update_self, ← ht] using h
  · have h0 := hc 0 (by decide)
    obtain ⟨rfl, -⟩ := hq
    simpa only [BadJoint, BadWx, Draw.w, Draw.y, Draw.z, update_apply, Fin.reduceEq, if_false, if_true,
      ← ht.1, ← ht.2, h0] using h
  · have h0 := hc 0 (by decide)
    have h1 := hc 1 (by decide)
    have h2 := hc 2 (by decide)
    obtain ⟨rfl, rfl, rfl, -⟩ := hq
    simpa only [BadInner, Draw.y, Draw.z, Draw.mu, Draw.nu, update_apply, Fin.reduceEq, if_false, if_true,
      ← ht.1, ← ht.2, h1, h2] using h
  · have h1 := hc 1 (by decide)
    have h2 := hc 2 (by decide)
    have h3 := hc 3 (by decide)
    have h4 := hc 4 (by decide)
    obtain ⟨rfl, rfl, rfl, rfl, -⟩ := hq
    simpa only [BadOuter, Draw.y, Draw.z, Draw.mu, Draw.nu, Draw.muPrime, Draw.nuPrime, update_apply,
      Fin.reduceEq, if_false, if_true, ← ht.1, ← ht.2, h1, h2, h3, h4] using h
  · have h0 := hc 0 (by decide)
    have h1 := hc 1 (by decide)
    have h2 := hc 2 (by decide)
    have h3 := hc 3 (by decide)
    have h4 := hc 4 (by decide)
    have h5 := hc 5 (by decide)
    have h6 := hc 6 (by decide)
    obtain ⟨rfl, rfl, rfl, rfl, rfl, rfl, -⟩ := hq
    simpa only [BadA, BadB, BadWy, aStar, bStar, Draw.w, Draw.y, Draw.z, Draw.mu, Draw.nu, Draw.muPrime,
      Draw.nuPrime, Draw.x, update_apply, Fin.reduceEq, if_false, if_true, ← ht, h0, h1, h2, h3, h4, h5,
      h6] using h
  · have h0 := hc 0 (by decide)
    have h1 := hc 1 (by decide)
    have h2 := hc 2 (by decide)
    have h3 := hc 3 (by decide)
    have h4 := hc 4 (by decide)
    have h5 := hc 5 (by decide)
    have h6 := hc 6 (by decide)
    have h7 := hc 7 (by decide)
    obtain ⟨rfl, rfl, rfl, rfl, rfl, rfl, rfl, rfl, -⟩ := hq
    simpa only [BadAlpha, residue, qDelta, qPoly, qPoint, batched, drawPoints, fuseAnswer, Draw.w, Draw.y,
      Draw.z, Draw.mu, Draw.nu, Draw.muPrime, Draw.nuPrime, Draw.x, Draw.alpha, update_apply, Fin.reduceEq,
      if_false, if_true, ← ht, h0, h1, h2, h3, h4, h5, h6, h7] using h
  · have h0 := hc 0 (by decide)
    have h1 := hc 1 (by decide)
    have h2 := hc 2 (by decide)
    have h3 := hc 3 (by decide)
    have h4 := hc 4 (by decide)
    have h5 := hc 5 (by decide)
    have h6 := hc 6 (by decide)
    have h7 := hc 7 (by decide)
    have h8 := hc 8 (by decide)
    obtain ⟨rfl, rfl, rfl, rfl, rfl, rfl, rfl, rfl, rfl, -⟩ := hq
    simpa only [BadU, residue, qDelta, qPoly, qPoint, batched, drawPoints, fuseAnswer, Draw.w, Draw.y,
      Draw.z, Draw.mu, Draw.nu, Draw.muPrime, Draw.nuPrime, Draw.x, Draw.alpha, Draw.u, update_apply,
      Fin.reduceEq, if_false, if_true, ← ht, h0, h1, h2, h3, h4, h5, h6, h7, h8] using h
  · have h0 := hc 0 (by decide)
    have h1 := hc 1 (by decide)
    have h2 := hc 2 (by decide)
    have h3 := hc 3 (by decide)
    have h4 := hc 4 (by decide)
    have h5 := hc 5 (by decide)
    have h6 := hc 6 (by decide)
    have h7 := hc 7 (by decide)
    have h8 := hc 8 (by decide)
    have h9 := hc 9 (by decide)
    obtain ⟨rfl, rfl, rfl, rfl, rfl, rfl, rfl, rfl, rfl, rfl, -⟩ := hq
    simpa only [BadBeta, trueList, sentList, batched, drawPoints, fuseAnswer, Draw.w, Draw.y,
      Draw.z, Draw.mu, Draw.nu, Draw.muPrime, Draw.nuPrime, Draw.x, Draw.alpha, Draw.u, Draw.beta,
      update_apply, Fin.reduceEq, if_false, if_true, ← ht, h0, h1, h2, h3, h4, h5, h6, h7, h8, h9] using h

/-! ### Counting answers -/

theorem filter_first (A B : Finset F) (Q : F → Prop) [DecidablePred Q] (d : ℕ)
    (h : (A.filter Q).card ≤ d) :
    (((A ×ˢ A) ×ˢ B).filter fun t => Q t.1.1).card ≤ d * (A.card * B.card) := by
  rw [show (((A ×ˢ A) ×ˢ B).filter fun t => Q t.1.1) = ((A.filter Q) ×ˢ A) ×ˢ B by
    ext t; simp only [mem_filter, mem_product]; tauto]
  rw [card_product, card_product, mul_assoc]
  exact Nat.mul_le_mul_right _ h

theorem filter_pair (A B : Finset F) (Q : F × F → Prop) [DecidablePred Q] (d : ℕ)
    (h : ((A ×ˢ A).filter Q).card ≤ d * A.card) :
    (((A ×ˢ A) ×ˢ B).filter fun t => Q t.1).card ≤ d * (A.card * B.card) := by
  rw [show (((A ×ˢ A) ×ˢ B).filter fun t => Q t.1) = ((A ×ˢ A).filter Q) ×ˢ B by
    ext t; simp only [mem_filter, mem_product]; tauto]
  rw [card_product, ← mul_assoc]
  exact Nat.mul_le_mul_right _ h

theorem filter_last (A B : Finset F) (Q : F → Prop) [DecidablePred Q] (d : ℕ)
    (h : (B.filter Q).card ≤ d) :
    (((A ×ˢ A) ×ˢ B).filter fun t => Q t.2).card ≤ d * A.card ^ 2 := by
  rw [show (((A ×ˢ A) ×ˢ B).filter fun t => Q t.2) = (A ×ˢ A) ×ˢ (B.filter Q) by
    ext t; simp only [mem_filter, mem_product]; tauto]
  rw [card_product, card_product, mul_comm, pow_two]
  exact Nat.mul_le_mul_right _ h

theorem filter_either {α : Type} (T : Finset α) (Q R : α → Prop) [DecidablePred Q] [DecidablePred R]
    [DecidablePred fun t => Q t ∨ R t] (a b : ℕ) (h : (T.filter Q).card ≤ a)
    (h' : (T.filter R).card ≤ b) : (T.filter fun t => Q t ∨ R t).card ≤ a + b := by
  classical
  refine (card_le_card fun t ht => ?_).trans ((card_union_le _ _).trans (add_le_add h h'))
  rw [mem_union, mem_filter, mem_filter]
  rw [mem_filter] at ht
  exact ht.2.imp (⟨ht.1, ·⟩) (⟨ht.1, ·⟩)

theorem badWx_update (σ : FuseProver F) (s : Side) (x0 : F) (c : Draw F) (a b : F) :
    BadWx n σ mwx s x0 (update (update c 1 a) 2 b) ↔ BadWx n σ mwx s x0 (update c 1 a) := by
  simp only [BadWx, Draw.w, Draw.y, upTo_update _ _ _ _ (show 1 ≤ ((2 : Fin 11) : ℕ) by decide),
    update_apply, Fin.reduceEq, if_false]

open Classical in
/-- Few answers make a round bad. -/
theorem round_le [Finite F] {cs : Circuits F G} {steps : List (StepDef F)}
    (hA : AppOk C n P cs steps app) {ss : List (F → F → F)}
    (hsup : ∀ y, WiringOf C.native n app.nativeRegistry ss y (sup y))
    (hsup' : ∀ y i x, ∑ k ∈ range (4 * n), sup y i k * x ^ k =
      (app.nativeRegistry.wxy C.native n (omegaJ C.native i) x y).getD 0)
    (hl : ChildFit C n P.headerSize app l) (hr : ChildFit C n P.headerSize app r) (A B : Finset F)
    (σ : FuseProver F) (k : ℕ) (c : Draw F) :
    (((A ×ˢ A) ×ˢ B).filter fun t =>
      RoundBad C n P app sup mwy mwx mxy k l r σ (setRound k t c)).card ≤
      (16 * n + 55) * (A.card * B.card) + 36 * A.card ^ 2 := by
  have up : ∀ {x d : ℕ}, x ≤ d * (A.card * B.card) → d ≤ 16 * n + 55 →
      x ≤ (16 * n + 55) * (A.card * B.card) + 36 * A.card ^ 2 := fun h h' =>
    (h.trans (Nat.mul_le_mul_right _ h')).trans (Nat.le_add_right _ _)
  match k with
  | 0 =>
    refine up (d := 4 * n - 1 + (4 * n - 1)) ?_ (by omega)
    rw [Nat.add_mul]
    simp only [RoundBad, setRound]
    exact filter_either _ _ _ _ _
      (filter_first A B (fun a => BadW n _ _ (update c 0 a)) _ (round_w A _ _ c))
      (filter_first A B (fun a => BadW n _ _ (update c 0 a)) _ (round_w A _ _ c))
  | 1 =>
    refine up (d := 8 * n + (4 * n - 1 + (4 * n - 1))) ?_ (by omega)
    rw [Nat.add_mul, Nat.add_mul]
    simp only [RoundBad, setRound]
    refine filter_either _ _ _ _ _
      (filter_pair A B (fun p => BadJoint C n P app sup l r (update (update c 1 p.1) 2 p.2)) _
        (round_joint A hA hsup hsup' hl hr c)) (filter_either _ _ _ _ _ ?_ ?_)
    · simp only [badWx_update]
      exact filter_first A B (fun a => BadWx n σ mwx _ _ (update c 1 a)) _ (round_wx A mwx _ _ c)
    · simp only [badWx_update]
      exact filter_first A B (fun a => BadWx n σ mwx _ _ (update c 1 a)) _ (round_wx A mwx _ _ c)
  | 2 => simp [RoundBad]
  | 3 =>
    exact up (filter_pair A B (fun p => BadInner n _ l r σ sup (update (update c 3 p.1) 4 p.2)) _
      (round_inner A sup c)) (by omega)
  | 4 => simp [RoundBad]
  | 5 =>
    exact up (filter_pair A B (fun p => BadOuter n _ l r σ sup (update (update c 5 p.1) 6 p.2)) _
      (round_outer A sup c)) (by omega)
  | 6 => simp [RoundBad]
  | 7 =>
    refine up (d := 4 * n - 1 + (4 * n - 1 + (4 * n - 1))) ?_ (by omega)
    rw [Nat.add_mul, Nat.add_mul]
    simp only [RoundBad, setRound]
    exact filter_either _ _ _ _ _
      (filter_first A B (fun a => BadA n l r σ (update c 7 a)) _ (round_a A c))
      (filter_either _ _ _ _ _ (filter_first A B (fun a => BadB n l r σ sup (update c 7 a)) _ (round_b A sup c))
        (filter_first A B (fun a => BadWy n σ mwy (update c 7 a)) _ (round_wy A mwy c)))
  | 8 =>
    exact up (filter_first A B (fun a => BadAlpha n _ l r σ (update c 8 a)) _ (round_alpha A c)) (by omega)
  | 9 =>
    exact up (d := 4 * n - 1 + 55) (filter_first A B (fun a => BadU n _ l r σ (update c 9 a)) _ (round_u A c)) (by omega)
  | 10 =>
    exact (filter_last A B (fun a => BadBeta n _ l r σ (update c 10 a)) _ (round_beta B c)).trans
      (Nat.le_add_left _ _)
  | k + 11 => simp [RoundBad]

end
end Ragu.Props

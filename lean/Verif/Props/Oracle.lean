/-
Property C91: what an accepted proof says when the challenges are answers to questions.
-/
import Verif.Lemmas.OracleRounds
import Verif.Props.DerivationHonest

set_option linter.unusedSectionVars false

namespace Ragu.Props
open Ragu Ragu.Circuit Ragu.Registry Ragu.Spec Ragu.Gadget Ragu.Pcd Finset Function
variable {F G HC : Type} [Field F] [DecidableEq F] [Field G] [DecidableEq G]
  [AddCommGroup HC] [DecidableEq HC] [Module F HC]

/-- The proof `p` came out of a fuse whose challenges are answers that the prover was given, and so did
each of its children, unless its header is trivial. -/
inductive HashedFuse (C : CycleEnv F G HC) (n : ℕ) (P : StepParams F) (app : Application F G) {Q : ℕ}
    (s : Asker F G HC Q) (t : Fin Q → Answer F) : Proof F G HC → Prop
  | fuse {p : Proof F G HC} {l r : FuseChild F G HC} (m : FuseMessages F) (c : Draw F) :
      ChildFit C n P.headerSize app l → ChildFit C n P.headerSize app r →
      Plays n P (omegaJ C.native) l r m.prover c p → Hashed s t l r m c →
      (l.header[P.headerSize - 1]? ≠ some 1 → HashedFuse C n P app s t l.proof) →
      (r.header[P.headerSize - 1]? ≠ some 1 → HashedFuse C n P app s t r.proof) →
      HashedFuse C n P app s t p

section
variable {C : CycleEnv F G HC} {n : ℕ} {P : StepParams F} {cs : Circuits F G} {zeta : G}
  {steps : List (StepDef F)} {app : Application F G} {progs : List (StepProgram F)}
  {sup : F → ℕ → ℕ → F} {mwy mwx mxy : F → F → ℕ → F} {Q : ℕ}

/-- The answer `a` to the question `q` makes the round that the question is about bad. -/
def BadAnswer (C : CycleEnv F G HC) (n : ℕ) (P : StepParams F) (app : Application F G)
    (sup : F → ℕ → ℕ → F) (mwy mwx mxy : F → F → ℕ → F) (q : Question F G HC) (a : Answer F) : Prop :=
  ∃ k ∈ rounds, ∃ l r m c, ChildFit C n P.headerSize app l ∧ ChildFit C n P.headerSize app r ∧
    q = question k l r m c ∧ AnsweredBy k a c ∧ RoundBad C n P app sup mwy mwx mxy k l r m.prover c

theorem upTo_length {k : ℕ} (hk : k ∈ rounds) (c : Draw F) : (c.upTo k).length = k := by
  simp only [rounds, List.mem_cons, List.not_mem_nil, or_false] at hk
  rcases hk with rfl | rfl | rfl | rfl | rfl | rfl | rfl | rfl <;> simp [Draw.upTo]

open Classical in
theorem badAnswer_le [Finite F] (hA : AppOk C n P cs steps app) {ss : List (F → F → F)}
    (hsup : ∀ y, WiringOf C.native n app.nativeRegistry ss y (sup y))
    (hsup' : ∀ y i x, ∑ k ∈ range (4 * n), sup y i k * x ^ k =
      (app.nativeRegistry.wxy C.native n (omegaJ C.native i) x y).getD 0) (A B : Finset F)
    (q : Question F G HC) :
    (((A ×ˢ A) ×ˢ B).filter (BadAnswer C n P app sup mwy mwx mxy q)).card ≤
      (16 * n + 55) * (A.card * B.card) + 36 * A.card ^ 2 := by
  by_cases h : ∃ a, BadAnswer C n P app sup mwy mwx mxy q a
  · obtain ⟨_, k, hk, l, r, m, c, hl, hr, hq, -, -⟩ := h
    refine (card_le_card fun a ha => ?_).trans (round_le (mwy := mwy) (mwx := mwx) (mxy := mxy) hA hsup
      hsup' hl hr A B m.prover k c)
    rw [mem_filter] at ha ⊢
    refine ⟨ha.1, ?_⟩
    obtain ⟨k', hk', l', r', m', c', -, -, hq', ha', hb⟩ := ha.2
    have e : k' = k := by
      rw [← upTo_length hk c, ← upTo_length hk' c']
      exact congrArg (fun q => q.drawn.length) (hq'.symm.trans hq)
    subst e
    obtain rfl : l' = l := congrArg Question.left (hq'.symm.trans hq)
    obtain rfl : r' = r := congrArg Question.right (hq'.symm.trans hq)
    exact roundBad_congr hk (hq'.symm.trans hq) ha' hb
  · push Not at h
    rw [filter_false_of_mem fun a _ => h a, card_empty]
    exact Nat.zero_le _

open Classical in
/-- Few answers to `Q` questions are bad anywhere. -/
theorem badAnswers_le [Finite F] (hA : AppOk C n P cs steps app) {ss : List (F → F → F)}
    (hsup : ∀ y, WiringOf C.native n app.nativeRegistry ss y (sup y))
    (hsup' : ∀ y i x, ∑ k ∈ range (4 * n), sup y i k * x ^ k =
      (app.nativeRegistry.wxy C.native n (omegaJ C.native i) x y).getD 0) (A B : Finset F)
    (s : Asker F G HC Q) :
    ((answers Q A B).filter fun t =>
      ∃ j, BadAnswer C n P app sup mwy mwx mxy (s.asks t j) (t j)).card ≤
      Q * (((16 * n + 55) * (A.card * B.card) + 36 * A.card ^ 2) * (A.card ^ 2 * B.card) ^ (Q - 1)) := by
  have hT : ((A ×ˢ A) ×ˢ B).card = A.card ^ 2 * B.card := by
    rw [card_product, card_product, pow_two]
  have hone : ∀ j : Fin Q, ((answers Q A B).filter fun t =>
      BadAnswer C n P app sup mwy mwx mxy (s.asks t j) (t j)).card ≤
      ((16 * n + 55) * (A.card * B.card) + 36 * A.card ^ 2) * (A.card ^ 2 * B.card) ^ (Q - 1) := by
    intro j
    rw [← hT]
    have : Inhabited (Answer F) := ⟨((0, 0), 0)⟩
    refine count_entry (T := (A ×ˢ A) ×ˢ B) _ j _ fun t => ?_
    refine le_trans (card_le_card fun a ha => ?_) (badAnswer_le (mwy := mwy) (mwx := mwx)
      (mxy := mxy) hA hsup hsup' A B (s.asks t j))
    rw [mem_filter] at ha ⊢
    refine ⟨ha.1, ?_⟩
    have := ha.2
    simp only [Asker.asks, before_update, update_self] at this
    exact this
  have hsub : ((answers Q A B).filter fun t =>
      ∃ j, BadAnswer C n P app sup mwy mwx mxy (s.asks t j) (t j)) ⊆
      univ.biUnion fun j => (answers Q A B).filter fun t =>
        BadAnswer C n P app sup mwy mwx mxy (s.asks t j) (t j) := by
    intro t ht
    rw [mem_filter] at ht
    obtain ⟨ht, j, hj⟩ := ht
    exact mem_biUnion.2 ⟨j, mem_univ j, mem_filter.2 ⟨ht, hj⟩⟩
  refine (card_le_card hsub).trans (card_biUnion_le.trans ((sum_le_card_nsmul _ _ _ fun i _ => hone i).trans
    (le_of_eq ?_)))
  rw [card_univ, Fintype.card_fin, smul_eq_mul]

open Classical in
/-- C91: whatever a prover asks, in few of the possible answers to its `Q` questions is there any fuse at
all, of children and with messages of its choice, whose challenges are answers it was given, and which
wins although what it says of its children is false. -/
theorem C91_children [Finite F] (hA : AppOk C n P cs steps app) (s : Asker F G HC Q) (A B : Finset F) :
    ((answers Q A B).filter fun t => ∃ l r m c, Hashed s t l r m c ∧
      Mistaken C n P app l r m.prover c).card ≤
      Q * (((16 * n + 55) * (A.card * B.card) + 36 * A.card ^ 2) * (A.card ^ 2 * B.card) ^ (Q - 1)) := by
  obtain ⟨m, ss, sup, mwy, mwx, mxy, h1, h2, h3, h4, h5, h6⟩ := registry_functions hA
  refine (card_le_card fun t ht => ?_).trans (badAnswers_le (mwy := mwy) (mwx := mwx) (mxy := mxy) hA h2
    (fun y i x => by rw [h1, Option.getD_some]; exact h3 y i x) A B s)
  rw [mem_filter] at ht ⊢
  obtain ⟨ht, l, r, M, c, hh, hm⟩ := ht
  refine ⟨ht, ?_⟩
  by_contra hno
  push Not at hno
  have hr : ∀ k ∈ rounds, ¬ RoundBad C n P app sup mwy mwx mxy k l r M.prover c := by
    intro k hk hb
    obtain ⟨j, e, ha⟩ := hh k hk
    exact hno j ⟨k, hk, l, r, M, c, hm.left, hm.right, e, ha, hb⟩
  have r0 := hr 0 (by decide)
  have r1 := hr 1 (by decide)
  have r7 := hr 7 (by decide)
  simp only [RoundBad, not_or] at r0 r1 r7
  refine hm.bad (wins_sound hm.left hm.right h1 h3 h4 h5 h6 hm.base hm.wins (hr 10 (by decide))
    (hr 9 (by decide)) (hr 8 (by decide)) r7.1 r7.2.1 r7.2.2 (hr 5 (by decide)) (hr 3 (by decide)) r1.1
    ?_ ?_)
  · intro s; cases s
    · exact r1.2.1
    · exact r1.2.2
  · intro s; cases s
    · exact r0.1
    · exact r0.2

open Classical in
/-- C91: whatever a prover asks, in few of the possible answers to its `Q` questions is there a proof that
came out of fuses with these answers as challenges and is what a proof should be, with a header that is
not the end of a history of the application's steps. -/
theorem C91_history [Finite F] (hA : AppOk C n P cs steps app) (hL : LibraryCircuits P zeta cs)
    (hI : List.Forall₂ (Implements P.headerSize) steps progs) (s : Asker F G HC Q) (A B : Finset F) :
    ((answers Q A B).filter fun t => ∃ p header, HashedFuse C n P app s t p ∧
      ChildSound C n P app ⟨p, header⟩ ∧ header.getLastD 0 ≠ 0 ∧
        ¬ Derived P.headerSize progs header).card ≤
      Q * (((16 * n + 55) * (A.card * B.card) + 36 * A.card ^ 2) * (A.card ^ 2 * B.card) ^ (Q - 1)) := by
  refine (card_le_card fun t ht => ?_).trans (C91_children hA s A B)
  rw [mem_filter] at ht ⊢
  obtain ⟨ht, p, header, hp, hs, hlast, hd⟩ := ht
  refine ⟨ht, ?_⟩
  by_contra hno
  push Not at hno
  refine hd ?_
  clear hd
  induction hp generalizing header with
  | @fuse p l r m c fl fr hplay hh _ _ ihl ihr =>
    exact fuse_derived hA hL hI (hno l r m c hh) fl fr hplay
      (fun h header hs hl => ihl h header hs hl) (fun h header hs hl => ihr h header hs hl) hs hlast

theorem answers_card (A B : Finset F) : (answers Q A B).card = (A.card ^ 2 * B.card) ^ Q := by
  rw [answers, Fintype.card_piFinset, prod_const, card_univ, Fintype.card_fin, card_product,
    card_product, pow_two]

variable {Data Out : Type} {H : Header F Data Out}

open Classical in
/-- C91: the same for the verifier. Over all answers to the prover's questions for which its proof came
out of fuses with these answers as challenges, and all challenges of the verifier, few accept the proof
with data whose header is not the end of a history of the application's steps. -/
theorem C91_verified [Finite F] (hA : AppOk C n P cs steps app) (hL : LibraryCircuits P zeta cs)
    (hI : List.Forall₂ (Implements P.headerSize) steps progs) (hsuf : (H.suffix.get : F) ≠ 0)
    (s : Asker F G HC Q) (A B V : Finset F) (p : (Fin Q → Answer F) → Proof F G HC)
    (data : (Fin Q → Answer F) → Data) (hp : ∀ t, ProofTyped C n (p t))
    {ch : F → F → F → VerifyChallenges F G}
    (hch : ∀ w y z, (ch w y z).w = w ∧ (ch w y z).y = y ∧ (ch w y z).z = z) :
    ∑ t ∈ (answers Q A B).filter (fun t => HashedFuse C n P app s t (p t) ∧
        ¬ ∃ header, EncodedAs P.headerSize H (data t) header ∧ Derived P.headerSize progs header),
      (acceptedTriples C n P.headerSize app H (p t) (data t) ch V).card ≤
      Q * (((16 * n + 55) * (A.card * B.card) + 36 * A.card ^ 2) * (A.card ^ 2 * B.card) ^ (Q - 1)) *
        V.card ^ 3 + (A.card ^ 2 * B.card) ^ Q * (8 * n * V.card ^ 2) := by
  have hone : ∀ t, (HashedFuse C n P app s t (p t) ∧
      ¬ ∃ header, EncodedAs P.headerSize H (data t) header ∧ Derived P.headerSize progs header) →
      (acceptedTriples C n P.headerSize app H (p t) (data t) ch V).card ≤
      (if ∃ p header, HashedFuse C n P app s t p ∧ ChildSound C n P app ⟨p, header⟩ ∧
        header.getLastD 0 ≠ 0 ∧ ¬ Derived P.headerSize progs header
        then V.card ^ 3 else 0) + 8 * n * V.card ^ 2 := by
    rintro t ⟨ht, hno⟩
    by_cases h : (acceptedTriples C n P.headerSize app H (p t) (data t) ch V).card ≤
        8 * n * V.card ^ 2
    · omega
    · obtain ⟨header, he, -, hs⟩ := C87_accepted hA (hp t) hch (not_le.1 h)
      rw [if_pos ⟨p t, header, ht, hs, by rw [encodedAs_last he]; exact hsuf,
        fun hd => hno ⟨header, he, hd⟩⟩]
      refine le_trans (card_filter_le _ _) ?_
      rw [card_product, card_product]
      have : V.card * (V.card * V.card) = V.card ^ 3 := by ring
      omega
  refine (sum_le_sum fun t ht => hone t (mem_filter.1 ht).2).trans
    ((sum_le_sum_of_subset (filter_subset _ _)).trans ?_)
  rw [sum_add_distrib, sum_const, ← sum_filter, sum_const, smul_eq_mul, smul_eq_mul]
  exact add_le_add (Nat.mul_le_mul_right _ (C91_history hA hL hI s A B))
    (le_of_eq (by rw [answers_card]))

/-! ### Honest provers -/

/-- The messages a prover sends when the challenges are `c`. -/
def messagesOf (σ : FuseProver F) (c : Draw F) : FuseMessages F where
  wx s := σ.wx s (c.upTo 1)
  wy := σ.wy (c.upTo 3)
  innerErrs := σ.innerErrs (c.upTo 3)
  outerErrs := σ.outerErrs (c.upTo 5)
  a := σ.a (c.upTo 7)
  b := σ.b (c.upTo 7)
  xy := σ.xy (c.upTo 8)
  query := σ.query (c.upTo 8)
  f := σ.f (c.upTo 9)
  eval := σ.eval (c.upTo 10)

/-- The challenges of a fuse whose rounds are the first eight answers. -/
def drawOf (l : List (Answer F)) : Draw F :=
  let a := fun i => (l[i]?).getD ((0, 0), 0)
  ![(a 0).1.1, (a 1).1.1, (a 1).1.2, (a 2).1.1, (a 2).1.2, (a 3).1.1, (a 3).1.2, (a 4).1.1, (a 5).1.1,
    (a 6).1.1, (a 7).2]

theorem drawOf_take (L : List (Answer F)) {q : ℕ} (hq : 8 ≤ q) : drawOf (L.take q) = drawOf L := by
  have h : ∀ i < 8, (L.take q)[i]? = L[i]? := fun i hi => by
    rw [List.getElem?_take, if_pos (by omega)]
  simp only [drawOf, h 0 (by omega), h 1 (by omega), h 2 (by omega), h 3 (by omega), h 4 (by omega),
    h 5 (by omega), h 6 (by omega), h 7 (by omega)]

/-- A transcript is the same for those who know the later answers and those who do not. -/
theorem question_take (L : List (Answer F)) (l r : FuseChild F G HC) (σ : FuseProver F) {m : ℕ}
    (hm : m < 8) : question (rounds[m]?.getD 0) l r (messagesOf σ (drawOf (L.take m)))
      (drawOf (L.take m)) =
    question (rounds[m]?.getD 0) l r (messagesOf σ (drawOf L)) (drawOf L) := by
  have h : ∀ k, (drawOf (L.take m)).upTo k = (drawOf L).upTo k ∨ rounds[m]?.getD 0 < k := by
    intro k
    by_cases hk : rounds[m]?.getD 0 < k
    · exact .inr hk
    refine .inl ?_
    have key : (drawOf (L.take m)).upTo (rounds[m]?.getD 0) = (drawOf L).upTo (rounds[m]?.getD 0) := by
      interval_cases m <;>
        simp [rounds, Draw.upTo, drawOf]
    have := congrArg (List.take k) key
    simp only [Draw.upTo, List.take_take] at this ⊢
    rwa [min_eq_left (by omega)] at this
  have e : ∀ {α : Type} (k : ℕ) (g : List F → α),
      (if k ≤ rounds[m]?.getD 0 then some (g ((drawOf (L.take m)).upTo k)) else none) =
      if k ≤ rounds[m]?.getD 0 then some (g ((drawOf L).upTo k)) else none := by
    intro α k g
    rcases h k with h | h
    · rw [h]
    · rw [if_neg (by omega), if_neg (by omega)]
  simp only [question, messagesOf]
  congr 1
  · exact e 1 fun c s => σ.wx s c
  · exact e 3 σ.wy
  · exact e 3 σ.innerErrs
  · exact e 5 σ.outerErrs
  · exact e 7 σ.a
  · exact e 7 σ.b
  · exact e 8 σ.xy
  · exact e 8 σ.query
  · exact e 9 σ.f
  · exact e 10 σ.eval
  · rcases h (rounds[m]?.getD 0) with h | h
    · exact h
    · omega

/-- A prover of `k` fuses as one that asks eight questions for each. -/
def askAll {k : ℕ} (s : Strategy F G HC k) : Asker F G HC (k * 8) := fun j as =>
  let i : Fin k := ⟨j / 8, by omega⟩
  let prev := (List.ofFn fun i : Fin k => drawOf (as.drop (8 * i))).take i
  let d := drawOf (as.drop (8 * i))
  question (rounds[(j : ℕ) % 8]?.getD 0) (s.left i prev) (s.right i prev) (messagesOf (s.prover i prev) d) d

/-- The answers that give the challenges `c`. -/
def answerFor (c : Draw F) (m : ℕ) : Answer F :=
  match m with
  | 1 => ((c.y, c.z), c.beta)
  | 2 => ((c.mu, c.nu), c.beta)
  | 3 => ((c.muPrime, c.nuPrime), c.beta)
  | 4 => ((c.x, c.x), c.beta)
  | 5 => ((c.alpha, c.alpha), c.beta)
  | 6 => ((c.u, c.u), c.beta)
  | _ => ((c.w, c.w), c.beta)

theorem answerFor_mem {c : Draw F} {A B : Finset F} (hA : ∀ j : Fin 11, j ≠ 10 → c j ∈ A)
    (hB : c 10 ∈ B) (m : ℕ) : answerFor c m ∈ (A ×ˢ A) ×ˢ B := by
  unfold answerFor
  split <;> simp only [mem_product] <;> exact ⟨⟨hA _ (by decide), hA _ (by decide)⟩, hB⟩

theorem plays_messages {l r : FuseChild F G HC} {σ : FuseProver F} {c : Draw F} {p : Proof F G HC}
    {om : ℕ → F} (h : Plays n P om l r σ c p) : Plays n P om l r (messagesOf σ c).prover c p :=
  ⟨h.challenges, h.beta, h.stages, h.a, h.b, h.xy, h.batch⟩

/-- C91: eight questions for each fuse give a prover all that it has when the challenges are drawn by
someone else: for every prover of `k` fuses there is one with `8 k` questions such that, for every choice
of challenges, with some answers all proofs come out that come out of the fuses. -/
theorem C91_asks {k : ℕ} (s : Strategy F G HC k) (A B : Finset F) :
    ∃ S : Asker F G HC (k * 8), ∀ c ∈ runs k A B, ∃ t ∈ answers (k * 8) A B,
      ∀ p, Fused C n P app s c p → HashedFuse C n P app S t p := by
  refine ⟨askAll s, fun c hc => ?_⟩
  rw [runs, Fintype.mem_piFinset] at hc
  have hcA : ∀ i (j : Fin 11), j ≠ 10 → c i j ∈ A := fun i j hj => by
    have := Fintype.mem_piFinset.1 (hc i) j
    rwa [if_neg hj] at this
  have hcB : ∀ i, c i 10 ∈ B := fun i => by
    have := Fintype.mem_piFinset.1 (hc i) 10
    rwa [if_pos rfl] at this
  let t : Fin (k * 8) → Answer F := fun j => answerFor (c ⟨j / 8, by omega⟩) (j % 8)
  have ht : ∀ (i : Fin k) (m : ℕ) (hm : m < 8), t ⟨8 * i + m, by omega⟩ = answerFor (c i) m := by
    intro i m hm
    simp only [t]
    congr 2
    · ext; simp only; omega
    · omega
  have hL : ∀ (i : Fin k) (m : ℕ), m < 8 → ((List.ofFn t).drop (8 * i))[m]? = some (answerFor (c i) m) := by
    intro i m hm
    rw [List.getElem?_drop, List.getElem?_ofFn, dif_pos (by omega), ht i m hm]
  have hd : ∀ i : Fin k, drawOf ((List.ofFn t).drop (8 * i)) = c i := by
    intro i
    simp only [drawOf, hL i _ (show 0 < 8 by omega), hL i _ (show 1 < 8 by omega),
      hL i _ (show 2 < 8 by omega), hL i _ (show 3 < 8 by omega), hL i _ (show 4 < 8 by omega),
      hL i _ (show 5 < 8 by omega), hL i _ (show 6 < 8 by omega), hL i _ (show 7 < 8 by omega),
      Option.getD_some, answerFor]
    funext j
    fin_cases j <;> rfl
  have hasks : ∀ (i : Fin k) (m : ℕ) (hm : m < 8), (askAll s).asks t ⟨8 * i + m, by omega⟩ =
      question (rounds[m]?.getD 0) (s.left i (before c i)) (s.right i (before c i))
        (messagesOf (s.prover i (before c i)) (c i)) (c i) := by
    intro i m hm
    have e1 : (8 * (i : ℕ) + m) / 8 = i := by omega
    have e2 : (8 * (i : ℕ) + m) % 8 = m := by omega
    have e3 : ∀ i' : Fin k, (i' : ℕ) < i →
        drawOf (((List.ofFn t).take (8 * i + m)).drop (8 * i')) = c i' := by
      intro i' hi
      rw [List.drop_take, drawOf_take _ (by omega), hd]
    have e4 : (List.ofFn fun i' : Fin k => drawOf (((List.ofFn t).take (8 * i + m)).drop (8 * i'))).take i =
        before c i := by
      apply List.ext_getElem
      · simp [before]
      · intro j h1 h2
        simp only [List.length_take, List.length_ofFn] at h1
        simp only [before, List.getElem_take, List.getElem_ofFn]
        exact e3 ⟨j, by omega⟩ (by simp only; omega)
    simp only [Asker.asks, askAll, e1, e2]
    rw [e4, List.drop_take, Nat.add_sub_cancel_left, question_take _ _ _ _ hm, hd]
  refine ⟨t, ?_, fun p hp => ?_⟩
  · rw [answers, Fintype.mem_piFinset]
    intro j
    exact answerFor_mem (hcA _) (hcB _) _
  · induction hp with
    | @fuse p i fl fr hplay _ _ ihl ihr =>
      refine .fuse (messagesOf (s.prover i (before c i)) (c i)) (c i) fl fr (plays_messages hplay) ?_ ihl ihr
      intro q hq
      simp only [rounds, List.mem_cons, List.not_mem_nil, or_false] at hq
      rcases hq with rfl | rfl | rfl | rfl | rfl | rfl | rfl | rfl
      · exact ⟨_, hasks i 0 (by omega), by rw [ht i 0 (by omega)]; rfl⟩
      · exact ⟨_, hasks i 1 (by omega), by rw [ht i 1 (by omega)]; exact ⟨rfl, rfl⟩⟩
      · exact ⟨_, hasks i 2 (by omega), by rw [ht i 2 (by omega)]; exact ⟨rfl, rfl⟩⟩
      · exact ⟨_, hasks i 3 (by omega), by rw [ht i 3 (by omega)]; exact ⟨rfl, rfl⟩⟩
      · exact ⟨_, hasks i 4 (by omega), by rw [ht i 4 (by omega)]; rfl⟩
      · exact ⟨_, hasks i 5 (by omega), by rw [ht i 5 (by omega)]; rfl⟩
      · exact ⟨_, hasks i 6 (by omega), by rw [ht i 6 (by omega)]; rfl⟩
      · exact ⟨_, hasks i 7 (by omega), by rw [ht i 7 (by omega)]; rfl⟩

end

section
open Ragu.Pasta

theorem small_answers {Q N b : ℕ} (h : 2 ^ 100 < N) (hQ : Q ≤ 2 ^ 80)
    (hb : b ≤ Q * ((32823 * (N * N) + 36 * N ^ 2) * (N ^ 2 * N) ^ (Q - 1))) :
    4 * b < (N ^ 2 * N) ^ Q := by
  have hN : 0 < N := by omega
  rcases Q with _ | k
  · simp at hb ⊢; omega
  have e : 32823 * (N * N) + 36 * N ^ 2 = 32859 * N ^ 2 := by ring
  rw [e, Nat.add_sub_cancel] at hb
  have h1 : 4 * (k + 1) * 32859 < N := by omega
  calc 4 * b ≤ 4 * ((k + 1) * (32859 * N ^ 2 * (N ^ 2 * N) ^ k)) := Nat.mul_le_mul_left _ hb
    _ = 4 * (k + 1) * 32859 * (N ^ 2 * (N ^ 2 * N) ^ k) := by ring
    _ < N * (N ^ 2 * (N ^ 2 * N) ^ k) := Nat.mul_lt_mul_of_pos_right h1 (by positivity)
    _ = _ := by ring

open Classical in
/-- Non-vacuity of C91_children and C91_history: the application of squares over the Pasta cycle.
Whatever a prover asks in up to 2^80 questions, for fewer than a quarter of the answers there is a fuse
that wins although what it says of its children is false, and for fewer than a quarter there is a proof
from fuses with these answers that is what a proof should be for an element that is not a square. -/
example : ∃ (V : FuseEnvironment Fp Fq Vesta) (steps : List (StepDef Fp)), Prepared V steps ∧
    ∀ Q ≤ 2 ^ 80, ∀ s : Asker Fp Fq Vesta Q,
    4 * ((answers Q (univ : Finset Fp) univ).filter fun t => ∃ l r m c, Hashed s t l r m c ∧
      Mistaken V.C V.n V.P V.app l r m.prover c).card < (answers Q (univ : Finset Fp) univ).card ∧
    4 * ((answers Q (univ : Finset Fp) univ).filter fun t => ∃ p x header,
      HashedFuse V.C V.n V.P V.app s t p ∧ EncodedAs V.P.headerSize (elementHeader Fp) x header ∧
      ChildSound V.C V.n V.P V.app ⟨p, header⟩ ∧ ¬ IsSquare x).card <
      (answers Q (univ : Finset Fp) univ).card := by
  obtain ⟨V, steps, hV, hT, hn, hh, hL, hI⟩ := pasta_squares
  refine ⟨V, steps, hV, fun Q hQ s => ?_⟩
  have ha := C91_children hV.app s univ univ
  have hb := C91_history hV.app hL (by rw [hh]; exact hI) s univ univ
  rw [show 16 * V.n + 55 = 32823 by rw [hn]] at ha hb
  have hc : 2 ^ 100 < (univ : Finset Fp).card := by
    rw [card_univ, ← Nat.card_eq_fintype_card, Nat.card_zmod]
    exact pasta_huge
  rw [answers_card]
  refine ⟨small_answers hc hQ ha, small_answers hc hQ (le_trans (card_le_card fun t ht => ?_) hb)⟩
  rw [mem_filter] at ht ⊢
  obtain ⟨ht, p, x, header, hp, he, hs, hx⟩ := ht
  rw [hh] at he ⊢
  refine ⟨ht, p, header, hp, hs, ?_, fun hd => hx ?_⟩
  · rw [encodedAs_last he, element_suffix]; exact pasta_two.1
  · rw [encoded_element he] at hd
    obtain ⟨a, ha⟩ := squares_derived pasta_two.2 hd rfl
    exact ⟨a, by rw [← pow_two]; exact Option.some.inj ha⟩

/-- Non-vacuity of C91_asks: in the same application, what `seed` makes comes out with some answers to
eight questions. -/
example : ∃ (V : FuseEnvironment Fp Fq Vesta) (steps : List (StepDef Fp)), Prepared V steps ∧
    ∀ {D O : Type} {H : Header Fp D O} {q p : Proof Fp Fq Vesta} {d : D} {c0 : Circ Fp} {j : ℕ}
      {code : Syn Fp (Except Pcd.Err (AdapterOut Fp D))}, IsTrivial V q →
      RunsStep V steps Header.unit Header.unit H () () c0 j code →
      V.fuse c0 j code q q (.ok (p, d)) → UsablePoint V q q p →
      (∀ i < V.P.endo.nbits, p.challenges.preBeta + (i : Fp) ≠ 0) →
      ∃ (S : Asker Fp Fq Vesta 8) (t : Fin 8 → Answer Fp), HashedFuse V.C V.n V.P V.app S t p := by
  obtain ⟨V, steps, hV, hT, hn, hh, hL, hI⟩ := pasta_squares
  refine ⟨V, steps, hV, fun hq hs h hu hpb => ?_⟩
  obtain ⟨s, c, hf⟩ := C88_seed hV.app hV.curve hq (hT _ hq) (runsStep_fuses hs h hu) hpb
  obtain ⟨S, hS⟩ := C91_asks (C := V.C) (n := V.n) (P := V.P) (app := V.app) s univ univ
  obtain ⟨t, -, ht⟩ := hS c (by simp [runs, draws])
  exact ⟨S, t, ht _ hf⟩

open Classical in
/-- Non-vacuity of C91_verified: in the same application, with eight questions. -/
example : ∃ (V : FuseEnvironment Fp Fq Vesta) (steps : List (StepDef Fp)) (p : Proof Fp Fq Vesta),
    Prepared V steps ∧ ProofTyped V.C V.n p ∧
    ∀ (s : Asker Fp Fq Vesta 8) (ps : (Fin 8 → Answer Fp) → Proof Fp Fq Vesta)
      (x : (Fin 8 → Answer Fp) → Fp), (∀ t, ProofTyped V.C V.n (ps t)) → ∀ A : Finset Fp,
      ∑ t ∈ (answers 8 A A).filter (fun t => HashedFuse V.C V.n V.P V.app s t (ps t) ∧ ¬ IsSquare (x t)),
        (acceptedTriples V.C V.n V.P.headerSize V.app (elementHeader Fp) (ps t) (x t)
          (fun w y z => ⟨w, y, z, 0, 0⟩) A).card ≤
      8 * 32859 * A.card ^ 23 * A.card ^ 3 + A.card ^ 24 * (16384 * A.card ^ 2) := by
  obtain ⟨V, steps, hV, hT, hn, hh, hL, hI⟩ := pasta_squares
  obtain ⟨q, hq, -⟩ := seed_fits hV hT
  refine ⟨V, steps, q, hV, (trivial_fit hV.app hV.curve hq (hT q hq)).typed, fun s ps x hp A => ?_⟩
  have hb := C91_verified (H := elementHeader Fp) hV.app hL (by rw [hh]; exact hI)
    (by rw [element_suffix]; exact pasta_two.1) s A A A ps x hp
    (ch := fun w y z => ⟨w, y, z, 0, 0⟩) (fun _ _ _ => ⟨rfl, rfl, rfl⟩)
  rw [show 16 * V.n + 55 = 32823 by rw [hn], show 8 * V.n = 16384 by rw [hn]] at hb
  refine (sum_le_sum_of_subset fun t ht => ?_).trans (hb.trans (le_of_eq (by ring)))
  rw [mem_filter] at ht ⊢
  obtain ⟨ht, h1, h2⟩ := ht
  refine ⟨ht, h1, ?_⟩
  rintro ⟨header, he, hd⟩
  refine h2 ?_
  rw [hh] at he hd
  rw [encoded_element he] at hd
  obtain ⟨a, ha⟩ := squares_derived pasta_two.2 hd rfl
  exact ⟨a, by rw [← pow_two]; exact Option.some.inj ha⟩

end
end Ragu.Props

/-
Fuses whose challenges are answers to questions: a prover asks what challenges follow on a transcript
of its choice, as often as it likes, and each answer is drawn anew.
-/
import Verif.Spec.Recursion

namespace Ragu.Spec
open Ragu Ragu.Pcd Finset
variable {F G HC : Type}

/-- The messages of one fuse. -/
structure FuseMessages (F : Type) where
  wx : Side → ℕ → F
  wy : ℕ → F
  innerErrs : List (List F)
  outerErrs : List F
  a : ℕ → F
  b : ℕ → F
  xy : ℕ → F
  query : QueryOutput F
  f : ℕ → F
  eval : EvalOutput F

/-- The prover that sends these messages whatever the challenges are. -/
def FuseMessages.prover (m : FuseMessages F) : FuseProver F where
  wx s _ := m.wx s
  wy _ := m.wy
  innerErrs _ := m.innerErrs
  outerErrs _ := m.outerErrs
  a _ := m.a
  b _ := m.b
  xy _ := m.xy
  query _ := m.query
  f _ := m.f
  eval _ := m.eval

/-- What a transcript holds at some point: the children, the messages sent so far and the challenges drawn
so far. -/
structure Question (F G HC : Type) where
  left : FuseChild F G HC
  right : FuseChild F G HC
  wx : Option (Side → ℕ → F)
  wy : Option (ℕ → F)
  innerErrs : Option (List (List F))
  outerErrs : Option (List F)
  a : Option (ℕ → F)
  b : Option (ℕ → F)
  xy : Option (ℕ → F)
  query : Option (QueryOutput F)
  f : Option (ℕ → F)
  eval : Option (EvalOutput F)
  drawn : List F

/-- The transcript when `k` challenges have been drawn. -/
def question (k : ℕ) (l r : FuseChild F G HC) (m : FuseMessages F) (c : Draw F) : Question F G HC where
  left := l
  right := r
  wx := if 1 ≤ k then some m.wx else none
  wy := if 3 ≤ k then some m.wy else none
  innerErrs := if 3 ≤ k then some m.innerErrs else none
  outerErrs := if 5 ≤ k then some m.outerErrs else none
  a := if 7 ≤ k then some m.a else none
  b := if 7 ≤ k then some m.b else none
  xy := if 8 ≤ k then some m.xy else none
  query := if 8 ≤ k then some m.query else none
  f := if 9 ≤ k then some m.f else none
  eval := if 10 ≤ k then some m.eval else none
  drawn := c.upTo k

/-- The answer to a question: two field elements, of which some rounds need one and some both, and a
multiplier for the batching. -/
abbrev Answer (F : Type) := (F × F) × F

/-- The numbers of challenges that are drawn before each round. -/
def rounds : List ℕ := [0, 1, 3, 5, 7, 8, 9, 10]

/-- The challenges of the round after `k` challenges are those of the answer. -/
def AnsweredBy (k : ℕ) (t : Answer F) (c : Draw F) : Prop :=
  match k with
  | 0 => c.w = t.1.1
  | 1 => c.y = t.1.1 ∧ c.z = t.1.2
  | 3 => c.mu = t.1.1 ∧ c.nu = t.1.2
  | 5 => c.muPrime = t.1.1 ∧ c.nuPrime = t.1.2
  | 7 => c.x = t.1.1
  | 8 => c.alpha = t.1.1
  | 9 => c.u = t.1.1
  | _ => c.beta = t.2

/-- A prover with `Q` questions: each is chosen with the answers so far. -/
abbrev Asker (F G HC : Type) (Q : ℕ) := Fin Q → List (Answer F) → Question F G HC

/-- The question that is asked as number `j` when the answers are `t`. -/
def Asker.asks {Q : ℕ} (s : Asker F G HC Q) (t : Fin Q → Answer F) (j : Fin Q) : Question F G HC :=
  s j ((List.ofFn t).take j)

/-- All answers to `Q` questions, with multipliers from `B` and the other challenges from `A`. -/
def answers (Q : ℕ) (A B : Finset F) : Finset (Fin Q → Answer F) :=
  Fintype.piFinset fun _ => (A ×ˢ A) ×ˢ B

/-- The challenges of the fuse of `l` and `r` with the messages `m` are what the prover was told for the
transcript of the fuse in each round. -/
def Hashed {Q : ℕ} (s : Asker F G HC Q) (t : Fin Q → Answer F) (l r : FuseChild F G HC)
    (m : FuseMessages F) (c : Draw F) : Prop :=
  ∀ k ∈ rounds, ∃ j, s.asks t j = question k l r m c ∧ AnsweredBy k (t j) c

end Ragu.Spec

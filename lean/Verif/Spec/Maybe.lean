/-
Options with closures, and which programs do not look at what closures did.
-/
import Verif.Model.Maybe

namespace Ragu.Spec
open Ragu.Maybe
variable {σ α β E τ V C : Type}

/-- `Option::map`. -/
def optMap (v : Option α) (f : α → Closure σ β) : Closure σ (Option β) := fun s =>
  match v with
  | none => (some none, s)
  | some a => ((f a s).1.map some, (f a s).2)

/-- `Option::and_then`. -/
def optAndThen (v : Option α) (f : α → Closure σ (Option β)) : Closure σ (Option β) := fun s =>
  match v with
  | none => (some none, s)
  | some a => f a s

/-- No operation needs a value that is not there: each refers to one of the `n` values there are, or to one
that was made since. -/
def Scoped : ℕ → MProg σ τ V E C → Prop
  | _, .done => True
  | n, .assign _ next => Scoped n next
  | n, .look next => ∀ s t, Scoped n (next s t)
  | n, .op (.cast r m _) next => r < n ∧ Scoped (n + m) next
  | n, .op (.map r _) next | n, .op (.andThen r _) next | n, .op (.clone r _) next
  | n, .op (.asMut r _) next => r < n ∧ Scoped (n + 1) next
  | n, .op _ next => Scoped (n + 1) next

/-- The control flow does not read the variables that closures capture. -/
def Blind : MProg σ τ V E C → Prop
  | .done => True
  | .op _ next | .assign _ next => Blind next
  | .look next => (∀ s s' t, next s t = next s' t) ∧ ∀ s t, Blind (next s t)

end Ragu.Spec

/-
What is asked of routine predictions, and the code without them.
-/
import Verif.Model.Witness

namespace Ragu.Spec
open Ragu Ragu.Witness
variable {E F : Type} [Field F] [DecidableEq F]

/-- Predictions are right: wherever a routine is reached and predicts an output, executing it in place
returns that output, if it returns one. -/
def Faithful : {α : Type} → WCode E F α → Prop
  | _, .ret _ => True
  | _, .stop _ => True
  | _, .gate _ k => Faithful k
  | _, .alloc _ k => Faithful k
  | _, .call predict exec k => ∀ o a, wireless predict = .ok (o, a) →
      Faithful (exec a) ∧ (∀ v w, o = some v → inPlace (exec a) = .ok w → w = v) ∧
      ∀ w, inPlace (exec a) = .ok w → Faithful (k w)

/-- The same code, where no routine says what it will return. -/
def withhold : {α : Type} → WCode E F α → WCode E F α
  | _, .ret a => .ret a
  | _, .stop x => .stop x
  | _, .gate v k => .gate v (withhold k)
  | _, .alloc v k => .alloc v (withhold k)
  | _, .call predict exec k =>
    .call (predict.bind fun r => .ret (none, r.2)) (fun a => withhold (exec a)) fun o => withhold (k o)

/-- Every way in which the code, or a routine it calls, can end early satisfies `P`. -/
def Stops (P : Stop E → Prop) : {α : Type} → WCode E F α → Prop
  | _, .ret _ => True
  | _, .stop x => P x
  | _, .gate v k => (∀ x, v = .error x → P x) ∧ Stops P k
  | _, .alloc v k => (∀ x, v = .error x → P x) ∧ Stops P k
  | _, .call predict exec k => (∀ x, wireless predict = .error x → P x) ∧
      ∀ o a, wireless predict = .ok (o, a) → Stops P (exec a) ∧ ∀ w, Stops P (k w)

end Ragu.Spec

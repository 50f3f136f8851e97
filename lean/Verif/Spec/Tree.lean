/-
What a gadget consists of.
-/
import Verif.Model.Gadget.Tree

namespace Ragu.Spec
open Ragu Ragu.Circuit Ragu.Gadget
variable {S W W' V : Type}

/-- The wires of a gadget, in the order in which the fields are declared. -/
def wiresOf : Tree W V → List W
  | .wire w => [w]
  | .pair a b => wiresOf a ++ wiresOf b
  | .demoted t => wiresOf t
  | _ => []

/-- The witness values of a gadget outside of demoted parts, in the same order. -/
def valuesOf : Tree W V → List (Option V)
  | .value v => [v]
  | .pair a b => valuesOf a ++ valuesOf b
  | _ => []

/-- Two gadgets, maybe over different drivers, have the same arrangement of fields. -/
def SameKind : Tree W V → Tree W' V → Prop
  | .unit, .unit => True
  | .phantom, .phantom => True
  | .wire _, .wire _ => True
  | .value _, .value _ => True
  | .pair a b, .pair c d => SameKind a c ∧ SameKind b d
  | .demoted a, .demoted b => SameKind a b
  | _, _ => False

/-- A gadget over a driver that has witnesses, or over one that has not: a value is there exactly if the
driver has witnesses and the value is not in a demoted part. -/
def Over : Bool → Tree W V → Prop
  | has, .value v => v.isSome = has
  | has, .pair a b => Over has a ∧ Over has b
  | _, .demoted t => Over false t
  | _, _ => True

/-- Converting a list of wires one after the other, up to the first failure. -/
def convertAll (wm : WireMap S W W') : List W → S → S × Except Err (List W')
  | [], s => (s, .ok [])
  | w :: ws, s =>
    match wm w s with
    | (s', .error e) => (s', .error e)
    | (s', .ok w') =>
      match convertAll wm ws s' with
      | (s'', .error e) => (s'', .error e)
      | (s'', .ok ws') => (s'', .ok (w' :: ws'))

/-- A field as it has to be annotated: `value`, `wire` or `phantom` for what is one, and `gadget` or
nothing for another gadget. -/
def Annotated : List Attr × Tree W V → Prop
  | (attrs, .value _) => attrs = [.value]
  | (attrs, .wire _) => attrs = [.wire]
  | (attrs, .phantom) => attrs = [.phantom]
  | (attrs, _) => attrs = [.gadget] ∨ attrs = []

end Ragu.Spec

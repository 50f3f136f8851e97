/-
The order of the fields of the unified instance, and the wires that gadget code makes.
-/
import Verif.Model.Pcd.Unified

namespace Ragu.Pcd
open Ragu Ragu.Circuit Ragu.Gadget
variable {F : Type} [Field F] [DecidableEq F]

/-- The table in the documentation of the fields, crates/ragu_pcd/src/internal/native/unified.rs:243-286: each
commitment of a round comes before the challenges that are drawn after it. -/
def slotOrder : List SlotId :=
  [.bridgePreamble, .w,
   .bridgeSPrime, .y, .z,
   .bridgeInnerError, .mu, .nu,
   .bridgeOuterError, .muPrime, .nuPrime,
   .c,
   .bridgeAb, .x,
   .bridgeQuery, .alpha,
   .bridgeF, .u,
   .bridgeEval, .preBeta,
   .v]

/-- What code makes: a gate with four wires, or one wire. -/
inductive Made (F : Type) where
  | gate (a b c d : F)
  | wire (v : F)

/-- The gates and wires that code makes, in order, with the values of their closures. -/
def made {α : Type} : Syn F α → List (Made F)
  | .ret _ => []
  | .gate w k => .gate w.1 w.2.1 w.2.2.1 w.2.2.2 :: made (k w.1 w.2.1 w.2.2.1 w.2.2.2)
  | .alloc w k => .wire w :: made (k w)
  | .enforce _ k => made k
  | .check _ k => made k
  | .panic => []

/-- The gates and wires of a field with a given value: one wire for an element, and three gates for a point, for
the square and the cube of `x` and the square of `y`. (The identity is refused by the closure, so its
coordinates do not matter.) -/
def fieldMade : (k : Kind) → k.Native F → List (Made F)
  | .element, v => [.wire v]
  | .point, n =>
    let x := (n.getD (0, 0)).1
    let y := (n.getD (0, 0)).2
    [.gate x x (x ^ 2) 0, .gate x (x ^ 2) (x * x ^ 2) 0, .gate y y (y ^ 2) 0]

end Ragu.Pcd

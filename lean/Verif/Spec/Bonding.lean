/-
What a bonding circuit must not do.
-/
import Verif.Spec.Circuit

namespace Ragu.Spec
open Ragu Ragu.Circuit
variable {F : Type}

/-- A linear combination that refers to the driver's constant wire `ONE`. -/
def RefersOne (lc : List (LcStep F WRef)) : Prop := ∃ c, LcStep.term .one c ∈ lc

/-- Somewhere, possibly inside a routine, the program creates a gate or refers to `ONE`. A
`constant` refers to `ONE`. -/
def Forbidden : Prog F → Prop
  | .done => False
  | .gate _ _ _ _ _ => True
  | .mul _ _ _ _ => True
  | .alloc _ k => Forbidden k
  | .add lc k => RefersOne lc ∨ Forbidden k
  | .enforce lc k => RefersOne lc ∨ Forbidden k
  | .routine _ b k => Forbidden b ∨ Forbidden k
  | .clone _ k => Forbidden k
  | .drop _ k => Forbidden k

/-- The constraints of a circuit other than the last, which is the one on the constant wire. -/
def bondRows {F : Type} [Field F] (φ : Base → F) (c : Circ F) : List (Row F) :=
  (constraints φ c).dropLast

end Ragu.Spec

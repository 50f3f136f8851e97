/-
What executing a circuit on a witness means: the value of every wire, and the
list of everything that ought to hold.
-/
import Verif.Spec.Circuit

namespace Ragu.Circuit
open Ragu
variable {F : Type} [Field F]

/-- Everything synthesis asked for, in order. -/
structure Checks (F : Type) where
  gates : List (F × F × F × F) := []
  cons : List F := []

/-- Execution on values: gate and allocated wires take the given values, other
wires the value of their linear combination; requested gates and constraints are
recorded. -/
def valD : Driver F F (Checks F) where
  one := 1
  gate a b c d s := .ok ({ s with gates := s.gates ++ [(a, b, c, d)] }, a, b, c, d)
  mul a b c s := .ok ({ s with gates := s.gates ++ [(a, b, c, 0)] }, a, b, c)
  alloc v s := .ok (s, v)
  add lc s := .ok (s, lcVal 1 lc)
  enforce lc s := .ok { s with cons := s.cons ++ [lcVal 1 lc] }
  enter _ s := .ok s
  leave _ _ s := .ok s
  clone _ s := .ok s
  drop _ s := .ok s

/-- All requested gates and constraints hold. -/
def Checks.Hold (k : Checks F) : Prop :=
  (∀ g ∈ k.gates, g.1 * g.2.1 = g.2.2.1 ∧ g.2.2.1 * g.2.2.2 = 0) ∧ ∀ v ∈ k.cons, v = 0

end Ragu.Circuit

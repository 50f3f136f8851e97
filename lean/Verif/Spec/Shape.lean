/-
The shape of a circuit: everything that does not depend on the witness.
-/
import Verif.Spec.Circuit

namespace Ragu.Circuit
open Ragu
variable {F : Type} [Zero F]

/-- The same calls with every witness value replaced by zero and every routine call executed in
place. -/
def Prog.blank : Prog F → Prog F
  | .done => .done
  | .gate _ _ _ _ k => .gate 0 0 0 0 k.blank
  | .mul _ _ _ k => .mul 0 0 0 k.blank
  | .alloc _ k => .alloc 0 k.blank
  | .add lc k => .add lc k.blank
  | .enforce lc k => .enforce lc k.blank
  | .routine call b k => .routine { call with known := false } b.blank k.blank
  | .clone w k => .clone w k.blank
  | .drop w k => .drop w k.blank

/-- The circuit without its witness. -/
def Circ.blank (c : Circ F) : Circ F := ⟨c.body.blank, c.outs, c.cleanup⟩

/-- Two syntheses of the same circuit, on different witnesses. -/
def Circ.SameShape (c c' : Circ F) : Prop := c.blank = c'.blank

end Ragu.Circuit

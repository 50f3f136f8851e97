/-
What a header at the end of a history of steps means.
-/
import Verif.Model.Pcd.StepProgram

namespace Ragu.Spec
open Ragu Ragu.Gadget Ragu.Pcd
variable {F : Type} [Field F] [DecidableEq F]

/-- The wires `h` are those of the gadget `g` for a header: what `g` writes, zeros, and the suffix, `N`
in all. -/
def HeaderWires {D O : Type} (N : ℕ) (H : Header F D O) (g : O) (h : List F) : Prop :=
  (H.write g).length ≤ N - 1 ∧ h = (H.write g).map (·.wire) ++
    List.replicate (N - 1 - (H.write g).length) 0 ++ [(H.suffix.get : F)]

/-- The constraints of the step are satisfiable with the headers `l` and `r` as inputs and `h` as
output. -/
def StepSat (N : ℕ) (s : StepProgram F) (l r h : List F) : Prop :=
  ∃ w gl gr go d, (s.code w).sat (gl, gr, go, d) ∧ HeaderWires N s.left gl l ∧
    HeaderWires N s.right gr r ∧ HeaderWires N s.output go h

/-- The header `h` is the end of a history: it is trivial, which is what a last element of one means, or
it is the output of a step of the application whose inputs are ends of histories. -/
inductive Derived (N : ℕ) (progs : List (StepProgram F)) : List F → Prop
  | trivial {h : List F} : h[N - 1]? = some 1 → Derived N progs h
  | step {s : StepProgram F} {l r h : List F} : s ∈ progs → Derived N progs l → Derived N progs r →
      StepSat N s l r h → Derived N progs h

end Ragu.Spec

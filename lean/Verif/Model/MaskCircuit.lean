/-
The circuit that a stage mask stands for: the reference that `ragu_circuits/src/staging/mask.rs` compares
its closed forms with.
-/
import Verif.Model.Object

namespace Ragu.Circuit
open Ragu
variable {F : Type}

/-- `for _ in 1..R::n() { gates.push(dr.gate(..)) }`, crates/ragu_circuits/src/staging/mask.rs:223-225.
The closure that gives the values is never called; the values here are zeros. -/
def gatesThen [Zero F] : ℕ → Prog F → Prog F
  | 0, k => k
  | m + 1, k => .gate 0 0 0 0 (gatesThen m k)

/-- One `enforce_zero` after the other, crates/ragu_circuits/src/staging/mask.rs:264-269. -/
def enforceThen : List (List (LcStep F WRef)) → Prog F → Prog F
  | [], k => k
  | lc :: l, k => .enforce lc (enforceThen l k)

/-- The place of a wire among those that `gate` returns (crates/ragu_core/src/drivers.rs:144-157). -/
def Kind.place : Kind → ℕ
  | .a => 0
  | .b => 1
  | .c => 2
  | .d => 3

namespace StageMask

/-- `is_active`, crates/ragu_circuits/src/staging/mask.rs:227-228. -/
def isActive (m : StageMask) (j : ℕ) : Bool :=
  j == 0 || (decide (j ≥ m.skipGates) && decide (j < m.skipGates + m.numGates))

/-- The order of the wires in the iterator `wires`, crates/ragu_circuits/src/staging/mask.rs:239-262: a
kind of wire and the number of its gate. -/
def wireOrder (n : ℕ) : List (Kind × ℕ) :=
  ((List.range n).drop 1).map (fun j => (.c, j)) ++ (List.range n).reverse.map (fun j => (.b, j)) ++
    (List.range n).map (fun j => (.a, j)) ++ ((List.range n).drop 1).reverse.map (fun j => (.d, j))

/-- What is enforced for one wire, crates/ragu_circuits/src/staging/mask.rs:239-269: the wires of gate
`j ≥ 1` are the four that the `j`-th call of `gate` returned. Those of the SYSTEM gate, which is active,
are not used. -/
def wireConstraint (m : StageMask) (w : Kind × ℕ) : List (LcStep F WRef) :=
  if m.isActive w.2 then [] else [.add (.idx (4 * (w.2 - 1) + w.1.place))]

/-- `impl RawCircuit for StageMask`, crates/ragu_circuits/src/staging/mask.rs:203-273; all handles are
dropped at the end, in the order of the gates. -/
def circuit [Zero F] (n : ℕ) (m : StageMask) : Circ F where
  body := gatesThen (n - 1) (enforceThen ((wireOrder n).map m.wireConstraint) .done)
  outs := []
  cleanup := List.range (4 * (n - 1))

end StageMask
end Ragu.Circuit

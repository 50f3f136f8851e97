/-
Specification of a block-sparse polynomial: its coefficient function and the
well-formedness of its blocks.  These do not refer to any operation of the model.
-/
import Mathlib.Algebra.BigOperators.Group.Finset.Basic
import Mathlib.Algebra.Field.Basic

namespace Ragu.Spec
open Finset

/-- The coefficient of degree `k` contributed by one block `(start, data)`. -/
def blockCoeff {F : Type*} [Field F] (b : ℕ × List F) (k : ℕ) : F :=
  if b.1 ≤ k then b.2.getD (k - b.1) 0 else 0

/-- The coefficient of degree `k` of a list of blocks. -/
def coeff {F : Type*} [Field F] (p : List (ℕ × List F)) (k : ℕ) : F :=
  (p.map fun b => blockCoeff b k).sum

/-- Blocks are non-empty, sorted, non-overlapping, start at or after `lo` and
end at or before `N`. -/
def WellFormedFrom {F : Type*} (lo N : ℕ) : List (ℕ × List F) → Prop
  | [] => True
  | (s, d) :: rest => lo ≤ s ∧ d ≠ [] ∧ s + d.length ≤ N ∧ WellFormedFrom (s + d.length) N rest

/-- Well-formed block list within `[0, N)`. -/
def WellFormed {F : Type*} (N : ℕ) (p : List (ℕ × List F)) : Prop := WellFormedFrom 0 N p

/-- Value at `x` of a polynomial with coefficient function `c` and fewer than `N` terms. -/
def evalCoeffs {F : Type*} [Field F] (N : ℕ) (c : ℕ → F) (x : F) : F :=
  ∑ k ∈ range N, c k * x ^ k

/-- Reverse dot product of two coefficient functions of size `N`. -/
def revdotCoeffs {F : Type*} [Field F] (N : ℕ) (c d : ℕ → F) : F :=
  ∑ k ∈ range N, c k * d (N - 1 - k)

/-- The dense coefficient vector of length `N`. -/
def dense {F : Type*} [Field F] (N : ℕ) (p : List (ℕ × List F)) : List F :=
  (List.range N).map (coeff p)

/-- Reference double-ended iterator over a plain list: `false` pops the front,
`true` pops the back. -/
def deque {α : Type*} : List Bool → List α → List (Option α)
  | [], _ => []
  | false :: sched, l => l.head? :: deque sched l.tail
  | true :: sched, l => l.getLast? :: deque sched l.dropLast

/-! ### Reference machine for histories of polynomial operations

Registers hold dense coefficient functions. -/

/-- One operation of a history; `ℕ` arguments are register numbers. -/
inductive PolyOp (F : Type*) where
  /-- new polynomial from a dense vector -/
  | fromCoeffs (l : List F)
  /-- new random polynomial, with the sampled values -/
  | random (l : List F)
  | add (i j : ℕ)
  | sub (i j : ℕ)
  | scale (i : ℕ) (s : F)
  | negate (i : ℕ)
  | dilate (i : ℕ) (z : F)
  /-- new polynomial: fold of the listed registers -/
  | fold (is : List ℕ) (s : F)

/-- What an operation means on dense coefficient functions.  `none`: the
operation is not allowed (missing register, oversized vector, or a "random"
vector that does not fill all `N > 0` slots). -/
def PolyOp.dense {F : Type*} [Field F] (N : ℕ) (op : PolyOp F) (regs : List (ℕ → F)) :
    Option (List (ℕ → F)) :=
  match op with
  | .fromCoeffs l => if l.length ≤ N then some (regs ++ [fun k => l.getD k 0]) else none
  | .random l => if l.length = N ∧ 0 < N then some (regs ++ [fun k => l.getD k 0]) else none
  | .add i j => do
      let p ← regs[i]?
      let q ← regs[j]?
      return regs.set i fun k => p k + q k
  | .sub i j => do
      let p ← regs[i]?
      let q ← regs[j]?
      return regs.set i fun k => p k - q k
  | .scale i s => do
      let p ← regs[i]?
      return regs.set i fun k => p k * s
  | .negate i => do
      let p ← regs[i]?
      return regs.set i fun k => -p k
  | .dilate i z => do
      let p ← regs[i]?
      return regs.set i fun k => p k * z ^ k
  | .fold is s => do
      let ps ← is.mapM fun i => regs[i]?
      -- α^{m-1} p_0 + … + p_{m-1}
      return regs ++ [fun k => ∑ j ∈ range ps.length,
        (ps.getD j (fun _ => 0)) k * s ^ (ps.length - 1 - j)]

end Ragu.Spec

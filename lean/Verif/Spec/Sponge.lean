/-
What the sponge should compute, independent of its buffering code: the Poseidon
permutation as arithmetic on vectors, and the duplex construction as alternating
phases of absorbing a whole message and squeezing a number of elements.
-/
import Mathlib.Algebra.BigOperators.Group.Finset.Basic
import Mathlib.Algebra.Field.Defs

namespace Ragu.Spec
open Finset

section Poseidon
variable {F : Type} [Field F]

/-- One Poseidon round on a vector of width `T`: add constants, raise to the fifth power (every
entry in a full round, only the first otherwise), multiply by the matrix. -/
def poseidonRound (T : ℕ) (matrix : ℕ → ℕ → F) (c : ℕ → F) (full : Bool) (x : ℕ → F) : ℕ → F :=
  fun i => ∑ j ∈ range T,
    matrix i j * (if full || j = 0 then (x j + c j) ^ 5 else x j + c j)

/-- Rounds `r, r+1, …` for the given list of kinds. -/
def poseidonRounds (T : ℕ) (matrix : ℕ → ℕ → F) (c : ℕ → ℕ → F) :
    ℕ → List Bool → (ℕ → F) → ℕ → F
  | _, [], x => x
  | r, full :: rest, x =>
    poseidonRounds T matrix c (r + 1) rest (poseidonRound T matrix (c r) full x)

/-- The Poseidon permutation: `half` full rounds, `part` partial rounds, `half` full rounds. -/
def poseidon (T : ℕ) (matrix : ℕ → ℕ → F) (c : ℕ → ℕ → F) (half part : ℕ) (x : ℕ → F) : ℕ → F :=
  poseidonRounds T matrix c 0
    (List.replicate half true ++ List.replicate part false ++ List.replicate half true) x

end Poseidon

section Duplex
variable {F : Type} [Add F]

/-- `m` cut into consecutive blocks of `rate` elements, the last possibly shorter. -/
def blocks (rate : ℕ) (m : List F) : List (List F) :=
  (List.range ((m.length + rate - 1) / rate)).map fun i => (m.drop (i * rate)).take rate

/-- Add a block to the first entries of the state. -/
def addBlock (s b : List F) : List F :=
  s.mapIdx fun i x => if h : i < b.length then x + b[i] else x

/-- Absorb a message: for each block, add it and permute. -/
def absorbAll (perm : List F → List F) (rate : ℕ) (s m : List F) : List F :=
  (blocks rate m).foldl (fun s b => perm (addBlock s b)) s

/-- Element `i` of the output stream from state `s`. -/
def streamAt (perm : List F → List F) (rate : ℕ) (s : List F) (i : ℕ) : Option F :=
  (perm^[i / rate] s)[i % rate]?

/-- The duplex construction over phases (message, number of outputs). -/
def duplex (perm : List F → List F) (rate : ℕ) : List F → List (List F × ℕ) → List (Option F)
  | _, [] => []
  | s, (m, k) :: rest =>
    let s' := absorbAll perm rate s m
    (List.range k).map (streamAt perm rate s') ++
      duplex perm rate (perm^[(k - 1) / rate] s') rest

end Duplex

end Ragu.Spec

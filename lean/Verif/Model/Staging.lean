/-
Stages and multi-stage circuits: crates/ragu_circuits/src/staging/mod.rs and builder.rs.
-/
import Verif.Model.Object

namespace Ragu.Circuit
open Ragu
variable {F : Type}

/-- What a `Stage` type fixes, crates/ragu_circuits/src/staging/mod.rs:141-175: `values()`, and
the number of wires of its output gadget (which does not depend on the witness). -/
structure StageDef where
  values : ℕ
  numWires : ℕ

/-- A stage with its ancestors: `()` or a stage whose `Parent` is the rest of the chain,
crates/ragu_circuits/src/staging/mod.rs:141-200. -/
inductive Chain where
  | base
  | child (parent : Chain) (s : StageDef)

namespace Chain

/-- `Stage::values`, crates/ragu_circuits/src/staging/mod.rs:157 and 182-184. -/
def values : Chain → ℕ
  | base => 0
  | child _ s => s.values

/-- `StageExt::num_gates`, crates/ragu_circuits/src/staging/mod.rs:326-328. -/
def numGates (c : Chain) : ℕ := (c.values + 1) / 2

/-- `Stage::skip_gates`, crates/ragu_circuits/src/staging/mod.rs:172-174 and 197-199. -/
def skipGates : Chain → ℕ
  | base => 1
  | child p _ => p.skipGates + p.numGates

/-- `StageExt::mask`, crates/ragu_circuits/src/staging/mod.rs:412-417. -/
def mask (n : ℕ) (c : Chain) : Except Err StageMask := StageMask.new n c.skipGates c.numGates

/-- `StageExt::final_mask`, crates/ragu_circuits/src/staging/mod.rs:422-426. -/
def finalMask (n : ℕ) (c : Chain) : Except Err StageMask :=
  StageMask.newFinal n (c.skipGates + c.numGates)

/-- `StageExt::generator_index_for_b`, crates/ragu_circuits/src/staging/mod.rs:433-442; `none` is
a panic: the assertion, or the unsigned subtraction below zero. -/
def generatorIndexForB (n : ℕ) (c : Chain) (i : ℕ) : Option ℕ :=
  if i < c.numGates then
    if 1 + c.skipGates + i ≤ 2 * n then some (2 * n - 1 - c.skipGates - i) else none
  else none

section
variable [Field F] [DecidableEq F]

/-- Pushing one gate on all four buffers. -/
def pushGate (v : Sparse.View F) (a b c d : F) : Sparse.View F :=
  ⟨v.a ++ [a], v.b ++ [b], v.c ++ [c], v.d ++ [d]⟩

/-- The loop over the skipped gates, crates/ragu_circuits/src/staging/mod.rs:371-376. -/
def pushSkipped : ℕ → Sparse.View F → Sparse.View F
  | 0, v => v
  | k + 1, v => pushSkipped k (pushGate v 0 0 0 0)

/-- The loop over the stage's gates, crates/ragu_circuits/src/staging/mod.rs:379-386. `vs` is the
iterator over the values. -/
def pushValues : ℕ → List F → Sparse.View F → Sparse.View F
  | 0, _, v => v
  | k + 1, [], v => pushValues k [] (pushGate v 0 0 0 0)
  | k + 1, [b], v => pushValues k [] (pushGate v 0 b 0 0)
  | k + 1, b :: d :: vs, v => pushValues k vs (pushGate v 0 b 0 d)

/-- `StageExt::rx_configured`, crates/ragu_circuits/src/staging/mod.rs:340-393; `vs` are the wire
values of the gadget returned by the stage's `witness`. Capacity hints are left out. -/
def rx (n : ℕ) (c : Chain) (alpha : F) (vs : List F) : Except Err (Sparse.Poly F) :=
  if vs.length > c.values then .error (.gateBound c.numGates)
  else
    let v := pushGate ⟨[], [], [], []⟩ 0 0 0 alpha
    let v := pushSkipped (c.skipGates - 1) v
    let v := pushValues c.numGates vs v
    match v.buildTrace n with
    | some p => .ok p
    | none => .error .panic

end
end Chain

/-! ### The builder -/

/-- Allocations of zero, as the builder makes them. -/
def allocZeros [Zero F] : ℕ → Prog F → Prog F
  | 0, k => k
  | m + 1, k => .alloc 0 (allocZeros m k)

/-- The padding loop, crates/ragu_circuits/src/staging/builder.rs:206-209: the number of
allocations it makes. -/
def padding (numGates numWires : ℕ) : ℕ :=
  if numWires / 2 < numGates then padding numGates (numWires + 1) + 1 else 0
termination_by 2 * numGates - numWires

/-- `StageBuilder::configure_stage`, crates/ragu_circuits/src/staging/builder.rs:180-222, as a
program transformer: `k` is what is synthesised after it. The guard holds the first
`s.numWires` wires allocated. `add_stage` and `skip_stage` (226-248) make the same calls. -/
def configureStage [Zero F] (parent : Chain) (s : StageDef) (k : Prog F) : Except Err (Prog F) :=
  if s.numWires > s.values then .error (.gateBound (Chain.child parent s).numGates)
  else .ok (allocZeros s.numWires
    (allocZeros (padding (Chain.child parent s).numGates s.numWires) k))

/-- A multi-stage circuit's synthesis: the type of `StageBuilder` lets `finish` be called only
after every stage of the chain has been added, in order, so the calls are those of
`configure_stage` for each stage from the base on, and then the rest
(crates/ragu_circuits/src/staging/mod.rs:311-320 and builder.rs:60-83, 251-258). -/
def multiStage [Zero F] : Chain → Prog F → Except Err (Prog F)
  | .base, k => .ok k
  | .child p s, k => do
    let k' ← configureStage p s k
    multiStage p k'

/-- Which of the wires returned so far the guard of the last stage of the chain holds: their
indices, in order. -/
def firstWire : Chain → ℕ
  | .base => 0
  | .child p _ => firstWire p + 2 * p.numGates

/-- `StageWireInjector::convert_wire` applied to each of the `count` wires of the gadget a stage
produced, crates/ragu_circuits/src/staging/builder.rs:95-100 and 145-160. -/
def inject {W : Type} : ℕ → List W → Except Err (List W)
  | 0, _ => .ok []
  | _ + 1, [] => .error .invalidWitness
  | k + 1, w :: ws => do
    let r ← inject k ws
    .ok (w :: r)

end Ragu.Circuit

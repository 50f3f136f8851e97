/-
Test fixtures that applications and benchmarks start from: `ragu_testing/src/circuits/mod.rs` and
`ragu_testing/src/registry.rs`.
-/
import Verif.Model.Gadget.Element
import Verif.Model.Registry

namespace Ragu.Testing
open Ragu Ragu.Circuit Ragu.Gadget Ragu.Registry
variable {F : Type} [Field F] [DecidableEq F]

/-! ### Circuits -/

/-- `MySimpleCircuit::instance`, crates/ragu_testing/src/circuits/mod.rs:28-37. -/
def simpleInstance (inst : F × F) : Syn F (Element F × Element F) := do
  let c ← Element.alloc inst.1
  let d ← Element.alloc inst.2
  return (c, d)

/-- `MySimpleCircuit::witness`, crates/ragu_testing/src/circuits/mod.rs:39-59. -/
def simpleWitness (witness : F × F) : Syn F (Element F × Element F) := do
  let a ← Element.alloc witness.1
  let b ← Element.alloc witness.2
  let a2 ← a.square
  let a4 ← a2.square
  let a5 ← a4.mul a
  let b2 ← b.square
  enforceZero [.add a5.wire, .sub b2.wire]
  let c := a.add b
  let d := a.sub b
  return (c, d)

/-- `SquareCircuit::instance`, crates/ragu_testing/src/circuits/mod.rs:77-83. -/
def squareInstance (inst : F) : Syn F (Element F) := Element.alloc inst

/-- The loop of `SquareCircuit::witness`, crates/ragu_testing/src/circuits/mod.rs:92-94. -/
def squares : ℕ → Element F → Syn F (Element F)
  | 0, a => return a
  | k + 1, a => do
    let a' ← a.square
    squares k a'

/-- `SquareCircuit::witness`, crates/ragu_testing/src/circuits/mod.rs:85-97. -/
def squareWitness (times : ℕ) (witness : F) : Syn F (Element F) := do
  let a ← Element.alloc witness
  squares times a

/-- The wires of the simple example that `orchestrate` makes public: those of its output, in order
(crates/ragu_circuits/src/raw.rs:184-215, crates/ragu_testing/src/circuits/mod.rs:24). -/
def simpleWires (w : F × F) : Syn F (List F) := do
  let r ← simpleWitness w
  return [r.1.wire, r.2.wire]

/-- The wire of the squaring example that is made public
(crates/ragu_testing/src/circuits/mod.rs:73). -/
def squareWires (times : ℕ) (w : F) : Syn F (List F) := do
  let r ← squareWitness times w
  return [r.wire]

/-! ### Registry builder -/

/-- `TestRegistryBuilder`, crates/ragu_testing/src/registry.rs:37-41 and 51-57. -/
structure TestBuilder (F : Type) where
  inner : Option (Builder F) := some {}
  numCircuits : ℕ := 0
  numBonding : ℕ := 0

/-- `Handle`, crates/ragu_testing/src/registry.rs:21-29. `CircuitIndex::new` keeps the number;
numbers beyond 32 bits are not modelled. -/
structure Handle where
  index : ℕ
deriving DecidableEq

namespace TestBuilder

/-- `register_circuit`, crates/ragu_testing/src/registry.rs:60-71: the result and the builder
afterwards. A registration that fails leaves the builder without its inner builder. -/
def registerCircuit (n : ℕ) (b : TestBuilder F) (c : Circ F) : Except Err Handle × TestBuilder F :=
  let handle : Handle := ⟨b.numCircuits⟩
  match b.inner with
  | none => (.error .panic, b)
  | some builder =>
    match builder.registerInternalCircuit n c with
    | .error e => (.error e, { b with inner := none })
    | .ok builder => (.ok handle, { b with inner := some builder, numCircuits := b.numCircuits + 1 })

/-- `register_bonding`, crates/ragu_testing/src/registry.rs:74-85; an error is a panic. -/
def registerBonding (b : TestBuilder F) (o : CircuitObject F) : Except Err Handle × TestBuilder F :=
  let handle : Handle := ⟨b.numCircuits + b.numBonding⟩
  match b.inner with
  | none => (.error .panic, b)
  | some builder =>
    (.ok handle, { b with inner := some (builder.registerBonding o), numBonding := b.numBonding + 1 })

/-- `finalize`, crates/ragu_testing/src/registry.rs:88-95. -/
def finalize (E : Env F) (n : ℕ) (b : TestBuilder F) : Except FinalizeErr (Registry F) :=
  match b.inner with
  | none => .error .panic
  | some builder => builder.finalize E n

end TestBuilder

/-- `TestRegistry::assemble`, crates/ragu_testing/src/registry.rs:109-117. -/
def assembleAt (n : ℕ) (R : Registry F) (trace : List (TSeg F)) (h : Handle) (alpha : F) :
    Option (Except Err (Sparse.Poly F)) := R.assembleWithAlpha n trace h.index alpha

/-- `TestRegistry::y`, crates/ragu_testing/src/registry.rs:120-122. -/
def yAt (E : Env F) (n : ℕ) (R : Registry F) (h : Handle) (y : F) : Option (Sparse.Poly F) :=
  R.circuitY E n h.index y

/-- `TestRegistry::xy`, crates/ragu_testing/src/registry.rs:125-127. -/
def xyAt (E : Env F) (n : ℕ) (R : Registry F) (h : Handle) (x y : F) : Option F :=
  R.circuitXY E n h.index x y

end Ragu.Testing

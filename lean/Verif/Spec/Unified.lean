/-
The unified instance as a table of 21 slots that a sequence of circuits fills.
-/
import Verif.Model.Pcd.Unified

namespace Ragu.Spec
open Ragu Ragu.Pcd Ragu.Gadget
variable {F : Type} [Field F] [DecidableEq F]

/-- What a circuit may do with a slot. -/
inductive Act (F : Type) (s : SlotId) where
  | read
  | provide (v : s.kind.Gadget F)
  | receive

/-- An operation of a circuit on one of the slots. -/
structure SlotOp (F : Type) where
  slot : SlotId
  act : Act F slot

/-- Whether the operation takes responsibility for the slot. -/
def SlotOp.covers (op : SlotOp F) : Bool :=
  match op.act with
  | .read => false
  | .provide _ => true
  | .receive => true

/-- A value allocated from the instance: an element with that witness value, or a point of the curve
with those witness coordinates. -/
def Allocated (b : F) : (k : Kind) → k.Native F → k.Gadget F → Prop
  | .element, n, e => e.value = n
  | .point, n, p => p.y.wire ^ 2 = p.x.wire ^ 3 + b ∧ p.x.value = (n.getD (0, 0)).1 ∧
      p.y.value = (n.getD (0, 0)).2

/-- The value of a slot at the end of a circuit: the provided one, otherwise one allocated from the
instance. -/
def SlotSpec (b : F) (value : (s : SlotId) → s.kind.Native F) (ops : List (SlotOp F)) (s : SlotId)
    (g : s.kind.Gadget F) : Prop :=
  (∀ v, (⟨s, .provide v⟩ : SlotOp F) ∈ ops → g = v) ∧
    ((∀ v, (⟨s, .provide v⟩ : SlotOp F) ∉ ops) → Allocated b s.kind (value s) g)

/-- The number of operations of the circuits that cover a slot. -/
def timesCovered (circuits : List (List (SlotOp F))) (s : SlotId) : ℕ :=
  (circuits.flatten.filter fun op => op.covers && decide (op.slot = s)).length

/-- An instance whose points are affine points of the curve. -/
def ValidNative (b : F) : (k : Kind) → k.Native F → Prop
  | .element, _ => True
  | .point, n => ∃ x y, n = some (x, y) ∧ y ^ 2 = x ^ 3 + b

/-- One operation on a builder. -/
def runOp (b : F) (B : OutputBuilder F) : SlotOp F → Syn F (OutputBuilder F)
  | ⟨s, .read⟩ => do
    let r ← B.read b s
    return r.2
  | ⟨s, .provide v⟩ => B.provide s v
  | ⟨s, .receive⟩ => do
    let r ← B.receive b s
    return r.2

/-- The operations of a circuit. -/
def runOps (b : F) : OutputBuilder F → List (SlotOp F) → Syn F (OutputBuilder F)
  | B, [] => return B
  | B, op :: ops => do
    let B' ← runOp b B op
    runOps b B' ops

/-- A circuit: a fresh builder, some operations, and `finish`. -/
def runCircuit (b : F) (inst : UnifiedInstance F) (ops : List (SlotOp F)) :
    Syn F (UnifiedOutput F × UnifiedInstance F) := do
  let B ← runOps b (OutputBuilder.new inst) ops
  B.finishNoSuffix b

/-- Several circuits in a row, each handing its instance to the next. -/
def runCircuits (b : F) : UnifiedInstance F → List (List (SlotOp F)) →
    Except Circuit.Err (UnifiedInstance F)
  | inst, [] => .ok inst
  | inst, ops :: rest =>
    match (runCircuit b inst ops).sim with
    | .error e => .error e
    | .ok r => runCircuits b r.2 rest

/-- The coordinates of an affine point, or the element itself. -/
def coords : (k : Kind) → k.Native F → List F
  | .element, e => [e]
  | .point, some (x, y) => [x, y]
  | .point, none => []

/-- A point other than the identity. -/
def NotIdentity : (k : Kind) → k.Native F → Prop
  | .element, _ => True
  | .point, n => n ≠ none

/-- The identity, or a point on the curve `y² = x³ + b`. -/
def OnCurve (b : F) : (k : Kind) → k.Native F → Prop
  | .element, _ => True
  | .point, some (x, y) => y ^ 2 = x ^ 3 + b
  | .point, none => True

end Ragu.Spec

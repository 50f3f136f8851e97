/-
Circuit objects: crates/ragu_circuits/src/lib.rs, staging/mask.rs, staging/bonding.rs.
-/
import Verif.Model.Util
import Verif.Model.Metrics
import Verif.Model.Wiring
import Verif.Model.Sy

namespace Ragu.Circuit
open Ragu
variable {F : Type}

/-- The `CircuitObject` trait, crates/ragu_circuits/src/lib.rs:189-214, as a record of its
methods. `none` is a panic. -/
structure CircuitObject (F : Type) where
  sxy : F → F → List Seg → Option F
  sx : F → List Seg → Option (Sparse.Poly F)
  sy : F → List Seg → Option (Sparse.Poly F)
  constraintCounts : ℕ × ℕ
  segmentRecords : List (ℕ × ℕ)

/-- `.expect("should succeed if metrics succeeded")`. -/
def expect {α : Type} : Except Err α → Option α
  | .ok a => some a
  | .error _ => none

/-- `into_raw_circuit_object`, crates/ragu_circuits/src/lib.rs:242-284. -/
def intoRawCircuitObject [Field F] [DecidableEq F] (n : ℕ) (c : Circ F) (m : Metrics) :
    CircuitObject F where
  sxy x y fp := expect (sxyEval n fp c x y)
  sx x fp := expect (sxEval n fp c x)
  sy y fp := expect (syEval n fp c y)
  constraintCounts := (m.numGates, m.numCons)
  segmentRecords := m.segments

/-- `into_circuit_object`, crates/ragu_circuits/src/lib.rs:215-238, with the boxed object
(`intoCircuitObject` of Metrics.lean is the part before the last line). -/
def circuitObject [Field F] [DecidableEq F] (n : ℕ) (c : Circ F) :
    Except Err (CircuitObject F) := do
  let m ← intoCircuitObject n c
  .ok (intoRawCircuitObject n c m)

/-! ### Stage masks -/

/-- `StageMask`, crates/ragu_circuits/src/staging/mask.rs:11-15. -/
structure StageMask where
  skipGates : ℕ
  numGates : ℕ
deriving DecidableEq

namespace StageMask

/-- `StageMask::new`, crates/ragu_circuits/src/staging/mask.rs:26-36. -/
def new (n skip num : ℕ) : Except Err StageMask :=
  if skip > 0 then
    if skip + num > n then .error (.gateBound n) else .ok ⟨skip, num⟩
  else .error .panic

/-- `StageMask::new_final`, crates/ragu_circuits/src/staging/mask.rs:43-56. -/
def newFinal (n skip : ℕ) : Except Err StageMask :=
  if skip > 0 then
    if skip > n then .error (.gateBound n) else .ok ⟨skip, n - skip⟩
  else .error .panic

variable [Field F] [DecidableEq F]

/-- One of the loops filling a view with consecutive powers in ascending order,
crates/ragu_circuits/src/staging/mask.rs:71-74 and 79-82: the values and the next power. -/
def powersUp (p : F) : ℕ → F → List F × F
  | 0, cur => ([], cur)
  | k + 1, cur =>
    let (l, nxt) := powersUp p k (cur * p)
    (cur :: l, nxt)

/-- The loops in descending order, crates/ragu_circuits/src/staging/mask.rs:75-78 and 83-86. -/
def powersDown (p : F) (k : ℕ) (cur : F) : List F × F :=
  let (l, nxt) := powersUp p k cur
  (l.reverse, nxt)

/-- `v[j] = F::ZERO`; out of bounds is a panic. -/
def zeroAt (l : List F) (j : ℕ) : Option (List F) := if j < l.length then some (l.set j 0) else none

/-- Zeroing the wires of gate `j` in all four buffers,
crates/ragu_circuits/src/staging/mask.rs:89-92 and 97-100. -/
def zeroGate (v : Sparse.View F) (j : ℕ) : Option (Sparse.View F) := do
  let a ← zeroAt v.a j
  let b ← zeroAt v.b j
  let c ← zeroAt v.c j
  let d ← zeroAt v.d j
  return ⟨a, b, c, d⟩

/-- The loop over the active gates, crates/ragu_circuits/src/staging/mask.rs:95-101. -/
def zeroActive (skip : ℕ) : ℕ → ℕ → Sparse.View F → Option (Sparse.View F)
  | 0, _, v => some v
  | cnt + 1, i, v => (zeroGate v (skip + i)).bind (zeroActive skip cnt (i + 1))

/-- `project`, crates/ragu_circuits/src/staging/mask.rs:62-104. -/
def project (n : ℕ) (m : StageMask) (p : F) : Option (Sparse.Poly F) := do
  let (d, cur) := powersUp p n 1
  let (a, cur) := powersDown p n cur
  let (b, cur) := powersUp p n cur
  let (c, _) := powersDown p n cur
  let v ← zeroGate ⟨a, b, c, d⟩ 0
  let v ← zeroActive m.skipGates m.numGates 0 v
  v.buildWiring n

/-- `global`, crates/ragu_circuits/src/staging/mask.rs:122-124. -/
def global (xy xy2n xyInv : F) (n : ℕ) : F :=
  Util.geosum xy (n <<< 2) - (xy2n + 1) * (xy2n * xyInv + 1)

/-- `notch`, crates/ragu_circuits/src/staging/mask.rs:128-134. -/
def notch (xy xy2n xyInv : F) (g m : ℕ) : F :=
  let gsum := Util.geosum xy m
  let xyg := xy ^ g
  let xyh := xy2n * xyInv ^ (g + m)
  (1 + xy2n) * (xyg + xyh) * gsum

/-- `sxy` of a mask, crates/ragu_circuits/src/staging/mask.rs:108-138. -/
def sxy (n : ℕ) (m : StageMask) (x y : F) : F :=
  if x = 0 ∨ y = 0 then 0
  else
    let xy := x * y
    let xy2n := xy ^ (2 * n)
    let xyInv := xy⁻¹
    global xy xy2n xyInv n - notch xy xy2n xyInv m.skipGates m.numGates

/-- `impl CircuitObject for StageMask`, crates/ragu_circuits/src/staging/mask.rs:107-167. -/
def object (n : ℕ) (m : StageMask) : CircuitObject F where
  sxy x y _ := some (sxy n m x y)
  sx x _ := project n m x
  sy y _ := project n m y
  constraintCounts := (n, 4 * n - 1)
  segmentRecords := []

end StageMask

/-! ### Bonding circuits -/

section
variable [Field F] [DecidableEq F]

/-- `Stripped`, crates/ragu_circuits/src/staging/bonding.rs:184-230. The subtraction in
`constraint_counts` underflows only for an object with no constraint. -/
def stripped (n : ℕ) (o : CircuitObject F) : CircuitObject F where
  sxy x y fp := (o.sxy x y fp).map fun v => v - x ^ (2 * n)
  sx x fp := do
    let poly ← o.sx x fp
    let c0 ← ((Sparse.iterCoeffs (4 * n) poly).next).1
    let correction ← Sparse.fromCoeffs (4 * n) [c0]
    Sparse.subAssign (4 * n) poly correction
  sy y fp := do
    let poly ← o.sy y fp
    let correction ← Sparse.View.buildWiring n ⟨[], [1], [], []⟩
    Sparse.subAssign (4 * n) poly correction
  constraintCounts := (o.constraintCounts.1, o.constraintCounts.2 - 1)
  segmentRecords := o.segmentRecords

/-- The messages a `BondingValidator` records, crates/ragu_circuits/src/staging/bonding.rs. -/
inductive Violation where
  | gate
  | one
deriving DecidableEq

/-- `BondingWire`, crates/ragu_circuits/src/staging/bonding.rs:83-86. -/
inductive BondingWire where
  | one
  | normal
deriving DecidableEq

/-- `RejectOne` run over a closure, crates/ragu_circuits/src/staging/bonding.rs:89-102. -/
def rejectOne : Bool → List (LcStep F BondingWire) → Bool
  | seen, [] => seen
  | seen, .term w _ :: r => rejectOne (if w = .one then true else seen) r
  | seen, .gain _ :: r => rejectOne seen r

/-- `record`, crates/ragu_circuits/src/staging/bonding.rs:120-126 (`get_or_insert`). -/
def record (msg : Violation) (err : Option Violation) : Option Violation :=
  match err with
  | some e => some e
  | none => some msg

/-- `BondingValidator`, crates/ragu_circuits/src/staging/bonding.rs:132-180. `mul` is the
default implementation by `gate` (crates/ragu_core/src/drivers.rs:274-283); `routine` is the
default, which runs the body inline (339-346). The separate message for `constant` is not
reached in the model: a program calls `constant` as an `add` of a `ONE` term
(crates/ragu_core/src/drivers.rs:250-252), which records the other message. -/
def validatorD : Driver F BondingWire (Option Violation) where
  one := .one
  gate _ _ _ _ s := .ok (record .gate s, .normal, .normal, .normal, .normal)
  mul _ _ _ s := .ok (record .gate s, .normal, .normal, .normal)
  alloc _ s := .ok (s, .normal)
  add lc s := .ok (if rejectOne false lc then record .one s else s, .normal)
  enforce lc s := .ok (if rejectOne false lc then record .one s else s)
  enter _ s := .ok s
  leave _ _ t := .ok t
  clone _ s := .ok s
  drop _ s := .ok s

/-- `into_bonding_object`, crates/ragu_circuits/src/staging/bonding.rs:62-77. The validator runs
`witness` only: not the constraints `orchestrate` adds for the outputs and `ONE`. -/
def intoBondingObject (n : ℕ) (c : Circ F) : Except Err (CircuitObject F) := do
  let (v, _) ← run validatorD c.body none []
  match v with
  | some _ => .error .invalidWitness
  | none =>
    let inner ← circuitObject n c
    .ok (stripped n inner)

end
end Ragu.Circuit

/-
Model of `ragu_primitives/src/element.rs` and `ragu_primitives/src/boolean.rs`.
-/
import Verif.Model.Gadget.Syn

namespace Ragu.Gadget
open Ragu Ragu.Circuit
variable {F : Type} [Field F] [DecidableEq F]

/-- `Element`, crates/ragu_primitives/src/element.rs:43-52: a wire and a witness value. -/
@[ext] structure Element (F : Type) where
  wire : F
  value : F
deriving DecidableEq

/-- `Boolean`, crates/ragu_primitives/src/boolean.rs:29-37. -/
@[ext] structure Boolean (F : Type) where
  wire : F
  value : Bool
deriving DecidableEq

/-- `InternalMaybe::fe` and `coeff`, crates/ragu_primitives/src/util.rs:13-29: a bool as
a field element. -/
def fe (b : Bool) : F := if b then 1 else 0

namespace Element

/-- `Element::alloc`, crates/ragu_primitives/src/element.rs:67-74. -/
def alloc (v : F) : Syn F (Element F) := do
  let wire ← allocWire v
  return ⟨wire, v⟩

/-- `Element::alloc_square`, crates/ragu_primitives/src/element.rs:80-102. -/
def allocSquare (v : F) : Syn F (Element F × Element F) := do
  let square := v ^ 2
  let (a, b, c) ← mulGate v v square
  enforceEqual a b
  return (⟨a, v⟩, ⟨c, square⟩)

/-- `Element::one`, crates/ragu_primitives/src/element.rs:105-110. -/
def one : Element F := ⟨ONE, 1⟩

/-- `Element::zero`, crates/ragu_primitives/src/element.rs:113-118. -/
def zero : Element F := ⟨constantWire .zero, 0⟩

/-- `Element::constant`, crates/ragu_primitives/src/element.rs:121-126. -/
def constant (v : F) : Element F := ⟨constantWire (.arbitrary v), v⟩

/-- `Element::mul`, crates/ragu_primitives/src/element.rs:148-169. -/
def mul (self other : Element F) : Syn F (Element F) := do
  let product := self.value * other.value
  let (a, b, c) ← mulGate self.value other.value product
  enforceEqual a self.wire
  enforceEqual b other.wire
  return ⟨c, product⟩

/-- `Element::square`, crates/ragu_primitives/src/element.rs:172-174. -/
def square (self : Element F) : Syn F (Element F) := self.mul self

/-- `Element::enforce_zero`, crates/ragu_primitives/src/element.rs:177-179. -/
def enforceZero (self : Element F) : Syn F Unit := Gadget.enforceZero [.add self.wire]

/-- `Element::scale`, crates/ragu_primitives/src/element.rs:221-226. -/
def scale (self : Element F) (c : Coeff F) : Element F :=
  ⟨lin [.term self.wire c], (Coeff.mul (.arbitrary self.value) c).value⟩

/-- `Element::negate`, crates/ragu_primitives/src/element.rs:182-184. -/
def negate (self : Element F) : Element F := self.scale .negativeOne

/-- `Element::add`, crates/ragu_primitives/src/element.rs:187-197. -/
def add (self other : Element F) : Element F :=
  ⟨lin [.add self.wire, .add other.wire], self.value + other.value⟩

/-- `Element::sub`, crates/ragu_primitives/src/element.rs:200-210. -/
def sub (self other : Element F) : Element F :=
  ⟨lin [.add self.wire, .sub other.wire], self.value - other.value⟩

/-- `Element::add_coeff`, crates/ragu_primitives/src/element.rs:213-219. -/
def addCoeff (self other : Element F) (c : Coeff F) : Element F :=
  ⟨lin [.add self.wire, .term other.wire c],
    self.value + (Coeff.mul (.arbitrary other.value) c).value⟩

/-- `Element::double`, crates/ragu_primitives/src/element.rs:228-231. -/
def double (self : Element F) : Element F := self.add self

/-- `Element::invert_with`, crates/ragu_primitives/src/element.rs:250-265. -/
def invertWith (self : Element F) (inverse : F) : Syn F (Element F) := do
  let (a, b, c) ← mulGate self.value inverse 1
  enforceEqual a self.wire
  enforceEqual c ONE
  return ⟨b, inverse⟩

/-- `Element::invert`, crates/ragu_primitives/src/element.rs:236-246. -/
def invert (self : Element F) : Syn F (Element F) := do
  tryJust (self.value ≠ 0)
  self.invertWith self.value⁻¹

/-- `Element::div_nonzero`, crates/ragu_primitives/src/element.rs:276-304. -/
def divNonzero (self by_ : Element F) : Syn F (Element F) := do
  tryJust (by_.value ≠ 0)
  let quotientValue := self.value * by_.value⁻¹
  let (quotient, denominator, numerator) ← mulGate quotientValue by_.value self.value
  enforceEqual self.wire numerator
  enforceEqual by_.wire denominator
  return ⟨quotient, quotientValue⟩

/-- The `try_fold` of `Element::fold`, crates/ragu_primitives/src/element.rs:332-335. -/
def foldFrom (scale : Element F) : Element F → List (Element F) → Syn F (Element F)
  | acc, [] => return acc
  | acc, e :: es => do
    let scaled ← acc.mul scale
    foldFrom scale (scaled.add e) es

/-- `Element::fold`, crates/ragu_primitives/src/element.rs:323-336. -/
def fold (elements : List (Element F)) (scale : Element F) : Syn F (Element F) :=
  match elements with
  | [] => return zero
  | first :: rest => foldFrom scale first rest

/-- The loop of `enforce_root_of_unity`, crates/ragu_primitives/src/element.rs:341-343. -/
def squareLoop : ℕ → Element F → Syn F (Element F)
  | 0, v => return v
  | k + 1, v => do
    let v' ← v.square
    squareLoop k v'

/-- `Element::enforce_root_of_unity`, crates/ragu_primitives/src/element.rs:339-348. -/
def enforceRootOfUnity (self : Element F) (k : ℕ) : Syn F Unit := do
  let value ← squareLoop k self
  let diff := value.sub one
  diff.enforceZero

/-- `Element::sum`, crates/ragu_primitives/src/element.rs:354-361. -/
def sum (elements : List (Element F)) : Element F := elements.foldl (fun acc e => acc.add e) zero

end Element

/-- `multiadd`, crates/ragu_primitives/src/element.rs:408-429. -/
def multiadd (values : List (Element F)) (coeffs : List F) : Syn F (Element F) :=
  if values.length ≠ coeffs.length then .panic
  else return ⟨lin (List.zipWith (fun v c => LcStep.term v.wire (.arbitrary c)) values coeffs),
    (List.zip values coeffs).foldl (fun sum p => sum + p.1.value * p.2) 0⟩

namespace Boolean

/-- `Boolean::alloc`, crates/ragu_primitives/src/boolean.rs:43-58. -/
def alloc (v : Bool) : Syn F (Boolean F) := do
  let (a, b, c) ← mulGate (fe v) (fe v) (fe v)
  enforceEqual a b
  enforceEqual a c
  return ⟨c, v⟩

/-- `Boolean::not`, crates/ragu_primitives/src/boolean.rs:61-66. -/
def not (self : Boolean F) : Boolean F := ⟨lin [.add ONE, .sub self.wire], !self.value⟩

/-- `Boolean::and`, crates/ragu_primitives/src/boolean.rs:70-86. -/
def and (self other : Boolean F) : Syn F (Boolean F) := do
  let result := self.value && other.value
  let (a, b, c) ← mulGate (fe self.value) (fe other.value) (fe result)
  enforceEqual a self.wire
  enforceEqual b other.wire
  return ⟨c, result⟩

/-- `Boolean::element`, crates/ragu_primitives/src/boolean.rs:133-136. -/
def element (self : Boolean F) : Element F := ⟨self.wire, fe self.value⟩

/-- `Boolean::conditional_select`, crates/ragu_primitives/src/boolean.rs:92-102. -/
def conditionalSelect (self : Boolean F) (a b : Element F) : Syn F (Element F) := do
  let diff := b.sub a
  let condTimesDiff ← self.element.mul diff
  return a.add condTimesDiff

/-- `Boolean::conditional_enforce_equal`, crates/ragu_primitives/src/boolean.rs:108-121. -/
def conditionalEnforceEqual (self : Boolean F) (a b : Element F) : Syn F Unit := do
  let diff := a.sub b
  let product ← self.element.mul diff
  product.enforceZero

end Boolean

/-- `is_zero`, crates/ragu_primitives/src/boolean.rs:142-189 (`invert().unwrap_or(0)` is
the field's total inverse). -/
def isZero (x : Element F) : Syn F (Boolean F) := do
  let isZ : Bool := x.value = 0
  let (xWire, isZeroWire, zeroProduct) ← mulGate x.value (fe isZ) 0
  enforceEqual xWire x.wire
  enforceZero [.add zeroProduct]
  let (xWire, _, isNotZero) ← mulGate x.value x.value⁻¹ (fe (!isZ))
  enforceEqual xWire x.wire
  enforceZero [.add isNotZero, .sub ONE, .add isZeroWire]
  return ⟨isZeroWire, isZ⟩

/-- `Element::is_zero`, crates/ragu_primitives/src/element.rs:307-309. -/
def Element.isZero (self : Element F) : Syn F (Boolean F) := Gadget.isZero self

/-- `Element::is_equal`, crates/ragu_primitives/src/element.rs:312-315. -/
def Element.isEqual (self other : Element F) : Syn F (Boolean F) := (self.sub other).isZero

/-- The value closure of `multipack`, crates/ragu_primitives/src/boolean.rs:225-235. -/
def packValue : List (Boolean F) → F → F → F
  | [], value, _ => value
  | b :: bs, value, gain => packValue bs (if b.value then value + gain else value) (gain + gain)

/-- One chunk of `multipack`, crates/ragu_primitives/src/boolean.rs:224-246. -/
def packChunk (chunk : List (Boolean F)) : Element F :=
  ⟨lin (chunk.flatMap fun bit => [.add bit.wire, .gain .two]), packValue chunk 0 1⟩

/-- `bits.chunks(capacity)`: consecutive slices, the last one possibly shorter. -/
def chunks {α : Type} (cap : ℕ) (l : List α) : List (List α) :=
  if h : l = [] ∨ cap = 0 then []
  else l.take cap :: chunks cap (l.drop cap)
termination_by l.length
decreasing_by
  push Not at h
  have : l.length ≠ 0 := by simpa using h.1
  simp only [List.length_drop]; omega

/-- `multipack`, crates/ragu_primitives/src/boolean.rs:218-249; `cap` is `F::CAPACITY`
(`chunks(0)` panics). -/
def multipack (cap : ℕ) (bits : List (Boolean F)) : Syn F (List (Element F)) :=
  if cap = 0 then .panic else return (chunks cap bits).map packChunk

/-- `Consistent for Element` (derived: nothing to check) and
`Consistent for Boolean`, crates/ragu_primitives/src/boolean.rs:251-255; `enforce_equal`
of gadgets equates their wires. -/
def Boolean.enforceConsistent (self : Boolean F) : Syn F Unit := do
  let fresh ← Boolean.alloc (F := F) self.value
  enforceEqual fresh.wire self.wire

end Ragu.Gadget

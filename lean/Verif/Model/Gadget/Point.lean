/-
Model of `ragu_primitives/src/point.rs`.  The curve is y² = x³ + b over the
circuit's field; `zeta` is the base field's cube root of unity `C::Base::ZETA`.
A native curve point is `none` (identity) or its affine coordinates.
-/
import Verif.Model.Gadget.Element

namespace Ragu.Gadget
open Ragu Ragu.Circuit
variable {F : Type} [Field F] [DecidableEq F]

/-- `Point`, crates/ragu_primitives/src/point.rs:24-33. -/
@[ext] structure Point (F : Type) where
  x : Element F
  y : Element F
deriving DecidableEq

namespace Point

/-- `Point::alloc`, crates/ragu_primitives/src/point.rs:51-71. When the witness is the
identity the closure fails; without witness values the circuit is the same for all inputs. -/
def alloc (b : F) (p : Option (F × F)) : Syn F (Point F) := do
  tryJust p.isSome
  let (px, py) := p.getD (0, 0)
  let (x, x2) ← Element.allocSquare px
  let x3 ← x.mul x2
  let (y, y2) ← Element.allocSquare py
  enforceZero [.add x3.wire, .term ONE (.arbitrary b), .sub y2.wire]
  return ⟨x, y⟩

/-- `Point::constant`, crates/ragu_primitives/src/point.rs:75-86 (`none` is the
`InvalidWitness` error). -/
def constant (p : Option (F × F)) : Except Err (Point F) :=
  match p with
  | some (x, y) => .ok ⟨Element.constant x, Element.constant y⟩
  | none => .error .invalidWitness

/-- `Point::value`, crates/ragu_primitives/src/point.rs:89-95 (`none` is the panic in
`expect`). -/
def value (b : F) (p : Point F) : Option (F × F) :=
  if p.y.value ^ 2 = p.x.value ^ 3 + b then some (p.x.value, p.y.value) else none

/-- `Point::endo`, crates/ragu_primitives/src/point.rs:98-101. -/
def endo (zeta : F) (p : Point F) : Point F := ⟨p.x.scale (.arbitrary zeta), p.y⟩

/-- `Point::negate`, crates/ragu_primitives/src/point.rs:104-110. -/
def negate (p : Point F) : Point F := ⟨p.x, p.y.negate⟩

/-- `Point::conditional_endo`, crates/ragu_primitives/src/point.rs:113-117. -/
def conditionalEndo (zeta : F) (p : Point F) (c : Boolean F) : Syn F (Point F) := do
  let endoX := p.x.scale (.arbitrary zeta)
  let x ← c.conditionalSelect p.x endoX
  return ⟨x, p.y⟩

/-- `Point::conditional_negate`, crates/ragu_primitives/src/point.rs:120-124. -/
def conditionalNegate (p : Point F) (c : Boolean F) : Syn F (Point F) := do
  let negY := p.y.negate
  let y ← c.conditionalSelect p.y negY
  return ⟨p.x, y⟩

/-- `Point::double`, crates/ragu_primitives/src/point.rs:128-146. -/
def double (p : Point F) : Syn F (Point F) := do
  let doubleY := p.y.double
  let xx ← p.x.square
  let delta ← (xx.scale (.arbitrary 3)).divNonzero doubleY
  let doubleX := p.x.double
  let dd ← delta.square
  let x3 := dd.sub doubleX
  let xSubX3 := p.x.sub x3
  let m ← delta.mul xSubX3
  return ⟨x3, m.sub p.y⟩

/-- `Point::add_incomplete`, crates/ragu_primitives/src/point.rs:156-181; returns the point
and the updated accumulator. -/
def addIncomplete (self other : Point F) (nonzero : Option (Element F)) :
    Syn F (Point F × Option (Element F)) := do
  let tmp := other.x.sub self.x
  let nonzero ← (match nonzero with
    | some nz => do
      let nz' ← nz.mul tmp
      return some nz'
    | none => return none)
  let delta ← (other.y.sub self.y).divNonzero tmp
  let dd ← delta.square
  let x3 := (dd.sub self.x).sub other.x
  let tmp := self.x.sub x3
  let m ← delta.mul tmp
  return (⟨x3, m.sub self.y⟩, nonzero)

/-- `Point::double_and_add_incomplete`, crates/ragu_primitives/src/point.rs:186-212. -/
def doubleAndAddIncomplete (self other : Point F) : Syn F (Point F) := do
  let tmp := other.x.sub self.x
  let lambda1 ← (other.y.sub self.y).divNonzero tmp
  let l1s ← lambda1.square
  let xr := (l1s.sub self.x).sub other.x
  let tmp := self.x.sub xr
  let q ← self.y.double.divNonzero tmp
  let lambda2 := q.sub lambda1
  let l2s ← lambda2.square
  let xs := (l2s.sub xr).sub self.x
  let tmp := self.x.sub xs
  let m ← lambda2.mul tmp
  return ⟨xs, m.sub self.y⟩

/-- `Consistent for Point`, crates/ragu_primitives/src/point.rs:215-219; a failing
`value()` is a panic. -/
def enforceConsistent (b : F) (p : Point F) : Syn F Unit := do
  let fresh ← alloc b (some (p.x.value, p.y.value))
  enforceEqual fresh.x.wire p.x.wire
  enforceEqual fresh.y.wire p.y.wire

end Point
end Ragu.Gadget

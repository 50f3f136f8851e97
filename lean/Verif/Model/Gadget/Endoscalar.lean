/-
Model of `ragu_primitives/src/endoscalar.rs`.

`nbits` is `Uendo::BITS`; `Uendo` values are naturals below `2 ^ nbits` (`Uendo` is
`u128`, crates/ragu_arithmetic/src/lib.rs:105).  `zeta` is `F::ZETA`, `gen` is
`F::MULTIPLICATIVE_GENERATOR` and `sqrt` is `Field::sqrt`.
-/
import Verif.Model.Gadget.Point

namespace Ragu.Gadget
open Ragu Ragu.Circuit
variable {F : Type} [Field F] [DecidableEq F]

/-- `Endoscalar`, crates/ragu_primitives/src/endoscalar.rs:33-43: the wires of the (demoted)
bits and the value. -/
structure Endoscalar (F : Type) where
  bits : List F
  value : ℕ
deriving DecidableEq

namespace Endoscalar

/-- The loop of `Endoscalar::alloc` over bit positions `i, …, i + k - 1`. -/
def allocLoop (v : ℕ) : ℕ → ℕ → Syn F (List F)
  | _, 0 => return []
  | i, k + 1 => do
    let bit ← Boolean.alloc (F := F) ((v >>> i) % 2 == 1)
    let rest ← allocLoop v (i + 1) k
    return bit.wire :: rest

/-- `Endoscalar::alloc`, crates/ragu_primitives/src/endoscalar.rs:47-63. -/
def alloc (nbits : ℕ) (v : ℕ) : Syn F (Endoscalar F) := do
  let bits ← allocLoop v 0 nbits
  return ⟨bits, v⟩

/-- `Endoscalar::bits`, crates/ragu_primitives/src/endoscalar.rs:66-75: promote each wire with
the corresponding bit of the value. -/
def toBits (e : Endoscalar F) : List (Boolean F) :=
  e.bits.mapIdx fun i w => ⟨w, (e.value >>> i) % 2 == 1⟩

/-- The witness of one `extract` step, crates/ragu_primitives/src/endoscalar.rs:92-105:
`none` is the panic in `expect`. -/
def extractWitness (sqrt : F → Option F) (gen : F) (value : F) : Option (F × Bool) :=
  match sqrt value with
  | some s => some (s, true)
  | none =>
    match sqrt (value * gen) with
    | some s => some (s, false)
    | none => none

/-- The loop of `Endoscalar::extract`, crates/ragu_primitives/src/endoscalar.rs:91-141; runs
`k` iterations starting at position `i` with the running values of the source. Only a driver with
witness values runs the closure that may panic. -/
def extractLoop (sqrt : F → Option F) (gen : F) (elem : Element F) :
    ℕ → ℕ → F → F → F → ℕ → Syn F (List F × ℕ)
  | _, 0, _, _, _, value => return ([], value)
  | i, k + 1, constant, coeff0, coeff1, value => do
    let w := extractWitness sqrt gen (elem.value + constant)
    Syn.check (if w.isNone then some .panic else none) (.ret ())
    let (s, bit) := w.getD (0, false)
    let value := if bit then value ||| (1 <<< i) else value
    let b ← Boolean.alloc (F := F) bit
    let (_, square) ← Element.allocSquare s
    let vb ← elem.mul b.element
    enforceZero [.term ONE (.arbitrary coeff0), .term b.wire (.arbitrary coeff1),
      .term elem.wire (.arbitrary gen), .term vb.wire (.arbitrary (1 - gen)),
      .sub square.wire]
    let (rest, v) ← extractLoop sqrt gen elem (i + 1) k (constant + 1) (coeff0 + gen)
      (coeff1 + (1 - gen)) value
    return (b.wire :: rest, v)

/-- `Endoscalar::extract`, crates/ragu_primitives/src/endoscalar.rs:78-147. -/
def extract (nbits : ℕ) (sqrt : F → Option F) (gen : F) (elem : Element F) :
    Syn F (Endoscalar F) := do
  let (bits, value) ← extractLoop sqrt gen elem 0 nbits 0 0 0 0
  return ⟨bits, value⟩

/-- The loop of `Endoscalar::group_scale`, crates/ragu_primitives/src/endoscalar.rs:159-167;
`k` iterations, each taking two bits (`unwrap` panics when they run out). -/
def groupLoop (zeta : F) (p : Point F) : ℕ → List (Boolean F) → Point F → Syn F (Point F)
  | 0, _, acc => return acc
  | k + 1, negateBit :: endoBit :: rest, acc => do
    let q ← p.conditionalNegate negateBit
    let q ← q.conditionalEndo zeta endoBit
    let acc ← acc.doubleAndAddIncomplete q
    groupLoop zeta p k rest acc
  | _ + 1, _, _ => .panic

/-- `Endoscalar::group_scale`, crates/ragu_primitives/src/endoscalar.rs:150-170. -/
def groupScale (nbits : ℕ) (zeta : F) (e : Endoscalar F) (p : Point F) : Syn F (Point F) := do
  let (sum, _) ← (p.endo zeta).addIncomplete p none
  let acc ← sum.double
  groupLoop zeta p (nbits / 2) e.toBits acc

/-- The loop of `Endoscalar::lift`, crates/ragu_primitives/src/endoscalar.rs:187-204; returns
the accumulator and the constant term. -/
def liftLoop (zeta : F) : ℕ → List (Boolean F) → Element F → F → Syn F (Element F × F)
  | 0, _, acc, constant => return (acc, constant)
  | k + 1, n :: e :: rest, acc, constant => do
    let ne ← n.and e
    let acc := acc.double
    let constant := constant + constant
    let constant := constant + 1
    let n := n.element.scale (.arbitrary (-2))
    let e := e.element.scale (.arbitrary (zeta - 1))
    let ne := ne.element.scale (.arbitrary ((1 - zeta) + (1 - zeta)))
    let acc := acc.add n
    let acc := acc.add e
    let acc := acc.add ne
    liftLoop zeta k rest acc constant
  | _ + 1, _, _, _ => .panic

/-- `Endoscalar::lift`, crates/ragu_primitives/src/endoscalar.rs:173-210. -/
def lift (nbits : ℕ) (zeta : F) (e : Endoscalar F) : Syn F (Element F) := do
  let (acc, constant) ← liftLoop zeta (nbits / 2) e.toBits .zero ((zeta + 1) + (zeta + 1))
  return acc.add (Element.constant constant)

end Endoscalar

/-- The loop of `lift_endoscalar`, crates/ragu_primitives/src/endoscalar.rs:219-229, for the
next `k` pairs from pair `i` on. Generic in the ring so that it can also be read as an
operation on group endomorphisms. -/
def liftNativeLoop {R : Type} [Ring R] (zeta : R) (endo : ℕ) : ℕ → ℕ → R → R
  | _, 0, acc => acc
  | i, k + 1, acc =>
    let bits := endo >>> (2 * i)
    let tmp : R := 1
    let tmp := if bits % 2 ≠ 0 then -tmp else tmp
    let tmp := if (bits / 2) % 2 ≠ 0 then tmp * zeta else tmp
    liftNativeLoop zeta endo (i + 1) k (acc + acc + tmp)

/-- `lift_endoscalar`, crates/ragu_primitives/src/endoscalar.rs:217-231. -/
def liftNative {R : Type} [Ring R] (nbits : ℕ) (zeta : R) (endo : ℕ) : R :=
  liftNativeLoop zeta endo 0 (nbits / 2) ((zeta + 1) + (zeta + 1))

/-- `extract_endoscalar`, crates/ragu_primitives/src/endoscalar.rs:238-245: the witness side of
`extract` (a wireless emulator runs the closures and drops wires); `none` is the panic. -/
def extractNativeLoop (sqrt : F → Option F) (gen : F) (elem : F) :
    ℕ → ℕ → F → ℕ → Option ℕ
  | _, 0, _, value => some value
  | i, k + 1, constant, value =>
    match Endoscalar.extractWitness sqrt gen (elem + constant) with
    | none => none
    | some (_, bit) =>
      extractNativeLoop sqrt gen elem (i + 1) k (constant + 1)
        (if bit then value ||| (1 <<< i) else value)

/-- `extract_endoscalar`, crates/ragu_primitives/src/endoscalar.rs:238-245. -/
def extractNative (nbits : ℕ) (sqrt : F → Option F) (gen : F) (elem : F) : Option ℕ :=
  extractNativeLoop sqrt gen elem 0 nbits 0 0

end Ragu.Gadget

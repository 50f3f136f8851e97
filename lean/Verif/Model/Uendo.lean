/-
Model of `ragu_arithmetic/src/uendo.rs`: the 136-bit unsigned integer. The module is compiled but
the crate exports `u128` under the same name (crates/ragu_arithmetic/src/lib.rs:97-105).
-/
import Mathlib.Data.Nat.Bitwise
import Mathlib.Data.Fin.Basic

namespace Ragu

/-- `BITS`, crates/ragu_arithmetic/src/uendo.rs:14. -/
def Uendo.BITS : ℕ := 136

/-- `LIMBS`, crates/ragu_arithmetic/src/uendo.rs:15. -/
def Uendo.LIMBS : ℕ := (Uendo.BITS + 63) / 64

/-- `NORMALIZATION_MASK`, crates/ragu_arithmetic/src/uendo.rs:16. -/
def Uendo.NORMALIZATION_MASK : BitVec 64 := BitVec.allOnes 64 >>> (64 - Uendo.BITS % 64)

/-- `Uendo`, crates/ragu_arithmetic/src/uendo.rs:34-37. A limb is a 64-bit machine word. -/
@[ext] structure Uendo where
  limbs : Fin Uendo.LIMBS → BitVec 64

namespace Uendo

/-- `ZERO`, crates/ragu_arithmetic/src/uendo.rs:54. -/
def ZERO : Uendo := ⟨fun _ => 0⟩

/-- `ONE`, crates/ragu_arithmetic/src/uendo.rs:57-61. -/
def ONE : Uendo := ⟨fun i => if i.val = 0 then 1 else 0⟩

/-- `from_u64`, crates/ragu_arithmetic/src/uendo.rs:64-68. -/
def fromU64 (value : BitVec 64) : Uendo := ⟨fun i => if i.val = 0 then value else 0⟩

/-- `from_u128`, crates/ragu_arithmetic/src/uendo.rs:71-76. `as u64` keeps the low 64 bits. -/
def fromU128 (value : BitVec 128) : Uendo :=
  ⟨fun i => if i.val = 0 then value.setWidth 64
    else if i.val = 1 then (value >>> 64).setWidth 64 else 0⟩

/-- `normalize` and `normalized`, crates/ragu_arithmetic/src/uendo.rs:79-87. -/
def normalized (u : Uendo) : Uendo :=
  ⟨fun i => if i.val = LIMBS - 1 then u.limbs i &&& NORMALIZATION_MASK else u.limbs i⟩

/-- Sampling from the standard distribution, crates/ragu_arithmetic/src/uendo.rs:39-47; the words are
those drawn from the generator. -/
def sample (words : Fin LIMBS → BitVec 64) : Uendo := normalized ⟨words⟩

/-- `eq`, crates/ragu_arithmetic/src/uendo.rs:102-106. -/
def eq (a b : Uendo) : Bool := decide (∀ i, a.limbs i = b.limbs i)

/-- `bitand`, crates/ragu_arithmetic/src/uendo.rs:110-120. The loops of this and the following
functions write every limb at most once, each from the operands only, so they are given as the
limb they leave at each index. -/
def and (a b : Uendo) : Uendo := ⟨fun i => a.limbs i &&& b.limbs i⟩

/-- `bitor` and `bitor_assign`, crates/ragu_arithmetic/src/uendo.rs:122-140. -/
def or (a b : Uendo) : Uendo := ⟨fun i => a.limbs i ||| b.limbs i⟩

/-- A limb by number, zero out of range (every access in the code is in range). -/
def limb (u : Uendo) (i : ℕ) : BitVec 64 := if h : i < LIMBS then u.limbs ⟨i, h⟩ else 0

/-- `shl`, crates/ragu_arithmetic/src/uendo.rs:142-166. -/
def shl (u : Uendo) (rhs : ℕ) : Uendo :=
  if rhs ≥ BITS then ZERO
  else
    let limbShift := rhs / 64
    let bitShift := rhs % 64
    normalized ⟨fun t =>
      if limbShift ≤ t.val then
        let source := t.val - limbShift
        let r := u.limb source <<< bitShift
        if bitShift > 0 ∧ source > 0 then r ||| (u.limb (source - 1) >>> (64 - bitShift)) else r
      else 0⟩

/-- `shr`, crates/ragu_arithmetic/src/uendo.rs:174-198. -/
def shr (u : Uendo) (rhs : ℕ) : Uendo :=
  if rhs ≥ BITS then ZERO
  else
    let limbShift := rhs / 64
    let bitShift := rhs % 64
    ⟨fun t =>
      if t.val < LIMBS - limbShift then
        let source := t.val + limbShift
        let r := u.limb source >>> bitShift
        if bitShift > 0 ∧ source + 1 < LIMBS then r ||| (u.limb (source + 1) <<< (64 - bitShift))
        else r
      else 0⟩

end Uendo
end Ragu

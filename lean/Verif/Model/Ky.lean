/-
Model of the streaming Horner evaluation and of `k(y)`:
`ragu_circuits/src/horner.rs` and `ragu_circuits/src/ky.rs`, for a driver whose
wires are field elements (the wired emulator used by `ky::eval`).
-/
import Verif.Model.Coeff

namespace Ragu.Ky
variable {F : Type*} [Field F]

/-- `Horner::write`, crates/ragu_circuits/src/horner.rs:55-61. The state is `result`. -/
def write (point : F) (result : Option F) (value : F) : Option F :=
  some (match result with
    | some acc => acc * point + value
    | none => value)

/-- `Horner::finish`, crates/ragu_circuits/src/horner.rs:42-44. -/
def finish (result : Option F) : F := result.getD 0

/-- Writing a sequence of elements to a fresh buffer (`Horner::new`,
crates/ragu_circuits/src/horner.rs:32-37). -/
def writeAll (point : F) (values : List F) : Option F := values.foldl (write point) none

/-- `Horner::finish_ky`, crates/ragu_circuits/src/horner.rs:48-51. -/
def finishKy (point : F) (result : Option F) : F := finish (write point result 1)

/-- `ky::eval`, crates/ragu_circuits/src/ky.rs:19-28, on the elements written by the
circuit's instance. -/
def kyEval (instance_ : List F) (y : F) : F := finishKy y (writeAll y instance_)

end Ragu.Ky

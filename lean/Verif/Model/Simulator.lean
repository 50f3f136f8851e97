/-
Model of `ragu_primitives/src/simulator.rs` (the driver that checks a witness
directly) and of the wired mode of `ragu_core/src/drivers/emulator.rs`. In both,
wires are field elements.
-/
import Verif.Spec.Circuit

namespace Ragu.Circuit
open Ragu
variable {F : Type} [Field F] [DecidableEq F]

/-- `DirectSum`, crates/ragu_core/src/drivers/linexp.rs:60-66. -/
structure DirectSum (F : Type) where
  value : F
  gain : Coeff F

/-- `DirectSum::default`, crates/ragu_core/src/drivers/linexp.rs:81-88. -/
def DirectSum.default : DirectSum F := ⟨0, .one⟩

/-- One builder call on a `DirectSum`, crates/ragu_core/src/drivers/linexp.rs:90-108. -/
def DirectSum.step (s : DirectSum F) : LcStep F F → DirectSum F
  | .term wire coeff =>
    match Coeff.mul coeff s.gain with
    | .zero => s
    | .one => { s with value := s.value + wire }
    | .two => { s with value := s.value + (wire + wire) }
    | .negativeOne => { s with value := s.value - wire }
    | .arbitrary c => { s with value := s.value + wire * c }
    | .negativeArbitrary c => { s with value := s.value - wire * c }
  | .gain coeff => { s with gain := Coeff.mul s.gain coeff }

/-- Running a closure on `DirectSum::default()` and taking its value. -/
def directSum (lc : List (LcStep F F)) : F := (lc.foldl DirectSum.step DirectSum.default).value

/-- `Simulator`'s counters, crates/ragu_primitives/src/simulator.rs:20-25. -/
structure SimCounts where
  numGates : ℕ := 0
  numAllocations : ℕ := 0
  numConstraints : ℕ := 0

/-- `Simulator`, crates/ragu_primitives/src/simulator.rs:83-163: `gate` checks both gate
equations, `alloc` only records the value, `enforce_zero` checks that the linear
combination is zero, routines are executed in place. `mul` is `Driver::mul`,
crates/ragu_core/src/drivers.rs:274-283. -/
def simD : Driver F F SimCounts where
  one := 1
  gate a b c d s :=
    if a * b ≠ c then .error .invalidWitness
    else if c * d ≠ 0 then .error .invalidWitness
    else .ok ({ s with numGates := s.numGates + 1 }, a, b, c, d)
  mul a b c s :=
    if a * b ≠ c then .error .invalidWitness
    else if c * 0 ≠ 0 then .error .invalidWitness
    else .ok ({ s with numGates := s.numGates + 1 }, a, b, c)
  alloc v s := .ok ({ s with numAllocations := s.numAllocations + 1 }, v)
  add lc s := .ok (s, directSum lc)
  enforce lc s :=
    if directSum lc ≠ 0 then .error .invalidWitness
    else .ok { s with numConstraints := s.numConstraints + 1 }
  enter _ s := .ok s
  leave _ _ s := .ok s
  clone _ s := .ok s
  drop _ s := .ok s

/-- `Emulator<Wired>`, crates/ragu_core/src/drivers/emulator.rs:127-136 and 310-331: nothing
is checked. `alloc` and `mul` are the defaults of crates/ragu_core/src/drivers.rs:244-247
(the `b` wire of a gate with values `(0, v, 0, 0)`) and 274-283, and `routine` is the
default of 339-346 (execute in place). -/
def emuD : Driver F F Unit where
  one := 1
  gate a b c d _ := .ok ((), a, b, c, d)
  mul a b c _ := .ok ((), a, b, c)
  alloc v _ := .ok ((), v)
  add lc _ := .ok ((), directSum lc)
  enforce _ _ := .ok ()
  enter _ _ := .ok ()
  leave _ _ _ := .ok ()
  clone _ _ := .ok ()
  drop _ _ := .ok ()

/-- `Simulator::simulate` (crates/ragu_primitives/src/simulator.rs:71-80) running a circuit's
witness synthesis and returning the values of its outputs. -/
def simulate (c : Circ F) : Except Err (List F) := do
  let (_, env) ← run simD c.body {} []
  c.outs.mapM (resolve 1 env)

/-- `Emulator::emulate_wired` running a circuit's witness synthesis and returning the
values of its outputs. -/
def emulate (c : Circ F) : Except Err (List F) := do
  let (_, env) ← run emuD c.body () []
  c.outs.mapM (resolve 1 env)

end Ragu.Circuit

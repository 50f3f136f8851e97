/-
Gadget code as a tree of driver calls.

Gadgets (`ragu_primitives`) are generic over the driver; all they can do is call
`gate`/`mul`/`alloc`/`enforce_zero`, build linear combinations, and compute
witness values.  Here a wire is the field element the assignment gives it, so a
linear combination (`add`) is just its value.  A program is a `Syn`, and it has
two interpretations:

* `Syn.sat`: the circuit as a relation.  Gate and allocation wires take *any*
  values that satisfy the gate equations, whatever the witness code says.
* `Syn.sim`: the witness code as run by `Simulator`: gates and allocations take
  the witness values, and every gate and constraint is checked.
-/
import Verif.Model.Simulator

namespace Ragu.Gadget
open Ragu Ragu.Circuit

/-- Calls on the driver (crates/ragu_core/src/drivers.rs:144-346).  `gate` and
`alloc` carry the witness values their closures would return; `enforce` carries
the value of its linear combination; `check` is a `D::try_just` whose closure may
fail (crates/ragu_core/src/drivers.rs:328-330), which happens only where witness
values exist; `panic` is an `assert!`/`expect` failure. Routines
(drivers.rs:339-346) are executed in place. -/
inductive Syn (F α : Type) where
  | ret (a : α)
  | gate (w : F × F × F × F) (k : F → F → F → F → Syn F α)
  | alloc (w : F) (k : F → Syn F α)
  | enforce (v : F) (k : Syn F α)
  | check (e : Option Err) (k : Syn F α)
  | panic

namespace Syn
variable {F α β : Type}

/-- Sequencing. -/
def bind : Syn F α → (α → Syn F β) → Syn F β
  | ret a, f => f a
  | gate w k, f => gate w fun a b c d => (k a b c d).bind f
  | alloc w k, f => alloc w fun v => (k v).bind f
  | enforce v k, f => enforce v (k.bind f)
  | check e k, f => check e (k.bind f)
  | panic, _ => panic

instance : Monad (Syn F) where
  pure := ret
  bind := bind

section
variable [Field F] [DecidableEq F]

/-- The circuit as a relation between a (fixed) assignment of the wires that exist
before and the result: there are values for the new wires that satisfy both gate
equations of every gate (crates/ragu_core/src/drivers.rs:128-143) and every
constraint. -/
def sat : Syn F α → α → Prop
  | ret a, r => r = a
  | gate _ k, r => ∃ a b c d, a * b = c ∧ c * d = 0 ∧ (k a b c d).sat r
  | alloc _ k, r => ∃ v, (k v).sat r
  | enforce v k, r => v = 0 ∧ k.sat r
  | check _ k, r => k.sat r
  | panic, _ => False

/-- `Simulator` (crates/ragu_primitives/src/simulator.rs:90-153). -/
def sim : Syn F α → Except Err α
  | ret a => .ok a
  | gate w k =>
    if w.1 * w.2.1 ≠ w.2.2.1 then .error .invalidWitness
    else if w.2.2.1 * w.2.2.2 ≠ 0 then .error .invalidWitness
    else (k w.1 w.2.1 w.2.2.1 w.2.2.2).sim
  | alloc w k => (k w).sim
  | enforce v k => if v ≠ 0 then .error .invalidWitness else k.sim
  | check (some e) _ => .error e
  | check none k => k.sim
  | panic => .error .panic

end
end Syn

/-! ### Driver calls -/
section
variable {F : Type} [Field F] [DecidableEq F]

/-- The value of a linear combination built by `add_term`/`add`/`sub`/`gain` calls
(crates/ragu_core/src/drivers/linexp.rs:60-108). `dr.add` returns a wire with this
value. -/
def lin (lc : List (LcStep F F)) : F := directSum lc

/-- `Driver::ONE`. -/
def ONE : F := 1

/-- `Driver::mul`, crates/ragu_core/src/drivers.rs:274-283. -/
def mulGate (a b c : F) : Syn F (F × F × F) :=
  .gate (a, b, c, 0) fun a b c _ => .ret (a, b, c)

/-- `Driver::alloc`, crates/ragu_core/src/drivers.rs:244-247. -/
def allocWire (v : F) : Syn F F := .alloc v .ret

/-- `Driver::enforce_zero`. -/
def enforceZero (lc : List (LcStep F F)) : Syn F Unit := .enforce (lin lc) (.ret ())

/-- `Driver::enforce_equal`, crates/ragu_core/src/drivers.rs:318-320. -/
def enforceEqual (a b : F) : Syn F Unit := enforceZero [.add a, .sub b]

/-- `Driver::constant`, crates/ragu_core/src/drivers.rs:250-252. -/
def constantWire (c : Coeff F) : F := lin [.term ONE c]

/-- `D::try_just`: fail with `InvalidWitness` unless `ok`. -/
def tryJust (ok : Bool) : Syn F Unit :=
  .check (if ok then none else some .invalidWitness) (.ret ())

end
end Ragu.Gadget

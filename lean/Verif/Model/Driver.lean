/-
Circuit code as a sequence of driver calls, and the drivers' common interface.

A Rust circuit is generic code over a `Driver`: by parametricity the only thing
it can do with a driver is call its operations on wires it received from that
driver earlier.  The model keeps that sequence of calls (`Prog`), including the
nesting of routines and every `Clone`/`Drop` of a wire handle (which one of the
drivers counts).  Wires are named by the order in which they were created.
-/
import Verif.Model.Coeff

namespace Ragu.Circuit
open Ragu

/-- A reference to a wire: the driver's constant `ONE`
(crates/ragu_core/src/drivers.rs:214-221) or the `i`-th wire returned by the
driver so far. -/
inductive WRef where
  | one
  | idx (i : ℕ)
deriving DecidableEq

/-- One call on a linear combination under construction (`LinearExpression`,
crates/ragu_core/src/drivers/linexp.rs:19-45): `add_term(wire, coeff)` or `gain(coeff)`.
`add`/`sub`/`extend` are sequences of `add_term` (linexp.rs:29-44). -/
inductive LcStep (F W : Type) where
  | term (w : W) (c : Coeff F)
  | gain (c : Coeff F)

/-- `lc.add(wire)`, crates/ragu_core/src/drivers/linexp.rs:36-39. -/
def LcStep.add {F W : Type} (w : W) : LcStep F W := .term w .one
/-- `lc.sub(wire)`, crates/ragu_core/src/drivers/linexp.rs:41-44. -/
def LcStep.sub {F W : Type} (w : W) : LcStep F W := .term w .negativeOne

/-- What a routine call reveals to its driver besides its body: whether `predict`
returned `Known` (crates/ragu_core/src/routines.rs), and how many wires its input
and output gadgets have. -/
structure Call where
  known : Bool := false
  nin : ℕ := 0
  nout : ℕ := 0

/-- The calls one synthesis makes on its driver (`DriverTypes::gate`,
crates/ragu_core/src/drivers.rs:144-157; `alloc` 244-247, `mul` 274-283, `add`, `enforce_zero`,
`routine` 339-346).  Witness values are attached to the calls that take them;
they are field elements (`Coeff::value` already applied).  `routine call body k`
is a routine call.  Simplification: a witness closure that fails is not
represented. -/
inductive Prog (F : Type) where
  | done
  | gate (a b c d : F) (k : Prog F)
  | mul (a b c : F) (k : Prog F)
  | alloc (v : F) (k : Prog F)
  | add (lc : List (LcStep F WRef)) (k : Prog F)
  | enforce (lc : List (LcStep F WRef)) (k : Prog F)
  | routine (call : Call) (body k : Prog F)
  | clone (w : ℕ) (k : Prog F)
  | drop (w : ℕ) (k : Prog F)

/-- Sequencing of driver calls. -/
def Prog.seq {F : Type} : Prog F → Prog F → Prog F
  | .done, q => q
  | .gate a b c d k, q => .gate a b c d (k.seq q)
  | .mul a b c k, q => .mul a b c (k.seq q)
  | .alloc v k, q => .alloc v (k.seq q)
  | .add lc k, q => .add lc (k.seq q)
  | .enforce lc k, q => .enforce lc (k.seq q)
  | .routine kn b k, q => .routine kn b (k.seq q)
  | .clone w k, q => .clone w (k.seq q)
  | .drop w k, q => .drop w (k.seq q)

/-- Failures: the two capacity errors returned as `Err`
(crates/ragu_core/src/errors.rs), an invalid witness, and any panic. -/
inductive Err where
  | gateBound (limit : ℕ)
  | constraintBound (limit : ℕ)
  | invalidWitness
  | malformedEncoding
  | panic
deriving DecidableEq

/-- The operations of `Driver`/`DriverTypes` (crates/ragu_core/src/drivers.rs:93-347) as state
transformers.  `enter`/`leave` are the two halves of `routine`; `leave` gets the
state saved at the call and the state at the end of the body. `clone`/`drop` are
the wire type's `Clone` and `Drop`. -/
structure Driver (F W σ : Type) where
  one : W
  gate : F → F → F → F → σ → Except Err (σ × W × W × W × W)
  mul : F → F → F → σ → Except Err (σ × W × W × W)
  alloc : F → σ → Except Err (σ × W)
  add : List (LcStep F W) → σ → Except Err (σ × W)
  enforce : List (LcStep F W) → σ → Except Err σ
  enter : Call → σ → Except Err σ
  leave : Call → σ → σ → Except Err σ
  clone : W → σ → Except Err σ
  drop : W → σ → Except Err σ

section Run
variable {F W σ : Type}

/-- The wire a reference denotes (out of range cannot happen in Rust). -/
def resolve (one : W) (env : List W) : WRef → Except Err W
  | .one => .ok one
  | .idx i => match env[i]? with
    | some w => .ok w
    | none => .error .panic

/-- Resolve every wire of a linear combination. -/
def resolveLc (one : W) (env : List W) :
    List (LcStep F WRef) → Except Err (List (LcStep F W))
  | [] => .ok []
  | .gain c :: r => do
    let r' ← resolveLc one env r
    .ok (.gain c :: r')
  | .term w c :: r => do
    let w' ← resolve one env w
    let r' ← resolveLc one env r
    .ok (.term w' c :: r')

/-- Execute the calls of a program against a driver, collecting the wires it
returns. -/
def run (D : Driver F W σ) : Prog F → σ → List W → Except Err (σ × List W)
  | .done, s, env => .ok (s, env)
  | .gate va vb vc vd k, s, env => do
    let (s', a, b, c, d) ← D.gate va vb vc vd s
    run D k s' (env ++ [a, b, c, d])
  | .mul va vb vc k, s, env => do
    let (s', a, b, c) ← D.mul va vb vc s
    run D k s' (env ++ [a, b, c])
  | .alloc v k, s, env => do
    let (s', w) ← D.alloc v s
    run D k s' (env ++ [w])
  | .add lc k, s, env => do
    let lc' ← resolveLc D.one env lc
    let (s', w) ← D.add lc' s
    run D k s' (env ++ [w])
  | .enforce lc k, s, env => do
    let lc' ← resolveLc D.one env lc
    let s' ← D.enforce lc' s
    run D k s' env
  | .routine call body k, s, env => do
    let s0 ← D.enter call s
    let (s1, env') ← run D body s0 env
    let s' ← D.leave call s s1
    run D k s' env'
  | .clone w k, s, env => do
    let w' ← resolve D.one env (.idx w)
    let s' ← D.clone w' s
    run D k s' env
  | .drop w k, s, env => do
    let w' ← resolve D.one env (.idx w)
    let s' ← D.drop w' s
    run D k s' env

/-- A circuit: the calls made by `Circuit::witness` and by writing its output
gadget, the wires written as public outputs, and the handles dropped when
synthesis is over. -/
structure Circ (F : Type) where
  body : Prog F
  outs : List WRef
  cleanup : List ℕ

/-- The end of synthesis: one `enforce_zero(|lc| lc.add(out))` per output in
order, then `enforce_zero(|lc| lc.add(&D::ONE))`, then the remaining handles are
dropped.  `orchestrate`, crates/ragu_circuits/src/raw.rs:196-214. -/
def epilogue (outs : List WRef) (cleanup : List ℕ) : Prog F :=
  outs.foldr (fun w k => .enforce [.add w] k)
    (.enforce [.add .one] (cleanup.foldr .drop .done))

/-- Everything synthesised after the SYSTEM gate. -/
def Circ.main (c : Circ F) : Prog F := c.body.seq (epilogue c.outs c.cleanup)

/-- `orchestrate`, crates/ragu_circuits/src/raw.rs:184-215: the SYSTEM gate (its wires
are not handed to the circuit, `CircuitAdapter`), the circuit, the output
constraints and the ONE constraint. -/
def orchestrate [Zero F] (D : Driver F W σ) (c : Circ F) (s : σ) :
    Except Err (σ × List W) := do
  let (s', _) ← D.gate 0 0 0 0 s
  run D c.main s' []

end Run
end Ragu.Circuit

/-
Routine fingerprints: the part of `ragu_circuits/src/metrics.rs` that `Model/Metrics.lean` leaves out.
-/
import Verif.Model.Wiring

namespace Ragu.Circuit
open Ragu

/-- Circuit code as in `Prog`, with its routine calls as the API has them
(crates/ragu_core/src/routines.rs:34-75): a routine gets an input gadget and returns an output gadget, and
its code sees no other wires, so that wires are numbered anew in the body, inputs first. `kinds` are the
type ids of the input and the output kind, `input` are wires of the caller and `output` wires of the body;
the caller's wires are then followed by as many new ones. Witness values, clones and drops are left out:
this driver has no use for them. -/
inductive Code (F : Type) where
  | done
  | gate (k : Code F)
  | mul (k : Code F)
  | alloc (k : Code F)
  | add (lc : List (LcStep F WRef)) (k : Code F)
  | enforce (lc : List (LcStep F WRef)) (k : Code F)
  | call (kinds : ℕ × ℕ) (input : List WRef) (body : Code F) (output : List WRef) (k : Code F)

/-- The points of `Counter::new`, crates/ragu_circuits/src/metrics.rs:310-316. The code takes them from
BLAKE2b; here they are parameters. -/
structure FpPoints (F : Type) where
  x0 : F
  x1 : F
  x2 : F
  x3 : F
  y : F
  h : F
  one : F

/-- `RoutineFingerprint`, crates/ragu_circuits/src/metrics.rs:92-98. -/
structure Fingerprint where
  inputKind : ℕ
  outputKind : ℕ
  eval : ℕ
  numGates : ℕ
  numCons : ℕ
deriving DecidableEq

/-- `SegmentRecord`, crates/ragu_circuits/src/metrics.rs:161-165; the identity `none` is
`RoutineIdentity::Root` (crates/ragu_circuits/src/metrics.rs:65-70). -/
structure SegmentRecord where
  numGates : ℕ
  numCons : ℕ
  identity : Option Fingerprint
deriving DecidableEq

/-- `CounterScope`, crates/ragu_circuits/src/metrics.rs:215-236. -/
structure FpScope (F : Type) where
  availD : Option F
  current : ℕ
  a : F
  b : F
  c : F
  d : F
  result : F

/-- `Counter`, crates/ragu_circuits/src/metrics.rs:251-299, without the points. -/
structure FpCounter (F : Type) where
  scope : FpScope F
  numCons : ℕ
  numGates : ℕ
  segments : List SegmentRecord
  counting : Bool

namespace FpCounter
variable {F : Type} [Field F] [DecidableEq F]

/-- The scope with which a segment starts, crates/ragu_circuits/src/metrics.rs:319-327, 442-453. -/
def fresh (P : FpPoints F) (segment : ℕ) : FpScope F :=
  { availD := none, current := segment, a := P.x0, b := P.x1, c := P.x2, d := P.x3, result := P.h }

/-- `Counter::new`, crates/ragu_circuits/src/metrics.rs:302-344. -/
def new (P : FpPoints F) : FpCounter F :=
  { scope := fresh P 0, numCons := 0, numGates := 0, segments := [⟨0, 0, none⟩], counting := true }

/-- `self.segments[i]` changed by `f`; an out-of-range index is a panic. -/
def update (i : ℕ) (f : SegmentRecord → SegmentRecord) (l : List SegmentRecord) :
    Except Err (List SegmentRecord) :=
  match l[i]? with
  | some r => .ok (l.set i (f r))
  | none => .error .panic

/-- `gate`, crates/ragu_circuits/src/metrics.rs:369-394. -/
def gate (P : FpPoints F) (s : FpCounter F) : Except Err (FpCounter F × F × F × F × F) := do
  let s ← if s.counting then do
      let segments ← update s.scope.current (fun r => { r with numGates := r.numGates + 1 }) s.segments
      pure { s with numGates := s.numGates + 1, segments := segments }
    else pure s
  let t := s.scope
  return ({ s with scope :=
    { t with a := t.a * P.x0, b := t.b * P.x1, c := t.c * P.x2, d := t.d * P.x3 } },
    t.a, t.b, t.c, t.d)

/-- `alloc`, crates/ragu_circuits/src/metrics.rs:403-411. -/
def alloc (P : FpPoints F) (s : FpCounter F) : Except Err (FpCounter F × F) :=
  match s.scope.availD with
  | some w => .ok ({ s with scope := { s.scope with availD := none } }, w)
  | none => do
    let (s, _, b, _, d) ← s.gate P
    return ({ s with scope := { s.scope with availD := some d } }, b)

/-- `enforce_zero`, crates/ragu_circuits/src/metrics.rs:420-426; `value` is that of the linear
combination. -/
def enforce (P : FpPoints F) (value : F) (s : FpCounter F) : Except Err (FpCounter F) := do
  let segments ← update s.scope.current (fun r => { r with numCons := r.numCons + 1 }) s.segments
  return { s with numCons := s.numCons + 1, segments := segments,
                  scope := { s.scope with result := s.scope.result * P.y + value } }

/-- `map_gadget` with `WireMap for Counter`, crates/ragu_circuits/src/metrics.rs:534-541: a new wire for
each wire of a gadget. -/
def remap (P : FpPoints F) : ℕ → FpCounter F → Except Err (FpCounter F × List F)
  | 0, s => .ok (s, [])
  | k + 1, s => do
    let (s, w) ← s.alloc P
    let (s, ws) ← remap P k s
    return (s, w :: ws)

/-- `uncounted`, crates/ragu_circuits/src/metrics.rs:351-356. -/
def uncounted {α : Type} (f : FpCounter F → Except Err (FpCounter F × α)) (s : FpCounter F) :
    Except Err (FpCounter F × α) := do
  let (s, r) ← f { s with counting := false }
  return ({ s with counting := true }, r)

/-- The wires of a gadget. -/
def wires (env : List (WireEval F)) : List WRef → Except Err (List (WireEval F))
  | [] => .ok []
  | w :: ws => do
    let v ← resolve .one env w
    let vs ← wires env ws
    return v :: vs

/-- Synthesis with the `Counter` driver; `routine` is crates/ragu_circuits/src/metrics.rs:428-529, and
`low` is `low_u64` (crates/ragu_arithmetic/src/util.rs:18-26). -/
def run (P : FpPoints F) (low : F → ℕ) :
    Code F → FpCounter F → List (WireEval F) → Except Err (FpCounter F × List (WireEval F))
  | .done, s, env => .ok (s, env)
  | .gate k, s, env => do
    let (s, a, b, c, d) ← s.gate P
    run P low k s (env ++ [.value a, .value b, .value c, .value d])
  | .mul k, s, env => do
    let (s, a, b, c, _) ← s.gate P
    run P low k s (env ++ [.value a, .value b, .value c])
  | .alloc k, s, env => do
    let (s, w) ← s.alloc P
    run P low k s (env ++ [.value w])
  | .add lc k, s, env => do
    let lc ← resolveLc .one env lc
    run P low k s (env ++ [.value (wireEvalSum P.one 0 .one lc)])
  | .enforce lc k, s, env => do
    let lc ← resolveLc .one env lc
    let s ← s.enforce P (wireEvalSum P.one 0 .one lc)
    run P low k s env
  | .call kinds input body output k, s, env => do
    let input ← wires env input
    let segment := s.segments.length
    let saved := s.scope
    let s : FpCounter F := { s with segments := s.segments ++ [⟨0, 0, none⟩], scope := fresh P segment }
    let (s, newInput) ← uncounted (remap P input.length) s
    let s : FpCounter F := { s with scope := { s.scope with availD := none } }
    let (s, bodyEnv) ← run P low body s (newInput.map .value)
    let output ← wires bodyEnv output
    let result := s.scope.result
    let segments ← update segment (fun r =>
      ⟨r.numGates, r.numCons, some ⟨kinds.1, kinds.2, low result, r.numGates, r.numCons⟩⟩) s.segments
    let s : FpCounter F := { s with segments := segments, scope := { saved with availD := none } }
    let (s, newOutput) ← uncounted (remap P output.length) s
    let s : FpCounter F := { s with scope := { s.scope with availD := saved.availD } }
    run P low k s (env ++ newOutput.map .value)

/-- `eval_raw`, crates/ragu_circuits/src/metrics.rs:549-581, with `orchestrate`
(crates/ragu_circuits/src/raw.rs:184-215): the number of gates, the number of constraints and the records
of a circuit. `outs` are the public outputs. -/
def eval (P : FpPoints F) (low : F → ℕ) (c : Code F) (outs : List WRef) :
    Except Err (ℕ × ℕ × List SegmentRecord) := do
  let (s, _) ← (new P).gate P
  let (s, env) ← run P low c s []
  let (s, _) ← run P low
    (outs.foldr (fun w k => .enforce [.add w] k) (.enforce [.add .one] .done)) s env
  if (s.segments.map (·.numGates)).sum = s.numGates ∧ (s.segments.map (·.numCons)).sum = s.numCons ∧
      (s.segments.head?.map (·.identity)) = some none ∧
      (s.segments.filter (·.identity.isNone)).length = 1 then
    return (s.numGates, s.numCons, s.segments)
  else .error .panic

end FpCounter
end Ragu.Circuit

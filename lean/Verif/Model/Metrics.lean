/-
Model of `ragu_circuits/src/floor_planner.rs` and of the counting in
`ragu_circuits/src/metrics.rs`.
-/
import Verif.Spec.Circuit

namespace Ragu.Circuit

/-- `floor_plan`'s loop, crates/ragu_circuits/src/floor_planner.rs:84-93. `Seg` is
`ConstraintSegment` (floor_planner.rs:65-74). -/
def floorPlanFrom : ℕ → ℕ → List (ℕ × ℕ) → List Seg
  | _, _, [] => []
  | g, q, (ng, nc) :: r => ⟨g, q, ng, nc⟩ :: floorPlanFrom (g + ng) (q + nc) r

/-- `floor_plan`, crates/ragu_circuits/src/floor_planner.rs:80-103 (its final assertion
holds by construction). -/
def floorPlan (records : List (ℕ × ℕ)) : List Seg := floorPlanFrom 0 0 records

/-- `Counter`, crates/ragu_circuits/src/metrics.rs:225-275, without the fields that only
feed the routine fingerprint (the geometric sequences, the Horner accumulator and
the identities).  `segments` holds (gates, constraints) per `SegmentRecord`. -/
structure Counter where
  availD : Bool := false
  current : ℕ := 0
  numGates : ℕ := 0
  numCons : ℕ := 0
  segments : List (ℕ × ℕ) := [(0, 0)]
  counting : Bool := true

namespace Counter

/-- `self.segments[i] += …`; an out-of-range index is a panic. -/
def bump (i dg dc : ℕ) (l : List (ℕ × ℕ)) : Except Err (List (ℕ × ℕ)) :=
  match l[i]? with
  | some (g, c) => .ok (l.set i (g + dg, c + dc))
  | none => .error .panic

/-- `gate`, crates/ragu_circuits/src/metrics.rs:369-394. -/
def gate (s : Counter) : Except Err Counter :=
  if s.counting then do
    let segs ← bump s.current 1 0 s.segments
    .ok { s with numGates := s.numGates + 1, segments := segs }
  else .ok s

/-- `alloc`, crates/ragu_circuits/src/metrics.rs:403-411. -/
def alloc (s : Counter) : Except Err Counter :=
  if s.availD then .ok { s with availD := false }
  else do
    let s' ← s.gate
    .ok { s' with availD := true }

/-- `enforce_zero`, crates/ragu_circuits/src/metrics.rs:420-426 (counts regardless of
`counting`). -/
def enforce (s : Counter) : Except Err Counter := do
  let segs ← bump s.current 0 1 s.segments
  .ok { s with numCons := s.numCons + 1, segments := segs }

/-- `map_gadget` through `WireMap for Counter` (metrics.rs:534-541): one `alloc`
per wire of the gadget. -/
def remap : ℕ → Counter → Except Err Counter
  | 0, s => .ok s
  | k + 1, s => do
    let s' ← s.alloc
    remap k s'

/-- `uncounted`, crates/ragu_circuits/src/metrics.rs:351-356. -/
def uncounted (f : Counter → Except Err Counter) (s : Counter) : Except Err Counter := do
  let s' ← f { s with counting := false }
  .ok { s' with counting := true }

/-- `routine` up to `execute`, crates/ragu_circuits/src/metrics.rs:433-463. -/
def enter (call : Call) (s : Counter) : Except Err Counter := do
  let s1 : Counter :=
    { s with segments := s.segments ++ [(0, 0)], current := s.segments.length, availD := false }
  let s2 ← uncounted (remap call.nin) s1
  .ok { s2 with availD := false }

/-- `routine` after `execute`, crates/ragu_circuits/src/metrics.rs:465-528: restore the
parent scope, remap the outputs uncounted, restore `available_d`. -/
def leave (call : Call) (saved e : Counter) : Except Err Counter := do
  let s1 : Counter := { e with availD := false, current := saved.current }
  let s2 ← uncounted (remap call.nout) s1
  .ok { s2 with availD := saved.availD }

/-- The `Counter` driver; wires carry no counting information. -/
def driver {F : Type} : Driver F Unit Counter where
  one := ()
  gate _ _ _ _ s := do let s' ← s.gate; .ok (s', (), (), (), ())
  mul _ _ _ s := do let s' ← s.gate; .ok (s', (), (), ())
  alloc _ s := do let s' ← s.alloc; .ok (s', ())
  add _ s := .ok (s, ())
  enforce _ s := s.enforce
  enter := enter
  leave := leave
  clone _ s := .ok s
  drop _ s := .ok s

end Counter

/-- `CircuitMetrics`, crates/ragu_circuits/src/metrics.rs:191-209. -/
structure Metrics where
  numCons : ℕ
  numGates : ℕ
  degreeKy : ℕ
  segments : List (ℕ × ℕ)
deriving DecidableEq

/-- `eval_raw`, crates/ragu_circuits/src/metrics.rs:549-581, with its two count
assertions. -/
def metricsEval {F : Type} [Zero F] (c : Circ F) : Except Err Metrics := do
  let (s, _) ← orchestrate (W := Unit) Counter.driver c {}
  if (s.segments.map Prod.fst).sum = s.numGates ∧ (s.segments.map Prod.snd).sum = s.numCons then
    .ok ⟨s.numCons, s.numGates, c.outs.length, s.segments⟩
  else .error .panic

/-- The capacity checks of `into_circuit_object`, crates/ragu_circuits/src/lib.rs:215-238:
`num_coeffs = 4n`. -/
def capacityCheck (n : ℕ) (m : Metrics) : Except Err Unit :=
  if m.numCons ≥ 4 * n then .error (.constraintBound (4 * n - 1))
  else if m.numGates > n then .error (.gateBound n)
  else .ok ()

/-- `into_circuit_object`, crates/ragu_circuits/src/lib.rs:215-238, keeping only
the metrics of the resulting object (which determine its floor plan). -/
def intoCircuitObject {F : Type} [Zero F] (n : ℕ) (c : Circ F) : Except Err Metrics := do
  let m ← metricsEval c
  capacityCheck n m
  .ok m

end Ragu.Circuit

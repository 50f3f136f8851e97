/-
Model of `ragu_circuits/src/trace.rs`: recording witness values into segments,
deferring predicted routines, putting segments back in order, and assembling the
trace polynomial.
-/
import Verif.Model.Metrics
import Verif.Model.Sparse
import Mathlib.Data.List.Lex

namespace Ragu.Circuit
open Ragu
variable {F : Type} [Field F] [DecidableEq F]

/-- `Segment`, crates/ragu_circuits/src/trace.rs:32-37. -/
structure TSeg (F : Type) where
  a : List F := []
  b : List F := []
  c : List F := []
  d : List F := []
deriving DecidableEq

/-- `AnnotatedSegment::new`, crates/ragu_circuits/src/trace.rs:53-67: the root
segment starts with a zero gate. -/
def TSeg.new (path : List ℕ) : TSeg F :=
  if path.isEmpty then ⟨[0], [0], [0], [0]⟩ else ⟨[], [], [], []⟩

/-- `seg.a.push(..)` etc., crates/ragu_circuits/src/trace.rs:235-239. -/
def TSeg.push (s : TSeg F) (va vb vc vd : F) : TSeg F :=
  ⟨s.a ++ [va], s.b ++ [vb], s.c ++ [vc], s.d ++ [vd]⟩

/-- An annotated segment (crates/ragu_circuits/src/trace.rs:48-51): DFS path and values. -/
abbrev ASeg (F : Type) := List ℕ × TSeg F

/-- `Evaluator` with its `TraceScope`, crates/ragu_circuits/src/trace.rs:151-179.
`sent` lists the batches of segments delivered so far by deferred routines:
what the multicore build sends over the channel and the sequential build
concatenates in `deferred`. -/
structure TraceState (F : Type) where
  segs : List (ASeg F)
  sent : List (List (ASeg F))
  availD : Option ℕ
  cur : ℕ
  counter : ℕ
  path : List ℕ

/-- `Evaluator::new`, crates/ragu_circuits/src/trace.rs:181-215. -/
def TraceState.new (path : List ℕ) : TraceState F where
  segs := [(path, TSeg.new path)]
  sent := []
  availD := none
  cur := 0
  counter := 0
  path := path

/-- Update the current segment; an index out of range is a panic. -/
def TraceState.modify (s : TraceState F) (f : TSeg F → Except Err (TSeg F)) :
    Except Err (TraceState F) :=
  match s.segs[s.cur]? with
  | some (p, sg) => do
    let sg' ← f sg
    .ok { s with segs := s.segs.set s.cur (p, sg') }
  | none => .error .panic

/-- `gate`, crates/ragu_circuits/src/trace.rs:230-242. -/
def TraceState.gate (va vb vc vd : F) (s : TraceState F) : Except Err (TraceState F) :=
  s.modify fun sg => .ok (sg.push va vb vc vd)

/-- `alloc`, crates/ragu_circuits/src/trace.rs:250-267. -/
def TraceState.alloc (v : F) (s : TraceState F) : Except Err (TraceState F) :=
  match s.availD with
  | some i =>
    { s with availD := none }.modify fun sg =>
      if i < sg.d.length then
        .ok (TSeg.mk sg.a sg.b sg.c (sg.d.set i v))
      else .error .panic
  | none =>
    match s.segs[s.cur]? with
    | some (_, sg) => do
      let s' ← s.modify fun sg => .ok (sg.push 0 v 0 0)
      .ok { s' with availD := some sg.a.length }
    | none => .error .panic

/-- `routine` up to `execute`, crates/ragu_circuits/src/trace.rs:275-359. A routine
whose prediction is `Known` runs in an evaluator of its own (spawned, or inline in
the sequential build); any other routine runs in this evaluator with a new
segment and a new scope. -/
def TraceState.enter (call : Call) (s : TraceState F) : Except Err (TraceState F) :=
  let child := s.path ++ [s.counter]
  if call.known then .ok (TraceState.new child)
  else .ok {
    segs := s.segs ++ [(child, TSeg.new child)]
    sent := s.sent
    availD := none
    cur := s.segs.length
    counter := 0
    path := child }

/-- The rest of `routine`: a deferred routine delivers its segments as one batch
(after those already delivered by the caller, and with the batches of its own
deferred routines), crates/ragu_circuits/src/trace.rs:304-331; an inline routine's
scope is popped, with the assertion of 350-353. The caller's routine counter was
incremented at 282-283. -/
def TraceState.leave (call : Call) (saved t : TraceState F) : Except Err (TraceState F) :=
  if call.known then
    if t.segs.isEmpty then .error .panic
    else .ok { saved with
      sent := saved.sent ++ [t.segs] ++ t.sent
      counter := saved.counter + 1 }
  else if t.cur = saved.segs.length then
    .ok { t with
      availD := saved.availD
      cur := saved.cur
      counter := saved.counter + 1
      path := saved.path }
  else .error .panic

/-- The `Evaluator` driver, crates/ragu_circuits/src/trace.rs:223-360. -/
def traceD : Driver F Unit (TraceState F) where
  one := ()
  gate va vb vc vd s := do let s' ← s.gate va vb vc vd; .ok (s', (), (), (), ())
  mul va vb vc s := do let s' ← s.gate va vb vc 0; .ok (s', (), (), ())
  alloc v s := do let s' ← s.alloc v; .ok (s', ())
  add _ s := .ok (s, ())
  enforce _ s := .ok s
  enter := TraceState.enter
  leave := TraceState.leave
  clone _ s := .ok s
  drop _ s := .ok s

/-- The lists of segments that `eval` (crates/ragu_circuits/src/trace.rs:381-427) and
`finish` (363-374) can arrive at, as a relation because thread scheduling and the
unstable sort leave choices: the batches arrive in some order, and all segments
are put in some order sorted by path. `finish` then asserts that the first path
is empty and strips the paths. -/
def TraceEval (c : Circ F) (sorted : List (ASeg F)) : Prop :=
  ∃ (s : TraceState F) (e : List Unit) (order : List (List (ASeg F))),
    run traceD c.body (TraceState.new []) [] = .ok (s, e) ∧ order.Perm s.sent ∧
    sorted.Perm (s.segs ++ order.flatten) ∧ sorted.Pairwise (fun x y => x.1 ≤ y.1)

/-- `view.x[offset..offset + len].copy_from_slice(&seg.x)`. -/
def writeAt (l : List F) (offset : ℕ) (data : List F) : Option (List F) :=
  if offset + data.length ≤ l.length then
    some (l.take offset ++ data ++ l.drop (offset + data.length))
  else none

/-- The scatter loop of `assemble`, crates/ragu_circuits/src/trace.rs:121-138. -/
def scatter : List Seg → List (TSeg F) → Sparse.View F → Option (Sparse.View F)
  | sg :: fp, s :: segs, v =>
    if s.a.length = sg.numGates then do
      let a ← writeAt v.a sg.gateStart s.a
      let b ← writeAt v.b sg.gateStart s.b
      let c ← writeAt v.c sg.gateStart s.c
      let d ← writeAt v.d sg.gateStart s.d
      scatter fp segs ⟨a, b, c, d⟩
    else none
  | _, _, v => some v

/-- `Trace::assemble`, crates/ragu_circuits/src/trace.rs:87-147. -/
def assemble (n : ℕ) (fp : List Seg) (segs : List (TSeg F)) (alpha : F) :
    Except Err (Sparse.Poly F) :=
  if fp.length ≠ segs.length then .error .panic
  else
    match fp[0]? with
    | none => .error .panic
    | some root =>
      if root.gateStart ≠ 0 then .error .panic
      else
        let total := (List.zipWith (fun (sg : Seg) (s : TSeg F) => sg.gateStart + s.a.length)
          fp segs).foldl max 0
        if total > n then .error (.gateBound n)
        else
          let z := List.replicate total (0 : F)
          match scatter fp segs ⟨z, z, z, z⟩ with
          | none => .error .panic
          | some v =>
            if total = 0 then .error .panic
            else
              match Sparse.View.buildTrace n ⟨v.a, v.b.set 0 1, v.c, v.d.set 0 alpha⟩ with
              | some p => .ok p
              | none => .error .panic

/-- The same calls with every routine executed inline. -/
def Prog.inline : Prog F → Prog F
  | .done => .done
  | .gate a b c d k => .gate a b c d k.inline
  | .mul a b c k => .mul a b c k.inline
  | .alloc v k => .alloc v k.inline
  | .add lc k => .add lc k.inline
  | .enforce lc k => .enforce lc k.inline
  | .routine call b k => .routine { call with known := false } b.inline k.inline
  | .clone w k => .clone w k.inline
  | .drop w k => .drop w k.inline

end Ragu.Circuit

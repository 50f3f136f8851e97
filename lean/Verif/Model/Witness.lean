/-
Witness code with routine calls, as run by the drivers that have witness values but no wires:
the trace evaluator (`ragu_circuits/src/trace.rs`), with its threads, and the wireless emulator
(`ragu_core/src/drivers/emulator.rs`); and by the drivers that execute every routine in place
(the wired emulator, the simulator).

`Prog` is one sequence of driver calls; here code is kept together with what it does with the
result of a routine, so a driver that continues with a predicted result may run other code than
one that executes the routine first. A value closure may fail, and code may stop by itself.
-/
import Verif.Model.Trace
import Verif.Model.Gadget.Txz
import Verif.Model.Gadget.Sponge
import Verif.Model.Tpoly
import Mathlib.Logic.Relation

namespace Ragu.Witness
open Ragu Ragu.Circuit

/-- How code can end early: a returned `Err`, or a panic. -/
inductive Stop (E : Type) where
  | err (e : E)
  | panic
deriving DecidableEq

/-- Code that is generic over the driver (crates/ragu_core/src/drivers.rs:93-347), where the wires
carry no information. `gate` and `alloc` come with what their value closure returns when it is
called. `call` is `dr.routine(..)` (crates/ragu_core/src/routines.rs:34-75): `predict` is the code of
`Routine::predict`, which yields the predicted output, if any (`Prediction`, routines.rs:95-103),
and the auxiliary data; `exec` is the code of `Routine::execute`; `k` is the code that follows, which
gets the output. `add` and `enforce_zero` do nothing in these drivers and are left out.
Simplification: code passes an `Err` on (`?`); it does not go on after one. -/
inductive WCode (E F : Type) : Type → Type 1 where
  | ret {α : Type} (a : α) : WCode E F α
  | stop {α : Type} (x : Stop E) : WCode E F α
  | gate {α : Type} (v : Except (Stop E) (F × F × F × F)) (k : WCode E F α) : WCode E F α
  | alloc {α : Type} (v : Except (Stop E) F) (k : WCode E F α) : WCode E F α
  | call {α β A : Type} (predict : WCode E F (Option β × A)) (exec : A → WCode E F β)
      (k : β → WCode E F α) : WCode E F α

section
variable {E F : Type}

/-- `Emulator<Wireless<..>>`, crates/ragu_core/src/drivers/emulator.rs:139-154 and 294-315: value
closures are not called, and `short_circuit_routine` (344-353) executes a routine only if its output
is not predicted. -/
def wireless : {α : Type} → WCode E F α → Except (Stop E) α
  | _, .ret a => .ok a
  | _, .stop x => .error x
  | _, .gate _ k => wireless k
  | _, .alloc _ k => wireless k
  | _, .call predict exec k =>
    match wireless predict with
    | .error x => .error x
    | .ok (some o, _) => wireless (k o)
    | .ok (none, a) =>
      match wireless (exec a) with
      | .error x => .error x
      | .ok o => wireless (k o)

/-- The drivers that call every value closure and execute every routine with the auxiliary data of
its prediction: `Driver::routine`, crates/ragu_core/src/drivers.rs:339-346, in
`Emulator<Wired<..>>` (crates/ragu_core/src/drivers/emulator.rs:119-137 and 317-339), and
`Simulator::routine`, crates/ragu_primitives/src/simulator.rs:155-162, apart from its checks. -/
def inPlace : {α : Type} → WCode E F α → Except (Stop E) α
  | _, .ret a => .ok a
  | _, .stop x => .error x
  | _, .gate v k => match v with
    | .error x => .error x
    | .ok _ => inPlace k
  | _, .alloc v k => match v with
    | .error x => .error x
    | .ok _ => inPlace k
  | _, .call predict exec k =>
    match wireless predict with
    | .error x => .error x
    | .ok (_, a) =>
      match inPlace (exec a) with
      | .error x => .error x
      | .ok o => inPlace (k o)

end

section
variable {E F : Type} [Field F] [DecidableEq F]

/-- A failed operation on segments is a panic (an index out of range or an assertion). -/
def orPanic {β : Type} : Except Circuit.Err β → Except (Stop E) β
  | .ok b => .ok b
  | .error _ => .error .panic

/-- The trace evaluator without threads (crates/ragu_circuits/src/trace.rs:223-360 with
`not(feature = "multicore")`): a routine with a predicted output is run at once, in an evaluator of
its own, and its output is discarded (320-335); any other routine is run in this evaluator, in a
scope of its own (338-357). -/
def seqRun : {α : Type} → WCode E F α → TraceState F → Except (Stop E) (α × TraceState F)
  | _, .ret a, s => .ok (a, s)
  | _, .stop x, _ => .error x
  | _, .gate v k, s => match v with
    | .error x => .error x
    | .ok w => match orPanic (s.gate w.1 w.2.1 w.2.2.1 w.2.2.2) with
      | .error x => .error x
      | .ok s' => seqRun k s'
  | _, .alloc v k, s => match v with
    | .error x => .error x
    | .ok w => match orPanic (s.alloc w) with
      | .error x => .error x
      | .ok s' => seqRun k s'
  | _, .call predict exec k, s =>
    match wireless predict with
    | .error x => .error x
    | .ok (some o, a) =>
      match orPanic (s.enter { known := true }) with
      | .error x => .error x
      | .ok t =>
        match seqRun (exec a) t with
        | .error x => .error x
        | .ok (_, t) =>
          match orPanic (TraceState.leave { known := true } s t) with
          | .error x => .error x
          | .ok s' => seqRun (k o) s'
    | .ok (none, a) =>
      match orPanic (s.enter { known := false }) with
      | .error x => .error x
      | .ok t =>
        match seqRun (exec a) t with
        | .error x => .error x
        | .ok (o, t) =>
          match orPanic (TraceState.leave { known := false } s t) with
          | .error x => .error x
          | .ok s' => seqRun (k o) s'

/-- A spawned closure (crates/ragu_circuits/src/trace.rs:303-317): the path of the routine and the
code of its `execute`. -/
structure Task (E F : Type) where
  path : List ℕ
  out : Type
  code : WCode E F out

/-- The trace evaluator with threads (crates/ragu_circuits/src/trace.rs:223-360 with
`feature = "multicore"`): the tasks that are spawned, in order, and the result. A routine with a
predicted output is spawned, and the code goes on with that output (298-318). Tasks that were
spawned before an `Err` stay spawned. -/
def parRun : {α : Type} → WCode E F α → TraceState F →
    List (Task E F) × Except (Stop E) (α × TraceState F)
  | _, .ret a, s => ([], .ok (a, s))
  | _, .stop x, _ => ([], .error x)
  | _, .gate v k, s => match v with
    | .error x => ([], .error x)
    | .ok w => match orPanic (s.gate w.1 w.2.1 w.2.2.1 w.2.2.2) with
      | .error x => ([], .error x)
      | .ok s' => parRun k s'
  | _, .alloc v k, s => match v with
    | .error x => ([], .error x)
    | .ok w => match orPanic (s.alloc w) with
      | .error x => ([], .error x)
      | .ok s' => parRun k s'
  | _, .call predict exec k, s =>
    match wireless predict with
    | .error x => ([], .error x)
    | .ok (some o, a) =>
      let r := parRun (k o) { s with counter := s.counter + 1 }
      (⟨s.path ++ [s.counter], _, exec a⟩ :: r.1, r.2)
    | .ok (none, a) =>
      match orPanic (s.enter { known := false }) with
      | .error x => ([], .error x)
      | .ok t =>
        let r := parRun (exec a) t
        match r.2 with
        | .error x => (r.1, .error x)
        | .ok (o, t) =>
          match orPanic (TraceState.leave { known := false } s t) with
          | .error x => (r.1, .error x)
          | .ok s' =>
            let r' := parRun (k o) s'
            (r.1 ++ r'.1, r'.2)

/-- What a task sends: its segments, with the assertion that there is at least one
(crates/ragu_circuits/src/trace.rs:305-316). -/
def batch {α : Type} : Except (Stop E) (α × TraceState F) → Except (Stop E) (List (ASeg F))
  | .error x => .error x
  | .ok (_, t) => if t.segs.isEmpty then .error .panic else .ok t.segs

/-- The tasks that a task spawns. -/
def Task.spawned (t : Task E F) : List (Task E F) := (parRun t.code (TraceState.new t.path)).1

/-- What a task sends, crates/ragu_circuits/src/trace.rs:304-316. -/
def Task.sends (t : Task E F) : Except (Stop E) (List (ASeg F)) :=
  batch (parRun t.code (TraceState.new t.path)).2

/-- The thread pool: tasks that wait for a thread, tasks that run (with what they are going to
send), and what is in the channel. -/
structure Pool (E F : Type) where
  waiting : List (Task E F)
  running : List (Except (Stop E) (List (ASeg F)))
  channel : List (Except (Stop E) (List (ASeg F)))

/-- A step of the pool: some waiting task gets a thread, or some running task sends its result
(crates/ragu_circuits/src/trace.rs:303-317). Tasks share nothing but the channel, so it does not
matter when a task spawns its own tasks; it does so at its start, which allows at least the orders
that are possible. A panic of a task is kept as what it sends; `scope` passes it on. -/
inductive Step : Pool E F → Pool E F → Prop where
  | start (l r : List (Task E F)) (t : Task E F) (running channel) :
      Step ⟨l ++ t :: r, running, channel⟩ ⟨l ++ r ++ t.spawned, t.sends :: running, channel⟩
  | send (waiting) (l r : List (Except (Stop E) (List (ASeg F)))) (x) (channel) :
      Step ⟨waiting, l ++ x :: r, channel⟩ ⟨waiting, l ++ r, channel ++ [x]⟩

/-- `scope` returns when every task has ended. -/
def Pool.idle (p : Pool E F) : Prop := p.waiting = [] ∧ p.running = []

/-- What `eval` can return: the auxiliary data with the annotated segments of the trace, an `Err`,
or a panic. -/
inductive Outcome (E F α : Type) where
  | ok (a : α) (t : List (ASeg F))
  | err (e : E)
  | panic

/-- `finish`, crates/ragu_circuits/src/trace.rs:363-374: the segments in some order sorted by path;
a panic if the first path is not empty. -/
inductive Finish {α : Type} (a : α) (segs : List (ASeg F)) : Outcome E F α → Prop where
  | ok (t : List (ASeg F)) : t.Perm segs → t.Pairwise (fun x y => x.1 ≤ y.1) →
      t.head?.map Prod.fst = some [] → Finish a segs (.ok a t)
  | panic (t : List (ASeg F)) : t.Perm segs → t.Pairwise (fun x y => x.1 ≤ y.1) →
      t.head?.map Prod.fst ≠ some [] → Finish a segs .panic

/-- An `Err` or a panic as an outcome. -/
def Stop.outcome {α : Type} : Stop E → Outcome E F α
  | .err e => .err e
  | .panic => .panic

/-- `for batch in rx { segments.extend(batch?) }`, crates/ragu_circuits/src/trace.rs:401-403. -/
def collect : List (ASeg F) → List (Except (Stop E) (List (ASeg F))) →
    Except (Stop E) (List (ASeg F))
  | segs, [] => .ok segs
  | _, .error x :: _ => .error x
  | segs, .ok b :: rest => collect (segs ++ b) rest

/-- Did the task panic? -/
def panicked {β : Type} : Except (Stop E) β → Bool
  | .error .panic => true
  | _ => false

/-- `eval` with threads, crates/ragu_circuits/src/trace.rs:385-406, for the schedule that leaves
`channel`: a panic of any task is passed on by `scope`; then the root's `Err`; then the first one
that was sent. -/
def parOutcome {α : Type} (root : Except (Stop E) (α × TraceState F))
    (channel : List (Except (Stop E) (List (ASeg F)))) (out : Outcome E F α) : Prop :=
  if channel.any panicked then out = .panic
  else match root with
    | .error x => out = x.outcome
    | .ok (a, s) =>
      match collect s.segs channel with
      | .error x => out = x.outcome
      | .ok segs => Finish a segs out

/-- The pool when the root evaluator has ended and nothing else has happened. -/
def initial {α : Type} (c : WCode E F α) : Pool E F := ⟨(parRun c (TraceState.new [])).1, [], []⟩

/-- `eval` in the build with threads (crates/ragu_circuits/src/trace.rs:385-407) can return `out`. -/
def ParEval {α : Type} (c : WCode E F α) (out : Outcome E F α) : Prop :=
  ∃ p : Pool E F, Relation.ReflTransGen Step (initial c) p ∧ p.idle ∧
    parOutcome (parRun c (TraceState.new [])).2 p.channel out

/-- `eval` in the build without threads (crates/ragu_circuits/src/trace.rs:409-426) can return `out`
(the sort is unstable). -/
def SeqEval {α : Type} (c : WCode E F α) (out : Outcome E F α) : Prop :=
  match seqRun c (TraceState.new []) with
  | .error x => out = x.outcome
  | .ok (a, s) => Finish a (s.segs ++ s.sent.flatten) out

/-- Gadget code (`Syn`) as witness code: gates and allocations take their witness values, constraints
do nothing, and checks of values fail, some of them (assertions in value closures) with a panic. -/
def ofSyn {α : Type} : Gadget.Syn F α → WCode Circuit.Err F α
  | .ret a => .ret a
  | .gate w k => .gate (.ok w) (ofSyn (k w.1 w.2.1 w.2.2.1 w.2.2.2))
  | .alloc w k => .alloc (.ok w) (ofSyn (k w))
  | .enforce _ k => ofSyn k
  | .check (some .panic) _ => .stop .panic
  | .check (some e) _ => .stop (.err e)
  | .check none k => ofSyn k
  | .panic => .stop .panic

/-- Sequencing of witness code. -/
def WCode.bind {α β : Type} : WCode E F α → (α → WCode E F β) → WCode E F β
  | .ret a, f => f a
  | .stop x, _ => .stop x
  | .gate v k, f => .gate v (k.bind f)
  | .alloc v k, f => .alloc v (k.bind f)
  | .call p e k, f => .call p e fun o => (k o).bind f

/-- A sequence of driver calls as witness code: the values are there, and what a routine returns does
not matter for what follows. -/
def ofProg : Prog F → WCode Circuit.Err F Unit
  | .done => .ret ()
  | .gate a b c d k => .gate (.ok (a, b, c, d)) (ofProg k)
  | .mul a b c k => .gate (.ok (a, b, c, 0)) (ofProg k)
  | .alloc v k => .alloc (.ok v) (ofProg k)
  | .add _ k => ofProg k
  | .enforce _ k => ofProg k
  | .routine call b k =>
    .call (.ret (if call.known then some () else none, ())) (fun _ => ofProg b) fun _ => ofProg k
  | .clone _ k => ofProg k
  | .drop _ k => ofProg k

/-- `dr.routine(Evaluate::new(), (x, z))`: `predict` fails if there is no inverse, and otherwise
allocates the output that it computes from the values and returns the inverses with it,
crates/ragu_circuits/src/polynomials/txz.rs:91-141; `execute` is 43-89. -/
def evaluateCall (k : ℕ) (x z : Gadget.Element F) : WCode Circuit.Err F (Gadget.Element F) :=
  .call
    (match Tpoly.txzPredict k x.value z.value with
      | none => .stop (.err .invalidWitness)
      | some v => .alloc (.ok v) (.ret (some ⟨v, v⟩, (x.value⁻¹, z.value⁻¹))))
    (fun aux => ofSyn (Gadget.Txz.execute k x z aux)) .ret

/-- `dr.routine(Permutation::from(params), state)`: there is no prediction,
crates/ragu_primitives/src/poseidon.rs:419-427; `execute` is 383-417. -/
def permutationCall (p : Gadget.PoseidonParams F) (state : List (Gadget.Element F)) :
    WCode Circuit.Err F (List (Gadget.Element F)) :=
  .call (.ret (none, ())) (fun _ => ofSyn (Gadget.Poseidon.permutation p state)) .ret

end
end Ragu.Witness

/-
Model of the wiring polynomial evaluator `ragu_circuits/src/s/sy.rs`, including
the reference-counted table of virtual wires.
-/
import Verif.Model.Wiring

namespace Ragu.Circuit
open Ragu
variable {F : Type} [Field F] [DecidableEq F]

/-- `WireIndex`, crates/ragu_circuits/src/s/sy.rs:99-106. The four cases
`A(i)`, `B(i)`, `C(i)`, `D(i)` are `gate k i`. -/
inductive WIdx where
  | gate (k : Kind) (i : ℕ)
  | virt (i : ℕ)
deriving DecidableEq

/-- `VirtualWire`, crates/ragu_circuits/src/s/sy.rs:210-230. -/
structure VWire (F : Type) where
  refcount : ℕ
  terms : List (WIdx × Coeff F)
  value : Coeff F

/-- `VirtualTable`, crates/ragu_circuits/src/s/sy.rs:240-266. `free` is the stack
of free slots (`List` head = top of the `Vec`). The four view buffers are `buf k`. -/
structure Table (F : Type) where
  wires : List (VWire F)
  free : List ℕ
  buf : Kind → List F

/-- `VirtualTable::add`, crates/ragu_circuits/src/s/sy.rs:269-280. Indexing out of
range panics. -/
def Table.add (T : Table F) (w : WIdx) (v : Coeff F) : Except Err (Table F) :=
  match w with
  | .gate k i =>
    if i < (T.buf k).length then
      .ok { T with buf := Function.update T.buf k ((T.buf k).set i ((T.buf k).getD i 0 + v.value)) }
    else .error .panic
  | .virt i =>
    match T.wires[i]? with
    | some w => .ok { T with wires := T.wires.set i { w with value := Coeff.add w.value v } }
    | none => .error .panic

/-- Sum of all reference counts; the bound used for the recursion below. -/
def Table.total (T : Table F) : ℕ := (T.wires.map VWire.refcount).sum

/-- `VirtualTable::free`, crates/ragu_circuits/src/s/sy.rs:289-307.
The Rust function recurses without a bound; here the recursion is bounded by
`fuel` and running out is reported as a panic (it is proved never to happen when
`fuel` is at least the sum of the reference counts). Rust's stack limit is not
modelled. -/
def Table.freeF : ℕ → Table F → WIdx → Except Err (Table F)
  | _, T, .gate _ _ => .ok T
  | 0, _, .virt _ => .error .panic
  | fuel + 1, T, .virt i =>
    match T.wires[i]? with
    | none => .error .panic
    | some w =>
      if w.refcount = 0 then .error .panic
      else if w.refcount - 1 = 0 then do
        let T2 : Table F := { T with wires := T.wires.set i ⟨0, [], w.value⟩ }
        let T3 ← w.terms.foldlM (fun (T : Table F) (t : WIdx × Coeff F) => do
          let T' ← T.add t.1 (Coeff.mul w.value t.2)
          Table.freeF fuel T' t.1) T2
        match T3.wires[i]? with
        | none => .error .panic
        | some w3 =>
          .ok { T3 with
            wires := T3.wires.set i { w3 with value := .zero }
            free := i :: T3.free }
      else .ok { T with wires := T.wires.set i { w with refcount := w.refcount - 1 } }

/-- `VirtualTable::free` with a recursion bound that always suffices. -/
def Table.freeWire (T : Table F) (w : WIdx) : Except Err (Table F) := Table.freeF T.total T w

/-- `VirtualTable::alloc`, crates/ragu_circuits/src/s/sy.rs:320-342, with its three
assertions. -/
def Table.alloc (T : Table F) : Except Err (Table F × ℕ) :=
  match T.free with
  | i :: rest =>
    match T.wires[i]? with
    | none => .error .panic
    | some w =>
      if w.refcount = 0 ∧ w.value.isZero = true ∧ w.terms = [] then
        .ok ({ T with wires := T.wires.set i { w with refcount := 1 }, free := rest }, i)
      else .error .panic
  | [] => .ok ({ T with wires := T.wires ++ [⟨1, [], .zero⟩] }, T.wires.length)

/-- `Wire::increment_refcount` and `Wire::clone`,
crates/ragu_circuits/src/s/sy.rs:149-174. -/
def Table.incr (T : Table F) (w : WIdx) : Except Err (Table F) :=
  match w with
  | .gate _ _ => .ok T
  | .virt i =>
    match T.wires[i]? with
    | none => .error .panic
    | some w => .ok { T with wires := T.wires.set i { w with refcount := w.refcount + 1 } }

/-- `TermCollector`, crates/ragu_circuits/src/s/sy.rs:412-442, run over a closure's calls. -/
def Table.collect : Table F → Coeff F → List (LcStep F WIdx) →
    Except Err (Table F × List (WIdx × Coeff F))
  | T, _, [] => .ok (T, [])
  | T, g, .term w c :: r => do
    let T' ← T.incr w
    let (T'', ts) ← Table.collect T' g r
    .ok (T'', (w, Coeff.mul c g) :: ts)
  | T, g, .gain c :: r => Table.collect T (Coeff.mul g c) r

/-- `VirtualTable::update`, crates/ragu_circuits/src/s/sy.rs:310-317. -/
def Table.update (T : Table F) (i : ℕ) (ts : List (WIdx × Coeff F)) : Except Err (Table F) :=
  match T.wires[i]? with
  | none => .error .panic
  | some w => .ok { T with wires := T.wires.set i { w with terms := ts } }

/-- `TermEnforcer`, crates/ragu_circuits/src/s/sy.rs:459-475, run over a closure's calls.
A closure that clones or drops a virtual wire while the enforcer holds the table
would panic in Rust (`RefCell`); closures here only call `add_term` and `gain`. -/
def Table.enforce : Table F → Coeff F → List (LcStep F WIdx) → Except Err (Table F)
  | T, _, [] => .ok T
  | T, g, .term w c :: r => do
    let T' ← T.add w (Coeff.mul c g)
    Table.enforce T' g r
  | T, g, .gain c :: r => Table.enforce T (Coeff.mul g c) r

/-- `Evaluator` with its `SyScope`, crates/ragu_circuits/src/s/sy.rs:345-404. -/
structure SyState (F : Type) where
  availD : Option WIdx
  curY : F
  gates : ℕ
  cons : ℕ
  table : Table F
  routine : ℕ

/-- `gate`, crates/ragu_circuits/src/s/sy.rs:511-532. -/
def SyState.gate (n : ℕ) (t : SyState F) : Except Err (SyState F × ℕ) :=
  if t.gates = n then .error (.gateBound n)
  else .ok ({ t with gates := t.gates + 1 }, t.gates)

/-- The driver of crates/ragu_circuits/src/s/sy.rs:486-648. Dropping a wire is
`Drop for Wire` (176-182). `mul` is the default `Driver::mul`, which drops the
`d` wire (not virtual, so nothing happens). -/
def syDriver (n : ℕ) (fp : List Seg) (y : F) : Driver F WIdx (SyState F) where
  one := .gate .b 0
  gate _ _ _ _ t := do
    let (t', i) ← t.gate n
    .ok (t', .gate .a i, .gate .b i, .gate .c i, .gate .d i)
  mul _ _ _ t := do
    let (t', i) ← t.gate n
    .ok (t', .gate .a i, .gate .b i, .gate .c i)
  alloc _ t :=
    match t.availD with
    | some w => .ok ({ t with availD := none }, w)
    | none => do
      let (t', i) ← t.gate n
      .ok ({ t' with availD := some (.gate .d i) }, .gate .b i)
  add lc t := do
    let (T1, i) ← t.table.alloc
    let (T2, ts) ← T1.collect .one lc
    let T3 ← T2.update i ts
    .ok ({ t with table := T3 }, .virt i)
  enforce lc t :=
    if t.cons ≥ 4 * n - 1 then .error (.constraintBound (4 * n - 1))
    else do
      let T' ← t.table.enforce (.arbitrary t.curY) lc
      .ok { t with
        cons := t.cons + 1
        table := T'
        curY := t.curY * y⁻¹ }
  enter _ t :=
    match fp[t.routine + 1]? with
    | none => .error .panic
    | some sg => .ok {
        availD := none
        curY := if sg.numCons = 0 then 0 else y ^ (sg.consStart + sg.numCons - 1)
        gates := sg.gateStart
        cons := sg.consStart
        table := t.table
        routine := t.routine + 1 }
  leave _ saved t :=
    match fp[saved.routine + 1]? with
    | none => .error .panic
    | some sg =>
      if t.gates = sg.gateStart + sg.numGates ∧ t.cons = sg.consStart + sg.numCons then
        .ok { saved with
          table := t.table
          routine := t.routine }
      else .error .panic
  clone w t := do
    let T' ← t.table.incr w
    .ok { t with table := T' }
  drop w t := do
    let T' ← t.table.freeWire w
    .ok { t with table := T' }

/-- `eval`, crates/ragu_circuits/src/s/sy.rs:664-750. -/
def syEval (n : ℕ) (fp : List Seg) (c : Circ F) (y : F) : Except Err (Sparse.Poly F) :=
  if y = 0 then
    match Sparse.View.buildWiring n (F := F) ⟨[], [1], [], []⟩ with
    | some p => .ok p
    | none => .error .panic
  else
    match fp[0]? with
    | none => .error .panic
    | some root =>
      if root.numCons = 0 then .error .panic
      else do
        let tg := (fp.map Seg.numGates).sum
        let t0 : SyState F := {
          availD := none
          curY := y ^ (root.numCons - 1)
          gates := 0
          cons := 0
          table := { wires := [], free := [], buf := fun _ => List.replicate tg 0 }
          routine := 0 }
        let (t, _) ← orchestrate (syDriver n fp y) c t0
        if t.routine + 1 = fp.length ∧ t.gates = root.numGates ∧ t.cons = root.numCons then
          if t.table.free.length = t.table.wires.length then
            match Sparse.View.buildWiring n ⟨t.table.buf .a, t.table.buf .b, t.table.buf .c,
                t.table.buf .d⟩ with
            | some p => .ok p
            | none => .error .panic
          else .error .panic
        else .error .panic

end Ragu.Circuit

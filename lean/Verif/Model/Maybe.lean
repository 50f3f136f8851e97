/-
Model of `ragu_core/src/maybe/`: values that exist or not depending on the kind of the driver, and of the
programs that are written for every kind.
-/
import Mathlib.Data.List.OfFn

namespace Ragu.Maybe

/-! ### The interface -/

/-- The two implementations of `MaybeKind`, crates/ragu_core/src/maybe/always.rs:11-18 and
crates/ragu_core/src/maybe/empty.rs:9-15. -/
inductive MKind where
  | always | empty
deriving DecidableEq

/-- `Perhaps`, crates/ragu_core/src/maybe/mod.rs:183: `Always<T>` is a `T`
(crates/ragu_core/src/maybe/always.rs:6-7), `Empty` has no content
(crates/ragu_core/src/maybe/empty.rs:5). -/
inductive Perhaps (α : Type) : MKind → Type where
  | always (a : α) : Perhaps α .always
  | empty : Perhaps α .empty

/-- A closure on the variables it captures, whose values are a `σ`; `none` is a panic. -/
abbrev Closure (σ α : Type) := σ → Option α × σ

variable {σ α β E : Type}

/-- `MaybeKind::empty`, crates/ragu_core/src/maybe/always.rs:14-17 and
crates/ragu_core/src/maybe/empty.rs:12-14; `none` does not compile. -/
def MKind.emptyValue (k : MKind) (α : Type) : Option (Perhaps α k) :=
  match k with
  | .always => none
  | .empty => some .empty

/-- `Maybe::just`, crates/ragu_core/src/maybe/always.rs:23-25 and
crates/ragu_core/src/maybe/empty.rs:20-22; `maybe_just` is the same,
crates/ragu_core/src/maybe/mod.rs:168-170. -/
def MKind.just (k : MKind) (f : Closure σ α) : Closure σ (Perhaps α k) :=
  match k with
  | .always => fun s => ((f s).1.map .always, (f s).2)
  | .empty => fun s => (some .empty, s)

/-- `Maybe::try_just`, crates/ragu_core/src/maybe/always.rs:26-28 and
crates/ragu_core/src/maybe/empty.rs:23-25; `maybe_try_just` is the same,
crates/ragu_core/src/maybe/mod.rs:173-175. -/
def MKind.tryJust (k : MKind) (f : Closure σ (Except E α)) : Closure σ (Except E (Perhaps α k)) :=
  match k with
  | .always => fun s =>
    match f s with
    | (some (.ok a), s) => (some (.ok (.always a)), s)
    | (some (.error e), s) => (some (.error e), s)
    | (none, s) => (none, s)
  | .empty => fun s => (some (.ok .empty), s)

/-- `Maybe::take`, crates/ragu_core/src/maybe/always.rs:29-31 and
crates/ragu_core/src/maybe/empty.rs:26-45; `none` does not compile. -/
def MKind.take (k : MKind) (v : Perhaps α k) : Option α :=
  match k, v with
  | .always, .always a => some a
  | .empty, .empty => none

/-- `Maybe::map`, crates/ragu_core/src/maybe/always.rs:32-37 and
crates/ragu_core/src/maybe/empty.rs:46-51. -/
def MKind.map (k : MKind) (v : Perhaps α k) (f : α → Closure σ β) : Closure σ (Perhaps β k) :=
  match k, v with
  | .always, .always a => fun s => ((f a s).1.map .always, (f a s).2)
  | .empty, .empty => fun s => (some .empty, s)

/-- `Maybe::into`, crates/ragu_core/src/maybe/always.rs:38-43 and
crates/ragu_core/src/maybe/empty.rs:52-57; `g` is the conversion. -/
def MKind.into (k : MKind) (v : Perhaps α k) (g : α → Option β) : Option (Perhaps β k) :=
  match k, v with
  | .always, .always a => (g a).map .always
  | .empty, .empty => some .empty

/-- `Maybe::clone`, crates/ragu_core/src/maybe/always.rs:44-49 and
crates/ragu_core/src/maybe/empty.rs:58-63; `g` is `T::clone`. -/
def MKind.clone (k : MKind) (v : Perhaps α k) (g : α → α) : Perhaps α k :=
  match k, v with
  | .always, .always a => .always (g a)
  | .empty, .empty => .empty

/-- `Maybe::and_then`, crates/ragu_core/src/maybe/always.rs:50-55 and
crates/ragu_core/src/maybe/empty.rs:64-69. -/
def MKind.andThen (k : MKind) (v : Perhaps α k) (f : α → Closure σ (Perhaps β k)) :
    Closure σ (Perhaps β k) :=
  match k, v, f with
  | .always, .always a, f => f a
  | .empty, .empty, _ => fun s => (some .empty, s)

/-- `Maybe::as_ref`, crates/ragu_core/src/maybe/always.rs:56-61 and
crates/ragu_core/src/maybe/empty.rs:70-75; a reference is its value. -/
def MKind.asRef (k : MKind) (v : Perhaps α k) : Perhaps α k :=
  match k, v with
  | .always, .always a => .always a
  | .empty, .empty => .empty

/-- `Maybe::snag`, crates/ragu_core/src/maybe/mod.rs:121-126. -/
def MKind.snag (k : MKind) (v : Perhaps α k) : Option α := k.take (k.asRef v)

/-- `Maybe::as_mut` and `map` on the reference, crates/ragu_core/src/maybe/always.rs:62-64 and
crates/ragu_core/src/maybe/empty.rs:76-78: `f` returns its result and the value it leaves in the place of
the one it was given. -/
def MKind.asMut (k : MKind) (v : Perhaps α k) (f : α → Closure σ (β × α)) :
    Closure σ (Perhaps β k × Perhaps α k) :=
  match k, v with
  | .always, .always a => fun s => ((f a s).1.map fun r => (.always r.1, .always r.2), (f a s).2)
  | .empty, .empty => fun s => (some (.empty, .empty), s)

/-- The elements of an array by `iter.next()` in `K::maybe_just`, crates/ragu_core/src/maybe/cast.rs:12-13;
running out of elements is a panic. -/
def MKind.castLoop (k : MKind) : ℕ → List α → Option (List (Perhaps α k))
  | 0, _ => some []
  | n + 1, l => do
    let (v, l) := k.just (fun l : List α => (l.head?, l.tail)) l
    let v ← v
    let vs ← MKind.castLoop k n l
    return v :: vs

/-- `Maybe::cast` of an array of `n` elements, crates/ragu_core/src/maybe/always.rs:66-71,
crates/ragu_core/src/maybe/empty.rs:80-85 and crates/ragu_core/src/maybe/cast.rs:3-15. The casts of tuples,
crates/ragu_macros/src/proc/maybe_cast.rs:24-43, do the same for values of different types. -/
def MKind.cast (k : MKind) (n : ℕ) (v : Perhaps (List α) k) : Option (List (Perhaps α k)) :=
  match k, v with
  | .always, .always l => MKind.castLoop .always n l
  | .empty, .empty => (List.replicate n ()).mapM fun _ => MKind.empty.emptyValue α

/-! ### Programs

A program written for every kind, as in `my_operation` of crates/ragu_core/src/maybe/mod.rs:226-271: a
sequence of operations on values that may exist, of calls of a driver that take a closure for their
witness, and of ordinary Rust on the other variables. The values that may exist are kept in a list; a
closure that uses them takes or snags them, which compiles where they exist. A closure that changes one of
them, crates/ragu_core/src/maybe/mod.rs:253-256, is an `asMut` of it here. -/

/-- An operation; `r` is the place of the operand, and results are put at the end of the list. `C` are the
calls of the driver. -/
inductive MOp (σ V E C : Type) where
  | just (f : List (Option V) → Closure σ V)
  | tryJust (f : List (Option V) → Closure σ (Except E V))
  | call (c : C) (f : List (Option V) → Closure σ (Except E V))
  | map (r : ℕ) (f : V → List (Option V) → Closure σ V)
  | andThen (r : ℕ) (f : V → List (Option V) → Closure σ V)
  | clone (r : ℕ) (g : V → V)
  | asMut (r : ℕ) (f : V → List (Option V) → Closure σ (V × V))
  | cast (r n : ℕ) (f : V → Fin n → V)

/-- Programs: `σ` are the variables that closures capture, `τ` the other ones. `look` is any control flow,
which may read all of them. -/
inductive MProg (σ τ V E C : Type) where
  | done
  | op (o : MOp σ V E C) (next : MProg σ τ V E C)
  | assign (h : τ → τ) (next : MProg σ τ V E C)
  | look (next : σ → τ → MProg σ τ V E C)

/-- How a program ends: a panic, an error that it returns, or normally. -/
inductive MEnd (E : Type) where
  | panic
  | error (e : E)
  | normal

/-- What a program has done: the values that may exist, the variables and the calls of the driver. -/
structure MState (k : MKind) (σ τ V C : Type) where
  values : List (Perhaps V k)
  captured : σ
  vars : τ
  calls : List C

variable {τ V C : Type}

/-- The next state after a closure, given the value it returned. -/
def MState.after {k : MKind} (S : MState k σ τ V C) (r : Option α × σ)
    (next : α → MState k σ τ V C → MState k σ τ V C) : Option (MEnd E) × MState k σ τ V C :=
  match r with
  | (none, s) => (some .panic, { S with captured := s })
  | (some a, s) => (none, next a { S with captured := s })

/-- The next state after a closure that may return an error, which ends the program (`?`). -/
def MState.afterTry {k : MKind} (S : MState k σ τ V C) (r : Option (Except E α) × σ)
    (next : α → MState k σ τ V C → MState k σ τ V C) : Option (MEnd E) × MState k σ τ V C :=
  match r with
  | (none, s) => (some .panic, { S with captured := s })
  | (some (.error e), s) => (some (.error e), { S with captured := s })
  | (some (.ok a), s) => (none, next a { S with captured := s })

/-- One operation of a program, which may end it. A driver for which values exist runs the closure of a call
and returns its error, for example crates/ragu_circuits/src/trace.rs:230-239; one for which they do not drops
it, crates/ragu_core/src/drivers/emulator.rs:151-155. A place without a value does not
compile; here it is a panic. -/
def MOp.step (k : MKind) (S : MState k σ τ V C) : MOp σ V E C → Option (MEnd E) × MState k σ τ V C
  | .just f => S.after (k.just (f (S.values.map k.take)) S.captured) fun v S =>
      { S with values := S.values ++ [v] }
  | .tryJust f => S.afterTry (k.tryJust (f (S.values.map k.take)) S.captured) fun v S =>
      { S with values := S.values ++ [v] }
  | .call c f => S.afterTry (k.tryJust (f (S.values.map k.take)) S.captured) fun v S =>
      { S with values := S.values ++ [v], calls := S.calls ++ [c] }
  | .map r f =>
    match S.values[r]? with
    | none => (some .panic, S)
    | some v => S.after (k.map (k.asRef v) (fun a => f a (S.values.map k.take)) S.captured) fun v S =>
        { S with values := S.values ++ [v] }
  | .andThen r f =>
    match S.values[r]? with
    | none => (some .panic, S)
    | some v => S.after (k.andThen (k.asRef v) (fun a => k.just (f a (S.values.map k.take))) S.captured)
        fun v S => { S with values := S.values ++ [v] }
  | .clone r g =>
    match S.values[r]? with
    | none => (some .panic, S)
    | some v => (none, { S with values := S.values ++ [k.clone v g] })
  | .asMut r f =>
    match S.values[r]? with
    | none => (some .panic, S)
    | some v => S.after (k.asMut v (fun a => f a (S.values.map k.take)) S.captured) fun v S =>
        { S with values := S.values.set r v.2 ++ [v.1] }
  | .cast r n f =>
    match S.values[r]? with
    | none => (some .panic, S)
    | some v =>
      match k.into v (fun a => some (List.ofFn (f a))) >>= k.cast n with
      | none => (some .panic, S)
      | some vs => (none, { S with values := S.values ++ vs })

/-- The run of a program. -/
def MProg.run (k : MKind) : MProg σ τ V E C → MState k σ τ V C → MEnd E × MState k σ τ V C
  | .done, S => (.normal, S)
  | .op o next, S =>
    match o.step k S with
    | (some e, S) => (e, S)
    | (none, S) => next.run k S
  | .assign h next, S => next.run k { S with vars := h S.vars }
  | .look next, S => (next S.captured S.vars).run k S

end Ragu.Maybe

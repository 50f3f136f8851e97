/-
Property C99: values that may not exist.
-/
import Verif.Spec.Maybe

namespace Ragu.Props
open Ragu.Maybe Ragu.Spec
variable {σ α β E τ V C : Type}

/-! ### One operation -/

theorem castLoop_always : ∀ (n : ℕ) (l : List α), n ≤ l.length →
    MKind.castLoop .always n l = some ((l.take n).map .always)
  | 0, l, _ => rfl
  | n + 1, [], h => by simp at h
  | n + 1, a :: l, h => by
    have := castLoop_always n l (by simpa using h)
    simp only [MKind.castLoop, MKind.just, List.head?_cons, List.tail_cons, this]
    rfl

theorem cast_empty (n : ℕ) : MKind.cast (α := α) .empty n .empty = some (List.replicate n .empty) := by
  simp only [MKind.cast]
  induction n with
  | zero => rfl
  | succ n ih =>
    rw [List.replicate_succ, List.mapM_cons, ih]
    rfl

/-- C99: where values exist, the operations are those of `Option` on `Some`, where they do not, those on
`None`: the same results, the same effects on captured variables and the same panics. -/
theorem C99_option (k : MKind) :
    (∀ (v : Perhaps α k) (f : α → Closure σ β) s,
      (((k.map v f s).1.map k.take, (k.map v f s).2) : Option (Option β) × σ) =
        optMap (k.take v) f s) ∧
    (∀ (v : Perhaps α k) (f : α → Closure σ (Perhaps β k)) s,
      (((k.andThen v f s).1.map k.take, (k.andThen v f s).2) : Option (Option β) × σ) =
        optAndThen (k.take v) (fun a s => ((f a s).1.map k.take, (f a s).2)) s) ∧
    (∀ (v : Perhaps α k), k.take (k.asRef v) = k.take v ∧ k.snag v = k.take v) ∧
    (∀ (v : Perhaps α k) (g : α → α), k.take (k.clone v g) = (k.take v).map g) ∧
    (∀ (v : Perhaps α k) (g : α → Option β),
      (k.into v g).map k.take = match k.take v with
        | none => some none
        | some a => (g a).map some) := by
  cases k
  · refine ⟨?_, ?_, ?_, ?_, ?_⟩
    · rintro ⟨a⟩ f s
      simp only [MKind.map, optMap, MKind.take, Option.map_map]
      rfl
    · rintro ⟨a⟩ f s
      rfl
    · rintro ⟨a⟩
      exact ⟨rfl, rfl⟩
    · rintro ⟨a⟩ g
      rfl
    · rintro ⟨a⟩ g
      simp only [MKind.into, MKind.take, Option.map_map]
      rfl
  · refine ⟨?_, ?_, ?_, ?_, ?_⟩ <;> rintro ⟨⟩
    · exact fun f s => rfl
    · exact fun f s => rfl
    · exact ⟨rfl, rfl⟩
    · exact fun g => rfl
    · exact fun g => rfl

/-- C99: where values exist, a closure is called once and its value, error, panic and effects are those of
the operation; what is put in can be taken out, and mutating a value through a reference leaves the new
value in its place. -/
theorem C99_always (f : Closure σ α) (g : Closure σ (Except E α)) (v : α)
    (h : α → Closure σ (β × α)) (s : σ) :
    ((MKind.always.just f s).1.map fun a => MKind.always.take a) = (f s).1.map some ∧
    (MKind.always.just f s).2 = (f s).2 ∧
    ((MKind.always.tryJust g s).1.map fun r => r.map fun a => MKind.always.take a) =
      (g s).1.map (fun r => r.map some) ∧
    (MKind.always.tryJust g s).2 = (g s).2 ∧
    ((MKind.always.asMut (.always v) h s).1.map fun r => (MKind.always.take r.1, MKind.always.take r.2)) =
      (h v s).1.map (fun r => (some r.1, some r.2)) ∧
    (MKind.always.asMut (.always v) h s).2 = (h v s).2 := by
  refine ⟨?_, rfl, ?_, ?_, ?_, rfl⟩
  · simp only [MKind.just, Option.map_map]
    rfl
  · simp only [MKind.tryJust]
    rcases g s with ⟨_ | (e | a), s'⟩ <;> rfl
  · simp only [MKind.tryJust]
    rcases g s with ⟨_ | (e | a), s'⟩ <;> rfl
  · simp only [MKind.asMut, Option.map_map]
    rfl

/-- C99: where values do not exist, no closure is called: whatever it would do, there is no effect, no panic
and no error. -/
theorem C99_empty (f : Closure σ α) (g : Closure σ (Except E α)) (v : Perhaps α .empty)
    (h : α → Closure σ (β × α)) (m : α → Closure σ β) (t : α → Closure σ (Perhaps β .empty)) (s : σ) :
    MKind.empty.just f s = (some .empty, s) ∧ MKind.empty.tryJust g s = (some (.ok .empty), s) ∧
    MKind.empty.asMut v h s = (some (.empty, .empty), s) ∧ MKind.empty.map v m s = (some .empty, s) ∧
    MKind.empty.andThen v t s = (some .empty, s) ∧ MKind.empty.take v = none := by
  cases v
  exact ⟨rfl, rfl, rfl, rfl, rfl, rfl⟩

/-- C99: a cast splits an array into its elements, in order, without a panic, or into as many values that do
not exist. A value that does not exist can be made exactly where none can be taken. -/
theorem C99_cast (a : α) (n : ℕ) (l : List α) (hl : l.length = n) :
    (MKind.always.cast n (.always l)).map (fun vs => vs.map fun a => MKind.always.take a) = some (l.map some) ∧
    (MKind.empty.cast (α := α) n .empty).map (fun vs => vs.map fun a => MKind.empty.take a) =
      some (List.replicate n none) ∧
    ∀ k : MKind, (k.emptyValue α).isSome ↔ ∀ v : Perhaps α k, k.take v = none := by
  refine ⟨?_, ?_, fun k => ?_⟩
  · have : MKind.always.cast n (.always l) = some (l.map .always) := by
      show MKind.castLoop .always n l = some (l.map .always)
      rw [castLoop_always n l hl.ge, ← hl, List.take_length]
    rw [this, Option.map_some, List.map_map]
    rfl
  · rw [cast_empty]
    show some (List.map (fun a : Perhaps α .empty => MKind.empty.take a) (List.replicate n .empty)) = _
    congr 1
    induction n generalizing l with
    | zero => rfl
    | succ n ih =>
      obtain _ | ⟨b, l⟩ := l
      · simp at hl
      · exact congrArg (List.cons none) (ih l (by simpa using hl))
  · cases k
    · exact ⟨fun h => absurd h (by simp [MKind.emptyValue]), fun h => absurd (h (.always a)) (by simp [MKind.take])⟩
    · exact ⟨fun _ v => by cases v; rfl, fun _ => rfl⟩

/-! ### Programs -/

/-- How many values an operation makes. -/
def opMakes : MOp σ V E C → ℕ
  | .cast _ m _ => m
  | _ => 1

/-- The calls an operation makes. -/
def opCalls : MOp σ V E C → List C
  | .call c _ => [c]
  | _ => []

/-- The operands of an operation are among the first `n` values. -/
def opScoped (n : ℕ) : MOp σ V E C → Prop
  | .cast r _ _ | .map r _ | .andThen r _ | .clone r _ | .asMut r _ => r < n
  | _ => True

theorem scoped_op {n : ℕ} {o : MOp σ V E C} {next : MProg σ τ V E C} (h : Scoped n (.op o next)) :
    opScoped n o ∧ Scoped (n + opMakes o) next := by
  cases o <;> first | exact h | exact ⟨trivial, h⟩

theorem step_empty (S : MState .empty σ τ V C) (o : MOp σ V E C) (h : opScoped S.values.length o) :
    ∃ vs, vs.length = S.values.length + opMakes o ∧
      o.step .empty S = (none, { S with values := vs, calls := S.calls ++ opCalls o }) := by
  have hget : ∀ r, r < S.values.length → S.values[r]? = some .empty := by
    intro r hr
    rw [List.getElem?_eq_getElem hr]
    cases S.values[r]
    rfl
  cases o with
  | just f => exact ⟨S.values ++ [.empty], by simp [opMakes], by simp [MOp.step, MState.after, MKind.just, opCalls]⟩
  | tryJust f =>
    exact ⟨S.values ++ [.empty], by simp [opMakes], by simp [MOp.step, MState.afterTry, MKind.tryJust, opCalls]⟩
  | call c f =>
    exact ⟨S.values ++ [.empty], by simp [opMakes], by simp [MOp.step, MState.afterTry, MKind.tryJust, opCalls]⟩
  | map r f =>
    have hv := hget r h
    exact ⟨S.values ++ [.empty], by simp [opMakes], by simp [MOp.step, MState.after, MKind.map, MKind.asRef, opCalls, hv]⟩
  | andThen r f =>
    have hv := hget r h
    exact ⟨S.values ++ [.empty], by simp [opMakes], by simp [MOp.step, MState.after, MKind.andThen, MKind.asRef, opCalls, hv]⟩
  | clone r g =>
    have hv := hget r h
    exact ⟨S.values ++ [.empty], by simp [opMakes], by simp [MOp.step, MKind.clone, opCalls, hv]⟩
  | asMut r f =>
    have hv := hget r h
    exact ⟨S.values.set r .empty ++ [.empty], by simp [opMakes],
      by simp [MOp.step, MState.after, MKind.asMut, opCalls, hv]⟩
  | cast r m f =>
    have hv := hget r h
    refine ⟨S.values ++ List.replicate m .empty, by simp [opMakes], ?_⟩
    simp only [MOp.step, hv, opCalls, List.append_nil]
    have : (MKind.empty.into .empty (fun a => some (List.ofFn (f a))) >>= MKind.empty.cast m)
        = some (List.replicate m .empty) := by
      simp only [MKind.into]
      exact cast_empty (α := V) m
    rw [this]

theorem step_always (S : MState .always σ τ V C) (o : MOp σ V E C) (h : opScoped S.values.length o) :
    (∃ e S', o.step .always S = (some e, S') ∧ S'.calls = S.calls ∧ e ≠ .normal) ∨
    ∃ vs s, vs.length = S.values.length + opMakes o ∧
      o.step .always S =
        (none, { S with values := vs, captured := s, calls := S.calls ++ opCalls o }) := by
  have hget : ∀ r, r < S.values.length → ∃ a, S.values[r]? = some (.always a) := by
    intro r hr
    rw [List.getElem?_eq_getElem hr]
    rcases S.values[r] with ⟨a⟩
    exact ⟨a, rfl⟩
  have htry : ∀ (g : Closure σ (Except E V)) (c : List C),
      (∃ e S', S.afterTry (MKind.always.tryJust g S.captured) (fun v S =>
          { S with values := S.values ++ [v], calls := S.calls ++ c }) = (some e, S') ∧
        S'.calls = S.calls ∧ e ≠ .normal) ∨
      ∃ vs s, vs.length = S.values.length + 1 ∧
        S.afterTry (MKind.always.tryJust g S.captured) (fun v S =>
          { S with values := S.values ++ [v], calls := S.calls ++ c }) =
        ((none : Option (MEnd E)), { S with values := vs, captured := s, calls := S.calls ++ c }) := by
    intro g c
    simp only [MKind.tryJust]
    rcases hg : g S.captured with ⟨_ | (e | a), s'⟩
    · exact .inl ⟨_, _, rfl, rfl, by simp⟩
    · exact .inl ⟨_, _, rfl, rfl, by simp⟩
    · exact .inr ⟨S.values ++ [.always a], s', by simp, rfl⟩
  have hafter : ∀ (g : Closure σ (Perhaps V .always)),
      (∃ (e : MEnd E) (S' : _), S.after (g S.captured) (fun v S =>
          { S with values := S.values ++ [v] }) = (some e, S') ∧
        S'.calls = S.calls ∧ e ≠ .normal) ∨
      ∃ vs s, vs.length = S.values.length + 1 ∧
        S.after (g S.captured) (fun v S => { S with values := S.values ++ [v] }) =
        ((none : Option (MEnd E)), { S with values := vs, captured := s, calls := S.calls ++ [] }) := by
    intro g
    rcases hg : g S.captured with ⟨_ | a, s'⟩
    · exact .inl ⟨_, _, rfl, rfl, by simp⟩
    · exact .inr ⟨S.values ++ [a], s', by simp, by simp [MState.after]⟩
  cases o with
  | just f => exact hafter _
  | tryJust f =>
    have := htry (f (S.values.map MKind.always.take)) []
    simpa only [List.append_nil, MOp.step, opCalls, opMakes] using this
  | call c f => exact htry (f (S.values.map MKind.always.take)) [c]
  | map r f =>
    obtain ⟨a, hv⟩ := hget r h
    simp only [MOp.step, hv]
    exact hafter _
  | andThen r f =>
    obtain ⟨a, hv⟩ := hget r h
    simp only [MOp.step, hv]
    exact hafter _
  | clone r g =>
    obtain ⟨a, hv⟩ := hget r h
    exact .inr ⟨S.values ++ [MKind.always.clone (.always a) g], S.captured, by simp [opMakes], by
      simp only [MOp.step, hv, opCalls, List.append_nil]⟩
  | asMut r f =>
    obtain ⟨a, hv⟩ := hget r h
    simp only [MOp.step, hv]
    simp only [MKind.asMut]
    rcases hg : f a (S.values.map MKind.always.take) S.captured with ⟨_ | ⟨a, b⟩, s'⟩
    · exact .inl ⟨_, _, rfl, rfl, by simp⟩
    · refine .inr ⟨S.values.set r (.always b) ++ [.always a], s', by simp [opMakes], ?_⟩
      simp only [opCalls, List.append_nil]
      rfl
  | cast r m f =>
    obtain ⟨a, hv⟩ := hget r h
    refine .inr ⟨S.values ++ (List.ofFn (f a)).map .always, S.captured, by simp [opMakes], ?_⟩
    simp only [MOp.step, hv, opCalls, List.append_nil]
    have : (MKind.always.into (.always a) (fun a => some (List.ofFn (f a))) >>= MKind.always.cast m)
        = some ((List.ofFn (f a)).map .always) := by
      show MKind.castLoop .always m (List.ofFn (f a)) = _
      rw [castLoop_always m _ (by simp), List.take_of_length_le (by simp)]
    rw [this]

/-- C99: with a driver for which values do not exist, a program runs to its end, whatever its closures
would do, and leaves the variables that they capture as they are. -/
theorem C99_unwitnessed (p : MProg σ τ V E C) (S : MState .empty σ τ V C)
    (hp : Scoped S.values.length p) :
    (p.run .empty S).1 = .normal ∧ (p.run .empty S).2.captured = S.captured ∧
      S.calls <+: (p.run .empty S).2.calls := by
  induction p generalizing S with
  | done => exact ⟨rfl, rfl, List.prefix_rfl⟩
  | op o next ih =>
    obtain ⟨ho, hn⟩ := scoped_op hp
    obtain ⟨vs, hl, hs⟩ := step_empty S o ho
    simp only [MProg.run, hs]
    obtain ⟨h1, h2, h3⟩ := ih { S with values := vs, calls := S.calls ++ opCalls o } (hl ▸ hn)
    exact ⟨h1, h2, (List.prefix_append _ _).trans h3⟩
  | assign h next ih => exact ih { S with vars := h S.vars } hp
  | look next ih => exact ih S.captured S.vars S (hp _ _)

/-- C99: if the control flow of a program does not read what its closures write, then the program calls the
driver in the same way whether values exist or not: the calls of every run in which they exist are the first
ones of the run in which they do not, and all of them if the run has no panic or error. -/
theorem C99_same_calls (p : MProg σ τ V E C) (S : MState .always σ τ V C) (S' : MState .empty σ τ V C)
    (hp : Scoped S.values.length p) (hb : Blind p) (hl : S'.values.length = S.values.length)
    (hv : S'.vars = S.vars) (hc : S'.calls = S.calls) :
    (p.run .always S).2.calls <+: (p.run .empty S').2.calls ∧
    ((p.run .always S).1 = .normal →
      (p.run .always S).2.calls = (p.run .empty S').2.calls ∧
      (p.run .always S).2.vars = (p.run .empty S').2.vars ∧
      (p.run .always S).2.values.length = (p.run .empty S').2.values.length) := by
  induction p generalizing S S' with
  | done => exact ⟨by simp [MProg.run, hc], fun _ => ⟨hc.symm, hv.symm, hl.symm⟩⟩
  | op o next ih =>
    obtain ⟨ho, hn⟩ := scoped_op hp
    obtain ⟨vs', hl', hs'⟩ := step_empty S' o (hl ▸ ho)
    rcases step_always S o ho with ⟨e, T, hs, hT, he⟩ | ⟨vs, s, hl₂, hs⟩
    · constructor
      · have := (C99_unwitnessed (.op o next) S' (hl ▸ hp)).2.2
        rw [hc, ← hT] at this
        rw [show (MProg.op o next).run .always S = (e, T) by simp only [MProg.run, hs]]
        exact this
      · intro h
        rw [show (MProg.op o next).run .always S = (e, T) by simp only [MProg.run, hs]] at h
        exact absurd h he
    · simp only [MProg.run, hs, hs']
      exact ih _ _ (by rw [hl₂]; exact hn) hb (by rw [hl', hl₂, hl]) hv (by rw [hc])
  | assign h next ih => exact ih _ _ hp hb hl (by rw [hv]) hc
  | look next ih =>
    simp only [MProg.run]
    rw [hv, hb.1 S'.captured S.captured S.vars]
    exact ih _ _ S S' (hp _ _) (hb.2 _ _) hl hv hc

/-- C99: so the calls do not depend on the witness: two runs without a panic or an error make the same
calls, whatever values and captured variables they start from. -/
theorem C99_witness_independent (p : MProg σ τ V E C) (S T : MState .always σ τ V C)
    (hp : Scoped S.values.length p) (hb : Blind p) (hl : T.values.length = S.values.length)
    (hv : T.vars = S.vars) (hc : T.calls = S.calls)
    (hS : (p.run .always S).1 = .normal) (hT : (p.run .always T).1 = .normal) :
    (p.run .always S).2.calls = (p.run .always T).2.calls ∧
      (p.run .always S).2.vars = (p.run .always T).2.vars := by
  let S' : MState .empty σ τ V C := ⟨List.replicate S.values.length .empty, S.captured, S.vars, S.calls⟩
  have h1 := (C99_same_calls p S S' hp hb (by simp [S']) rfl rfl).2 hS
  have h2 := (C99_same_calls p T S' (hl ▸ hp) hb (by simp [S', hl]) hv.symm hc.symm).2 hT
  exact ⟨h1.1.trans h2.1.symm, h1.2.1.trans h2.2.1.symm⟩

/-- C99: without the condition on the control flow this is false. The types do not prevent a closure from
writing a variable that the program reads: this program makes a call if values exist and none if not. -/
theorem C99_leak_fails :
    ∃ p : MProg Bool Unit ℕ Unit String, Scoped 0 p ∧
      (p.run .always ⟨[], false, (), []⟩).1 = .normal ∧
      (p.run .always ⟨[], false, (), []⟩).2.calls = ["enforce_zero"] ∧
      (p.run .empty ⟨[], false, (), []⟩).2.calls = [] :=
  ⟨.op (.just fun _ _ => (some 1, true)) (.look fun s _ =>
      if s then .op (.call "enforce_zero" fun _ s => (some (.ok 0), s)) .done else .done),
    by intro s t; cases s <;> simp [Scoped], rfl, rfl, rfl⟩

/-! ### Examples -/

/-- A program like that of the documentation: allocate a value, allocate its square, and constrain them in a
loop whose length is an ordinary variable. -/
def exProg : MProg ℕ ℕ ℕ String String :=
  .op (.call "alloc" fun _ s => (some (.ok 3), s + 1)) <|
  .op (.map 0 fun a _ s => (some (a * a), s + 1)) <|
  .op (.call "alloc" fun vs s =>
    match vs[1]? with
    | some (some a) => if a = 9 then (some (.ok a), s + 1) else (some (.error "not nine"), s)
    | _ => (none, s)) <|
  .op (.cast 2 2 fun a i => a + i) <|
  .op (.asMut 0 fun a _ s => (some (a, a + 1), s)) <|
  .assign (fun t => t + 1) <|
  .look fun _ t => if t = 1 then .op (.call "mul" fun _ s => (some (.ok 0), s)) .done else .done

example : Scoped 0 exProg ∧ Blind exProg := by
  refine ⟨?_, ?_⟩
  · simp only [exProg, Scoped]
    refine ⟨by decide, by decide, by decide, fun _ t => ?_⟩
    split <;> trivial
  · simp only [exProg, Blind, implies_true, true_and]
    intro _ t
    split <;> trivial

example : (exProg.run .always ⟨[], 0, 0, []⟩).1 = .normal ∧
    (exProg.run .always ⟨[], 0, 0, []⟩).2.calls = ["alloc", "alloc", "mul"] ∧
    (exProg.run .always ⟨[], 0, 0, []⟩).2.captured = 3 ∧
    (exProg.run .always ⟨[], 0, 0, []⟩).2.values = [4, 9, 9, 9, 10, 3, 0].map .always ∧
    (exProg.run .empty ⟨[], 0, 0, []⟩).2.calls = ["alloc", "alloc", "mul"] ∧
    (exProg.run .empty ⟨[], 0, 0, []⟩).2.captured = 0 := ⟨rfl, rfl, rfl, rfl, rfl, rfl⟩

example : MKind.always.cast 3 (.always [5, 6, 7]) = some ([5, 6, 7].map .always) ∧
    (MKind.always.cast 3 (.always [5, 6])).isNone := ⟨rfl, rfl⟩

end Ragu.Props

/-
Property C86: gadget code in the trace evaluator, compared with the emulator and the simulator.
-/
import Verif.Props.Witness
import Verif.Model.Pcd.Header

set_option linter.unusedSectionVars false

namespace Ragu.Props
open Ragu Ragu.Circuit Ragu.Spec Ragu.Witness
variable {F : Type} [Field F] [DecidableEq F]

theorem stops_inPlace {α : Type} (m : Gadget.Syn F α) :
    Stops (fun x => inPlace (ofSyn m) = .error x) (ofSyn m) := by
  induction m with
  | ret a => trivial
  | gate w k ih => exact ⟨fun x hx => (by cases hx), ih _ _ _ _⟩
  | alloc w k ih => exact ⟨fun x hx => (by cases hx), ih _⟩
  | enforce v k ih => exact ih
  | check e k ih =>
    cases e with
    | none => exact ih
    | some e => cases e <;> rfl
  | panic => rfl

/-- What the emulator's result is for the trace evaluator. -/
theorem inPlace_emulate {α : Type} (m : Gadget.Syn F α) :
    (∃ r, Pcd.emulate m = .ok r ∧ inPlace (ofSyn m) = .ok r) ∨
    (∃ e, e ≠ .panic ∧ Pcd.emulate m = .error (.synth e) ∧ inPlace (ofSyn m) = .error (.err e)) ∨
    ((Pcd.emulate m = .error .panic ∨ Pcd.emulate m = .error (.synth .panic)) ∧
      inPlace (ofSyn m) = .error .panic) := by
  induction m with
  | ret a => exact .inl ⟨a, rfl, rfl⟩
  | gate w k ih => exact ih _ _ _ _
  | alloc w k ih => exact ih _
  | enforce v k ih => exact ih
  | check e k ih =>
    cases e with
    | none => exact ih
    | some e =>
      by_cases h : e = .panic
      · subst h; exact .inr (.inr ⟨.inr rfl, rfl⟩)
      · refine .inr (.inl ⟨e, h, rfl, ?_⟩)
        cases e <;> first | rfl | exact absurd rfl h
  | panic => exact .inr (.inr ⟨.inl rfl, rfl⟩)

/-- The outcomes of gadget code by what its checks do. -/
theorem outcome_ofSyn {α : Type} (m : Gadget.Syn F α) {out : Outcome Circuit.Err F α}
    (ho : ParEval (ofSyn m) out ∨ SeqEval (ofSyn m) out) :
    (∃ r t, inPlace (ofSyn m) = .ok r ∧ out = .ok r t) ∨
    (∃ x : Stop Circuit.Err, inPlace (ofSyn m) = .error x ∧ out = x.outcome) := by
  cases hi : inPlace (ofSyn m) with
  | ok r =>
    obtain ⟨t, ht⟩ := ((C86_predictions (faithful_ofSyn m)).2 r).2 hi
    exact .inl ⟨r, t, rfl, (C86_schedule _).2 r t ht out ho⟩
  | error x =>
    refine .inr ⟨x, rfl, ?_⟩
    obtain ⟨h1, h2⟩ := C86_stops (stops_inPlace m) ho
    cases out with
    | ok a t =>
      have hp : ParEval (ofSyn m) (.ok a t) := ho.elim id ((C86_schedule _).1 a t).2
      have := ((C86_predictions (faithful_ofSyn m)).2 a).1 ⟨t, hp⟩
      rw [hi] at this; cases this
    | err e =>
      have := h1 e rfl
      rw [hi, Except.error.injEq] at this
      rw [this]; rfl
    | panic =>
      have := h2 rfl
      rw [hi, Except.error.injEq] at this
      rw [this]; rfl

/-- C86: for the code of gadgets, which calls no routine, computing a trace always ends as running the code
on the wireless emulator does: with the same value, with the same error, or with a panic if that panics. -/
theorem C86_gadget {α : Type} (m : Gadget.Syn F α) {out : Outcome Circuit.Err F α}
    (ho : ParEval (ofSyn m) out ∨ SeqEval (ofSyn m) out) :
    (∀ r, (∃ t, out = .ok r t) ↔ Pcd.emulate m = .ok r) ∧
    (∀ e, e ≠ .panic → (out = .err e ↔ Pcd.emulate m = .error (.synth e))) ∧
    (out = .panic ↔ Pcd.emulate m = .error .panic ∨ Pcd.emulate m = .error (.synth .panic)) := by
  rcases inPlace_emulate m with ⟨r, h1, h2⟩ | ⟨e, he, h1, h2⟩ | ⟨h1, h2⟩ <;>
  rcases outcome_ofSyn m ho with ⟨r', t, h3, rfl⟩ | ⟨x, h3, rfl⟩ <;>
  rw [h2] at h3
  · cases h3
    simp [h1]
  · cases h3
  · cases h3
  · cases h3
    simp only [Stop.outcome, h1]
    simp [he]
  · cases h3
  · cases h3
    rcases h1 with h1 | h1
    · simp [Stop.outcome, h1]
    · simp only [Stop.outcome, h1]
      simp
      exact fun e he h => he h.symm

/-- C86: the trace evaluator accepts whatever the simulator accepts, with the same value. If the simulator ends
with anything but an invalid witness, so does the trace evaluator, with the same error or panic. If the
trace evaluator fails, the simulator does not accept: it ends in the same way, or found a constraint that
does not hold before that. -/
theorem C86_simulator {α : Type} (m : Gadget.Syn F α) {out : Outcome Circuit.Err F α}
    (ho : ParEval (ofSyn m) out ∨ SeqEval (ofSyn m) out) :
    (∀ r, m.sim = .ok r → ∃ t, out = .ok r t) ∧
    (∀ e, m.sim = .error e → e ≠ .invalidWitness → e ≠ .panic → out = .err e) ∧
    (m.sim = .error .panic → out = .panic) ∧
    (∀ e, out = .err e → m.sim = .error e ∨ m.sim = .error .invalidWitness) ∧
    (out = .panic → m.sim = .error .panic ∨ m.sim = .error .invalidWitness) := by
  have key : (∃ r, m.sim = .ok r ∧ inPlace (ofSyn m) = .ok r) ∨
      (∃ e, e ≠ .panic ∧ m.sim = .error e ∧ inPlace (ofSyn m) = .error (.err e)) ∨
      (m.sim = .error .panic ∧ inPlace (ofSyn m) = .error .panic) ∨
      m.sim = .error .invalidWitness := by
    clear ho
    induction m with
    | ret a => exact .inl ⟨a, rfl, rfl⟩
    | gate w k ih =>
      simp only [Gadget.Syn.sim]
      split
      · exact .inr (.inr (.inr rfl))
      · split
        · exact .inr (.inr (.inr rfl))
        · exact ih _ _ _ _
    | alloc w k ih => exact ih _
    | enforce v k ih =>
      simp only [Gadget.Syn.sim]
      split
      · exact .inr (.inr (.inr rfl))
      · exact ih
    | check e k ih =>
      cases e with
      | none => exact ih
      | some e =>
        by_cases h : e = .panic
        · subst h; exact .inr (.inr (.inl ⟨rfl, rfl⟩))
        · refine .inr (.inl ⟨e, h, rfl, ?_⟩)
          cases e <;> first | rfl | exact absurd rfl h
    | panic => exact .inr (.inr (.inl ⟨rfl, rfl⟩))
  rcases key with ⟨r, h1, h2⟩ | ⟨e, he, h1, h2⟩ | ⟨h1, h2⟩ | h1
  · rcases outcome_ofSyn m ho with ⟨r', t, h3, rfl⟩ | ⟨x, h3, rfl⟩ <;> rw [h2] at h3 <;> cases h3
    simp [h1]
  · rcases outcome_ofSyn m ho with ⟨r', t, h3, rfl⟩ | ⟨x, h3, rfl⟩ <;> rw [h2] at h3 <;> cases h3
    simp [h1, Stop.outcome, he]
  · rcases outcome_ofSyn m ho with ⟨r', t, h3, rfl⟩ | ⟨x, h3, rfl⟩ <;> rw [h2] at h3 <;> cases h3
    simp [h1, Stop.outcome]
  · simp [h1]

/-- Inverting zero: every schedule gives an invalid witness, as the emulator does. -/
example (out : Outcome Circuit.Err ℚ (Gadget.Element ℚ))
    (ho : ParEval (ofSyn (Gadget.Element.invert (⟨0, 0⟩ : Gadget.Element ℚ))) out) : out = .err .invalidWitness :=
  ((C86_gadget _ (.inl ho)).2.1 .invalidWitness (by decide)).2 (by
    simp [Gadget.Element.invert, Gadget.tryJust]; rfl)

/-- Inverting two: a trace. -/
example (out : Outcome Circuit.Err ℚ (Gadget.Element ℚ))
    (ho : SeqEval (ofSyn (Gadget.Element.invert (⟨2, 2⟩ : Gadget.Element ℚ))) out) : ∃ r t, out = .ok r t :=
  ⟨_, ((C86_gadget _ (.inr ho)).1 ⟨1 / 2, 1 / 2⟩).2 (by
    simp [Gadget.Element.invert, Gadget.tryJust, Gadget.Element.invertWith, Gadget.mulGate]; rfl)⟩

/-- Allocating a bit: the simulator accepts it, so there is a trace. -/
example (out : Outcome Circuit.Err ℚ (Gadget.Boolean ℚ))
    (ho : ParEval (ofSyn (Gadget.Boolean.alloc (F := ℚ) true)) out) : ∃ t, out = .ok ⟨1, true⟩ t :=
  (C86_simulator _ (.inl ho)).1 ⟨1, true⟩ (by decide +kernel)

/-- A constraint that does not hold is found by the simulator only. -/
example : (.enforce (1 : ℚ) (.ret ()) : Gadget.Syn ℚ Unit).sim = .error .invalidWitness ∧
    ∃ t, SeqEval (ofSyn (.enforce (1 : ℚ) (.ret ()))) (.ok () t) := by
  refine ⟨by simp [Gadget.Syn.sim], ?_⟩
  obtain ⟨t, ht⟩ := ((C86_predictions (faithful_ofSyn (.enforce (1 : ℚ) (.ret ())))).2 ()).2 rfl
  exact ⟨t, ((C86_schedule _).1 _ _).1 ht⟩

end Ragu.Props

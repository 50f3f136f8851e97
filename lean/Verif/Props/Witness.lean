/-
Property C86: witness code with routine calls, under every schedule of the trace evaluator's threads,
with failing value closures, and with predicted outputs.
-/
import Verif.Lemmas.WitnessStops
import Verif.Props.Txz
import Verif.Props.Trace

set_option linter.unusedSectionVars false

namespace Ragu.Props
open Ragu Ragu.Circuit Ragu.Spec Ragu.Witness
variable {E F : Type} [Field F] [DecidableEq F]

/-! ### Both evaluators make the recorded calls -/

theorem seqRun_ok {α : Type} {c : WCode E F α} {a : α} {s : TraceState F}
    (h : seqRun c (TraceState.new []) = .ok (a, s)) :
    ∃ prog, record c = .ok (a, prog) ∧ (s.segs ++ s.sent.flatten).Perm (canon prog) := by
  obtain ⟨h1, h2⟩ := seqRun_record c (TraceState.new []) (SGood.new _) []
  cases hr : record c with
  | error x => rw [h1 x hr] at h; cases h
  | ok r =>
    obtain ⟨s', e', h3, h4⟩ := h2 r.1 r.2 hr
    rw [h4] at h
    simp only [Except.ok.injEq, Prod.mk.injEq] at h
    obtain ⟨rfl, rfl⟩ := h
    refine ⟨r.2, rfl, ?_⟩
    obtain ⟨h', hh⟩ := record_handles c _ _ hr []
    obtain ⟨s2, e2, h5, h6, _⟩ := trace_body hh
    rw [h3] at h5
    simp only [Except.ok.injEq, Prod.mk.injEq] at h5
    rw [h5.1]
    exact h6

theorem seqRun_of_record {α : Type} {c : WCode E F α} {a : α} {prog : Prog F}
    (h : record c = .ok (a, prog)) : ∃ s, seqRun c (TraceState.new []) = .ok (a, s) := by
  obtain ⟨s', _, _, h4⟩ := (seqRun_record c (TraceState.new []) (SGood.new _) []).2 a prog h
  exact ⟨s', h4⟩

/-- What `finish` makes of the segments of a recorded run. -/
theorem finish_iff {α : Type} {a : α} {segs : List (ASeg F)} {prog : Prog F} (h : segs.Perm (canon prog))
    (out : Outcome E F α) : Finish a segs out ↔ out = .ok a (canon prog) := by
  constructor
  · intro hf
    cases hf with
    | ok t h1 h2 h3 => rw [sorted_unique (h1.trans h) h2 (canon_sorted prog)]
    | panic t h1 h2 h3 =>
      rw [sorted_unique (h1.trans h) h2 (canon_sorted prog)] at h3
      exact absurd rfl h3
  · rintro rfl
    exact .ok _ h.symm ((canon_sorted prog).imp fun h => le_of_lt h) rfl

theorem seqEval_record {α : Type} {c : WCode E F α} {a : α} {prog : Prog F}
    (h : record c = .ok (a, prog)) (out : Outcome E F α) :
    SeqEval c out ↔ out = .ok a (canon prog) := by
  obtain ⟨s, hs⟩ := seqRun_of_record h
  obtain ⟨prog', h1, h2⟩ := seqRun_ok hs
  rw [h, Except.ok.injEq, Prod.mk.injEq] at h1
  obtain ⟨-, rfl⟩ := h1
  rw [SeqEval, hs]
  exact finish_iff h2 out

theorem seqEval_ok {α : Type} {c : WCode E F α} {a : α} {t : List (ASeg F)} (h : SeqEval c (.ok a t)) :
    ∃ prog, record c = .ok (a, prog) ∧ t = canon prog := by
  rw [SeqEval] at h
  split at h
  · next x _ => cases x <;> cases h
  · next a' s hs =>
    obtain ⟨prog, h1, h2⟩ := seqRun_ok hs
    rw [finish_iff h2] at h
    simp only [Outcome.ok.injEq] at h
    obtain ⟨rfl, rfl⟩ := h
    exact ⟨prog, h1, rfl⟩

/-- If the code can be recorded, every schedule ends with that. -/
theorem parEval_record {α : Type} {c : WCode E F α} {a : α} {prog : Prog F}
    (h : record c = .ok (a, prog)) {out : Outcome E F α} (ho : ParEval c out) :
    out = .ok a (canon prog) := by
  obtain ⟨p, h1, h2, h3⟩ := ho
  obtain ⟨s, hs⟩ := seqRun_of_record h
  have hm := seqRun_full c (TraceState.new []) []
  rw [show withSent (TraceState.new (F := F) []) [] = TraceState.new [] from rfl, hs] at hm
  obtain ⟨prog', e1, e2⟩ := seqRun_ok hs
  rw [h, Except.ok.injEq, Prod.mk.injEq] at e1
  obtain ⟨-, rfl⟩ := e1
  have hroot : (parRun c (TraceState.new [])).2 = (full c (TraceState.new [])).2 := by
    rw [full_parRun]
  simp only [Except.toOption, merge] at hm
  cases hb : allOk (full c (TraceState.new [])).1 with
  | none => rw [hb] at hm; cases hm
  | some bs =>
    cases hr : (full c (TraceState.new [])).2 with
    | error x => rw [hb, hr] at hm; cases hm
    | ok r =>
      obtain ⟨a', s'⟩ := r
      rw [hb, hr] at hm
      simp only [Option.some.injEq, Prod.mk.injEq, List.nil_append] at hm
      obtain ⟨rfl, rfl⟩ := hm
      obtain ⟨cs, h4, h5⟩ := allOk_perm (channel_perm c h1 h2).symm hb
      rw [hroot, hr, parOutcome, allOk_panicked h4] at h3
      simp only [Bool.false_eq_true, if_false] at h3
      rw [allOk_some h4, collect_ok] at h3
      exact (finish_iff (((List.Perm.append_left _ h5.flatten.symm)).trans e2) out).1 h3

theorem parEval_ok {α : Type} {c : WCode E F α} {a : α} {t : List (ASeg F)} (h : ParEval c (.ok a t)) :
    ∃ prog, record c = .ok (a, prog) ∧ t = canon prog := by
  have h0 := h
  obtain ⟨p, h1, h2, h3⟩ := h
  have hroot : (parRun c (TraceState.new [])).2 = (full c (TraceState.new [])).2 := by
    rw [full_parRun]
  unfold parOutcome at h3
  split at h3
  · cases h3
  · split at h3
    · next x _ => cases x <;> cases h3
    · next a' s hs =>
      split at h3
      · next x _ => cases x <;> cases h3
      · next segs hc =>
        obtain ⟨bs, e1, e2⟩ := collect_iff hc
        obtain ⟨cs, e3, _⟩ := allOk_perm (channel_perm c h1 h2) e1
        have hm := seqRun_full c (TraceState.new []) []
        rw [merge, e3, ← hroot, hs] at hm
        cases hq : seqRun c (withSent (TraceState.new []) []) with
        | error x => rw [hq] at hm; cases hm
        | ok r =>
          obtain ⟨prog, e4, _⟩ := seqRun_ok (a := r.1) (s := r.2) hq
          have := parEval_record e4 h0
          simp only [Outcome.ok.injEq] at this
          obtain ⟨e5, e6⟩ := this
          rw [← e5] at e4
          exact ⟨prog, e4, e6⟩

theorem parEval_exists {α : Type} (c : WCode E F α) : ∃ out, ParEval c out := by
  obtain ⟨p, h1, h2⟩ := Pool.finishes _ (initial c) rfl
  obtain ⟨out, ho⟩ : ∃ out, parOutcome (parRun c (TraceState.new [])).2 p.channel out := by
    unfold parOutcome
    split
    · exact ⟨_, rfl⟩
    · split
      · exact ⟨_, rfl⟩
      · split
        · exact ⟨_, rfl⟩
        · next a s hs _ segs hc =>
          obtain ⟨bs, e1, e2⟩ := collect_iff hc
          obtain ⟨cs, e3, e4⟩ := allOk_perm (channel_perm c h1 h2) e1
          have hroot : (parRun c (TraceState.new [])).2 = (full c (TraceState.new [])).2 := by
            rw [full_parRun]
          have hm := seqRun_full c (TraceState.new []) []
          rw [merge, e3, ← hroot, hs] at hm
          cases hq : seqRun c (withSent (TraceState.new []) []) with
          | error x => rw [hq] at hm; cases hm
          | ok r =>
            obtain ⟨prog, e5, e6⟩ := seqRun_ok (a := r.1) (s := r.2) hq
            rw [hq] at hm
            simp only [Except.toOption, Option.some.injEq, List.nil_append] at hm
            rw [hm] at e6
            refine ⟨.ok a (canon prog), (finish_iff ?_ _).2 rfl⟩
            rw [e2]
            exact (List.Perm.append_left _ e4.flatten).trans e6
  exact ⟨out, p, h1, h2, ho⟩

theorem seqEval_exists {α : Type} (c : WCode E F α) : ∃ out, SeqEval c out := by
  cases hq : seqRun c (TraceState.new []) with
  | error x => exact ⟨x.outcome, by simp [SeqEval, hq]⟩
  | ok r =>
    obtain ⟨prog, e5, e6⟩ := seqRun_ok (a := r.1) (s := r.2) hq
    exact ⟨_, (seqEval_record e5 _).2 rfl⟩

theorem record_stops {P : Stop E → Prop} {α : Type} (c : WCode E F α) (hP : Stops P c) :
    ∀ x, record c = .error x → P x := by
  induction c with
  | ret a => intro x h; cases h
  | stop y => intro x h; cases h; exact hP
  | gate v k ih =>
    intro x h
    cases v with
    | error y => cases h; exact hP.1 _ rfl
    | ok w =>
      simp only [record] at h
      cases hr : record k with
      | error y => rw [hr] at h; cases h; exact ih hP.2 _ hr
      | ok r => rw [hr] at h; cases h
  | alloc v k ih =>
    intro x h
    cases v with
    | error y => cases h; exact hP.1 _ rfl
    | ok w =>
      simp only [record] at h
      cases hr : record k with
      | error y => rw [hr] at h; cases h; exact ih hP.2 _ hr
      | ok r => rw [hr] at h; cases h
  | call p ex k _ ihe ihk =>
    intro x h
    simp only [record] at h
    cases hp : wireless p with
    | error y => rw [hp] at h; cases h; exact hP.1 _ hp
    | ok q =>
      obtain ⟨o, a⟩ := q
      rw [hp] at h
      simp only at h
      obtain ⟨p1, p2⟩ := hP.2 o a hp
      cases hr : record (ex a) with
      | error y => rw [hr] at h; cases h; exact ihe a p1 _ hr
      | ok r =>
        rw [hr] at h
        simp only at h
        cases hk : record (k (o.getD r.1)) with
        | error y => rw [hk] at h; cases h; exact ihk _ (p2 _) _ hk
        | ok r => rw [hk] at h; cases h

/-! ### The property -/

/-- Code with a routine that predicts its output, inside which another one does not; the error is
what the inner one fails with, if it does. -/
def demoCode (fail : Option ℕ) : WCode ℕ (ℚ) (ℚ) :=
  .gate (.ok (2, 3, 6, 0)) (.call (.alloc (.ok 5) (.ret (some 5, (7 : ℚ))))
    (fun aux => .alloc (.ok 5) (.call (.ret (none, ()))
      (fun _ => .gate (match fail with | none => .ok (aux, 1, aux, 0) | some e => .error (.err e))
        (.ret aux)) fun _ => .ret 5))
    fun o => .gate (.ok (o, o, o * o, 0)) (.ret o))

theorem demoCode_faithful (fail : Option ℕ) : Faithful (demoCode fail) := by
  intro o a h
  simp only [wireless, Except.ok.injEq, Prod.mk.injEq] at h
  obtain ⟨rfl, rfl⟩ := h
  refine ⟨?_, fun v w h1 h2 => ?_, fun _ _ => trivial⟩
  · intro o a h
    simp only [wireless, Except.ok.injEq, Prod.mk.injEq] at h
    obtain ⟨rfl, _⟩ := h
    exact ⟨trivial, fun _ _ h => (by cases h), fun _ _ => trivial⟩
  · cases h1
    cases fail <;> cases h2
    rfl

theorem demoCode_stops (e : ℕ) : Stops (fun x => x = .err e) (demoCode (some e)) := by
  refine ⟨fun x h => (by cases h), fun x h => (by cases h), fun o a _ => ⟨?_, fun w => ?_⟩⟩
  · refine ⟨fun x h => (by cases h), fun x h => (by cases h), fun o b _ => ⟨⟨fun x h => ?_, trivial⟩,
      fun w => trivial⟩⟩
    cases h; rfl
  · exact ⟨fun x h => (by cases h), trivial⟩

/-- C86: computing a trace ends under every schedule of the threads: there is no infinite sequence of
steps, nothing waits forever, and there is an outcome. -/
theorem C86_ends {α : Type} (c : WCode E F α) :
    WellFounded (fun q p : Pool E F => Step p q) ∧ (∀ p : Pool E F, ¬p.idle → ∃ q, Step p q) ∧
    (∃ out, ParEval c out) ∧ ∃ out, SeqEval c out := by
  refine ⟨?_, Pool.progress, parEval_exists c, seqEval_exists c⟩
  refine Subrelation.wf (r := InvImage (· < ·) Pool.left) ?_ (InvImage.wf _ Nat.lt_wfRel.wf)
  intro q p h
  have := h.left
  show q.left < p.left
  omega

example : (∃ out, ParEval (demoCode (some 3)) out) ∧ ∃ out, SeqEval (demoCode (some 3)) out :=
  (C86_ends (demoCode (some 3))).2.2

/-- C86: whether a trace is computed, and which, does not depend on the schedule, nor on whether
there are threads at all. -/
theorem C86_schedule {α : Type} (c : WCode E F α) :
    (∀ a t, ParEval c (.ok a t) ↔ SeqEval c (.ok a t)) ∧
    ∀ a t, ParEval c (.ok a t) → ∀ out, ParEval c out ∨ SeqEval c out → out = .ok a t := by
  have key : ∀ a t, ParEval c (.ok a t) → ∀ out, ParEval c out ∨ SeqEval c out → out = .ok a t := by
    intro a t h out ho
    obtain ⟨prog, h1, rfl⟩ := parEval_ok h
    rcases ho with ho | ho
    · exact parEval_record h1 ho
    · exact (seqEval_record h1 out).1 ho
  refine ⟨fun a t => ⟨fun h => ?_, fun h => ?_⟩, key⟩
  · obtain ⟨prog, h1, rfl⟩ := parEval_ok h
    exact (seqEval_record h1 _).2 rfl
  · obtain ⟨prog, h1, rfl⟩ := seqEval_ok h
    obtain ⟨out, ho⟩ := parEval_exists c
    have := parEval_record h1 ho
    rwa [this] at ho

/-- C86: the evaluators do not fail by themselves: an error that is reported is one with which the
code or one of its routines ends, and there is a panic only if one of these panics. -/
theorem C86_stops {α : Type} {c : WCode E F α} {P : Stop E → Prop} (hP : Stops P c)
    {out : Outcome E F α} (ho : ParEval c out ∨ SeqEval c out) :
    (∀ e, out = .err e → P (.err e)) ∧ (out = .panic → P .panic) := by
  have key : ∀ x : Stop E, P x → out = x.outcome →
      (∀ e, out = .err e → P (.err e)) ∧ (out = .panic → P .panic) := by
    rintro (e | _) hx rfl
    · refine ⟨fun e' h => ?_, fun h => (by cases h)⟩
      simp only [Stop.outcome, Outcome.err.injEq] at h
      exact h ▸ hx
    · exact ⟨(fun e' h => by cases h), fun _ => hx⟩
  have hok : ∀ a t, out = .ok a t → (∀ e, out = .err e → P (.err e)) ∧ (out = .panic → P .panic) := by
    rintro a t rfl
    exact ⟨fun e h => (by cases h), fun h => (by cases h)⟩
  rcases ho with ho | ho
  · obtain ⟨s1, s2, _⟩ := full_stops c hP (TraceState.new []) (SGood.new _)
    have ho' := ho
    obtain ⟨p, h1, h2, h3⟩ := ho
    have hroot : (parRun c (TraceState.new [])).2 = (full c (TraceState.new [])).2 := by
      rw [full_parRun]
    have hch : ∀ x, .error x ∈ p.channel → P x := fun x hx =>
      s1 x ((channel_perm c h1 h2).mem_iff.1 hx)
    unfold parOutcome at h3
    split at h3
    · next hany =>
      rw [List.any_eq_true] at hany
      obtain ⟨y, hy, hy'⟩ := hany
      have : y = .error .panic := by
        unfold panicked at hy'
        split at hy'
        · rfl
        · cases hy'
      exact key .panic (hch _ (this ▸ hy)) h3
    · split at h3
      · next x hx => exact key x (s2 x (by rw [← hroot, hx])) h3
      · split at h3
        · next x hx => exact key x (hch x (collect_error hx)) h3
        · next a s hs _ segs hc =>
          obtain ⟨bs, e1, e2⟩ := collect_iff hc
          obtain ⟨cs, e3, e4⟩ := allOk_perm (channel_perm c h1 h2) e1
          have hm := seqRun_full c (TraceState.new []) []
          rw [merge, e3, ← hroot, hs] at hm
          cases hq : seqRun c (withSent (TraceState.new []) []) with
          | error x => rw [hq] at hm; cases hm
          | ok r =>
            obtain ⟨prog, e5, e6⟩ := seqRun_ok (a := r.1) (s := r.2) hq
            exact hok _ _ (parEval_record e5 ho')
  · rw [SeqEval] at ho
    split at ho
    · next x hx =>
      refine key x ?_ ho
      cases hr : record c with
      | error y =>
        have := (seqRun_record c (TraceState.new []) (SGood.new _) []).1 y hr
        rw [hx, Except.error.injEq] at this
        exact this ▸ record_stops c hP y hr
      | ok r =>
        obtain ⟨s, hs⟩ := seqRun_of_record hr
        rw [hx] at hs; cases hs
    · next a s hs =>
      obtain ⟨prog, e5, e6⟩ := seqRun_ok hs
      exact hok _ _ ((finish_iff e6 _).1 ho)

/-- The failing routine runs on a thread while the code goes on, but its error is always reported. -/
example (out : Outcome ℕ (ℚ) (ℚ)) (ho : ParEval (demoCode (some 3)) out) :
    out = .err 3 := by
  obtain ⟨h1, h2⟩ := C86_stops (demoCode_stops 3) (.inl ho)
  cases out with
  | err e => have := h1 e rfl; cases this; rfl
  | panic => have := h2 rfl; cases this
  | ok a t => obtain ⟨prog, hr, _⟩ := parEval_ok ho; cases hr

/-- C86: with right predictions, threads and predictions change nothing: the trace and the result are
those of running every routine in place without any prediction, and they exist exactly if executing
everything in place succeeds. -/
theorem C86_predictions {α : Type} {c : WCode E F α} (hf : Faithful c) :
    (∀ a t, ParEval c (.ok a t) ↔ SeqEval (withhold c) (.ok a t)) ∧
    ∀ a, (∃ t, ParEval c (.ok a t)) ↔ inPlace c = .ok a := by
  have hrec := record_faithful c hf
  have hval := record_withhold c
  have h1 : ∀ a t, ParEval c (.ok a t) ↔ SeqEval (withhold c) (.ok a t) := by
    intro a t
    rw [(C86_schedule c).1]
    constructor
    · intro h
      obtain ⟨prog, e1, rfl⟩ := seqEval_ok h
      rw [e1] at hrec
      cases hw : record (withhold c) with
      | error x => rw [hw] at hrec; cases hrec
      | ok r =>
        rw [hw] at hrec
        simp only [Except.toOption, Option.map_some, Option.some.injEq] at hrec
        rw [hrec] at hw
        rw [seqEval_record hw, canon_inline]
    · intro h
      obtain ⟨prog, e1, rfl⟩ := seqEval_ok h
      rw [e1] at hrec
      cases hw : record c with
      | error x => rw [hw] at hrec; cases hrec
      | ok r =>
        rw [hw] at hrec
        simp only [Except.toOption, Option.map_some, Option.some.injEq, Prod.mk.injEq] at hrec
        obtain ⟨e2, e3⟩ := hrec
        rw [seqEval_record (a := a) (prog := r.2) (by rw [hw, e2]), e3, canon_inline]
  refine ⟨h1, fun a => ⟨?_, fun h => ?_⟩⟩
  · rintro ⟨t, ht⟩
    obtain ⟨prog, e1, rfl⟩ := seqEval_ok ((h1 a t).1 ht)
    rw [e1] at hval
    exact hval.symm
  · cases hw : record (withhold c) with
    | error x => rw [hw, h] at hval; cases hval
    | ok r =>
      rw [hw, h] at hval
      simp only [Except.map, Except.ok.injEq] at hval
      exact ⟨canon r.2, (h1 _ _).2 ((seqEval_record (by rw [hw, ← hval]) _).2 rfl)⟩

example : (∃ t, ParEval (demoCode none) (.ok 5 t)) ∧
    ∀ t, ParEval (demoCode none) (.ok 5 t) ↔ SeqEval (withhold (demoCode none)) (.ok 5 t) :=
  ⟨((C86_predictions (demoCode_faithful none)).2 5).2 rfl,
    fun t => (C86_predictions (demoCode_faithful none)).1 5 t⟩

/-- Whatever the schedule, the result is the same trace. -/
example : ∃ t, (∀ out, ParEval (demoCode none) out → out = .ok 5 t) ∧ t.length = 3 := by
  obtain ⟨t, ht⟩ := ((C86_predictions (demoCode_faithful none)).2 5).2 rfl
  obtain ⟨prog, h1, h2⟩ := parEval_ok ht
  exact ⟨t, fun out ho => (C86_schedule _).2 _ _ ht out (.inl ho), by
    rw [h2]; simp only [demoCode, record, wireless, Except.ok.injEq, Prod.mk.injEq] at h1
    rw [← h1.2]; rfl⟩

/-- C86: with right predictions, the emulator that skips predicted routines returns what executing
them returns. -/
theorem C86_emulator {α : Type} {c : WCode E F α} (hf : Faithful c) {a : α} (h : inPlace c = .ok a) :
    wireless c = .ok a := wireless_faithful c hf a h

example : wireless (demoCode none) = .ok 5 := C86_emulator (demoCode_faithful none) rfl

/-- C86: but that emulator does not call value closures, so it also returns where computing a trace
fails. -/
theorem C86_emulator_lenient (e : E) : ∃ c : WCode E F Unit, Faithful c ∧ wireless c = .ok () ∧
    (∀ out, ParEval c out → out = .err e) ∧ ∀ out, SeqEval c out → out = .err e := by
  refine ⟨.alloc (.error (.err e)) (.ret ()), trivial, rfl, fun out ho => ?_, fun out ho => ho⟩
  obtain ⟨p, h1, h2, h3⟩ := ho
  have hc := channel_perm _ h1 h2
  simp only [full, List.perm_nil] at hc
  rw [hc] at h3
  exact h3

/-- C86: a wrong prediction is not noticed: the trace is computed from the routine's own execution,
but the code goes on with the predicted output. -/
theorem C86_unfaithful (x y : F) : ∃ c : WCode E F F,
    inPlace c = .ok x ∧ wireless c = .ok y ∧
    ∀ out, ParEval c out ↔ out = .ok y [([], ⟨[0, 0], [0, y], [0, 0], [0, 0]⟩), ([0], ⟨[0], [x], [0], [0]⟩)] := by
  let c : WCode E F F := .call (.ret (some y, ())) (fun _ => .alloc (.ok x) (.ret x))
    fun o => .alloc (.ok o) (.ret o)
  have hr : record c = .ok (y, .routine { known := true } (.alloc x .done) (.alloc y .done)) := rfl
  have hc : canon (.routine { known := true } (.alloc x .done) (.alloc y .done)) =
      [([], ⟨[0, 0], [0, y], [0, 0], [0, 0]⟩), ([0], ⟨[0], [x], [0], [0]⟩)] := rfl
  refine ⟨c, rfl, rfl, fun out => ⟨fun h => ?_, fun h => ?_⟩⟩
  · rw [parEval_record hr h, hc]
  · obtain ⟨out', ho⟩ := parEval_exists c
    have := parEval_record hr ho
    rw [hc] at this
    rw [h, ← this]
    exact ho

example : ∃ c : WCode ℕ (ℚ) (ℚ), inPlace c = .ok 1 ∧ ∃ t, ParEval c (.ok 2 t) := by
  obtain ⟨c, h1, _, h3⟩ := C86_unfaithful (E := ℕ) (1 : ℚ) 2
  exact ⟨c, h1, _, (h3 _).2 rfl⟩

/-- C86: which error is reported can depend on the schedule when several routines fail; without
threads it is the first. -/
theorem C86_errors (e e' : E) : ∃ c : WCode E F Unit, ParEval c (.err e) ∧ ParEval c (.err e') ∧
    (∀ out, ParEval c out → out = .err e ∨ out = .err e') ∧ ∀ out, SeqEval c out → out = .err e := by
  let c : WCode E F Unit := .call (.ret (some (), ())) (fun _ => .stop (.err e)) fun _ =>
    .call (.ret (some (), ())) (fun _ => .stop (.err e')) .ret
  let t : ℕ → E → Task E F := fun i e => ⟨[i], Unit, .stop (.err e)⟩
  have h0 : initial c = ⟨[t 0 e, t 1 e'], [], []⟩ := rfl
  have s1 : Step (initial c) ⟨[t 1 e'], [.error (.err e)], []⟩ := by
    rw [h0]; exact Step.start [] [t 1 e'] (t 0 e) [] []
  have s2 : Step (⟨[t 1 e'], [.error (.err e)], []⟩ : Pool E F)
      ⟨[], [.error (.err e'), .error (.err e)], []⟩ := Step.start [] [] (t 1 e') [.error (.err e)] []
  have run := (Relation.ReflTransGen.single s1).tail s2
  refine ⟨c, ⟨⟨[], [], [.error (.err e), .error (.err e')]⟩, ?_, ⟨rfl, rfl⟩, rfl⟩,
    ⟨⟨[], [], [.error (.err e'), .error (.err e)]⟩, ?_, ⟨rfl, rfl⟩, rfl⟩, fun out ho => ?_, fun out ho => ho⟩
  · exact (run.tail (Step.send [] [.error (.err e')] [] (.error (.err e)) [])).tail
      (Step.send [] [] [] (.error (.err e')) [.error (.err e)])
  · exact (run.tail (Step.send [] [] [.error (.err e)] (.error (.err e')) [])).tail
      (Step.send [] [] [] (.error (.err e)) [.error (.err e')])
  · obtain ⟨h1, h2⟩ := C86_stops (c := c) (P := fun x => x = .err e ∨ x = .err e')
      ⟨fun x hx => (by cases hx), fun o a _ => ⟨.inl rfl, fun _ =>
        ⟨fun x hx => (by cases hx), fun o a _ => ⟨.inr rfl, fun _ => trivial⟩⟩⟩⟩ (.inl ho)
    cases out with
    | err x =>
      rcases h1 x rfl with h | h <;> cases h
      · exact .inl rfl
      · exact .inr rfl
    | panic => rcases h2 rfl with h | h <;> cases h
    | ok a t =>
      obtain ⟨prog, hr, _⟩ := parEval_ok ho
      cases hr

/-! ### The routines of the library, and circuits -/

theorem inPlace_ofSyn {α : Type} (m : Gadget.Syn F α) : ∀ r, m.sim = .ok r → inPlace (ofSyn m) = .ok r := by
  induction m with
  | ret a => intro r h; simp only [Gadget.Syn.sim, Except.ok.injEq] at h; rw [← h]; rfl
  | gate w k ih =>
    intro r h
    simp only [Gadget.Syn.sim] at h
    split at h
    · cases h
    · split at h
      · cases h
      · exact ih _ _ _ _ r h
  | alloc w k ih => intro r h; exact ih _ r h
  | enforce v k ih =>
    intro r h
    simp only [Gadget.Syn.sim] at h
    split at h
    · cases h
    · exact ih r h
  | check e k ih =>
    intro r h
    cases e with
    | none => exact ih r h
    | some e => cases h
  | panic => intro r h; cases h

theorem faithful_ofSyn {α : Type} (m : Gadget.Syn F α) : Faithful (ofSyn m) := by
  induction m with
  | ret a => trivial
  | gate w k ih => exact ih _ _ _ _
  | alloc w k ih => exact ih _
  | enforce v k ih => exact ih
  | check e k ih =>
    cases e with
    | none => exact ih
    | some e => cases e <;> trivial
  | panic => trivial

/-- C86: both routines of the library have right predictions: evaluating `t(x, z)` predicts what it
computes, and the permutation of the sponge predicts nothing. -/
theorem C86_library (k : ℕ) {x z : Gadget.Element F} (hx : x.Honest) (hz : z.Honest)
    (p : Gadget.PoseidonParams F) (state : List (Gadget.Element F)) :
    Faithful (evaluateCall k x z) ∧ Faithful (permutationCall p state) := by
  constructor
  · intro o a h
    cases hp : Tpoly.txzPredict k x.value z.value with
    | none => rw [hp] at h; cases h
    | some v =>
      rw [hp] at h
      simp only [wireless, Except.ok.injEq, Prod.mk.injEq] at h
      obtain ⟨rfl, rfl⟩ := h
      refine ⟨faithful_ofSyn _, fun v' w h1 h2 => ?_, fun _ _ => trivial⟩
      simp only [Option.some.injEq] at h1
      subst h1
      have hs := ((C14_prediction k x z hx hz).1 v).1 hp
      have hnz : x.value ≠ 0 ∧ z.value ≠ 0 := by
        rw [Tpoly.txzPredict] at hp
        split at hp
        · cases hp
        · split at hp
          · cases hp
          · next h1 h2 => exact ⟨h1, h2⟩
      have : (Gadget.Txz.evaluate k x z).sim =
          (Gadget.Txz.execute k x z (x.value⁻¹, z.value⁻¹)).sim := by
        simp only [Gadget.Txz.evaluate, Gadget.tryJust, hnz.1, hnz.2, ne_eq, not_false_eq_true,
          decide_true, if_true]
        rfl
      rw [this] at hs
      have h3 := inPlace_ofSyn _ _ hs
      rw [h3, Except.ok.injEq] at h2
      exact h2.symm
  · intro o a h
    simp only [wireless, Except.ok.injEq, Prod.mk.injEq] at h
    obtain ⟨rfl, _⟩ := h
    exact ⟨faithful_ofSyn _, fun v w h1 => (by cases h1), fun _ _ => trivial⟩

theorem stops_ofSyn {α : Type} (m : Gadget.Syn F α) (P : Stop Circuit.Err → Prop) :
    ∀ r, m.sim = .ok r → Stops P (ofSyn m) := by
  induction m with
  | ret a => intro r h; trivial
  | gate w k ih =>
    intro r h
    simp only [Gadget.Syn.sim] at h
    split at h
    · cases h
    · split at h
      · cases h
      · exact ⟨fun x hx => (by cases hx), ih _ _ _ _ r h⟩
  | alloc w k ih => intro r h; exact ⟨fun x hx => (by cases hx), ih _ r h⟩
  | enforce v k ih =>
    intro r h
    simp only [Gadget.Syn.sim] at h
    split at h
    · cases h
    · exact ih r h
  | check e k ih =>
    intro r h
    cases e with
    | none => exact ih r h
    | some e => cases h
  | panic => intro r h; cases h

/-- C86: so evaluating `t(x, z)` as a routine always gives a trace and the predicted output if `x` and
`z` are not zero, and is otherwise always refused as an invalid witness, under every schedule. -/
theorem C86_evaluate (k : ℕ) {x z : Gadget.Element F} (hx : x.Honest) (hz : z.Honest)
    {out : Outcome Circuit.Err F (Gadget.Element F)}
    (ho : ParEval (evaluateCall k x z) out ∨ SeqEval (evaluateCall k x z) out) :
    (∀ v, Tpoly.txzPredict k x.value z.value = some v → ∃ t, out = .ok ⟨v, v⟩ t) ∧
    (x.value = 0 ∨ z.value = 0 → out = .err .invalidWitness) := by
  obtain ⟨hf, -⟩ := C86_library k hx hz (⟨0, 0, 0, 0, 0, [], []⟩ : Gadget.PoseidonParams F) []
  constructor
  · intro v hp
    have hs := ((C14_prediction k x z hx hz).1 v).1 hp
    have hnz : x.value ≠ 0 ∧ z.value ≠ 0 := by
      rw [Tpoly.txzPredict] at hp
      split at hp
      · cases hp
      · split at hp
        · cases hp
        · next h1 h2 => exact ⟨h1, h2⟩
    have he : (Gadget.Txz.evaluate k x z).sim =
        (Gadget.Txz.execute k x z (x.value⁻¹, z.value⁻¹)).sim := by
      simp only [Gadget.Txz.evaluate, Gadget.tryJust, hnz.1, hnz.2, ne_eq, not_false_eq_true,
        decide_true, if_true]
      rfl
    rw [he] at hs
    have hin : inPlace (evaluateCall k x z) = .ok ⟨v, v⟩ := by
      simp only [evaluateCall, hp, inPlace, wireless, inPlace_ofSyn _ _ hs]
    obtain ⟨t, ht⟩ := ((C86_predictions hf).2 _).2 hin
    exact ⟨t, (C86_schedule _).2 _ _ ht out ho⟩
  · intro h0
    have hp : Tpoly.txzPredict k x.value z.value = none := by
      rw [Tpoly.txzPredict]
      rcases h0 with h | h
      · rw [if_pos h]
      · rw [if_pos h]; split <;> rfl
    rcases ho with ⟨p, h1, h2, h3⟩ | ho
    · have hc := channel_perm _ h1 h2
      simp only [evaluateCall, hp, full, wireless, List.perm_nil] at hc
      rw [hc] at h3
      simpa only [evaluateCall, hp, parRun, wireless, parOutcome, List.any_nil, Bool.false_eq_true,
        if_false, Stop.outcome] using h3
    · simpa only [evaluateCall, hp, SeqEval, seqRun, wireless, Stop.outcome] using ho

example (out : Outcome Circuit.Err ℚ (Gadget.Element ℚ))
    (ho : ParEval (evaluateCall 3 (⟨2, 2⟩ : Gadget.Element ℚ) ⟨3, 3⟩) out) : ∃ r t, out = .ok r t := by
  obtain ⟨h, _⟩ := C86_evaluate 3 (x := ⟨2, 2⟩) (z := ⟨3, 3⟩) rfl rfl (.inl ho)
  obtain ⟨t, ht⟩ := h _ (by simp [Tpoly.txzPredict]; rfl)
  exact ⟨_, t, ht⟩

theorem record_ofProg (prog : Prog F) : ∃ prog', record (ofProg prog) = .ok ((), prog') ∧
    (∀ g p, own prog' g p = own prog g p) ∧ ∀ p j, dfs prog' p j = dfs prog p j := by
  induction prog with
  | done => exact ⟨.done, rfl, fun _ _ => rfl, fun _ _ => rfl⟩
  | gate a b c d k ih =>
    obtain ⟨q, h1, h2, h3⟩ := ih
    exact ⟨.gate a b c d q, by simp [ofProg, record, h1], fun g p => h2 _ _, fun p j => h3 _ _⟩
  | mul a b c k ih =>
    obtain ⟨q, h1, h2, h3⟩ := ih
    exact ⟨.gate a b c 0 q, by simp [ofProg, record, h1], fun g p => h2 _ _, fun p j => h3 _ _⟩
  | alloc v k ih =>
    obtain ⟨q, h1, h2, h3⟩ := ih
    exact ⟨.alloc v q, by simp [ofProg, record, h1], fun g p => by cases p <;> exact h2 _ _,
      fun p j => h3 _ _⟩
  | add lc k ih | enforce lc k ih | clone w k ih | drop w k ih =>
    obtain ⟨q, h1, h2, h3⟩ := ih
    exact ⟨q, h1, fun g p => h2 _ _, fun p j => h3 _ _⟩
  | routine call b k ihb ihk =>
    obtain ⟨qb, b1, b2, b3⟩ := ihb
    obtain ⟨qk, k1, k2, k3⟩ := ihk
    refine ⟨.routine { known := (if call.known then some () else none).isSome } qb qk, ?_,
      fun g p => k2 _ _, fun p j => ?_⟩
    · simp only [ofProg, record, wireless, b1]
      rw [k1]
    · simp only [dfs, b2, b3, k3]

/-- C86: the traces of a circuit in C18, where threads are only an order in which batches arrive, are
those that the evaluators with and without threads compute. -/
theorem C86_circuit {c : Circ F} (hu : c.WellUsed) (t : List (ASeg F)) :
    (TraceEval c t ↔ ParEval (ofProg c.body) (.ok () t)) ∧
    (TraceEval c t ↔ SeqEval (ofProg c.body) (.ok () t)) := by
  obtain ⟨prog, h1, h2, h3⟩ := record_ofProg c.body
  have hc : canon prog = canon c.body := by simp [canon, h2, h3]
  have ht : TraceEval c t ↔ t = canon c.body := by
    obtain ⟨h', hh⟩ := body_handles hu
    obtain ⟨s0, e0, hr0, hp, _⟩ := trace_body hh
    constructor
    · rintro ⟨s, e, order, hr, hord, hperm, hsort⟩
      rw [hr, Except.ok.injEq, Prod.mk.injEq] at hr0
      obtain ⟨rfl, rfl⟩ := hr0
      exact sorted_unique ((hperm.trans (List.Perm.append_left _ hord.flatten)).trans hp) hsort
        (canon_sorted c.body)
    · rintro rfl
      exact ⟨s0, e0, s0.sent, hr0, List.Perm.refl _, hp.symm,
        (canon_sorted c.body).imp fun h => le_of_lt h⟩
  have hs : SeqEval (ofProg c.body) (.ok () t) ↔ t = canon c.body := by
    rw [seqEval_record h1, hc]
    simp
  exact ⟨by rw [ht, (C86_schedule _).1, hs], by rw [ht, hs]⟩

example : ∃ t, ParEval (ofProg demo.body) (.ok () t) := by
  obtain ⟨t, ht⟩ := C18_produced demo_wellUsed
  exact ⟨t, (C86_circuit demo_wellUsed t).1.1 ht⟩

end Ragu.Props

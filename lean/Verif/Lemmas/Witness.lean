/-
Witness code: the driver calls it makes, the results of its tasks, and all schedules of them.
-/
import Verif.Spec.Witness
import Verif.Lemmas.Trace

set_option linter.unusedSectionVars false

namespace Ragu.Witness
open Ragu Ragu.Circuit Ragu.Spec
variable {E F : Type} [Field F] [DecidableEq F]

/-! ### Driver calls -/

/-- The calls that code makes when it goes on with predicted outputs, with its result. -/
def record : {α : Type} → WCode E F α → Except (Stop E) (α × Prog F)
  | _, .ret a => .ok (a, .done)
  | _, .stop x => .error x
  | _, .gate v k => match v with
    | .error x => .error x
    | .ok w => match record k with
      | .error x => .error x
      | .ok (a, p) => .ok (a, .gate w.1 w.2.1 w.2.2.1 w.2.2.2 p)
  | _, .alloc v k => match v with
    | .error x => .error x
    | .ok w => match record k with
      | .error x => .error x
      | .ok (a, p) => .ok (a, .alloc w p)
  | _, .call predict exec k =>
    match wireless predict with
    | .error x => .error x
    | .ok (o, a) =>
      match record (exec a) with
      | .error x => .error x
      | .ok (o', b) =>
        match record (k (o.getD o')) with
        | .error x => .error x
        | .ok (r, p) => .ok (r, .routine { known := o.isSome } b p)

theorem record_handles {α : Type} (c : WCode E F α) : ∀ a prog, record c = .ok (a, prog) →
    ∀ h, ∃ h', handles prog h = some h' := by
  induction c with
  | ret a =>
    intro a prog hr h
    simp only [record, Except.ok.injEq, Prod.mk.injEq] at hr
    rw [← hr.2]
    exact ⟨h, rfl⟩
  | stop x => intro a prog hr; cases hr
  | gate v k ih =>
    intro a prog hr h
    simp only [record] at hr
    split at hr
    · cases hr
    · split at hr
      · cases hr
      · next heq =>
        simp only [Except.ok.injEq, Prod.mk.injEq] at hr
        rw [← hr.2]
        exact ih _ _ heq _
  | alloc v k ih =>
    intro a prog hr h
    simp only [record] at hr
    split at hr
    · cases hr
    · split at hr
      · cases hr
      · next heq =>
        simp only [Except.ok.injEq, Prod.mk.injEq] at hr
        rw [← hr.2]
        exact ih _ _ heq _
  | call p e k _ ihe ihk =>
    intro a prog hr h
    simp only [record] at hr
    split at hr
    · cases hr
    · split at hr
      · cases hr
      · next h1 =>
        split at hr
        · cases hr
        · next h2 =>
          simp only [Except.ok.injEq, Prod.mk.injEq] at hr
          rw [← hr.2]
          obtain ⟨h', e1⟩ := ihe _ _ _ h1 h
          obtain ⟨h'', e2⟩ := ihk _ _ _ h2 h'
          exact ⟨h'', by simp [handles, e1, e2]⟩

/-- The current segment exists and is sound. -/
def SGood (s : TraceState F) : Prop :=
  ∃ pp g, s.segs[s.cur]? = some (pp, g) ∧ Good g s.availD

theorem SGood.new (path : List ℕ) : SGood (TraceState.new (F := F) path) := by
  refine ⟨path, TSeg.new path, rfl, ?_⟩
  unfold TSeg.new
  split <;> exact ⟨rfl, rfl, rfl, by simp [TraceState.new]⟩

/-- A program without free wires runs, and the current segment stays sound. -/
theorem SGood.run {s : TraceState F} (hs : SGood s) {prog : Prog F}
    (hh : ∀ h, ∃ h', handles prog h = some h') (e : List Unit) :
    ∃ s' e', Circuit.run traceD prog s e = .ok (s', e') ∧ SGood s' := by
  obtain ⟨pp, g, h1, h2⟩ := hs
  obtain ⟨h', hh⟩ := hh (List.replicate e.length 0)
  obtain ⟨inl, bs, e', hr, _⟩ := trace_run prog _ h' s e pp g hh (by simp) h1 h2
  refine ⟨_, e', hr, pp, (own prog g s.availD).1, ?_, own_good prog g _ h2⟩
  simp only [TraceState.after]
  have := lt_of_get h1
  rw [List.getElem?_append_left (by simpa using this)]
  simp [this]

/-- Running the code in the evaluator without threads is making its calls. -/
theorem seqRun_record {α : Type} (c : WCode E F α) : ∀ s : TraceState F, SGood s → ∀ e : List Unit,
    (∀ x, record c = .error x → seqRun c s = .error x) ∧
    ∀ a prog, record c = .ok (a, prog) →
      ∃ s' e', Circuit.run traceD prog s e = .ok (s', e') ∧ seqRun c s = .ok (a, s') := by
  induction c with
  | ret a =>
    intro s hs e
    refine ⟨fun x h => (by cases h), fun a' prog h => ?_⟩
    simp only [record, Except.ok.injEq, Prod.mk.injEq] at h
    obtain ⟨rfl, rfl⟩ := h
    exact ⟨s, e, rfl, rfl⟩
  | stop x =>
    intro s hs e
    refine ⟨fun y h => ?_, fun a' prog h => by cases h⟩
    simp only [record, Except.error.injEq] at h
    subst h; rfl
  | gate v k ih =>
    intro s hs e
    cases v with
    | error y =>
      refine ⟨fun x h => ?_, fun a' prog h => by cases h⟩
      simp only [record, Except.error.injEq] at h
      subst h; rfl
    | ok w =>
      obtain ⟨s1, e1, hr1, hg1⟩ := hs.run (prog := .gate w.1 w.2.1 w.2.2.1 w.2.2.2 .done)
        (fun h => ⟨_, rfl⟩) e
      simp only [Circuit.run, traceD] at hr1
      cases hg : s.gate w.1 w.2.1 w.2.2.1 w.2.2.2 with
      | error y => rw [hg] at hr1; cases hr1
      | ok s2 =>
        rw [hg] at hr1
        have hss : s2 = s1 := by
          have := Except.ok.inj hr1
          exact (Prod.mk.inj this).1
        subst hss
        obtain ⟨i1, i2⟩ := ih s2 hg1 (e ++ [(), (), (), ()])
        refine ⟨fun x h => ?_, fun a' prog h => ?_⟩
        · simp only [record] at h
          simp only [seqRun, hg, orPanic]
          cases hrk : record k with
          | error y =>
            rw [hrk] at h
            exact (i1 y hrk).trans (by simpa using h)
          | ok r => rw [hrk] at h; cases h
        · simp only [record] at h
          cases hrk : record k with
          | error y => rw [hrk] at h; cases h
          | ok r =>
            rw [hrk] at h
            simp only [Except.ok.injEq, Prod.mk.injEq] at h
            obtain ⟨rfl, rfl⟩ := h
            obtain ⟨s', e', hr, hq⟩ := i2 r.1 r.2 hrk
            refine ⟨s', e', ?_, ?_⟩
            · simp only [Circuit.run, traceD, hg]
              exact hr
            · simp only [seqRun, hg, orPanic]
              exact hq
  | alloc v k ih =>
    intro s hs e
    cases v with
    | error y =>
      refine ⟨fun x h => ?_, fun a' prog h => by cases h⟩
      simp only [record, Except.error.injEq] at h
      subst h; rfl
    | ok w =>
      obtain ⟨s1, e1, hr1, hg1⟩ := hs.run (prog := .alloc w .done) (fun h => ⟨_, rfl⟩) e
      simp only [Circuit.run, traceD] at hr1
      cases hg : s.alloc w with
      | error y => rw [hg] at hr1; cases hr1
      | ok s2 =>
        rw [hg] at hr1
        have hss : s2 = s1 := by
          have := Except.ok.inj hr1
          exact (Prod.mk.inj this).1
        subst hss
        obtain ⟨i1, i2⟩ := ih s2 hg1 (e ++ [()])
        refine ⟨fun x h => ?_, fun a' prog h => ?_⟩
        · simp only [record] at h
          simp only [seqRun, hg, orPanic]
          cases hrk : record k with
          | error y =>
            rw [hrk] at h
            exact (i1 y hrk).trans (by simpa using h)
          | ok r => rw [hrk] at h; cases h
        · simp only [record] at h
          cases hrk : record k with
          | error y => rw [hrk] at h; cases h
          | ok r =>
            rw [hrk] at h
            simp only [Except.ok.injEq, Prod.mk.injEq] at h
            obtain ⟨rfl, rfl⟩ := h
            obtain ⟨s', e', hr, hq⟩ := i2 r.1 r.2 hrk
            refine ⟨s', e', ?_, ?_⟩
            · simp only [Circuit.run, traceD, hg]
              exact hr
            · simp only [seqRun, hg, orPanic]
              exact hq
  | call p ex k _ ihe ihk =>
    intro s hs e
    cases hp : wireless p with
    | error y =>
      refine ⟨fun x h => ?_, fun a' prog h => ?_⟩
      · simp only [record, hp, Except.error.injEq] at h
        subst h
        simp only [seqRun, hp]
      · simp only [record, hp] at h; cases h
    | ok q =>
      obtain ⟨o, a⟩ := q
      -- the state in which the routine runs
      have henter : ∃ t, s.enter { known := o.isSome } = .ok t ∧ SGood t := by
        cases o with
        | some v => exact ⟨_, rfl, SGood.new _⟩
        | none =>
          refine ⟨_, rfl, ?_⟩
          obtain ⟨pp, g, h1, h2⟩ := hs
          exact ⟨s.path ++ [s.counter], TSeg.new (s.path ++ [s.counter]), by simp, by
            rw [TSeg.new_child]; exact ⟨rfl, rfl, rfl, by simp⟩⟩
      obtain ⟨t, ht, hgt⟩ := henter
      obtain ⟨i1, i2⟩ := ihe a t hgt e
      cases hre : record (ex a) with
      | error y =>
        refine ⟨fun x h => ?_, fun a' prog h => ?_⟩
        · simp only [record, hp, hre, Except.error.injEq] at h
          subst h
          cases o with
          | some v => simp only [seqRun, hp, orPanic]; rw [show s.enter { known := true } = .ok t from ht]; simp only [i1 _ hre]
          | none => simp only [seqRun, hp, orPanic]; rw [show s.enter { known := false } = .ok t from ht]; simp only [i1 _ hre]
        · simp only [record, hp, hre] at h; cases h
      | ok r =>
        obtain ⟨o', b⟩ := r
        obtain ⟨t', e', hrb, hqb⟩ := i2 o' b hre
        obtain ⟨s1, e1, hr1, hg1⟩ := hs.run (prog := .routine { known := o.isSome } b .done)
          (fun h => by
            obtain ⟨h', e1⟩ := record_handles _ _ _ hre h
            exact ⟨h', by simp [handles, e1]⟩) e
        simp only [Circuit.run] at hr1
        change (s.enter { known := o.isSome } >>= _) = _ at hr1
        rw [ht, bind_ok, hrb, bind_ok] at hr1
        change (TraceState.leave { known := o.isSome } s t' >>= _) = _ at hr1
        cases hl : TraceState.leave { known := o.isSome } s t' with
        | error y => rw [hl] at hr1; cases hr1
        | ok s2 =>
          rw [hl] at hr1
          have hss : s2 = s1 := (Prod.mk.inj (Except.ok.inj hr1)).1
          subst hss
          obtain ⟨j1, j2⟩ := ihk (o.getD o') s2 hg1 e'
          have hstep : seqRun (.call p ex k) s = seqRun (k (o.getD o')) s2 := by
            cases o with
            | some v =>
              simp only [seqRun, hp, orPanic]
              rw [show s.enter { known := true } = .ok t from ht]
              simp only [hqb]
              rw [show TraceState.leave { known := true } s t' = .ok s2 from hl]
              rfl
            | none =>
              simp only [seqRun, hp, orPanic]
              rw [show s.enter { known := false } = .ok t from ht]
              simp only [hqb]
              rw [show TraceState.leave { known := false } s t' = .ok s2 from hl]
              rfl
          rw [hstep]
          refine ⟨fun x h => ?_, fun a' prog h => ?_⟩
          · simp only [record, hp, hre] at h
            cases hrk : record (k (o.getD o')) with
            | error y =>
              rw [hrk] at h
              exact (j1 y hrk).trans (by simpa using h)
            | ok r => rw [hrk] at h; cases h
          · simp only [record, hp, hre] at h
            cases hrk : record (k (o.getD o')) with
            | error y => rw [hrk] at h; cases h
            | ok r =>
              rw [hrk] at h
              simp only [Except.ok.injEq, Prod.mk.injEq] at h
              obtain ⟨rfl, rfl⟩ := h
              obtain ⟨s', e'', hr, hq⟩ := j2 r.1 r.2 hrk
              refine ⟨s', e'', ?_, hq⟩
              simp only [Circuit.run]
              change (s.enter { known := o.isSome } >>= _) = _
              rw [ht, bind_ok, hrb, bind_ok]
              change (TraceState.leave { known := o.isSome } s t' >>= _) = _
              rw [hl]
              exact hr

end Ragu.Witness

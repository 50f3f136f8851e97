/-
All schedules of the tasks of witness code end, and what they leave in the channel differs only in
its order.
-/
import Verif.Lemmas.Witness

set_option linter.unusedSectionVars false

namespace Ragu.Witness
open Ragu Ragu.Circuit Ragu.Spec
variable {E F : Type} [Field F] [DecidableEq F]

/-- What one task sends. -/
abbrev Sent (E F : Type) := Except (Stop E) (List (ASeg F))

/-- What all tasks send, those of tasks included, and the result of the code itself. -/
def full : {α : Type} → WCode E F α → TraceState F →
    List (Sent E F) × Except (Stop E) (α × TraceState F)
  | _, .ret a, s => ([], .ok (a, s))
  | _, .stop x, _ => ([], .error x)
  | _, .gate v k, s => match v with
    | .error x => ([], .error x)
    | .ok w => match orPanic (s.gate w.1 w.2.1 w.2.2.1 w.2.2.2) with
      | .error x => ([], .error x)
      | .ok s' => full k s'
  | _, .alloc v k, s => match v with
    | .error x => ([], .error x)
    | .ok w => match orPanic (s.alloc w) with
      | .error x => ([], .error x)
      | .ok s' => full k s'
  | _, .call predict exec k, s =>
    match wireless predict with
    | .error x => ([], .error x)
    | .ok (some o, a) =>
      let r := full (k o) { s with counter := s.counter + 1 }
      let q := full (exec a) (TraceState.new (s.path ++ [s.counter]))
      (batch q.2 :: (q.1 ++ r.1), r.2)
    | .ok (none, a) =>
      match orPanic (s.enter { known := false }) with
      | .error x => ([], .error x)
      | .ok t =>
        let r := full (exec a) t
        match r.2 with
        | .error x => (r.1, .error x)
        | .ok (o, t) =>
          match orPanic (TraceState.leave { known := false } s t) with
          | .error x => (r.1, .error x)
          | .ok s' =>
            let r' := full (k o) s'
            (r.1 ++ r'.1, r'.2)

/-- What a task and its tasks send. -/
def Task.all (t : Task E F) : List (Sent E F) :=
  batch (full t.code (TraceState.new t.path)).2 :: (full t.code (TraceState.new t.path)).1

theorem full_parRun {α : Type} (c : WCode E F α) : ∀ s : TraceState F,
    full c s = ((parRun c s).1.flatMap Task.all, (parRun c s).2) := by
  induction c with
  | ret a => intro s; rfl
  | stop x => intro s; rfl
  | gate v k ih =>
    intro s
    cases v with
    | error y => rfl
    | ok w =>
      simp only [full, parRun]
      cases orPanic (E := E) (s.gate w.1 w.2.1 w.2.2.1 w.2.2.2) with
      | error y => rfl
      | ok s' => exact ih s'
  | alloc v k ih =>
    intro s
    cases v with
    | error y => rfl
    | ok w =>
      simp only [full, parRun]
      cases orPanic (E := E) (s.alloc w) with
      | error y => rfl
      | ok s' => exact ih s'
  | call p ex k _ ihe ihk =>
    intro s
    simp only [full, parRun]
    cases wireless p with
    | error y => rfl
    | ok q =>
      obtain ⟨o, a⟩ := q
      cases o with
      | some v =>
        simp only [ihk v, List.flatMap_cons, Task.all, List.cons_append]
      | none =>
        simp only
        cases orPanic (E := E) (s.enter { known := false }) with
        | error y => rfl
        | ok t =>
          simp only [ihe a t]
          cases (parRun (ex a) t).2 with
          | error y => rfl
          | ok r =>
            obtain ⟨o, t'⟩ := r
            simp only
            cases orPanic (E := E) (TraceState.leave { known := false } s t') with
            | error y => rfl
            | ok s' => simp only [ihk o s', List.flatMap_append]

theorem Task.all_eq (t : Task E F) : t.all = t.sends :: t.spawned.flatMap Task.all := by
  rw [Task.all, full_parRun, Task.sends, Task.spawned]

/-- The batches, if no task failed. -/
def allOk {β : Type} : List (Except (Stop E) β) → Option (List β)
  | [] => some []
  | .error _ :: _ => none
  | .ok b :: r => (allOk r).map (b :: ·)

theorem allOk_append {β : Type} (l m : List (Except (Stop E) β)) :
    allOk (l ++ m) = (allOk l).bind fun x => (allOk m).map (x ++ ·) := by
  induction l with
  | nil => simp [allOk]
  | cons y r ih =>
    cases y with
    | error x => rfl
    | ok b =>
      simp only [List.cons_append, allOk, ih]
      cases allOk r with
      | none => rfl
      | some x => cases allOk m <;> rfl

theorem allOk_some {β : Type} {l : List (Except (Stop E) β)} {bs : List β} (h : allOk l = some bs) :
    l = bs.map .ok := by
  induction l generalizing bs with
  | nil => cases h; rfl
  | cons y r ih =>
    cases y with
    | error x => cases h
    | ok b =>
      simp only [allOk, Option.map_eq_some_iff] at h
      obtain ⟨x, h1, rfl⟩ := h
      rw [ih h1, List.map_cons]

theorem allOk_map {β : Type} (bs : List β) : allOk (bs.map (.ok : β → Except (Stop E) β)) = some bs := by
  induction bs with
  | nil => rfl
  | cons b r ih => simp [allOk, ih]

/-- The state with the batches that have been delivered. -/
def withSent (s : TraceState F) (x : List (List (ASeg F))) : TraceState F := { s with sent := x }

theorem withSent_gate (s : TraceState F) (x : List (List (ASeg F))) (a b c d : F) :
    orPanic (E := E) ((withSent s x).gate a b c d) = (orPanic (s.gate a b c d)).map (withSent · x) := by
  simp only [TraceState.gate, TraceState.modify, withSent]
  cases s.segs[s.cur]? <;> rfl

theorem withSent_alloc (s : TraceState F) (x : List (List (ASeg F))) (v : F) :
    orPanic (E := E) ((withSent s x).alloc v) = (orPanic (s.alloc v)).map (withSent · x) := by
  simp only [TraceState.alloc, TraceState.modify, withSent]
  cases h : s.availD with
  | none => cases s.segs[s.cur]? <;> rfl
  | some i =>
    cases h1 : s.segs[s.cur]? with
    | none => simp; rfl
    | some q =>
      simp only []
      split <;> rfl

/-- What the evaluator without threads returns, from what the tasks send. -/
def merge {α : Type} (r : List (Sent E F) × Except (Stop E) (α × TraceState F))
    (x : List (List (ASeg F))) : Option (α × TraceState F) :=
  match allOk r.1, r.2 with
  | some bs, .ok (a, s) => some (a, withSent s (x ++ bs))
  | _, _ => none

/-- Both evaluators return together, and the same. -/
theorem seqRun_full {α : Type} (c : WCode E F α) : ∀ (s : TraceState F) (x : List (List (ASeg F))),
    (seqRun c (withSent s x)).toOption = merge (full c s) x := by
  induction c with
  | ret a => intro s x; simp [seqRun, full, merge, allOk, Except.toOption]
  | stop y => intro s x; simp [seqRun, full, merge, allOk, Except.toOption]
  | gate v k ih =>
    intro s x
    cases v with
    | error y => simp [seqRun, full, merge, allOk, Except.toOption]
    | ok w =>
      simp only [seqRun, full, withSent_gate]
      cases orPanic (E := E) (s.gate w.1 w.2.1 w.2.2.1 w.2.2.2) with
      | error y => simp [merge, allOk, Except.toOption, Except.map]
      | ok s' => exact ih s' x
  | alloc v k ih =>
    intro s x
    cases v with
    | error y => simp [seqRun, full, merge, allOk, Except.toOption]
    | ok w =>
      simp only [seqRun, full, withSent_alloc]
      cases orPanic (E := E) (s.alloc w) with
      | error y => simp [merge, allOk, Except.toOption, Except.map]
      | ok s' => exact ih s' x
  | call p ex k _ ihe ihk =>
    intro s x
    simp only [seqRun, full]
    cases wireless p with
    | error y => simp [merge, allOk, Except.toOption]
    | ok q =>
      obtain ⟨o, a⟩ := q
      cases o with
      | some v =>
        have h1 := ihe a (TraceState.new (s.path ++ [s.counter])) []
        have he : orPanic (E := E) ((withSent s x).enter { known := true }) =
            .ok (withSent (TraceState.new (s.path ++ [s.counter])) []) := rfl
        simp only [he]
        cases hq : seqRun (ex a) (withSent (TraceState.new (s.path ++ [s.counter])) []) with
        | error y =>
          rw [hq] at h1
          simp only [Except.toOption] at h1 ⊢
          simp only [merge] at h1 ⊢
          cases hb : allOk (full (ex a) (TraceState.new (s.path ++ [s.counter]))).1 with
          | none =>
            cases hbb : batch (full (ex a) (TraceState.new (s.path ++ [s.counter]))).2 with
            | error z => rfl
            | ok b => simp only [allOk, allOk_append, hb, Option.bind_none, Option.map_none]
          | some bs =>
            cases hr : (full (ex a) (TraceState.new (s.path ++ [s.counter]))).2 with
            | error z => rfl
            | ok r => rw [hb, hr] at h1; cases h1
        | ok r =>
          obtain ⟨o', t⟩ := r
          rw [hq] at h1
          simp only [Except.toOption, merge] at h1
          cases hb : allOk (full (ex a) (TraceState.new (s.path ++ [s.counter]))).1 with
          | none => rw [hb] at h1; cases h1
          | some bs =>
            cases hr : (full (ex a) (TraceState.new (s.path ++ [s.counter]))).2 with
            | error z => rw [hb, hr] at h1; cases h1
            | ok r =>
              obtain ⟨o2, t2⟩ := r
              rw [hb, hr] at h1
              simp only [Option.some.injEq, Prod.mk.injEq, List.nil_append] at h1
              obtain ⟨rfl, rfl⟩ := h1
              simp only
              by_cases hem : t2.segs.isEmpty
              · simp [TraceState.leave, withSent, hem, orPanic, batch, merge, allOk, Except.toOption]
              · have hl : orPanic (E := E)
                    (TraceState.leave { known := true } (withSent s x) (withSent t2 bs)) =
                    .ok (withSent { s with counter := s.counter + 1 } (x ++ [t2.segs] ++ bs)) := by
                  simp [TraceState.leave, withSent, hem, orPanic]
                simp only [hl]
                rw [ihk v]
                simp only [merge, batch, hem, Bool.false_eq_true, if_false, allOk, allOk_append, hb,
                  Option.bind_some]
                cases allOk (full (k v) { s with counter := s.counter + 1 }).1 with
                | none => rfl
                | some cs =>
                  cases (full (k v) { s with counter := s.counter + 1 }).2 with
                  | error z => rfl
                  | ok r => simp
      | none =>
        have he : orPanic (E := E) ((withSent s x).enter { known := false }) =
            (orPanic (s.enter { known := false })).map (withSent · x) := rfl
        simp only [he]
        cases hen : orPanic (E := E) (s.enter { known := false }) with
        | error y => simp [Except.map, merge, allOk, Except.toOption]
        | ok t =>
          have h1 := ihe a t x
          simp only [Except.map]
          cases hq : seqRun (ex a) (withSent t x) with
          | error y =>
            rw [hq] at h1
            simp only [Except.toOption, merge] at h1
            simp only [Except.toOption]
            cases hr : (full (ex a) t).2 with
            | error z => simp only [merge]; cases allOk (full (ex a) t).1 <;> rfl
            | ok r =>
              cases hb : allOk (full (ex a) t).1 with
              | some bs => rw [hb, hr] at h1; cases h1
              | none =>
                obtain ⟨o, t'⟩ := r
                simp only
                cases orPanic (E := E) (TraceState.leave { known := false } s t') with
                | error z => simp only [merge, hb]
                | ok s' => simp only [merge, allOk_append, hb, Option.bind_none]
          | ok r =>
            obtain ⟨o, t1⟩ := r
            rw [hq] at h1
            simp only [Except.toOption, merge] at h1
            cases hb : allOk (full (ex a) t).1 with
            | none => rw [hb] at h1; cases h1
            | some bs =>
              cases hr : (full (ex a) t).2 with
              | error z => rw [hb, hr] at h1; cases h1
              | ok r =>
                obtain ⟨o2, t2⟩ := r
                rw [hb, hr] at h1
                simp only [Option.some.injEq, Prod.mk.injEq] at h1
                obtain ⟨rfl, rfl⟩ := h1
                have hl : orPanic (E := E)
                    (TraceState.leave { known := false } (withSent s x) (withSent t2 (x ++ bs))) =
                    (orPanic (TraceState.leave { known := false } s t2)).map
                      (withSent · (x ++ bs)) := by
                  by_cases hc : t2.cur = s.segs.length <;>
                    simp [TraceState.leave, withSent, hc, orPanic, Except.map]
                simp only [hl]
                cases orPanic (E := E) (TraceState.leave { known := false } s t2) with
                | error z => simp [Except.map, merge, hb, Except.toOption]
                | ok s' =>
                  simp only [Except.map]
                  rw [ihk o]
                  simp only [merge, allOk_append, hb, Option.bind_some]
                  cases allOk (full (k o) s').1 with
                  | none => rfl
                  | some cs =>
                    cases (full (k o) s').2 with
                    | error z => rfl
                    | ok r => simp

/-! ### Schedules -/

/-- The number of steps that a pool still takes. -/
def Pool.left (p : Pool E F) : ℕ := 2 * (p.waiting.flatMap Task.all).length + p.running.length

/-- Everything that is or will be sent. -/
def Pool.total (p : Pool E F) : List (Sent E F) :=
  p.channel ++ p.running ++ p.waiting.flatMap Task.all

theorem Step.left {p q : Pool E F} (h : Step p q) : p.left = q.left + 1 := by
  cases h with
  | start l r t running channel =>
    simp only [Pool.left, List.flatMap_append, List.flatMap_cons, Task.all_eq t, List.length_append,
      List.length_cons]
    omega
  | send waiting l r x channel =>
    simp only [Pool.left, List.length_append, List.length_cons]
    omega

theorem Step.total {p q : Pool E F} (h : Step p q) : p.total.Perm q.total := by
  cases h with
  | start l r t running channel =>
    simp only [Pool.total, List.flatMap_append, List.flatMap_cons, Task.all_eq t]
    rw [List.append_assoc, List.append_assoc]
    refine List.Perm.append_left _ ?_
    generalize l.flatMap Task.all = a
    generalize r.flatMap Task.all = b
    generalize t.spawned.flatMap Task.all = d
    rw [List.cons_append, List.cons_append]
    have h1 : (running ++ (a ++ t.sends :: (d ++ b))).Perm (t.sends :: (running ++ (a ++ (d ++ b)))) := by
      rw [← List.append_assoc, ← List.append_assoc]
      exact List.perm_middle
    refine h1.trans (List.Perm.cons _ (List.Perm.append_left _ ?_))
    rw [List.append_assoc]
    exact List.Perm.append_left _ List.perm_append_comm
  | send waiting l r x channel =>
    simp only [Pool.total]
    refine List.Perm.append_right _ ?_
    rw [List.append_assoc, List.singleton_append]
    exact List.Perm.append_left _ List.perm_middle

theorem steps_total {p q : Pool E F} (h : Relation.ReflTransGen Step p q) : p.total.Perm q.total := by
  induction h with
  | refl => exact List.Perm.refl _
  | tail _ h ih => exact ih.trans h.total

/-- A pool that is not idle can take a step. -/
theorem Pool.progress (p : Pool E F) (h : ¬p.idle) : ∃ q, Step p q := by
  obtain ⟨w, r, c⟩ := p
  cases w with
  | cons t w => exact ⟨_, Step.start [] w t r c⟩
  | nil =>
    cases r with
    | cons x r => exact ⟨_, Step.send [] [] r x c⟩
    | nil => exact absurd ⟨rfl, rfl⟩ h

theorem Pool.finishes (n : ℕ) : ∀ p : Pool E F, p.left = n →
    ∃ q, Relation.ReflTransGen Step p q ∧ q.idle := by
  induction n with
  | zero =>
    intro p h
    by_cases hi : p.idle
    · exact ⟨p, .refl, hi⟩
    · obtain ⟨q, hq⟩ := p.progress hi
      have := hq.left
      omega
  | succ n ih =>
    intro p h
    by_cases hi : p.idle
    · exact ⟨p, .refl, hi⟩
    · obtain ⟨q, hq⟩ := p.progress hi
      have := hq.left
      obtain ⟨q', h1, h2⟩ := ih q (by omega)
      exact ⟨q', .head hq h1, h2⟩

/-- What is in the channel at the end. -/
theorem channel_perm {α : Type} (c : WCode E F α) {p : Pool E F}
    (h : Relation.ReflTransGen Step (initial c) p) (hi : p.idle) :
    p.channel.Perm (full c (TraceState.new [])).1 := by
  have := steps_total h
  rw [full_parRun]
  simp only [Pool.total, initial, hi.1, hi.2, List.nil_append, List.flatMap_nil, List.append_nil] at this
  exact this.symm

/-! ### Collecting -/

theorem collect_ok (segs : List (ASeg F)) (bs : List (List (ASeg F))) :
    collect segs (bs.map (.ok : _ → Sent E F)) = .ok (segs ++ bs.flatten) := by
  induction bs generalizing segs with
  | nil => simp [collect]
  | cons b r ih => simp [collect, ih]

theorem collect_iff {l : List (Sent E F)} : ∀ {segs t : List (ASeg F)}, collect segs l = .ok t →
    ∃ bs, allOk l = some bs ∧ t = segs ++ bs.flatten := by
  induction l with
  | nil =>
    intro segs t h
    cases h
    exact ⟨[], rfl, by simp⟩
  | cons y r ih =>
    intro segs t h
    cases y with
    | error x => cases h
    | ok b =>
      obtain ⟨bs, h1, h2⟩ := ih h
      exact ⟨b :: bs, by simp [allOk, h1], by simp [h2]⟩

theorem collect_error {l : List (Sent E F)} : ∀ {segs : List (ASeg F)} {x}, collect segs l = .error x →
    .error x ∈ l := by
  induction l with
  | nil => intro segs x h; cases h
  | cons y r ih =>
    intro segs x h
    cases y with
    | error z => cases h; exact List.mem_cons_self
    | ok b => exact List.mem_cons_of_mem _ (ih h)

theorem allOk_perm {β : Type} {l m : List (Except (Stop E) β)} (h : l.Perm m) {bs : List β}
    (hb : allOk l = some bs) : ∃ cs, allOk m = some cs ∧ bs.Perm cs := by
  induction h generalizing bs with
  | nil => exact ⟨bs, hb, List.Perm.refl _⟩
  | cons x _ ih =>
    cases x with
    | error z => cases hb
    | ok b =>
      simp only [allOk, Option.map_eq_some_iff] at hb ⊢
      obtain ⟨y, h1, rfl⟩ := hb
      obtain ⟨cs, h2, h3⟩ := ih h1
      exact ⟨b :: cs, ⟨cs, h2, rfl⟩, h3.cons _⟩
  | swap x y l =>
    cases x with
    | error z => cases y <;> cases hb
    | ok b =>
      cases y with
      | error z => cases hb
      | ok d =>
        simp only [allOk, Option.map_map, Option.map_eq_some_iff] at hb ⊢
        obtain ⟨z, h1, rfl⟩ := hb
        exact ⟨b :: d :: z, ⟨z, h1, rfl⟩, List.Perm.swap _ _ _⟩
  | trans _ _ ih1 ih2 =>
    obtain ⟨cs, h1, h2⟩ := ih1 hb
    obtain ⟨ds, h3, h4⟩ := ih2 h1
    exact ⟨ds, h3, h2.trans h4⟩

theorem allOk_panicked {β : Type} {l : List (Except (Stop E) β)} {bs : List β} (h : allOk l = some bs) :
    l.any panicked = false := by
  rw [allOk_some h]
  simp [panicked]

end Ragu.Witness

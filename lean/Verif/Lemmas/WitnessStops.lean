/-
How witness code can stop, and what predictions have to do with it.
-/
import Verif.Lemmas.WitnessPool

set_option linter.unusedSectionVars false

namespace Ragu.Witness
open Ragu Ragu.Circuit Ragu.Spec
variable {E F : Type} [Field F] [DecidableEq F]

/-! ### The evaluator's own panics -/

/-- What running code does to the segments: the current one may change, others may be added. -/
def Inv (s s' : TraceState F) : Prop :=
  s'.cur = s.cur ∧ s.segs.length ≤ s'.segs.length ∧
    (∀ i < s.segs.length, i ≠ s.cur → s'.segs[i]? = s.segs[i]?) ∧ SGood s'

theorem Inv.refl {s : TraceState F} (h : SGood s) : Inv s s := ⟨rfl, le_refl _, fun _ _ _ => rfl, h⟩

theorem Inv.trans {s t u : TraceState F} (h : Inv s t) (h' : Inv t u) : Inv s u := by
  refine ⟨h'.1.trans h.1, h.2.1.trans h'.2.1, fun i hi hc => ?_, h'.2.2.2⟩
  rw [h'.2.2.1 i (lt_of_lt_of_le hi h.2.1) (by rw [h.1]; exact hc), h.2.2.1 i hi hc]

theorem set_inv {s : TraceState F} {pp : List ℕ} {g g' : TSeg F} {p : Option ℕ}
    (hc : s.segs[s.cur]? = some (pp, g)) (hg : Good g' p) :
    Inv s { s with segs := s.segs.set s.cur (pp, g'), availD := p } := by
  have hl := lt_of_get hc
  refine ⟨rfl, by simp, fun i hi hne => ?_, pp, g', by simp [hl], hg⟩
  simp only
  rw [List.getElem?_set_ne (by omega)]

theorem gate_ok {s : TraceState F} (h : SGood s) (a b c d : F) :
    ∃ s', orPanic (E := E) (s.gate a b c d) = .ok s' ∧ Inv s s' := by
  obtain ⟨pp, g, h1, h2⟩ := h
  refine ⟨_, ?_, set_inv h1 (h2.push a b c d)⟩
  simp only [TraceState.gate, TraceState.modify, h1]
  rfl

theorem alloc_ok {s : TraceState F} (h : SGood s) (v : F) :
    ∃ s', orPanic (E := E) (s.alloc v) = .ok s' ∧ Inv s s' := by
  obtain ⟨pp, g, h1, h2⟩ := h
  cases ha : s.availD with
  | some i =>
    have hi : i < g.d.length := by rw [h2.2.2.1]; exact h2.2.2.2 i ha
    refine ⟨_, ?_, set_inv (p := none) h1
      (show Good (TSeg.mk g.a g.b g.c (g.d.set i v)) none from
        ⟨h2.1, h2.2.1, by simp [h2.2.2.1], by simp⟩)⟩
    simp only [TraceState.alloc, ha, TraceState.modify, h1, if_pos hi]
    rfl
  | none =>
    refine ⟨_, ?_, set_inv (g' := g.push 0 v 0 0) (p := some g.a.length) h1 ?_⟩
    · simp only [TraceState.alloc, ha, TraceState.modify, h1]
      rfl
    · have := h2.push 0 v 0 0
      refine ⟨this.1, this.2.1, this.2.2.1, ?_⟩
      intro i hi
      simp only [Option.some.injEq] at hi
      subst hi
      simp [TSeg.push]

theorem enter_ok {s : TraceState F} (h : SGood s) :
    ∃ t, orPanic (E := E) (s.enter { known := false }) = .ok t ∧ SGood t ∧ t.cur = s.segs.length ∧
      t.segs.length = s.segs.length + 1 ∧ ∀ i < s.segs.length, t.segs[i]? = s.segs[i]? := by
  refine ⟨_, rfl, ⟨s.path ++ [s.counter], TSeg.new (s.path ++ [s.counter]), by simp, by
    rw [TSeg.new_child]; exact ⟨rfl, rfl, rfl, by simp⟩⟩, rfl, by simp, fun i hi => ?_⟩
  simp only
  rw [List.getElem?_append_left hi]

theorem leave_ok {s t t' : TraceState F} (h : SGood s) (hc : t.cur = s.segs.length)
    (hl : t.segs.length = s.segs.length + 1) (hp : ∀ i < s.segs.length, t.segs[i]? = s.segs[i]?)
    (hi : Inv t t') :
    ∃ s', orPanic (E := E) (TraceState.leave { known := false } s t') = .ok s' ∧ Inv s s' := by
  have hcur : t'.cur = s.segs.length := hi.1.trans hc
  refine ⟨_, by simp only [TraceState.leave, hcur]; rfl, ?_⟩
  obtain ⟨pp, g, h1, h2⟩ := h
  have hs := lt_of_get h1
  have heq : ∀ i < s.segs.length, t'.segs[i]? = s.segs[i]? := fun i hlt => by
    rw [hi.2.2.1 i (by omega) (by omega), hp i hlt]
  exact ⟨rfl, by have := hi.2.1; simp only; omega, fun i hlt _ => heq i hlt, pp, g,
    by simp only [heq _ hs, h1], h2⟩

theorem new_nonempty (path : List ℕ) : (TraceState.new (F := F) path).segs ≠ [] := by
  simp [TraceState.new]

/-- The evaluator never panics by itself: whatever code and its tasks end with, the code says. -/
theorem full_stops {P : Stop E → Prop} {α : Type} (c : WCode E F α) (hP : Stops P c) :
    ∀ s : TraceState F, SGood s →
    (∀ x, .error x ∈ (full c s).1 → P x) ∧ (∀ x, (full c s).2 = .error x → P x) ∧
      ∀ a s', (full c s).2 = .ok (a, s') → Inv s s' := by
  induction c with
  | ret a =>
    intro s hs
    refine ⟨fun x h => by simp [full] at h, fun x h => by simp [full] at h, fun a' s' h => ?_⟩
    simp only [full, Except.ok.injEq, Prod.mk.injEq] at h
    rw [← h.2]
    exact Inv.refl hs
  | stop y =>
    intro s hs
    refine ⟨fun x h => by simp [full] at h, fun x h => ?_, fun a' s' h => by simp [full] at h⟩
    simp only [full, Except.error.injEq] at h
    exact h ▸ hP
  | gate v k ih =>
    intro s hs
    cases v with
    | error y =>
      refine ⟨fun x h => by simp [full] at h, fun x h => ?_, fun a' s' h => by simp [full] at h⟩
      simp only [full, Except.error.injEq] at h
      exact h ▸ hP.1 y rfl
    | ok w =>
      obtain ⟨s1, e1, i1⟩ := gate_ok (E := E) hs w.1 w.2.1 w.2.2.1 w.2.2.2
      obtain ⟨j1, j2, j3⟩ := ih hP.2 s1 i1.2.2.2
      simp only [full, e1]
      exact ⟨j1, j2, fun a s' h => i1.trans (j3 a s' h)⟩
  | alloc v k ih =>
    intro s hs
    cases v with
    | error y =>
      refine ⟨fun x h => by simp [full] at h, fun x h => ?_, fun a' s' h => by simp [full] at h⟩
      simp only [full, Except.error.injEq] at h
      exact h ▸ hP.1 y rfl
    | ok w =>
      obtain ⟨s1, e1, i1⟩ := alloc_ok (E := E) hs w
      obtain ⟨j1, j2, j3⟩ := ih hP.2 s1 i1.2.2.2
      simp only [full, e1]
      exact ⟨j1, j2, fun a s' h => i1.trans (j3 a s' h)⟩
  | call p ex k _ ihe ihk =>
    intro s hs
    simp only [full]
    cases hp : wireless p with
    | error y =>
      refine ⟨fun x h => by simp at h, fun x h => ?_, fun a' s' h => by simp at h⟩
      simp only [Except.error.injEq] at h
      exact h ▸ hP.1 y hp
    | ok q =>
      obtain ⟨o, a⟩ := q
      obtain ⟨p1, p2⟩ := hP.2 o a hp
      cases o with
      | some v =>
        obtain ⟨i1, i2, i3⟩ := ihe a p1 (TraceState.new (s.path ++ [s.counter])) (SGood.new _)
        obtain ⟨j1, j2, j3⟩ := ihk v (p2 v) { s with counter := s.counter + 1 } hs
        refine ⟨fun x h => ?_, j2, fun a' s' h => j3 a' s' h⟩
        simp only [List.mem_cons, List.mem_append] at h
        rcases h with h | h | h
        · unfold batch at h
          split at h
          · next x' he =>
            have hx : x = x' := by injection h
            subst hx
            exact i2 _ he
          · next o' t he =>
            have := (i3 _ _ he).2.1
            rw [if_neg] at h
            · cases h
            · intro hemp
              rw [List.isEmpty_iff] at hemp
              rw [hemp] at this
              simp [TraceState.new] at this
        · exact i1 x h
        · exact j1 x h
      | none =>
        obtain ⟨t, e1, t1, t2, t3, t4⟩ := enter_ok (E := E) hs
        simp only [e1]
        obtain ⟨i1, i2, i3⟩ := ihe a p1 t t1
        cases hr : (full (ex a) t).2 with
        | error y =>
          refine ⟨i1, fun x h => ?_, fun a' s' h => by simp at h⟩
          simp only [Except.error.injEq] at h
          exact h ▸ i2 y hr
        | ok r =>
          obtain ⟨o, t'⟩ := r
          obtain ⟨s', e2, v2⟩ := leave_ok (E := E) hs t2 t3 t4 (i3 o t' hr)
          simp only [e2]
          obtain ⟨j1, j2, j3⟩ := ihk o (p2 o) s' v2.2.2.2
          refine ⟨fun x h => ?_, j2, fun a' s'' h => v2.trans (j3 a' s'' h)⟩
          rw [List.mem_append] at h
          exact h.elim (i1 x) (j1 x)

/-! ### Predictions -/

theorem wireless_bind {α β : Type} (c : WCode E F α) (f : α → WCode E F β) :
    wireless (c.bind f) = match wireless c with
      | .error x => .error x
      | .ok a => wireless (f a) := by
  induction c with
  | ret a => rfl
  | stop x => rfl
  | gate v k ih => exact ih f
  | alloc v k ih => exact ih f
  | call p ex k _ ihe ihk =>
    simp only [WCode.bind, wireless]
    cases wireless p with
    | error y => rfl
    | ok q =>
      obtain ⟨o, a⟩ := q
      cases o with
      | some v => exact ihk v f
      | none =>
        simp only
        cases wireless (ex a) with
        | error y => rfl
        | ok w => exact ihk w f

/-- Without predictions, code returns what executing everything in place returns. -/
theorem record_withhold {α : Type} (c : WCode E F α) :
    (record (withhold c)).map Prod.fst = inPlace c := by
  induction c with
  | ret a => rfl
  | stop x => rfl
  | gate v k ih =>
    cases v with
    | error y => rfl
    | ok w =>
      simp only [withhold, record, inPlace, ← ih]
      cases record (withhold k) <;> rfl
  | alloc v k ih =>
    cases v with
    | error y => rfl
    | ok w =>
      simp only [withhold, record, inPlace, ← ih]
      cases record (withhold k) <;> rfl
  | call p ex k _ ihe ihk =>
    simp only [withhold, record, inPlace, wireless_bind]
    cases wireless p with
    | error y => rfl
    | ok q =>
      simp only [wireless, ← ihe]
      cases record (withhold (ex q.2)) with
      | error y => rfl
      | ok r =>
        simp only [Except.map, Option.getD_none, ← ihk]
        cases record (withhold (k r.1)) <;> rfl

/-- With right predictions, code makes the same calls as without them. -/
theorem record_faithful {α : Type} (c : WCode E F α) (hf : Faithful c) :
    (record (withhold c)).toOption = (record c).toOption.map fun r => (r.1, r.2.inline) := by
  induction c with
  | ret a => rfl
  | stop x => rfl
  | gate v k ih =>
    cases v with
    | error y => rfl
    | ok w =>
      have := ih hf
      simp only [withhold, record]
      cases h1 : record (withhold k) <;> cases h2 : record k <;>
        rw [h1, h2] at this <;> simp only [Except.toOption, Option.map_some, Option.map_none,
          Option.some.injEq, reduceCtorEq] at this ⊢
      subst this
      rfl
  | alloc v k ih =>
    cases v with
    | error y => rfl
    | ok w =>
      have := ih hf
      simp only [withhold, record]
      cases h1 : record (withhold k) <;> cases h2 : record k <;>
        rw [h1, h2] at this <;> simp only [Except.toOption, Option.map_some, Option.map_none,
          Option.some.injEq, reduceCtorEq] at this ⊢
      subst this
      rfl
  | call p ex k _ ihe ihk =>
    simp only [withhold, record, wireless_bind]
    cases hp : wireless p with
    | error y => rfl
    | ok q =>
      obtain ⟨o, a⟩ := q
      obtain ⟨f1, f2, f3⟩ := hf o a hp
      have h1 := ihe a f1
      have hw := record_withhold (ex a)
      simp only [wireless]
      cases hx : record (withhold (ex a)) with
      | error y =>
        rw [hx] at h1
        cases hy : record (ex a) with
        | error z => rfl
        | ok r => rw [hy] at h1; cases h1
      | ok r =>
        rw [hx] at h1 hw
        cases hy : record (ex a) with
        | error z => rw [hy] at h1; cases h1
        | ok r' =>
          rw [hy] at h1
          simp only [Except.toOption, Option.map_some, Option.some.injEq] at h1
          subst h1
          obtain ⟨v, b⟩ := r'
          simp only [Except.map] at hw
          have hov : o.getD v = v := by
            cases o with
            | none => rfl
            | some w => exact (f2 w v rfl hw.symm).symm
          have h2 := ihk v (f3 v hw.symm)
          simp only [Option.getD_none, hov]
          cases h3 : record (withhold (k v)) <;> cases h4 : record (k v) <;>
            rw [h3, h4] at h2 <;> simp only [Except.toOption, Option.map_some, Option.map_none,
              Option.some.injEq, reduceCtorEq] at h2 ⊢
          subst h2
          simp [Prog.inline]

theorem wireless_faithful {α : Type} (c : WCode E F α) (hf : Faithful c) :
    ∀ a, inPlace c = .ok a → wireless c = .ok a := by
  induction c with
  | ret a => intro b h; exact h
  | stop x => intro b h; cases h
  | gate v k ih =>
    intro b h
    cases v with
    | error y => cases h
    | ok w => exact ih hf b h
  | alloc v k ih =>
    intro b h
    cases v with
    | error y => cases h
    | ok w => exact ih hf b h
  | call p ex k _ ihe ihk =>
    intro b h
    simp only [inPlace] at h
    simp only [wireless]
    cases hp : wireless p with
    | error y => rw [hp] at h; cases h
    | ok q =>
      obtain ⟨o, a⟩ := q
      rw [hp] at h
      simp only at h
      obtain ⟨f1, f2, f3⟩ := hf o a hp
      cases he : inPlace (ex a) with
      | error y => rw [he] at h; cases h
      | ok w =>
        rw [he] at h
        simp only at h
        have := ihk w (f3 w he) b h
        cases o with
        | some v =>
          rw [f2 v w rfl he] at this
          exact this
        | none =>
          simp only [ihe a f1 w he]
          exact this

end Ragu.Witness

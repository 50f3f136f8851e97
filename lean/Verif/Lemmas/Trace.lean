/-
The trace evaluator: every schedule yields the DFS list of segments.
-/
import Verif.Model.Trace
import Verif.Lemmas.Circuit
import Verif.Lemmas.Wiring
import Mathlib.Data.List.Sort

set_option linter.unusedSectionVars false

namespace Ragu.Circuit
open Ragu
variable {F : Type} [Field F] [DecidableEq F]

/-- The values a program records in its own segment, and the spare `d` wire. -/
def own : Prog F → TSeg F → Option ℕ → TSeg F × Option ℕ
  | .done, g, p => (g, p)
  | .gate a b c d k, g, p => own k (g.push a b c d) p
  | .mul a b c k, g, p => own k (g.push a b c 0) p
  | .alloc v k, g, some i => own k ⟨g.a, g.b, g.c, g.d.set i v⟩ none
  | .alloc v k, g, none => own k (g.push 0 v 0 0) (some g.a.length)
  | .add _ k, g, p => own k g p
  | .enforce _ k, g, p => own k g p
  | .routine _ _ k, g, p => own k g p
  | .clone _ k, g, p => own k g p
  | .drop _ k, g, p => own k g p

/-- Number of routine calls made directly by a program. -/
def calls : Prog F → ℕ
  | .done => 0
  | .gate _ _ _ _ k => calls k
  | .mul _ _ _ k => calls k
  | .alloc _ k => calls k
  | .add _ k => calls k
  | .enforce _ k => calls k
  | .routine _ _ k => calls k + 1
  | .clone _ k => calls k
  | .drop _ k => calls k

/-- Segments of all routine calls of a program in DFS order. -/
def dfs : Prog F → List ℕ → ℕ → List (ASeg F)
  | .done, _, _ => []
  | .gate _ _ _ _ k, p, j => dfs k p j
  | .mul _ _ _ k, p, j => dfs k p j
  | .alloc _ k, p, j => dfs k p j
  | .add _ k, p, j => dfs k p j
  | .enforce _ k, p, j => dfs k p j
  | .routine _ b k, p, j =>
    (p ++ [j], (own b ⟨[], [], [], []⟩ none).1) :: (dfs b (p ++ [j]) 0 ++ dfs k p (j + 1))
  | .clone _ k, p, j => dfs k p j
  | .drop _ k, p, j => dfs k p j

def noKnown : Prog F → Prop
  | .done => True
  | .gate _ _ _ _ k => noKnown k
  | .mul _ _ _ k => noKnown k
  | .alloc _ k => noKnown k
  | .add _ k => noKnown k
  | .enforce _ k => noKnown k
  | .routine c b k => c.known = false ∧ noKnown b ∧ noKnown k
  | .clone _ k => noKnown k
  | .drop _ k => noKnown k

/-- The four columns have the same length, and a spare `d` wire exists. -/
def Good (g : TSeg F) (p : Option ℕ) : Prop :=
  g.b.length = g.a.length ∧ g.c.length = g.a.length ∧ g.d.length = g.a.length ∧
    ∀ i, p = some i → i < g.a.length

theorem Good.push {g : TSeg F} {p : Option ℕ} (h : Good g p) (a b c d : F) :
    Good (g.push a b c d) p := by
  obtain ⟨h1, h2, h3, h4⟩ := h
  refine ⟨by simp [TSeg.push, h1], by simp [TSeg.push, h2], by simp [TSeg.push, h3], ?_⟩
  intro i hi
  have := h4 i hi
  simp [TSeg.push]; omega

theorem own_good (prog : Prog F) : ∀ g p, Good g p → Good (own prog g p).1 (own prog g p).2 := by
  induction prog with
  | done => intro g p h; exact h
  | gate a b c d k ih => intro g p h; exact ih _ _ (h.push _ _ _ _)
  | mul a b c k ih => intro g p h; exact ih _ _ (h.push _ _ _ _)
  | alloc v k ih =>
    intro g p h
    cases p with
    | some i =>
      refine ih _ _ ⟨h.1, h.2.1, by simp [h.2.2.1], by simp⟩
    | none =>
      refine ih _ _ ?_
      have := h.push 0 v 0 0
      refine ⟨this.1, this.2.1, this.2.2.1, ?_⟩
      intro i hi
      simp only [Option.some.injEq] at hi
      subst hi
      simp [TSeg.push]
  | add lc k ih | enforce lc k ih | clone w k ih | drop w k ih => intro g p h; exact ih _ _ h
  | routine c b k ihb ihk => intro g p h; exact ihk _ _ h

theorem run_length {prog : Prog F} : ∀ {h h' : List ℕ} {W σ : Type} {D : Driver F W σ}
    {s s' : σ} {e e' : List W}, handles prog h = some h' → h.length = e.length →
    run D prog s e = .ok (s', e') → h'.length = e'.length := by
  induction prog with
  | done =>
    intro h h' W σ D s s' e e' hh hl hr
    simp only [handles, Option.some.injEq] at hh
    simp only [run, Except.ok.injEq, Prod.mk.injEq] at hr
    rw [← hh, ← hr.2, hl]
  | gate va vb vc vd k ih =>
    intro h h' W σ D s s' e e' hh hl hr
    simp only [run] at hr
    cases hg : D.gate va vb vc vd s with
    | error x => rw [hg] at hr; cases hr
    | ok r =>
      rw [hg] at hr
      exact ih hh (by simp [hl]) hr
  | mul va vb vc k ih =>
    intro h h' W σ D s s' e e' hh hl hr
    simp only [run] at hr
    cases hg : D.mul va vb vc s with
    | error x => rw [hg] at hr; cases hr
    | ok r =>
      rw [hg] at hr
      exact ih hh (by simp [hl]) hr
  | alloc v k ih =>
    intro h h' W σ D s s' e e' hh hl hr
    simp only [run] at hr
    cases hg : D.alloc v s with
    | error x => rw [hg] at hr; cases hr
    | ok r =>
      rw [hg] at hr
      exact ih hh (by simp [hl]) hr
  | add lc k ih =>
    intro h h' W σ D s s' e e' hh hl hr
    simp only [run] at hr
    simp only [handles] at hh
    split at hh
    case isFalse => cases hh
    case isTrue =>
      cases hg : resolveLc D.one e lc with
      | error x => rw [hg] at hr; cases hr
      | ok l =>
        rw [hg, bind_ok] at hr
        cases hg2 : D.add l s with
        | error x => rw [hg2] at hr; cases hr
        | ok r =>
          rw [hg2] at hr
          exact ih hh (by simp [hl]) hr
  | enforce lc k ih =>
    intro h h' W σ D s s' e e' hh hl hr
    simp only [run] at hr
    simp only [handles] at hh
    split at hh
    case isFalse => cases hh
    case isTrue =>
      cases hg : resolveLc D.one e lc with
      | error x => rw [hg] at hr; cases hr
      | ok l =>
        rw [hg, bind_ok] at hr
        cases hg2 : D.enforce l s with
        | error x => rw [hg2] at hr; cases hr
        | ok r =>
          rw [hg2] at hr
          exact ih hh hl hr
  | routine call b k ihb ihk =>
    intro h h' W σ D s s' e e' hh hl hr
    simp only [handles, Option.bind_eq_some_iff] at hh
    obtain ⟨h1, hh1, hh2⟩ := hh
    simp only [run] at hr
    cases hg : D.enter call s with
    | error x => rw [hg] at hr; cases hr
    | ok s0 =>
      rw [hg, bind_ok] at hr
      cases hg2 : run D b s0 e with
      | error x => rw [hg2] at hr; cases hr
      | ok r =>
        rw [hg2] at hr
        change (D.leave call s r.1 >>= fun s' => run D k s' r.2) = _ at hr
        cases hg3 : D.leave call s r.1 with
        | error x => rw [hg3] at hr; cases hr
        | ok s2 =>
          rw [hg3] at hr
          exact ihk hh2 (ihb hh1 hl hg2) hr
  | clone w k ih =>
    intro h h' W σ D s s' e e' hh hl hr
    simp only [run] at hr
    simp only [handles] at hh
    split at hh
    case isFalse => cases hh
    case isTrue =>
      cases hg : resolve D.one e (.idx w) with
      | error x => rw [hg] at hr; cases hr
      | ok l =>
        rw [hg, bind_ok] at hr
        cases hg2 : D.clone l s with
        | error x => rw [hg2] at hr; cases hr
        | ok r =>
          rw [hg2] at hr
          exact ih hh (by simpa using hl) hr
  | drop w k ih =>
    intro h h' W σ D s s' e e' hh hl hr
    simp only [run] at hr
    simp only [handles] at hh
    split at hh
    case isFalse => cases hh
    case isTrue =>
      cases hg : resolve D.one e (.idx w) with
      | error x => rw [hg] at hr; cases hr
      | ok l =>
        rw [hg, bind_ok] at hr
        cases hg2 : D.drop l s with
        | error x => rw [hg2] at hr; cases hr
        | ok r =>
          rw [hg2] at hr
          exact ih hh (by simpa using hl) hr

/-- The state after a program. -/
def TraceState.after (s : TraceState F) (prog : Prog F) (pp : List ℕ) (g : TSeg F)
    (inl : List (ASeg F)) (bs : List (List (ASeg F))) : TraceState F where
  segs := s.segs.set s.cur (pp, (own prog g s.availD).1) ++ inl
  sent := s.sent ++ bs
  availD := (own prog g s.availD).2
  cur := s.cur
  counter := s.counter + calls prog
  path := s.path

theorem lt_of_get {α : Type} {l : List α} {i : ℕ} {x : α} (h : l[i]? = some x) : i < l.length := by
  by_contra hc
  rw [List.getElem?_eq_none (by omega)] at h
  cases h

theorem set_get_self {α : Type} {l : List α} {i : ℕ} {x : α} (h : l[i]? = some x) : l.set i x = l := by
  apply List.ext_getElem?
  intro j
  rw [List.getElem?_set]
  split
  · next hij => subst hij; rw [if_pos (lt_of_get h), h]
  · rfl

theorem perm3 {α : Type} (a x b : List α) : (a ++ (x ++ b)).Perm (x ++ (a ++ b)) := by
  rw [← List.append_assoc, ← List.append_assoc]
  exact List.Perm.append_right _ List.perm_append_comm

theorem modify_eq {s : TraceState F} {pp : List ℕ} {g g' : TSeg F} {f : TSeg F → Except Err (TSeg F)}
    (hc : s.segs[s.cur]? = some (pp, g)) (hf : f g = .ok g') :
    s.modify f = .ok { s with segs := s.segs.set s.cur (pp, g') } := by
  simp only [TraceState.modify, hc, hf, bind_ok]

theorem TSeg.new_child (p : List ℕ) (j : ℕ) : TSeg.new (F := F) (p ++ [j]) = ⟨[], [], [], []⟩ := by
  simp [TSeg.new]

theorem trace_run (prog : Prog F) : ∀ (h h' : List ℕ) (s : TraceState F) (e : List Unit)
    (pp : List ℕ) (g : TSeg F), handles prog h = some h' → h.length = e.length →
    s.segs[s.cur]? = some (pp, g) → Good g s.availD →
    ∃ inl bs e', run traceD prog s e = .ok (s.after prog pp g inl bs, e') ∧
      (inl ++ bs.flatten).Perm (dfs prog s.path s.counter) ∧
      (noKnown prog → bs = [] ∧ inl = dfs prog s.path s.counter) := by
  induction prog with
  | done =>
    intro h h' s e pp g _ _ hc _
    refine ⟨[], [], e, ?_, by simp [dfs], fun _ => ⟨rfl, rfl⟩⟩
    simp only [run, TraceState.after, own, calls, List.append_nil, Nat.add_zero]
    rw [set_get_self hc]
  | gate va vb vc vd k ih =>
    intro h h' s e pp g hh hl hc hg
    obtain ⟨inl, bs, e', hr, hp, hn⟩ := ih _ h' { s with segs := s.segs.set s.cur (pp, g.push va vb vc vd) }
      (e ++ [(), (), (), ()]) pp (g.push va vb vc vd) hh (by simp [hl])
      (by simp [List.getElem?_set, lt_of_get hc]) (hg.push _ _ _ _)
    refine ⟨inl, bs, e', ?_, hp, hn⟩
    have h1 : s.gate va vb vc vd = .ok { s with segs := s.segs.set s.cur (pp, g.push va vb vc vd) } :=
      modify_eq hc rfl
    simp only [run, traceD, h1, bind_ok]
    refine hr.trans ?_
    simp [TraceState.after, own, calls]
  | mul va vb vc k ih =>
    intro h h' s e pp g hh hl hc hg
    obtain ⟨inl, bs, e', hr, hp, hn⟩ := ih _ h' { s with segs := s.segs.set s.cur (pp, g.push va vb vc 0) }
      (e ++ [(), (), ()]) pp (g.push va vb vc 0) hh (by simp [hl])
      (by simp [List.getElem?_set, lt_of_get hc]) (hg.push _ _ _ _)
    refine ⟨inl, bs, e', ?_, hp, hn⟩
    have h1 : s.gate va vb vc 0 = .ok { s with segs := s.segs.set s.cur (pp, g.push va vb vc 0) } :=
      modify_eq hc rfl
    simp only [run, traceD, h1, bind_ok]
    refine hr.trans ?_
    simp [TraceState.after, own, calls]
  | alloc v k ih =>
    intro h h' s e pp g hh hl hc hg
    cases hav : s.availD with
    | some i =>
      have hi : i < g.d.length := by rw [hg.2.2.1]; exact hg.2.2.2 i hav
      let g' : TSeg F := ⟨g.a, g.b, g.c, g.d.set i v⟩
      let s' : TraceState F := TraceState.mk (s.segs.set s.cur (pp, g')) s.sent none s.cur s.counter
        s.path
      obtain ⟨inl, bs, e', hr, hp, hn⟩ := ih _ h' s' (e ++ [()]) pp g' hh (by simp [hl])
        (by simp [s', List.getElem?_set, lt_of_get hc])
        ⟨hg.1, hg.2.1, by simp [g', hg.2.2.1], by simp [s']⟩
      refine ⟨inl, bs, e', ?_, hp, hn⟩
      have h1 : s.alloc v = .ok s' := by
        simp only [TraceState.alloc, hav]
        exact modify_eq (s := { s with availD := none }) hc (by simp [hi, g'])
      simp only [run, traceD, h1, bind_ok]
      refine hr.trans ?_
      simp [TraceState.after, own, calls, hav, s', g']
    | none =>
      let g' : TSeg F := g.push 0 v 0 0
      let s' : TraceState F := TraceState.mk (s.segs.set s.cur (pp, g')) s.sent (some g.a.length) s.cur
        s.counter s.path
      have hgp := hg.push 0 v 0 0
      obtain ⟨inl, bs, e', hr, hp, hn⟩ := ih _ h' s' (e ++ [()]) pp g' hh (by simp [hl])
        (by simp [s', List.getElem?_set, lt_of_get hc])
        ⟨hgp.1, hgp.2.1, hgp.2.2.1, by simp [s', g', TSeg.push]⟩
      refine ⟨inl, bs, e', ?_, hp, hn⟩
      have h1 : s.alloc v = .ok s' := by
        simp only [TraceState.alloc, hav, hc]
        rw [modify_eq (g' := g') hc rfl, bind_ok]
      simp only [run, traceD, h1, bind_ok]
      refine hr.trans ?_
      simp [TraceState.after, own, calls, hav, s', g']
  | add lc k ih =>
    intro h h' s e pp g hh hl hc hg
    simp only [handles] at hh
    split at hh
    case isFalse => cases hh
    case isTrue hu =>
      obtain ⟨lc', hlc⟩ := resolveLc_ok () e h lc hl hu
      obtain ⟨inl, bs, e', hr, hp, hn⟩ := ih _ h' s (e ++ [()]) pp g hh (by simp [hl]) hc hg
      refine ⟨inl, bs, e', ?_, hp, hn⟩
      simp only [run, traceD, hlc, bind_ok]
      exact hr
  | enforce lc k ih =>
    intro h h' s e pp g hh hl hc hg
    simp only [handles] at hh
    split at hh
    case isFalse => cases hh
    case isTrue hu =>
      obtain ⟨lc', hlc⟩ := resolveLc_ok () e h lc hl hu
      obtain ⟨inl, bs, e', hr, hp, hn⟩ := ih _ h' s e pp g hh hl hc hg
      refine ⟨inl, bs, e', ?_, hp, hn⟩
      simp only [run, traceD, hlc, bind_ok]
      exact hr
  | clone w k ih =>
    intro h h' s e pp g hh hl hc hg
    simp only [handles] at hh
    split at hh
    case isFalse => cases hh
    case isTrue hu =>
      obtain ⟨w', _, hw⟩ := resolve_set () e w h hl hu
      obtain ⟨inl, bs, e', hr, hp, hn⟩ := ih _ h' s e pp g hh (by simpa using hl) hc hg
      refine ⟨inl, bs, e', ?_, hp, hn⟩
      simp only [run, traceD, hw, bind_ok]
      exact hr
  | drop w k ih =>
    intro h h' s e pp g hh hl hc hg
    simp only [handles] at hh
    split at hh
    case isFalse => cases hh
    case isTrue hu =>
      obtain ⟨w', _, hw⟩ := resolve_set () e w h hl hu
      obtain ⟨inl, bs, e', hr, hp, hn⟩ := ih _ h' s e pp g hh (by simpa using hl) hc hg
      refine ⟨inl, bs, e', ?_, hp, hn⟩
      simp only [run, traceD, hw, bind_ok]
      exact hr
  | routine call b k ihb ihk =>
    intro h h' s e pp g hh hl hc hg
    simp only [handles, Option.bind_eq_some_iff] at hh
    obtain ⟨h1, hh1, hh2⟩ := hh
    have hgood0 : Good (⟨[], [], [], []⟩ : TSeg F) none := ⟨rfl, rfl, rfl, by simp⟩
    cases hk : call.known with
    | true =>
      have hent : traceD.enter call s = .ok (TraceState.new (s.path ++ [s.counter])) := by
        simp [traceD, TraceState.enter, hk]
      obtain ⟨inl1, bs1, e1, hr1, hp1, _⟩ := ihb h h1 (TraceState.new (s.path ++ [s.counter])) e
        (s.path ++ [s.counter]) ⟨[], [], [], []⟩ hh1 hl
        (by simp [TraceState.new, TSeg.new_child]) hgood0
      let t := (TraceState.new (s.path ++ [s.counter])).after b (s.path ++ [s.counter])
        (⟨[], [], [], []⟩ : TSeg F) inl1 bs1
      have hts : t.segs = (s.path ++ [s.counter], (own b ⟨[], [], [], []⟩ none).1) :: inl1 := by
        simp [t, TraceState.after, TraceState.new]
      have htn : t.sent = bs1 := by simp [t, TraceState.after, TraceState.new]
      let s2 : TraceState F := TraceState.mk s.segs (s.sent ++ [t.segs] ++ t.sent) s.availD s.cur
        (s.counter + 1) s.path
      have hlv : traceD.leave call s t = .ok s2 := by
        simp [traceD, TraceState.leave, hk, hts, s2]
      obtain ⟨inl2, bs2, e2, hr2, hp2, _⟩ := ihk h1 h' s2 e1 pp g hh2
        (run_length hh1 hl hr1) hc hg
      refine ⟨inl2, [t.segs] ++ bs1 ++ bs2, e2, ?_, ?_, ?_⟩
      · simp only [run, hent, bind_ok, hr1]
        change (traceD.leave call s t >>= fun s' => run traceD k s' e1) = _
        rw [hlv, bind_ok, hr2]
        simp [TraceState.after, s2, own, calls, htn]
        omega
      · simp only [dfs, List.flatten_append, List.flatten_cons, List.flatten_nil, List.append_nil, hts]
        have hp2' : (inl2 ++ bs2.flatten).Perm (dfs k s.path (s.counter + 1)) := hp2
        have hp1' : (inl1 ++ bs1.flatten).Perm (dfs b (s.path ++ [s.counter]) 0) := hp1
        refine List.Perm.trans ?_ (List.Perm.cons _ (List.Perm.append hp1' hp2'))
        simp only [List.cons_append]
        refine List.Perm.trans List.perm_middle (List.Perm.cons _ ?_)
        simpa using perm3 inl2 (inl1 ++ bs1.flatten) bs2.flatten
      · intro hn; rw [noKnown, hk] at hn; exact absurd hn.1 (by simp)
    | false =>
      let s1 : TraceState F := TraceState.mk
        (s.segs ++ [(s.path ++ [s.counter], (⟨[], [], [], []⟩ : TSeg F))]) s.sent none s.segs.length 0
        (s.path ++ [s.counter])
      have hent : traceD.enter call s = .ok s1 := by
        simp [traceD, TraceState.enter, hk, TSeg.new_child, s1]
      obtain ⟨inl1, bs1, e1, hr1, hp1, hn1⟩ := ihb h h1 s1 e (s.path ++ [s.counter])
        ⟨[], [], [], []⟩ hh1 hl (by simp [s1]) hgood0
      let t := s1.after b (s.path ++ [s.counter]) (⟨[], [], [], []⟩ : TSeg F) inl1 bs1
      have hts : t.segs = s.segs ++ ((s.path ++ [s.counter], (own b ⟨[], [], [], []⟩ none).1) :: inl1) := by
        simp [t, TraceState.after, s1]
      let s2 : TraceState F := TraceState.mk t.segs t.sent s.availD s.cur (s.counter + 1) s.path
      have hlv : traceD.leave call s t = .ok s2 := by
        simp [traceD, TraceState.leave, hk, s2, t, s1, TraceState.after]
      obtain ⟨inl2, bs2, e2, hr2, hp2, hn2⟩ := ihk h1 h' s2 e1 pp g hh2
        (run_length hh1 hl hr1)
        (by simp only [s2, hts]; rw [List.getElem?_append_left (lt_of_get hc)]; exact hc) hg
      refine ⟨((s.path ++ [s.counter], (own b ⟨[], [], [], []⟩ none).1) :: inl1) ++ inl2, bs1 ++ bs2,
        e2, ?_, ?_, ?_⟩
      · simp only [run, hent, bind_ok, hr1]
        change (traceD.leave call s t >>= fun s' => run traceD k s' e1) = _
        rw [hlv, bind_ok, hr2]
        have : t.sent = s.sent ++ bs1 := rfl
        simp only [TraceState.after, s2, own, calls, hts, this]
        rw [List.set_append_left _ _ (lt_of_get hc)]
        simp
        omega
      · simp only [dfs, List.flatten_append, List.cons_append]
        refine List.Perm.cons _ ?_
        have hp2' : (inl2 ++ bs2.flatten).Perm (dfs k s.path (s.counter + 1)) := hp2
        have hp1' : (inl1 ++ bs1.flatten).Perm (dfs b (s.path ++ [s.counter]) 0) := hp1
        refine List.Perm.trans ?_ (List.Perm.append hp1' hp2')
        rw [List.append_assoc, List.append_assoc]
        exact List.Perm.append_left _ (perm3 _ _ _)
      · intro hn
        obtain ⟨_, hnb, hnk⟩ := hn
        obtain ⟨e1, e2⟩ := hn1 hnb
        obtain ⟨e3, e4⟩ := hn2 hnk
        refine ⟨by rw [e1, e3]; rfl, ?_⟩
        rw [e2, e4]
        rfl

/-! ### Paths are strictly increasing in DFS order -/

theorem dfs_path (prog : Prog F) : ∀ p j, ∀ x ∈ dfs prog p j, ∃ i r, j ≤ i ∧ x.1 = p ++ i :: r := by
  induction prog with
  | done => intro p j x hx; simp [dfs] at hx
  | gate va vb vc vd k ih | mul va vb vc k ih | alloc v k ih | add lc k ih | enforce lc k ih
  | clone w k ih | drop w k ih => intro p j x hx; exact ih p j x hx
  | routine call b k ihb ihk =>
    intro p j x hx
    simp only [dfs, List.mem_cons, List.mem_append] at hx
    rcases hx with rfl | hx | hx
    · exact ⟨j, [], le_refl _, rfl⟩
    · obtain ⟨i, r, _, h⟩ := ihb _ _ x hx
      exact ⟨j, i :: r, le_refl _, by simp [h]⟩
    · obtain ⟨i, r, hi, h⟩ := ihk _ _ x hx
      exact ⟨i, r, by omega, h⟩

theorem path_lt_child (p : List ℕ) (i : ℕ) (r : List ℕ) : p < p ++ i :: r := by
  induction p with
  | nil => exact List.nil_lt_cons _ _
  | cons a p ih => exact List.cons_lt_cons_iff.2 (Or.inr ⟨rfl, ih⟩)

theorem path_lt_sib (p : List ℕ) {i j : ℕ} (r r' : List ℕ) (h : i < j) :
    p ++ i :: r < p ++ j :: r' := by
  induction p with
  | nil => exact List.cons_lt_cons_iff.2 (Or.inl h)
  | cons a p ih => exact List.cons_lt_cons_iff.2 (Or.inr ⟨rfl, ih⟩)

theorem dfs_sorted (prog : Prog F) : ∀ p j, (dfs prog p j).Pairwise fun x y => x.1 < y.1 := by
  induction prog with
  | done => intro p j; simp [dfs]
  | gate va vb vc vd k ih | mul va vb vc k ih | alloc v k ih | add lc k ih | enforce lc k ih
  | clone w k ih | drop w k ih => intro p j; exact ih p j
  | routine call b k ihb ihk =>
    intro p j
    simp only [dfs]
    refine List.pairwise_cons.2 ⟨?_, List.pairwise_append.2 ⟨ihb _ _, ihk _ _, ?_⟩⟩
    · intro y hy
      rcases List.mem_append.1 hy with hy | hy
      · obtain ⟨i, r, _, h⟩ := dfs_path _ _ _ y hy
        rw [h]; exact path_lt_child _ _ _
      · obtain ⟨i, r, hi, h⟩ := dfs_path _ _ _ y hy
        rw [h]; exact path_lt_sib _ _ _ (by omega)
    · intro x hx y hy
      obtain ⟨i, r, _, h⟩ := dfs_path _ _ _ x hx
      obtain ⟨i', r', hi', h'⟩ := dfs_path _ _ _ y hy
      rw [h, h', List.append_assoc]
      exact path_lt_sib _ _ _ (by omega)

theorem sorted_unique {l m : List (ASeg F)} (hp : l.Perm m)
    (hl : l.Pairwise fun x y => x.1 ≤ y.1) (hm : m.Pairwise fun x y => x.1 < y.1) : l = m := by
  refine List.Perm.eq_of_pairwise (le := fun x y => x.1 ≤ y.1) ?_ hl (hm.imp fun h => le_of_lt h) hp
  intro a b ha hb h1 h2
  have he : a.1 = b.1 := le_antisymm h1 h2
  have ha' := hp.subset ha
  obtain ⟨i, hi, rfl⟩ := List.mem_iff_getElem.1 ha'
  obtain ⟨j, hj, rfl⟩ := List.mem_iff_getElem.1 hb
  rw [List.pairwise_iff_getElem] at hm
  rcases lt_trichotomy i j with h | h | h
  · exact absurd (hm i j hi hj h) (by rw [he]; exact lt_irrefl _)
  · subst h; rfl
  · exact absurd (hm j i hj hi h) (by rw [he]; exact lt_irrefl _)

/-- The canonical trace of a program: root, then routine calls in DFS order. -/
def canon (prog : Prog F) : List (ASeg F) :=
  ([], (own prog ⟨[0], [0], [0], [0]⟩ none).1) :: dfs prog [] 0

theorem canon_sorted (prog : Prog F) : (canon prog).Pairwise fun x y => x.1 < y.1 := by
  refine List.pairwise_cons.2 ⟨?_, dfs_sorted _ _ _⟩
  intro y hy
  obtain ⟨i, r, _, h⟩ := dfs_path _ _ _ y hy
  rw [h]
  exact path_lt_child [] i r

theorem trace_body {prog : Prog F} {h : List ℕ} (hh : handles prog [] = some h) :
    ∃ s e, run traceD prog (TraceState.new []) [] = .ok (s, e) ∧
      (s.segs ++ s.sent.flatten).Perm (canon prog) ∧
      (noKnown prog → s.sent = [] ∧ s.segs = canon prog) := by
  obtain ⟨inl, bs, e, hr, hp, hn⟩ := trace_run prog [] h (TraceState.new []) [] []
    ⟨[0], [0], [0], [0]⟩ hh rfl (by simp [TraceState.new, TSeg.new])
    ⟨rfl, rfl, rfl, by simp [TraceState.new]⟩
  refine ⟨_, e, hr, ?_, ?_⟩
  · simp only [TraceState.after, TraceState.new, List.nil_append, canon]
    exact List.Perm.cons _ hp
  · intro hk
    obtain ⟨h1, h2⟩ := hn hk
    refine ⟨by simp [TraceState.after, TraceState.new, h1], ?_⟩
    simp [TraceState.after, TraceState.new, canon, h2]

theorem handles_inline (prog : Prog F) : ∀ h, handles prog.inline h = handles prog h := by
  induction prog with
  | done => intro h; rfl
  | gate va vb vc vd k ih | mul va vb vc k ih | alloc v k ih => intro h; exact ih _
  | add lc k ih | enforce lc k ih | clone w k ih | drop w k ih =>
    intro h; simp only [Prog.inline, handles, ih]
  | routine call b k ihb ihk =>
    intro h
    simp only [Prog.inline, handles, ihb]
    congr 1
    funext h'
    exact ihk h'

theorem noKnown_inline (prog : Prog F) : noKnown prog.inline := by
  induction prog with
  | done => trivial
  | gate va vb vc vd k ih | mul va vb vc k ih | alloc v k ih | add lc k ih | enforce lc k ih
  | clone w k ih | drop w k ih => exact ih
  | routine call b k ihb ihk => exact ⟨rfl, ihb, ihk⟩

theorem own_inline (prog : Prog F) : ∀ g p, own prog.inline g p = own prog g p := by
  induction prog with
  | done => intro g p; rfl
  | gate va vb vc vd k ih | mul va vb vc k ih | add lc k ih | enforce lc k ih
  | clone w k ih | drop w k ih => intro g p; exact ih _ _
  | alloc v k ih => intro g p; cases p <;> exact ih _ _
  | routine call b k ihb ihk => intro g p; exact ihk _ _

theorem dfs_inline (prog : Prog F) : ∀ p j, dfs prog.inline p j = dfs prog p j := by
  induction prog with
  | done => intro g p; rfl
  | gate va vb vc vd k ih | mul va vb vc k ih | alloc v k ih | add lc k ih | enforce lc k ih
  | clone w k ih | drop w k ih => intro g p; exact ih _ _
  | routine call b k ihb ihk =>
    intro p j
    simp only [Prog.inline, dfs, own_inline, ihb, ihk]

end Ragu.Circuit

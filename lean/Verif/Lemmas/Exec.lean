/-
The simulator, the wired emulator and the trace agree.
-/
import Verif.Model.Simulator
import Verif.Spec.Exec
import Verif.Lemmas.Assemble

set_option linter.unusedSectionVars false

namespace Ragu.Circuit
open Ragu
variable {F : Type} [Field F] [DecidableEq F]

theorem directSum_foldl (lc : List (LcStep F F)) : ∀ s : DirectSum F,
    (lc.foldl DirectSum.step s).value = s.value + lcVal s.gain.value lc := by
  induction lc with
  | nil => intro s; simp [lcVal]
  | cons st r ih =>
    intro s
    rw [List.foldl_cons, ih]
    cases st with
    | gain c => simp only [DirectSum.step, lcVal, Props.C08_mul]
    | term w c =>
      have hm := Props.C08_mul c s.gain
      simp only [DirectSum.step, lcVal]
      rw [← hm]
      cases hq : Coeff.mul c s.gain <;> simp only [Coeff.value] <;> ring

theorem directSum_eq (lc : List (LcStep F F)) : directSum lc = lcVal 1 lc := by
  rw [directSum, directSum_foldl]
  simp [DirectSum.default, Coeff.value]

theorem resolve_err {W : Type} {one : W} {e : List W} {w : WRef} {x : Err}
    (h : resolve one e w = .error x) : x = .panic := by
  cases w with
  | one => simp [resolve] at h
  | idx i =>
    simp only [resolve] at h
    split at h
    · cases h
    · cases h; rfl

theorem resolveLc_err {W : Type} {one : W} {e : List W} (lc : List (LcStep F WRef)) {x : Err}
    (h : resolveLc one e lc = .error x) : x = .panic := by
  induction lc with
  | nil => simp [resolveLc] at h
  | cons st r ih =>
    cases st with
    | gain c =>
      simp only [resolveLc] at h
      cases q : resolveLc one e r with
      | error y => rw [q] at h; cases h; exact ih q
      | ok l => rw [q, bind_ok] at h; cases h
    | term w c =>
      simp only [resolveLc] at h
      cases p : resolve one e w with
      | error y => rw [p] at h; cases h; exact resolve_err p
      | ok v =>
        rw [p, bind_ok] at h
        cases q : resolveLc one e r with
        | error y => rw [q] at h; cases h; exact ih q
        | ok l => rw [q, bind_ok] at h; cases h

/-- The emulator computes the values. -/
theorem emu_val (prog : Prog F) : ∀ (k : Checks F) (env : List F),
    (∀ k' env', run valD prog k env = .ok (k', env') → run emuD prog () env = .ok ((), env')) ∧
    (∀ x, run valD prog k env = .error x → run emuD prog () env = .error x) := by
  induction prog with
  | done => intro k env; constructor <;> intros <;> simp_all [run]
  | gate va vb vc vd p ih => intro k env; exact ih _ _
  | mul va vb vc p ih => intro k env; exact ih _ _
  | alloc v p ih => intro k env; exact ih _ _
  | add lc p ih =>
    intro k env
    simp only [run]
    have h1 : (emuD (F := F)).one = (valD (F := F)).one := rfl
    rw [h1]
    cases q : resolveLc (valD (F := F)).one env lc with
    | error y => exact ⟨fun _ _ h => (by cases h), fun x h => (by cases h; rfl)⟩
    | ok l =>
      simp only [bind_ok]
      have h2 : emuD.add l () = .ok ((), lcVal 1 l) := by simp [emuD, directSum_eq]
      rw [h2]
      exact ih _ _
  | enforce lc p ih =>
    intro k env
    simp only [run]
    have h1 : (emuD (F := F)).one = (valD (F := F)).one := rfl
    rw [h1]
    cases q : resolveLc (valD (F := F)).one env lc with
    | error y => exact ⟨fun _ _ h => (by cases h), fun x h => (by cases h; rfl)⟩
    | ok l => simp only [bind_ok]; exact ih _ _
  | routine c b p ihb ihp =>
    intro k env
    have e1 : (valD (F := F)).enter c k = .ok k := rfl
    have e2 : (emuD (F := F)).enter c () = .ok () := rfl
    simp only [run, e1, e2, bind_ok]
    cases q : run valD b k env with
    | error y =>
      rw [(ihb k env).2 y q]
      exact ⟨fun _ _ h => (by cases h), fun x h => (by cases h; rfl)⟩
    | ok r =>
      rw [(ihb k env).1 r.1 r.2 q]
      exact ihp _ _
  | clone w p ih | drop w p ih =>
    intro k env
    simp only [run]
    have h1 : (emuD (F := F)).one = (valD (F := F)).one := rfl
    rw [h1]
    cases q : resolve (valD (F := F)).one env (.idx w) with
    | error y => exact ⟨fun _ _ h => (by cases h), fun x h => (by cases h; rfl)⟩
    | ok l => simp only [bind_ok]; exact ih _ _

/-- Checks only grow. -/
theorem val_grow (prog : Prog F) : ∀ (k k' : Checks F) (env env' : List F),
    run valD prog k env = .ok (k', env') →
    ∃ G C, k'.gates = k.gates ++ G ∧ k'.cons = k.cons ++ C := by
  induction prog with
  | done =>
    intro k k' env env' h
    simp only [run, Except.ok.injEq, Prod.mk.injEq] at h
    exact ⟨[], [], by simp [h.1], by simp [h.1]⟩
  | gate va vb vc vd p ih =>
    intro k k' env env' h
    have h' : run valD p { k with gates := k.gates ++ [(va, vb, vc, vd)] }
      (env ++ [va, vb, vc, vd]) = .ok (k', env') := h
    obtain ⟨G, C, h1, h2⟩ := ih _ _ _ _ h'
    exact ⟨(va, vb, vc, vd) :: G, C, by rw [h1]; simp, h2⟩
  | mul va vb vc p ih =>
    intro k k' env env' h
    have h' : run valD p { k with gates := k.gates ++ [(va, vb, vc, 0)] }
      (env ++ [va, vb, vc]) = .ok (k', env') := h
    obtain ⟨G, C, h1, h2⟩ := ih _ _ _ _ h'
    exact ⟨(va, vb, vc, 0) :: G, C, by rw [h1]; simp, h2⟩
  | alloc v p ih => intro k k' env env' h; exact ih _ _ _ _ h
  | add lc p ih =>
    intro k k' env env' h
    simp only [run] at h
    cases q : resolveLc (valD (F := F)).one env lc with
    | error y => rw [q] at h; cases h
    | ok l => rw [q, bind_ok] at h; exact ih _ _ _ _ h
  | enforce lc p ih =>
    intro k k' env env' h
    simp only [run] at h
    cases q : resolveLc (valD (F := F)).one env lc with
    | error y => rw [q] at h; cases h
    | ok l =>
      rw [q, bind_ok] at h
      have h' : run valD p { k with cons := k.cons ++ [lcVal 1 l] } env = .ok (k', env') := h
      obtain ⟨G, C, h1, h2⟩ := ih _ _ _ _ h'
      exact ⟨G, lcVal 1 l :: C, h1, by rw [h2]; simp⟩
  | routine c b p ihb ihp =>
    intro k k' env env' h
    have e1 : (valD (F := F)).enter c k = .ok k := rfl
    simp only [run, e1, bind_ok] at h
    cases q : run valD b k env with
    | error y => rw [q] at h; cases h
    | ok r =>
      rw [q, bind_ok] at h
      obtain ⟨G, C, h1, h2⟩ := ihb _ _ _ _ q
      obtain ⟨G', C', h1', h2'⟩ := ihp _ _ _ _ h
      exact ⟨G ++ G', C ++ C', by rw [h1', h1]; simp, by rw [h2', h2]; simp⟩
  | clone w p ih | drop w p ih =>
    intro k k' env env' h
    simp only [run] at h
    cases q : resolve (valD (F := F)).one env (.idx w) with
    | error y => rw [q] at h; cases h
    | ok l => rw [q, bind_ok] at h; exact ih _ _ _ _ h

def gok (g : F × F × F × F) : Prop := g.1 * g.2.1 = g.2.2.1 ∧ g.2.2.1 * g.2.2.2 = 0

/-- The simulator accepts exactly if every recorded check holds, and then computes
the same wires. -/
theorem sim_val (prog : Prog F) : ∀ (k k' : Checks F) (t : SimCounts) (env env' : List F),
    run valD prog k env = .ok (k', env') → k.Hold →
    (k'.Hold → ∃ t', run simD prog t env = .ok (t', env')) ∧
    (¬ k'.Hold → run simD prog t env = .error .invalidWitness) := by
  induction prog with
  | done =>
    intro k k' t env env' h hk
    simp only [run, Except.ok.injEq, Prod.mk.injEq] at h
    obtain ⟨rfl, rfl⟩ := h
    exact ⟨fun _ => ⟨t, rfl⟩, fun hc => absurd hk hc⟩
  | gate va vb vc vd p ih =>
    intro k k' t env env' h hk
    have h' : run valD p { k with gates := k.gates ++ [(va, vb, vc, vd)] }
      (env ++ [va, vb, vc, vd]) = .ok (k', env') := h
    by_cases h1 : va * vb = vc
    · by_cases h2 : vc * vd = 0
      · have hg : (simD (F := F)).gate va vb vc vd t =
            .ok ({ t with numGates := t.numGates + 1 }, va, vb, vc, vd) := by
          simp only [simD, h1, h2, ne_eq, not_true_eq_false, if_false]
        simp only [run, hg, bind_ok]
        refine ih _ _ _ _ _ h' ⟨?_, hk.2⟩
        intro g hg
        rcases List.mem_append.1 hg with hg | hg
        · exact hk.1 g hg
        · simp only [List.mem_singleton] at hg; subst hg; exact ⟨h1, h2⟩
      · have hg : (simD (F := F)).gate va vb vc vd t = .error .invalidWitness := by
          simp only [simD, h1, h2, ne_eq, not_true_eq_false, if_false, not_false_eq_true, if_true]
        simp only [run, hg]
        refine ⟨fun hH => ?_, fun _ => rfl⟩
        obtain ⟨G, C, e1, e2⟩ := val_grow p _ _ _ _ h'
        exact absurd (hH.1 (va, vb, vc, vd) (by rw [e1]; simp)).2 h2
    · have hg : (simD (F := F)).gate va vb vc vd t = .error .invalidWitness := by
        simp [simD, h1]
      simp only [run, hg]
      refine ⟨fun hH => ?_, fun _ => rfl⟩
      obtain ⟨G, C, e1, e2⟩ := val_grow p _ _ _ _ h'
      exact absurd (hH.1 (va, vb, vc, vd) (by rw [e1]; simp)).1 h1
  | mul va vb vc p ih =>
    intro k k' t env env' h hk
    have h' : run valD p { k with gates := k.gates ++ [(va, vb, vc, 0)] }
      (env ++ [va, vb, vc]) = .ok (k', env') := h
    by_cases h1 : va * vb = vc
    · have hg : (simD (F := F)).mul va vb vc t =
          .ok ({ t with numGates := t.numGates + 1 }, va, vb, vc) := by
        simp [simD, h1]
      simp only [run, hg, bind_ok]
      refine ih _ _ _ _ _ h' ⟨?_, hk.2⟩
      intro g hg
      rcases List.mem_append.1 hg with hg | hg
      · exact hk.1 g hg
      · simp only [List.mem_singleton] at hg; subst hg; exact ⟨h1, by simp⟩
    · have hg : (simD (F := F)).mul va vb vc t = .error .invalidWitness := by
        simp [simD, h1]
      simp only [run, hg]
      refine ⟨fun hH => ?_, fun _ => rfl⟩
      obtain ⟨G, C, e1, e2⟩ := val_grow p _ _ _ _ h'
      exact absurd (hH.1 (va, vb, vc, 0) (by rw [e1]; simp)).1 h1
  | alloc v p ih => intro k k' t env env' h hk; exact ih _ _ _ _ _ h hk
  | add lc p ih =>
    intro k k' t env env' h hk
    simp only [run] at h ⊢
    have h1 : (simD (F := F)).one = (valD (F := F)).one := rfl
    rw [h1]
    cases q : resolveLc (valD (F := F)).one env lc with
    | error y => rw [q] at h; cases h
    | ok l =>
      rw [q, bind_ok] at h
      have h2 : simD.add l t = .ok (t, lcVal 1 l) := by simp [simD, directSum_eq]
      simp only [bind_ok, h2]
      exact ih _ _ _ _ _ h hk
  | enforce lc p ih =>
    intro k k' t env env' h hk
    simp only [run] at h ⊢
    have h1 : (simD (F := F)).one = (valD (F := F)).one := rfl
    rw [h1]
    cases q : resolveLc (valD (F := F)).one env lc with
    | error y => rw [q] at h; cases h
    | ok l =>
      rw [q, bind_ok] at h
      have h' : run valD p { k with cons := k.cons ++ [lcVal 1 l] } env = .ok (k', env') := h
      rw [bind_ok]
      by_cases h3 : lcVal 1 l = 0
      · have h2 : simD.enforce l t = .ok { t with numConstraints := t.numConstraints + 1 } := by
          simp [simD, directSum_eq, h3]
        simp only [bind_ok, h2]
        refine ih _ _ _ _ _ h' ⟨hk.1, ?_⟩
        intro v hv
        rcases List.mem_append.1 hv with hv | hv
        · exact hk.2 v hv
        · simp only [List.mem_singleton] at hv; rw [hv, h3]
      · have h2 : simD.enforce l t = .error .invalidWitness := by
          simp [simD, directSum_eq, h3]
        rw [h2]
        refine ⟨fun hH => ?_, fun _ => rfl⟩
        obtain ⟨G, C, e1, e2⟩ := val_grow p _ _ _ _ h'
        exact absurd (hH.2 (lcVal 1 l) (by rw [e2]; simp)) h3
  | routine c b p ihb ihp =>
    intro k k' t env env' h hk
    have e1 : (valD (F := F)).enter c k = .ok k := rfl
    have e2 : (simD (F := F)).enter c t = .ok t := rfl
    simp only [run, e1, e2, bind_ok] at h ⊢
    cases q : run valD b k env with
    | error y => rw [q] at h; cases h
    | ok r =>
      rw [q, bind_ok] at h
      have h' : run valD p r.1 r.2 = .ok (k', env') := h
      obtain ⟨G, C, e1, e2⟩ := val_grow p _ _ _ _ h'
      obtain ⟨a1, a2⟩ := ihb k r.1 t env r.2 q hk
      by_cases hr : r.1.Hold
      · obtain ⟨t1, ht1⟩ := a1 hr
        have e3 : (simD (F := F)).leave c t t1 = .ok t1 := rfl
        simp only [ht1, bind_ok, e3]
        exact ihp _ _ _ _ _ h' hr
      · rw [a2 hr]
        refine ⟨fun hH => absurd ⟨?_, ?_⟩ hr, fun _ => rfl⟩
        · intro g hg; exact hH.1 g (by rw [e1]; simp [hg])
        · intro v hv; exact hH.2 v (by rw [e2]; simp [hv])
  | clone w p ih | drop w p ih =>
    intro k k' t env env' h hk
    simp only [run] at h ⊢
    have h1 : (simD (F := F)).one = (valD (F := F)).one := rfl
    rw [h1]
    cases q : resolve (valD (F := F)).one env (.idx w) with
    | error y => rw [q] at h; cases h
    | ok l =>
      rw [q, bind_ok] at h
      simp only [bind_ok]
      exact ih _ _ _ _ _ h hk

/-- Execution on values of a well-used program never gets stuck. -/
theorem val_total (prog : Prog F) : ∀ (h h' : List ℕ) (k : Checks F) (env : List F),
    handles prog h = some h' → h.length = env.length →
    ∃ k' env', run valD prog k env = .ok (k', env') := by
  induction prog with
  | done => intro h h' k env _ _; exact ⟨k, env, rfl⟩
  | gate va vb vc vd p ih =>
    intro h h' k env hh hl
    exact ih (h ++ [1, 1, 1, 1]) h' _ _ hh (by simp [hl])
  | mul va vb vc p ih =>
    intro h h' k env hh hl
    exact ih (h ++ [1, 1, 1]) h' _ _ hh (by simp [hl])
  | alloc v p ih =>
    intro h h' k env hh hl
    exact ih (h ++ [1]) h' _ _ hh (by simp [hl])
  | add lc p ih =>
    intro h h' k env hh hl
    simp only [handles] at hh
    split at hh
    case isFalse => cases hh
    case isTrue hu =>
      obtain ⟨l, hq⟩ := resolveLc_ok (valD (F := F)).one env h lc hl hu
      simp only [run, hq, bind_ok]
      exact ih (h ++ [1]) h' _ _ hh (by simp [hl])
  | enforce lc p ih =>
    intro h h' k env hh hl
    simp only [handles] at hh
    split at hh
    case isFalse => cases hh
    case isTrue hu =>
      obtain ⟨l, hq⟩ := resolveLc_ok (valD (F := F)).one env h lc hl hu
      simp only [run, hq, bind_ok]
      exact ih h h' _ _ hh hl
  | routine c b p ihb ihp =>
    intro h h' k env hh hl
    simp only [handles, Option.bind_eq_some_iff] at hh
    obtain ⟨h1, hh1, hh2⟩ := hh
    obtain ⟨k1, env1, hr⟩ := ihb h h1 k env hh1 hl
    have e1 : (valD (F := F)).enter c k = .ok k := rfl
    simp only [run, e1, bind_ok, hr]
    exact ihp h1 h' _ _ hh2 (run_length hh1 hl hr)
  | clone w p ih | drop w p ih =>
    intro h h' k env hh hl
    simp only [handles] at hh
    split at hh
    case isFalse => cases hh
    case isTrue hu =>
      obtain ⟨x, _, hq⟩ := resolve_set (valD (F := F)).one env w h hl hu
      simp only [run, hq, bind_ok]
      exact ih _ h' _ _ hh (by simpa using hl)

/-! ### The trace -/

theorem own_get (prog : Prog F) : ∀ (g : TSeg F) (p : Option ℕ), Good g p → ∀ (k : Kind) (i : ℕ),
    i < g.a.length → (k = .d → p ≠ some i) →
    ((own prog g p).1.col k).getD i 0 = (g.col k).getD i 0 := by
  have hpush : ∀ (g : TSeg F) (p : Option ℕ), Good g p → ∀ (a b c d : F) (k : Kind) (i : ℕ),
      i < g.a.length → ((g.push a b c d).col k).getD i 0 = (g.col k).getD i 0 := by
    intro g p hg a b c d k i hi
    obtain ⟨h1, h2, h3, _⟩ := hg
    cases k <;> simp only [TSeg.push, TSeg.col, List.getD_eq_getElem?_getD] <;>
      rw [List.getElem?_append_left (by omega)]
  induction prog with
  | done => intro g p _ k i _ _; rfl
  | gate a b c d q ih | mul a b c q ih =>
    intro g p hg k i hi hp
    rw [own, ih _ _ (hg.push _ _ _ _) k i (by simp [TSeg.push]; omega) hp, hpush g p hg _ _ _ _ k i hi]
  | alloc v q ih =>
    intro g p hg k i hi hp
    cases p with
    | some j =>
      rw [own, ih ⟨g.a, g.b, g.c, g.d.set j v⟩ none ⟨hg.1, hg.2.1, by simp [hg.2.2.1], by simp⟩ k i hi
        (by simp)]
      cases k
      · rfl
      · rfl
      · rfl
      · have : j ≠ i := fun h => hp rfl (by rw [h])
        simp only [TSeg.col, List.getD_eq_getElem?_getD]
        rw [List.getElem?_set_ne this]
    | none =>
      have hg' : Good (g.push 0 v 0 0) (some g.a.length) := by
        have := hg.push 0 v 0 0
        refine ⟨this.1, this.2.1, this.2.2.1, ?_⟩
        intro j hj
        simp only [Option.some.injEq] at hj
        subst hj
        simp [TSeg.push]
      rw [own, ih _ _ hg' k i (by simp [TSeg.push]; omega)
        (by intro _ h; simp only [Option.some.injEq] at h; omega), hpush g _ hg _ _ _ _ k i hi]
  | add lc q ih | enforce lc q ih | clone w q ih | drop w q ih =>
    intro g p hg k i hi hp; exact ih _ _ hg k i hi hp
  | routine c b q ihb ihq => intro g p hg k i hi hp; exact ihq _ _ hg k i hi hp

theorem own_mono (prog : Prog F) : ∀ (g : TSeg F) (p : Option ℕ),
    g.a.length ≤ (own prog g p).1.a.length := by
  induction prog with
  | done => intro g p; exact le_rfl
  | gate a b c d q ih | mul a b c q ih =>
    intro g p; refine le_trans ?_ (ih _ _); simp [TSeg.push]
  | alloc v q ih =>
    intro g p
    cases p with
    | some j => exact ih ⟨g.a, g.b, g.c, g.d.set j v⟩ none
    | none => refine le_trans ?_ (ih _ _); simp [TSeg.push]
  | add lc q ih | enforce lc q ih | clone w q ih | drop w q ih => intro g p; exact ih _ _
  | routine c b q ihb ihq => intro g p; exact ihq _ _

/-- All gate equations of a segment hold. -/
def SegOk (g : TSeg F) : Prop :=
  ∀ i < g.a.length, gok (g.a.getD i 0, g.b.getD i 0, g.c.getD i 0, g.d.getD i 0)

theorem getD_snoc (l : List F) (v : F) (i : ℕ) :
    (l ++ [v]).getD i 0 = if i < l.length then l.getD i 0 else if i = l.length then v else 0 := by
  simp only [List.getD_eq_getElem?_getD]
  split
  · next h => rw [List.getElem?_append_left h]
  · next h =>
    rw [List.getElem?_append_right (by omega)]
    split
    · next h' => simp [h']
    · next h' => rw [List.getElem?_eq_none (by simp; omega)]; rfl

theorem segOk_push {g : TSeg F} {p : Option ℕ} (hg : Good g p) (a b c d : F) :
    SegOk (g.push a b c d) ↔ SegOk g ∧ gok (a, b, c, d) := by
  obtain ⟨h1, h2, h3, _⟩ := hg
  have hl : (g.push a b c d).a.length = g.a.length + 1 := by simp [TSeg.push]
  have hrow : ∀ i, ((g.push a b c d).a.getD i 0, (g.push a b c d).b.getD i 0,
      (g.push a b c d).c.getD i 0, (g.push a b c d).d.getD i 0) =
      if i < g.a.length then (g.a.getD i 0, g.b.getD i 0, g.c.getD i 0, g.d.getD i 0)
      else if i = g.a.length then (a, b, c, d) else (0, 0, 0, 0) := by
    intro i
    simp only [TSeg.push, getD_snoc, h1, h2, h3]
    split
    · rfl
    · split <;> rfl
  constructor
  · intro h
    refine ⟨fun i hi => ?_, ?_⟩
    · have := h i (by omega)
      rw [hrow, if_pos hi] at this
      exact this
    · have := h g.a.length (by omega)
      rw [hrow, if_neg (by omega), if_pos rfl] at this
      exact this
  · rintro ⟨ha, hb⟩ i hi
    rw [hrow]
    split
    · next h => exact ha i h
    · rw [if_pos (by omega)]; exact hb

/-- Everything the trace records agrees with execution on values. -/
theorem trace_val (φ : Base → F) (h1 : φ ⟨.b, 0, 0⟩ = 1) (prog : Prog F) :
    ∀ (g : TSeg F) (pos : Pos) (lo : ℕ) (k k' : Checks F) (env env' : List F) (log : List (Row F))
      (path : List ℕ) (j : ℕ),
    run valD prog k env = .ok (k', env') → Good g pos.pend → pos.gates = g.a.length →
    lo ≤ g.a.length → (∀ i, pos.pend = some i → lo ≤ i ∧ g.a.getD i 0 = 0 ∧ g.c.getD i 0 = 0) →
    (∀ (q : Kind) (i : ℕ), lo ≤ i → i < (own prog g pos.pend).1.a.length →
      φ ⟨q, pos.seg, i⟩ = ((own prog g pos.pend).1.col q).getD i 0) →
    (∀ (m : ℕ) (x : ASeg F), (dfs prog path j)[m]? = some x → ∀ (q : Kind) (i : ℕ),
      i < x.2.a.length → φ ⟨q, pos.nseg + m, i⟩ = (x.2.col q).getD i 0) →
    ∃ G C log', k'.gates = k.gates ++ G ∧ k'.cons = k.cons ++ C ∧ log'.map Row.val = C ∧
      run (semD φ) prog ⟨pos, log⟩ env = .ok (⟨posRun prog pos, log ++ log'⟩, env') ∧
      ((SegOk (own prog g pos.pend).1 ∧ ∀ x ∈ dfs prog path j, SegOk x.2) ↔
        SegOk g ∧ ∀ x ∈ G, gok x) := by
  induction prog with
  | done =>
    intro g pos lo k k' env env' log path j h _ _ _ _ _ _
    simp only [run, Except.ok.injEq, Prod.mk.injEq] at h
    obtain ⟨rfl, rfl⟩ := h
    exact ⟨[], [], [], by simp, by simp, rfl, by simp [run, posRun], by simp [own, dfs]⟩
  | gate va vb vc vd p ih =>
    intro g pos lo k k' env env' log path j h hg hpos hlo hpend hown hdfs
    have h' : run valD p { k with gates := k.gates ++ [(va, vb, vc, vd)] }
      (env ++ [va, vb, vc, vd]) = .ok (k', env') := h
    have hgood := hg.push va vb vc vd
    have hlen : (g.push va vb vc vd).a.length = g.a.length + 1 := by simp [TSeg.push]
    obtain ⟨G, C, log', e1, e2, e3, e4, e5⟩ := ih (g.push va vb vc vd) pos.gate lo _ k' _ env' log
      path j h' hgood (by simp [Pos.gate, hpos, hlen]) (by omega)
      (by
        intro i hi
        have hlt := hg.2.2.2 i hi
        obtain ⟨q1, q2, q3⟩ := hpend i hi
        have hc : i < g.c.length := by rw [hg.2.1]; exact hlt
        refine ⟨q1, ?_, ?_⟩
        · simp only [TSeg.push, getD_snoc, if_pos hlt]; exact q2
        · simp only [TSeg.push, getD_snoc, if_pos hc]; exact q3)
      hown hdfs
    have hval : ∀ q, φ ⟨q, pos.seg, pos.gates⟩ = ((g.push va vb vc vd).col q).getD g.a.length 0 := by
      intro q
      have hm := own_mono p (g.push va vb vc vd) pos.pend
      rw [hpos, hown q g.a.length hlo (by rw [own]; omega)]
      rw [own]
      exact own_get p _ _ hgood q _ (by omega) (fun _ hc => by have := hg.2.2.2 _ hc; omega)
    have va' : φ ⟨.a, pos.seg, pos.gates⟩ = va := by
      rw [hval]; simp [TSeg.push, TSeg.col, getD_snoc]
    have vb' : φ ⟨.b, pos.seg, pos.gates⟩ = vb := by
      rw [hval]; simp [TSeg.push, TSeg.col, getD_snoc, hg.1]
    have vc' : φ ⟨.c, pos.seg, pos.gates⟩ = vc := by
      rw [hval]; simp [TSeg.push, TSeg.col, getD_snoc, hg.2.1]
    have vd' : φ ⟨.d, pos.seg, pos.gates⟩ = vd := by
      rw [hval]; simp [TSeg.push, TSeg.col, getD_snoc, hg.2.2.1]
    refine ⟨(va, vb, vc, vd) :: G, C, log', by rw [e1]; simp, e2, e3, ?_, ?_⟩
    · have hD : (semD φ).gate va vb vc vd ⟨pos, log⟩ = .ok (⟨pos.gate, log⟩, va, vb, vc, vd) := by
        simp only [semD, va', vb', vc', vd']
      simp only [run, hD, bind_ok, posRun]
      exact e4
    · rw [show own (.gate va vb vc vd p) g pos.pend = own p (g.push va vb vc vd) pos.pend from rfl,
        show dfs (.gate va vb vc vd p) path j = dfs p path j from rfl]
      rw [show pos.gate.pend = pos.pend from rfl] at e5
      rw [e5, segOk_push hg]
      simp only [List.mem_cons, forall_eq_or_imp]
      tauto
  | mul va vb vc p ih =>
    intro g pos lo k k' env env' log path j h hg hpos hlo hpend hown hdfs
    have h' : run valD p { k with gates := k.gates ++ [(va, vb, vc, 0)] }
      (env ++ [va, vb, vc]) = .ok (k', env') := h
    have hgood := hg.push va vb vc 0
    have hlen : (g.push va vb vc 0).a.length = g.a.length + 1 := by simp [TSeg.push]
    obtain ⟨G, C, log', e1, e2, e3, e4, e5⟩ := ih (g.push va vb vc 0) pos.gate lo _ k' _ env' log
      path j h' hgood (by simp [Pos.gate, hpos, hlen]) (by omega)
      (by
        intro i hi
        have hlt := hg.2.2.2 i hi
        obtain ⟨q1, q2, q3⟩ := hpend i hi
        have hc : i < g.c.length := by rw [hg.2.1]; exact hlt
        refine ⟨q1, ?_, ?_⟩
        · simp only [TSeg.push, getD_snoc, if_pos hlt]; exact q2
        · simp only [TSeg.push, getD_snoc, if_pos hc]; exact q3)
      hown hdfs
    have hval : ∀ q, φ ⟨q, pos.seg, pos.gates⟩ = ((g.push va vb vc 0).col q).getD g.a.length 0 := by
      intro q
      have hm := own_mono p (g.push va vb vc 0) pos.pend
      rw [hpos, hown q g.a.length hlo (by rw [own]; omega)]
      rw [own]
      exact own_get p _ _ hgood q _ (by omega) (fun _ hc => by have := hg.2.2.2 _ hc; omega)
    have va' : φ ⟨.a, pos.seg, pos.gates⟩ = va := by
      rw [hval]; simp [TSeg.push, TSeg.col, getD_snoc]
    have vb' : φ ⟨.b, pos.seg, pos.gates⟩ = vb := by
      rw [hval]; simp [TSeg.push, TSeg.col, getD_snoc, hg.1]
    have vc' : φ ⟨.c, pos.seg, pos.gates⟩ = vc := by
      rw [hval]; simp [TSeg.push, TSeg.col, getD_snoc, hg.2.1]
    refine ⟨(va, vb, vc, 0) :: G, C, log', by rw [e1]; simp, e2, e3, ?_, ?_⟩
    · have hD : (semD φ).mul va vb vc ⟨pos, log⟩ = .ok (⟨pos.gate, log⟩, va, vb, vc) := by
        simp only [semD, va', vb', vc']
      simp only [run, hD, bind_ok, posRun]
      exact e4
    · rw [show own (.mul va vb vc p) g pos.pend = own p (g.push va vb vc 0) pos.pend from rfl,
        show dfs (.mul va vb vc p) path j = dfs p path j from rfl]
      rw [show pos.gate.pend = pos.pend from rfl] at e5
      rw [e5, segOk_push hg]
      simp only [List.mem_cons, forall_eq_or_imp]
      tauto
  | alloc v p ih =>
    intro g pos lo k k' env env' log path j h hg hpos hlo hpend hown hdfs
    have h' : run valD p k (env ++ [v]) = .ok (k', env') := h
    cases hq : pos.pend with
    | some i =>
      have hi := hg.2.2.2 i hq
      obtain ⟨q1, q2, q3⟩ := hpend i hq
      have hap : pos.alloc = { pos with pend := none } := by simp [Pos.alloc, hq]
      have hown' : own (.alloc v p) g pos.pend = own p ⟨g.a, g.b, g.c, g.d.set i v⟩ none := by
        rw [hq]; rfl
      have hgood : Good (TSeg.mk g.a g.b g.c (g.d.set i v)) none :=
        ⟨hg.1, hg.2.1, by simp [hg.2.2.1], by simp⟩
      obtain ⟨G, C, log', e1, e2, e3, e4, e5⟩ := ih ⟨g.a, g.b, g.c, g.d.set i v⟩ pos.alloc lo k k' _
        env' log path j h' (by rw [hap]; exact hgood) (by rw [hap]; exact hpos) hlo
        (by rw [hap]; simp) (by rw [hap]; rw [hown'] at hown; exact hown) (by rw [hap]; exact hdfs)
      have hv : φ pos.allocBase = v := by
        have hm := own_mono p ⟨g.a, g.b, g.c, g.d.set i v⟩ none
        simp only [Pos.allocBase, hq]
        rw [hown .d i q1 (by rw [hown']; simp only at hm; omega), hown',
          own_get p _ _ hgood .d i hi (by simp)]
        simp [TSeg.col, List.getD_eq_getElem?_getD, hg.2.2.1, hi]
      refine ⟨G, C, log', e1, e2, e3, ?_, ?_⟩
      · have hD : (semD φ).alloc v ⟨pos, log⟩ = .ok (⟨pos.alloc, log⟩, v) := by
          simp only [semD, hv]
        simp only [run, hD, bind_ok, posRun]
        exact e4
      · rw [← hq, hown', show dfs (.alloc v p) path j = dfs p path j from rfl]
        rw [hap] at e5
        rw [e5]
        have : SegOk (TSeg.mk g.a g.b g.c (g.d.set i v)) ↔ SegOk g := by
          have hrow : ∀ m < g.a.length, gok (g.a.getD m 0, g.b.getD m 0, g.c.getD m 0,
              (g.d.set i v).getD m 0) ↔ gok (g.a.getD m 0, g.b.getD m 0, g.c.getD m 0,
              g.d.getD m 0) := by
            intro m _
            by_cases hm : m = i
            · subst hm
              simp only [gok, q3, zero_mul]
            · have : (g.d.set i v).getD m 0 = g.d.getD m 0 := by
                simp only [List.getD_eq_getElem?_getD]
                rw [List.getElem?_set_ne (fun h => hm h.symm)]
              rw [this]
          exact ⟨fun h m hm => (hrow m hm).1 (h m hm), fun h m hm => (hrow m hm).2 (h m hm)⟩
        rw [this]
    | none =>
      have hap : pos.alloc = { pos with gates := pos.gates + 1, pend := some pos.gates } := by
        simp [Pos.alloc, hq]
      have hown' : own (.alloc v p) g pos.pend = own p (g.push 0 v 0 0) (some g.a.length) := by
        rw [hq]; rfl
      have hlen : (g.push 0 v 0 0).a.length = g.a.length + 1 := by simp [TSeg.push]
      have hgood : Good (g.push 0 v 0 0) (some g.a.length) := by
        have := hg.push 0 v 0 0
        refine ⟨this.1, this.2.1, this.2.2.1, ?_⟩
        intro j hj
        simp only [Option.some.injEq] at hj
        subst hj
        omega
      obtain ⟨G, C, log', e1, e2, e3, e4, e5⟩ := ih (g.push 0 v 0 0) pos.alloc lo k k' _
        env' log path j h' (by rw [hap, hpos]; exact hgood) (by rw [hap]; simp [hpos, hlen]) (by omega)
        (by
          rw [hap]
          intro i hi
          simp only [Option.some.injEq] at hi
          subst hi
          rw [hpos]
          refine ⟨hlo, ?_, ?_⟩
          · simp [TSeg.push, getD_snoc]
          · simp [TSeg.push, getD_snoc, hg.2.1])
        (by rw [hap, hpos]; rw [hown'] at hown; exact hown) (by rw [hap]; exact hdfs)
      have hv : φ pos.allocBase = v := by
        have hm := own_mono p (g.push 0 v 0 0) (some g.a.length)
        simp only [Pos.allocBase, hq]
        rw [hpos, hown .b g.a.length hlo (by rw [hown']; omega), hown',
          own_get p _ _ hgood .b _ (by omega) (by simp)]
        simp [TSeg.push, TSeg.col, getD_snoc, hg.1]
      refine ⟨G, C, log', e1, e2, e3, ?_, ?_⟩
      · have hD : (semD φ).alloc v ⟨pos, log⟩ = .ok (⟨pos.alloc, log⟩, v) := by
          simp only [semD, hv]
        simp only [run, hD, bind_ok, posRun]
        exact e4
      · rw [← hq, hown', show dfs (.alloc v p) path j = dfs p path j from rfl]
        rw [hap, hpos] at e5
        rw [e5, segOk_push hg]
        simp [gok]
  | add lc p ih =>
    intro g pos lo k k' env env' log path j h hg hpos hlo hpend hown hdfs
    simp only [run] at h
    have h1' : (semD φ).one = (valD (F := F)).one := h1
    cases q : resolveLc (valD (F := F)).one env lc with
    | error y => rw [q] at h; cases h
    | ok l =>
      rw [q, bind_ok] at h
      obtain ⟨G, C, log', e1, e2, e3, e4, e5⟩ := ih g pos lo k k' (env ++ [lcVal 1 l]) env' log path j h
        hg hpos hlo hpend hown hdfs
      refine ⟨G, C, log', e1, e2, e3, ?_, e5⟩
      simp only [run, h1', q, bind_ok]
      exact e4
  | enforce lc p ih =>
    intro g pos lo k k' env env' log path j h hg hpos hlo hpend hown hdfs
    simp only [run] at h
    have h1' : (semD φ).one = (valD (F := F)).one := h1
    cases q : resolveLc (valD (F := F)).one env lc with
    | error y => rw [q] at h; cases h
    | ok l =>
      rw [q, bind_ok] at h
      have h' : run valD p { k with cons := k.cons ++ [lcVal 1 l] } env = .ok (k', env') := h
      obtain ⟨G, C, log', e1, e2, e3, e4, e5⟩ := ih g pos.enforce lo _ k' env env'
        (log ++ [⟨pos.seg, pos.cons, lcVal 1 l⟩]) path j h' hg hpos hlo hpend hown hdfs
      refine ⟨G, lcVal 1 l :: C, ⟨pos.seg, pos.cons, lcVal 1 l⟩ :: log', e1, by rw [e2]; simp,
        by simp [e3], ?_, e5⟩
      simp only [run, h1', q, bind_ok, posRun]
      have hD : (semD φ).enforce l ⟨pos, log⟩ =
        .ok ⟨pos.enforce, log ++ [⟨pos.seg, pos.cons, lcVal 1 l⟩]⟩ := rfl
      rw [hD, bind_ok, e4]
      simp
  | routine c b p ihb ihp =>
    intro g pos lo k k' env env' log path j h hg hpos hlo hpend hown hdfs
    have e1 : (valD (F := F)).enter c k = .ok k := rfl
    simp only [run, e1, bind_ok] at h
    cases q : run valD b k env with
    | error y => rw [q] at h; cases h
    | ok r =>
      rw [q, bind_ok] at h
      have h' : run valD p r.1 r.2 = .ok (k', env') := h
      have hd : dfs (.routine c b p) path j = (path ++ [j], (own b ⟨[], [], [], []⟩ none).1) ::
        (dfs b (path ++ [j]) 0 ++ dfs p path (j + 1)) := rfl
      have hlen : (subCounts b).length = (dfs b (path ++ [j]) 0).length := by
        have := congrArg List.length (dfs_lengths b (path ++ [j]) 0)
        simpa using this.symm
      obtain ⟨G, C, log1, b1, b2, b3, b4, b5⟩ := ihb ⟨[], [], [], []⟩ pos.enter 0 k r.1 env r.2 []
        (path ++ [j]) 0 q ⟨rfl, rfl, rfl, by simp [Pos.enter]⟩ rfl (by simp) (by simp [Pos.enter])
        (by
          intro q i _ hi
          have := hdfs 0 _ (by rw [hd]; rfl) q i hi
          simpa [Pos.enter] using this)
        (by
          intro m x hx q i hi
          have hml := lt_of_get hx
          have := hdfs (m + 1) x (by
            rw [hd, List.getElem?_cons_succ, List.getElem?_append_left hml]; exact hx) q i hi
          simpa [Pos.enter, Nat.add_assoc, Nat.add_comm 1 m] using this)
      obtain ⟨G', C', log2, c1, c2, c3, c4, c5⟩ := ihp g (pos.leave (posRun b pos.enter)) lo r.1 k' r.2
        env' (log ++ log1) path (j + 1) h' hg hpos hlo hpend hown
        (by
          intro m x hx q i hi
          have := hdfs (1 + (dfs b (path ++ [j]) 0).length + m) x (by
            rw [hd, show 1 + (dfs b (path ++ [j]) 0).length + m =
              ((dfs b (path ++ [j]) 0).length + m) + 1 by omega, List.getElem?_cons_succ,
              List.getElem?_append_right (by omega), Nat.add_sub_cancel_left]
            exact hx) q i hi
          have hns : (pos.leave (posRun b pos.enter)).nseg + m =
              pos.nseg + (1 + (dfs b (path ++ [j]) 0).length + m) := by
            simp only [Pos.leave, posRun_nseg, Pos.enter]
            omega
          rw [hns]
          exact this)
      refine ⟨G ++ G', C ++ C', log1 ++ log2, by rw [c1, b1]; simp, by rw [c2, b2]; simp,
        by simp [b3, c3], ?_, ?_⟩
      · have hE : (semD φ).enter c ⟨pos, log⟩ = .ok ⟨pos.enter, []⟩ := rfl
        simp only [run, hE, bind_ok, b4]
        have hL : (semD φ).leave c ⟨pos, log⟩ ⟨posRun b pos.enter, [] ++ log1⟩ =
          .ok ⟨pos.leave (posRun b pos.enter), log ++ log1⟩ := rfl
        rw [hL, bind_ok, c4]
        simp [posRun]
      · rw [show own (.routine c b p) g pos.pend = own p g pos.pend from rfl, hd]
        rw [show (pos.leave (posRun b pos.enter)).pend = pos.pend from rfl] at c5
        rw [show pos.enter.pend = none from rfl] at b5
        simp only [List.mem_cons, List.mem_append, forall_eq_or_imp]
        have hnil : SegOk (TSeg.mk (F := F) [] [] [] []) := by intro i hi; simp at hi
        constructor
        · rintro ⟨p1, p2, p3⟩
          obtain ⟨_, d2⟩ := b5.1 ⟨p2, fun x hx => p3 x (Or.inl hx)⟩
          obtain ⟨d3, d4⟩ := c5.1 ⟨p1, fun x hx => p3 x (Or.inr hx)⟩
          exact ⟨d3, fun x hx => hx.elim (d2 x) (d4 x)⟩
        · rintro ⟨p1, p2⟩
          obtain ⟨d1, d2⟩ := b5.2 ⟨hnil, fun x hx => p2 x (Or.inl hx)⟩
          obtain ⟨d3, d4⟩ := c5.2 ⟨p1, fun x hx => p2 x (Or.inr hx)⟩
          exact ⟨d3, d1, fun x hx => hx.elim (d2 x) (d4 x)⟩
  | clone w p ih | drop w p ih =>
    intro g pos lo k k' env env' log path j h hg hpos hlo hpend hown hdfs
    simp only [run] at h
    have h1' : (semD φ).one = (valD (F := F)).one := h1
    cases q : resolve (valD (F := F)).one env (.idx w) with
    | error y => rw [q] at h; cases h
    | ok l =>
      rw [q, bind_ok] at h
      obtain ⟨G, C, log', e1, e2, e3, e4, e5⟩ := ih g pos lo k k' env env' log path j h
        hg hpos hlo hpend hown hdfs
      refine ⟨G, C, log', e1, e2, e3, ?_, e5⟩
      simp only [run, h1', q, bind_ok]
      exact e4

/-! ### The assembled polynomial -/

theorem index_split (segs : List (TSeg F)) : ∀ i, i < (segs.map fun s => s.a.length).sum →
    ∃ (j : ℕ) (s : TSeg F) (loc : ℕ), segs[j]? = some s ∧ loc < s.a.length ∧
      i = ((segs.take j).map fun s => s.a.length).sum + loc := by
  induction segs with
  | nil => intro i hi; simp at hi
  | cons x segs ih =>
    intro i hi
    simp only [List.map_cons, List.sum_cons] at hi
    by_cases h : i < x.a.length
    · exact ⟨0, x, i, rfl, h, by simp⟩
    · obtain ⟨j, s, loc, h1, h2, h3⟩ := ih (i - x.a.length) (by omega)
      refine ⟨j + 1, s, loc, by simpa using h1, h2, ?_⟩
      simp only [List.take_succ_cons, List.map_cons, List.sum_cons]
      omega

theorem root_get (c : Circ F) : (segsOf c)[0]? = some (own c.body ⟨[0], [0], [0], [0]⟩ none).1 := rfl

theorem root_zero (c : Circ F) (k : Kind) :
    ((own c.body ⟨[0], [0], [0], [0]⟩ none).1.col k).getD 0 0 = 0 := by
  rw [own_get c.body _ none ⟨rfl, rfl, rfl, by simp⟩ k 0 (by simp) (by simp)]
  cases k <;> rfl

theorem absGate_eq (c : Circ F) {b : Base} {s : TSeg F} (hs : (segsOf c)[b.seg]? = some s) :
    absGate (floorPlan c.counts) b =
      (((segsOf c).take b.seg).map fun s => s.a.length).sum + b.loc := by
  have hl := segsOf_lengths c
  have hlt : b.seg < c.counts.length := by
    rw [← List.length_map (f := Prod.fst), ← hl, List.length_map]; exact lt_of_get hs
  rw [absGate, floorPlan, floorPlan_getElem, List.getElem?_eq_getElem hlt]
  simp only [Option.map_some, Option.getD_some, Nat.zero_add, totalGates]
  rw [List.map_take, ← hl, ← List.map_take]

theorem absGate_lt (c : Circ F) {b : Base} {s : TSeg F} (hs : (segsOf c)[b.seg]? = some s)
    (hi : b.loc < s.a.length) : absGate (floorPlan c.counts) b < totalGates c.counts := by
  rw [absGate_eq c hs, totalGates, ← segsOf_lengths]
  have hj := lt_of_get hs
  have h1 : (segsOf c)[b.seg] = s := by
    rw [List.getElem?_eq_getElem hj, Option.some.injEq] at hs; exact hs
  calc _ < (((segsOf c).take b.seg).map fun s => s.a.length).sum + s.a.length := by omega
    _ = (((segsOf c).take (b.seg + 1)).map fun s => s.a.length).sum := by
      rw [List.take_succ_eq_append_getElem hj, List.map_append, List.sum_append, h1]
      simp
    _ ≤ ((segsOf c).map fun s => s.a.length).sum := by
      conv_rhs => rw [← List.take_append_drop (b.seg + 1) (segsOf c)]
      rw [List.map_append, List.sum_append]
      omega

theorem gates_iff (c : Circ F) {n : ℕ} (hn : totalGates c.counts ≤ n) {alpha : F}
    {r : Sparse.Poly F} (hr : ∀ i < n, ∀ k, wireOf n r k i = traced c alpha k i) :
    GatesHold n r ↔ ∀ s ∈ segsOf c, SegOk s := by
  have hpos : 0 < n := by
    have := (posRun_mono c.main (Pos.gate {})).1
    simp only [totalGates, Circ.counts, List.map_cons, List.sum_cons, Pos.gate] at this hn
    omega
  have hfl : ∀ k, ((segsOf c).map fun s => s.col k).flatten.length = totalGates c.counts := by
    intro k
    rw [flatten_length (fun s => s.col k) _ (fun s hs => col_length (segsOf_good c s hs) k),
      segsOf_lengths]
    rfl
  have key : ∀ {j : ℕ} {s : TSeg F} {loc : ℕ}, (segsOf c)[j]? = some s → loc < s.a.length →
      (j = 0 → 1 ≤ loc) → ∀ k, wireOf n r k (absGate (floorPlan c.counts) ⟨k, j, loc⟩) =
        (s.col k).getD loc 0 := by
    intro j s loc hs hl h0 k
    exact assignment_eq c hn hr (b := ⟨k, j, loc⟩) hs hl h0
  constructor
  · intro h s hs i hi
    obtain ⟨j, hj⟩ := List.mem_iff_getElem?.1 hs
    by_cases h0 : j = 0 → 1 ≤ i
    · have hk := key hj hi h0
      have := h _ (lt_of_lt_of_le (absGate_lt c (b := ⟨.a, j, i⟩) hj hi) hn)
      have e : ∀ k, absGate (floorPlan c.counts) ⟨k, j, i⟩ = absGate (floorPlan c.counts) ⟨.a, j, i⟩ :=
        fun k => rfl
      rw [← e .b] at this
      have ha := hk .a; have hb := hk .b; have hc := hk .c; have hd := hk .d
      rw [e] at hb hc hd
      rw [e .b, ha, hb, hc, hd] at this
      exact this
    · have hj0 : j = 0 := by by_contra hc; exact h0 (fun h => absurd h hc)
      have hi0 : i = 0 := by
        by_contra hc; exact h0 (fun _ => by omega)
      subst hj0; subst hi0
      rw [root_get, Option.some.injEq] at hj
      subst hj
      have ha := root_zero c .a; have hb := root_zero c .b
      have hc := root_zero c .c; have hd := root_zero c .d
      simp only [TSeg.col] at ha hb hc hd
      simp only [gok, ha, hb, hc, hd, mul_zero, and_self]
  · intro h i hi
    by_cases h0 : i = 0
    · subst h0
      simp only [hr 0 hpos]
      have hz : ∀ k, ((segsOf c).map fun s => s.col k).flatten.getD 0 0 = 0 := by
        intro k
        have hl : 0 < ((own c.body ⟨[0], [0], [0], [0]⟩ none).1.col k).length := by
          rw [col_length (segsOf_good c _ (List.mem_of_getElem? (root_get c)))]
          exact lt_of_lt_of_le (by simp) (own_mono c.body _ none)
        have := flatten_get (fun s : TSeg F => s.col k) (segsOf c) 0 _ 0 (root_get c) hl
        simp only [List.take_zero, List.map_nil, List.sum_nil, Nat.add_zero] at this
        rw [this, root_zero]
      have ha : traced c alpha .a 0 = 0 := hz .a
      have hc : traced c alpha .c 0 = 0 := hz .c
      simp [ha, hc]
    · by_cases ht : i < totalGates c.counts
      · obtain ⟨j, s, loc, hs, hl, he⟩ := index_split (segsOf c) i (by rw [segsOf_lengths]; exact ht)
        have h00 : j = 0 → 1 ≤ loc := by
          intro hj
          subst hj
          simp only [List.take_zero, List.map_nil, List.sum_nil, Nat.zero_add] at he
          omega
        have hk := key hs hl h00
        have hab : ∀ k, absGate (floorPlan c.counts) ⟨k, j, loc⟩ = i := by
          intro k; rw [absGate_eq c (b := ⟨k, j, loc⟩) hs]; exact he.symm
        simp only [hab] at hk
        rw [hk, hk, hk, hk]
        exact h s (List.mem_of_getElem? hs) loc hl
      · have hz : ∀ k, ((segsOf c).map fun s => s.col k).flatten.getD i 0 = 0 := by
          intro k
          rw [List.getD_eq_getElem?_getD, List.getElem?_eq_none (by rw [hfl]; omega)]
          rfl
        have ha : traced c alpha .a i = 0 := hz .a
        have hc : traced c alpha .c i = 0 := hz .c
        simp [hr i hi, ha, hc]

/-- Execution of the body under the assignment the assembled polynomial encodes. -/
theorem assembled_run {c : Circ F} {n : ℕ} (hn : totalGates c.counts ≤ n) {alpha : F}
    {r : Sparse.Poly F} (hr : ∀ i < n, ∀ k, wireOf n r k i = traced c alpha k i) {k : Checks F}
    {env : List F} (hk : run valD c.body {} [] = .ok (k, env)) :
    ∃ s, run (semD (assignment n (floorPlan c.counts) r)) c.body { pos := Pos.gate {} } [] =
        .ok (s, env) ∧ s.log.map Row.val = k.cons ∧ (GatesHold n r ↔ ∀ g ∈ k.gates, gok g) := by
  set φ := assignment n (floorPlan c.counts) r with hφ
  have h1 := assignment_one c hn hr
  have hown : ∀ (q : Kind) (i : ℕ), 1 ≤ i →
      i < (own c.body ⟨[0], [0], [0], [0]⟩ none).1.a.length →
      φ ⟨q, 0, i⟩ = ((own c.body ⟨[0], [0], [0], [0]⟩ none).1.col q).getD i 0 := by
    intro q i h1 h2
    exact assignment_eq c hn hr (b := ⟨q, 0, i⟩) (root_get c) h2 (fun _ => h1)
  have hdfs : ∀ (m : ℕ) (x : ASeg F), (dfs c.body [] 0)[m]? = some x → ∀ (q : Kind) (i : ℕ),
      i < x.2.a.length → φ ⟨q, 1 + m, i⟩ = (x.2.col q).getD i 0 := by
    intro m x hx q i hi
    refine assignment_eq c hn hr (b := ⟨q, 1 + m, i⟩) (s := x.2) ?_ hi (fun h => by simp at h)
    show (segsOf c)[1 + m]? = _
    rw [Nat.add_comm, segsOf, canon, List.map_cons, List.getElem?_cons_succ, List.getElem?_map, hx]
    rfl
  obtain ⟨G, C, log, e1, e2, e3, e4, e5⟩ := trace_val φ h1 c.body ⟨[0], [0], [0], [0]⟩ (Pos.gate {}) 1
    {} k [] env [] [] 0 hk ⟨rfl, rfl, rfl, by simp [Pos.gate]⟩ rfl (by simp) (by simp [Pos.gate])
    hown hdfs
  refine ⟨_, e4, by simp [e3, e2], ?_⟩
  rw [gates_iff c hn hr]
  have hinit : SegOk (TSeg.mk (F := F) [0] [0] [0] [0]) := by
    intro i hi
    simp only [List.length_cons, List.length_nil] at hi
    have : i = 0 := by omega
    subst this
    simp [gok]
  have e5' : (SegOk (own c.body ⟨[0], [0], [0], [0]⟩ none).1 ∧ ∀ x ∈ dfs c.body [] 0, SegOk x.2) ↔
      SegOk (TSeg.mk (F := F) [0] [0] [0] [0]) ∧ ∀ x ∈ G, gok x := e5
  have hG : k.gates = G := by simpa using e1
  rw [hG]
  constructor
  · intro h
    refine (e5'.1 ⟨h _ (List.mem_of_getElem? (root_get c)), fun x hx => h x.2 ?_⟩).2
    simp only [segsOf, canon, List.map_cons, List.mem_cons, List.mem_map]
    exact Or.inr ⟨x, hx, rfl⟩
  · intro h s hs
    obtain ⟨a, b⟩ := e5'.2 ⟨hinit, h⟩
    simp only [segsOf, canon, List.map_cons, List.mem_cons, List.mem_map] at hs
    rcases hs with rfl | ⟨x, hx, rfl⟩
    · exact a
    · exact b x hx

end Ragu.Circuit

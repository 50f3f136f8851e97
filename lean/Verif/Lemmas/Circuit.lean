/-
Generic simulation: a driver whose primitives agree with the meaning function
agrees with it on every program.
-/
import Verif.Model.Metrics
import Mathlib.Tactic.Ring
import Mathlib.Tactic.LinearCombination
import Mathlib.Algebra.BigOperators.Group.List.Basic

set_option linter.unusedSectionVars false
set_option linter.unusedVariables false

namespace Ragu.Circuit

section
variable {F W σ : Type}

theorem bind_ok {α β : Type} (x : α) (f : α → Except Err β) :
    (Except.ok x >>= f) = f x := rfl

theorem resolve_ok (one : W) (env : List W) (h : List ℕ) (w : WRef)
    (hl : h.length = env.length) (hu : usable h w = true) :
    ∃ v, resolve one env w = .ok v := by
  cases w with
  | one => exact ⟨one, rfl⟩
  | idx i =>
    simp only [usable, decide_eq_true_eq] at hu
    have hi : i < env.length := by
      by_contra hc
      rw [← hl] at hc
      rw [List.getD_eq_getElem?_getD, List.getElem?_eq_none (by omega)] at hu
      exact absurd hu (lt_irrefl 0)
    refine ⟨env[i], ?_⟩
    simp [resolve, List.getElem?_eq_getElem hi]

theorem resolveLc_ok (one : W) (env : List W) (h : List ℕ) (lc : List (LcStep F WRef))
    (hl : h.length = env.length) (hu : usableLc h lc = true) :
    ∃ v, resolveLc one env lc = .ok v := by
  induction lc with
  | nil => exact ⟨[], rfl⟩
  | cons st r ih =>
    simp only [usableLc, List.all_cons, Bool.and_eq_true] at hu
    obtain ⟨r', hr⟩ := ih hu.2
    cases st with
    | gain c => exact ⟨.gain c :: r', by simp [resolveLc, hr, bind_ok]⟩
    | term w c =>
      obtain ⟨w', hw⟩ := resolve_ok one env h w hl hu.1
      exact ⟨.term w' c :: r', by simp [resolveLc, hr, hw, bind_ok]⟩

/-- Pointwise relation between two resolved linear combinations. -/
inductive LcRel {W₁ W₂ : Type} (V : W₁ → W₂ → Prop) :
    List (LcStep F W₁) → List (LcStep F W₂) → Prop
  | nil : LcRel V [] []
  | gain {c l₁ l₂} : LcRel V l₁ l₂ → LcRel V (.gain c :: l₁) (.gain c :: l₂)
  | term {w₁ w₂ c l₁ l₂} : V w₁ w₂ → LcRel V l₁ l₂ →
      LcRel V (.term w₁ c :: l₁) (.term w₂ c :: l₂)

theorem resolve_rel {W₁ W₂ : Type} (V : W₁ → W₂ → Prop) (h : List ℕ)
    (one₁ : W₁) (one₂ : W₂) (e₁ : List W₁) (e₂ : List W₂) (h1 : V one₁ one₂)
    (henv : ∀ i a b, 0 < h.getD i 0 → e₁[i]? = some a → e₂[i]? = some b → V a b)
    (w : WRef) (hu : usable h w = true) {v₁ v₂} (r₁ : resolve one₁ e₁ w = .ok v₁)
    (r₂ : resolve one₂ e₂ w = .ok v₂) : V v₁ v₂ := by
  cases w with
  | one =>
    simp only [resolve, Except.ok.injEq] at r₁ r₂
    subst r₁; subst r₂; exact h1
  | idx i =>
    simp only [usable, decide_eq_true_eq] at hu
    simp only [resolve] at r₁ r₂
    cases ha : e₁[i]? with
    | none => simp [ha] at r₁
    | some a =>
      cases hb : e₂[i]? with
      | none => simp [hb] at r₂
      | some b =>
        simp only [ha, hb, Except.ok.injEq] at r₁ r₂
        subst r₁; subst r₂
        exact henv i _ _ hu ha hb

theorem resolveLc_rel {W₁ W₂ : Type} (V : W₁ → W₂ → Prop) (h : List ℕ)
    (one₁ : W₁) (one₂ : W₂) (e₁ : List W₁) (e₂ : List W₂) (h1 : V one₁ one₂)
    (henv : ∀ i a b, 0 < h.getD i 0 → e₁[i]? = some a → e₂[i]? = some b → V a b)
    (lc : List (LcStep F WRef)) (hu : usableLc h lc = true) :
    ∀ {l₁ l₂}, resolveLc one₁ e₁ lc = .ok l₁ → resolveLc one₂ e₂ lc = .ok l₂ →
      LcRel V l₁ l₂ := by
  induction lc with
  | nil =>
    intro l₁ l₂ r₁ r₂
    simp only [resolveLc, Except.ok.injEq] at r₁ r₂
    subst r₁; subst r₂; exact .nil
  | cons st r ih =>
    intro l₁ l₂ r₁ r₂
    simp only [usableLc, List.all_cons, Bool.and_eq_true] at hu
    cases st with
    | gain c =>
      simp only [resolveLc] at r₁ r₂
      cases q₁ : resolveLc one₁ e₁ r with
      | error e => simp [q₁, bind, Except.bind] at r₁
      | ok m₁ =>
        cases q₂ : resolveLc one₂ e₂ r with
        | error e => simp [q₂, bind, Except.bind] at r₂
        | ok m₂ =>
          simp only [q₁, q₂, bind_ok, Except.ok.injEq] at r₁ r₂
          subst r₁; subst r₂
          exact .gain (ih hu.2 q₁ q₂)
    | term w c =>
      simp only [resolveLc] at r₁ r₂
      cases p₁ : resolve one₁ e₁ w with
      | error e => simp [p₁, bind, Except.bind] at r₁
      | ok v₁ =>
      cases p₂ : resolve one₂ e₂ w with
      | error e => simp [p₂, bind, Except.bind] at r₂
      | ok v₂ =>
      cases q₁ : resolveLc one₁ e₁ r with
      | error e => simp [p₁, q₁, bind, Except.bind] at r₁
      | ok m₁ =>
      cases q₂ : resolveLc one₂ e₂ r with
      | error e => simp [p₂, q₂, bind, Except.bind] at r₂
      | ok m₂ =>
        simp only [p₁, p₂, q₁, q₂, bind_ok, Except.ok.injEq] at r₁ r₂
        subst r₁; subst r₂
        exact .term (resolve_rel V h one₁ one₂ e₁ e₂ h1 henv w hu.1 p₁ p₂) (ih hu.2 q₁ q₂)

end

/-! ### Room in the floor plan -/

def GateRoom (fp : List Seg) (n : ℕ) (p : Pos) : Prop :=
  ∃ sg, fp[p.seg]? = some sg ∧ p.gates < sg.numGates ∧ sg.gateStart + p.gates < n

def ConsRoom (fp : List Seg) (N : ℕ) (p : Pos) : Prop :=
  ∃ sg, fp[p.seg]? = some sg ∧ p.cons < sg.numCons ∧ sg.consStart + p.cons < N

/-- Every step of the program has room in the floor plan. -/
def Fits {F : Type} (fp : List Seg) (n N : ℕ) : Prog F → Pos → Prop
  | .done, _ => True
  | .gate _ _ _ _ k, p => GateRoom fp n p ∧ Fits fp n N k p.gate
  | .mul _ _ _ k, p => GateRoom fp n p ∧ Fits fp n N k p.gate
  | .alloc _ k, p => (p.pend = none → GateRoom fp n p) ∧ Fits fp n N k p.alloc
  | .add _ k, p => Fits fp n N k p
  | .enforce _ k, p => ConsRoom fp N p ∧ Fits fp n N k p.enforce
  | .routine _ b k, p =>
    (∃ sg, fp[p.nseg]? = some sg ∧ (posRun b p.enter).gates = sg.numGates ∧
      (posRun b p.enter).cons = sg.numCons) ∧
    Fits fp n N b p.enter ∧ Fits fp n N k (p.leave (posRun b p.enter))
  | .clone _ k, p => Fits fp n N k p
  | .drop _ k, p => Fits fp n N k p

section Sim
variable {F W σ C : Type} [Field F]

/-- The driver `D` implements the meaning of every primitive, through the
relation `R` (indexed by a ghost context). -/
structure Sim (D : Driver F W σ) (φ : Base → F) (fp : List Seg) (n N : ℕ)
    (R : C → Sem F → List F → List ℕ → σ → List W → Prop) : Prop where
  len : ∀ {c s es h t e}, R c s es h t e → h.length = es.length ∧ h.length = e.length
  gate : ∀ {c s es h t e} (va vb vc vd : F), R c s es h t e → GateRoom fp n s.pos →
    ∃ t' wa wb wc wd, D.gate va vb vc vd t = .ok (t', wa, wb, wc, wd) ∧
      R c { s with pos := s.pos.gate } (es ++ [φ ⟨.a, s.pos.seg, s.pos.gates⟩,
        φ ⟨.b, s.pos.seg, s.pos.gates⟩, φ ⟨.c, s.pos.seg, s.pos.gates⟩,
        φ ⟨.d, s.pos.seg, s.pos.gates⟩]) (h ++ [1, 1, 1, 1]) t' (e ++ [wa, wb, wc, wd])
  mul : ∀ {c s es h t e} (va vb vc : F), R c s es h t e → GateRoom fp n s.pos →
    ∃ t' wa wb wc, D.mul va vb vc t = .ok (t', wa, wb, wc) ∧
      R c { s with pos := s.pos.gate } (es ++ [φ ⟨.a, s.pos.seg, s.pos.gates⟩,
        φ ⟨.b, s.pos.seg, s.pos.gates⟩, φ ⟨.c, s.pos.seg, s.pos.gates⟩])
        (h ++ [1, 1, 1]) t' (e ++ [wa, wb, wc])
  alloc : ∀ {c s es h t e} (v : F), R c s es h t e → (s.pos.pend = none → GateRoom fp n s.pos) →
    ∃ t' w, D.alloc v t = .ok (t', w) ∧
      R c { s with pos := s.pos.alloc } (es ++ [φ s.pos.allocBase]) (h ++ [1]) t' (e ++ [w])
  add : ∀ {c s es h t e} (lc : List (LcStep F WRef)) {lcS lcE}, R c s es h t e →
    usableLc h lc = true → resolveLc (φ ⟨.b, 0, 0⟩) es lc = .ok lcS →
    resolveLc D.one e lc = .ok lcE →
    ∃ t' w, D.add lcE t = .ok (t', w) ∧ R c s (es ++ [lcVal 1 lcS]) (h ++ [1]) t' (e ++ [w])
  enforce : ∀ {c s es h t e} (lc : List (LcStep F WRef)) {lcS lcE}, R c s es h t e →
    usableLc h lc = true → resolveLc (φ ⟨.b, 0, 0⟩) es lc = .ok lcS →
    resolveLc D.one e lc = .ok lcE → ConsRoom fp N s.pos →
    ∃ t', D.enforce lcE t = .ok t' ∧
      R c { pos := s.pos.enforce, log := s.log ++ [⟨s.pos.seg, s.pos.cons, lcVal 1 lcS⟩] }
        es h t' e
  routine : ∀ {c s es h t e sg} (call : Call), R c s es h t e → fp[s.pos.nseg]? = some sg →
    ∃ c' t0, D.enter call t = .ok t0 ∧ R c' { pos := s.pos.enter, log := [] } es h t0 e ∧
      ∀ s1 es' h' t1 e', R c' s1 es' h' t1 e' → s1.pos.seg = s.pos.nseg →
        s.pos.nseg < s1.pos.nseg →
        s1.pos.gates = sg.numGates → s1.pos.cons = sg.numCons →
        ∃ t', D.leave call t t1 = .ok t' ∧
          R c { pos := s.pos.leave s1.pos, log := s.log ++ s1.log } es' h' t' e'
  clone : ∀ {c s es h t e} (i : ℕ) {w}, R c s es h t e → 0 < h.getD i 0 → e[i]? = some w →
    ∃ t', D.clone w t = .ok t' ∧ R c s es (h.set i (h.getD i 0 + 1)) t' e
  drop : ∀ {c s es h t e} (i : ℕ) {w}, R c s es h t e → 0 < h.getD i 0 → e[i]? = some w →
    ∃ t', D.drop w t = .ok t' ∧ R c s es (h.set i (h.getD i 0 - 1)) t' e

theorem posRun_seg (prog : Prog F) : ∀ p, (posRun prog p).seg = p.seg := by
  induction prog with
  | done => intro p; rfl
  | gate _ _ _ _ k ih | mul _ _ _ k ih => intro p; simp [posRun, ih, Pos.gate]
  | alloc v k ih => intro p; simp only [posRun, ih, Pos.alloc]; split <;> rfl
  | add _ k ih | clone _ k ih | drop _ k ih => intro p; simp [posRun, ih]
  | enforce _ k ih => intro p; simp [posRun, ih, Pos.enforce]
  | routine c b k ihb ihk => intro p; simp [posRun, ihk, Pos.leave]

theorem posRun_nseg (prog : Prog F) :
    ∀ p, (posRun prog p).nseg = p.nseg + (subCounts prog).length := by
  induction prog with
  | done => intro p; rfl
  | gate _ _ _ _ k ih | mul _ _ _ k ih => intro p; simp [posRun, subCounts, ih, Pos.gate]
  | alloc v k ih => intro p; simp only [posRun, subCounts, ih, Pos.alloc]; split <;> rfl
  | add _ k ih | clone _ k ih | drop _ k ih => intro p; simp [posRun, subCounts, ih]
  | enforce _ k ih => intro p; simp [posRun, subCounts, ih, Pos.enforce]
  | routine c b k ihb ihk =>
    intro p
    simp [posRun, subCounts, ihk, ihb, Pos.leave, Pos.enter]
    omega

theorem resolve_set (one : W) (env : List W) (i : ℕ) (h : List ℕ)
    (hl : h.length = env.length) (hu : 0 < h.getD i 0) :
    ∃ w, env[i]? = some w ∧ resolve one env (.idx i) = .ok w := by
  have hi : i < env.length := by
    by_contra hc
    rw [← hl] at hc
    rw [List.getD_eq_getElem?_getD, List.getElem?_eq_none (by omega)] at hu
    exact absurd hu (lt_irrefl 0)
  exact ⟨env[i], List.getElem?_eq_getElem hi, by simp [resolve, List.getElem?_eq_getElem hi]⟩

/-- The simulation theorem. -/
theorem sim_run {D : Driver F W σ} {φ : Base → F} {fp : List Seg} {n N : ℕ}
    {R : C → Sem F → List F → List ℕ → σ → List W → Prop} (H : Sim D φ fp n N R)
    (prog : Prog F) : ∀ (c : C) s es h t e h', R c s es h t e → handles prog h = some h' →
      Fits fp n N prog s.pos →
      ∃ s' es' t' e', run (semD φ) prog s es = .ok (s', es') ∧ run D prog t e = .ok (t', e') ∧
        R c s' es' h' t' e' ∧ s'.pos = posRun prog s.pos := by
  induction prog with
  | done =>
    intro c s es h t e h' hR hh _
    simp only [handles, Option.some.injEq] at hh
    subst hh
    exact ⟨s, es, t, e, rfl, rfl, hR, rfl⟩
  | gate va vb vc vd k ih =>
    intro c s es h t e h' hR hh hf
    obtain ⟨t', wa, wb, wc, wd, hg, hR'⟩ := H.gate va vb vc vd hR hf.1
    obtain ⟨s', es', t'', e', r1, r2, hR'', hp⟩ := ih c _ _ _ _ _ h' hR' hh hf.2
    exact ⟨s', es', t'', e', by simpa [run, semD, bind_ok] using r1,
      by simpa [run, hg, bind_ok] using r2, hR'', hp⟩
  | mul va vb vc k ih =>
    intro c s es h t e h' hR hh hf
    obtain ⟨t', wa, wb, wc, hg, hR'⟩ := H.mul va vb vc hR hf.1
    obtain ⟨s', es', t'', e', r1, r2, hR'', hp⟩ := ih c _ _ _ _ _ h' hR' hh hf.2
    exact ⟨s', es', t'', e', by simpa [run, semD, bind_ok] using r1,
      by simpa [run, hg, bind_ok] using r2, hR'', hp⟩
  | alloc v k ih =>
    intro c s es h t e h' hR hh hf
    obtain ⟨t', w, hg, hR'⟩ := H.alloc v hR hf.1
    obtain ⟨s', es', t'', e', r1, r2, hR'', hp⟩ := ih c _ _ _ _ _ h' hR' hh hf.2
    exact ⟨s', es', t'', e', by simpa [run, semD, bind_ok] using r1,
      by simpa [run, hg, bind_ok] using r2, hR'', hp⟩
  | add lc k ih =>
    intro c s es h t e h' hR hh hf
    simp only [handles] at hh
    split at hh
    case isFalse => exact absurd hh (by simp)
    case isTrue hu =>
      obtain ⟨l1, l2⟩ := H.len hR
      obtain ⟨lcS, hS⟩ := resolveLc_ok (φ ⟨.b, 0, 0⟩) es h lc l1 hu
      obtain ⟨lcE, hE⟩ := resolveLc_ok D.one e h lc l2 hu
      obtain ⟨t', w, hg, hR'⟩ := H.add lc hR hu hS hE
      obtain ⟨s', es', t'', e', r1, r2, hR'', hp⟩ := ih c _ _ _ _ _ h' hR' hh hf
      refine ⟨s', es', t'', e', ?_, ?_, hR'', hp⟩
      · have : (semD φ).one = φ ⟨.b, 0, 0⟩ := rfl
        simp only [run, this, hS, bind_ok]
        exact r1
      · simp only [run, hE, hg, bind_ok]
        exact r2
  | enforce lc k ih =>
    intro c s es h t e h' hR hh hf
    simp only [handles] at hh
    split at hh
    case isFalse => exact absurd hh (by simp)
    case isTrue hu =>
      obtain ⟨l1, l2⟩ := H.len hR
      obtain ⟨lcS, hS⟩ := resolveLc_ok (φ ⟨.b, 0, 0⟩) es h lc l1 hu
      obtain ⟨lcE, hE⟩ := resolveLc_ok D.one e h lc l2 hu
      obtain ⟨t', hg, hR'⟩ := H.enforce lc hR hu hS hE hf.1
      obtain ⟨s', es', t'', e', r1, r2, hR'', hp⟩ := ih c _ _ _ _ _ h' hR' hh hf.2
      refine ⟨s', es', t'', e', ?_, ?_, hR'', hp⟩
      · have : (semD φ).one = φ ⟨.b, 0, 0⟩ := rfl
        simp only [run, this, hS, bind_ok]
        exact r1
      · simp only [run, hE, hg, bind_ok]
        exact r2
  | routine call b k ihb ihk =>
    intro c s es h t e h' hR hh hf
    obtain ⟨⟨sg, hsg, hgate, hcons⟩, hfb, hfk⟩ := hf
    simp only [handles, Option.bind_eq_some_iff] at hh
    obtain ⟨h1, hh1, hh2⟩ := hh
    obtain ⟨c', t0, hent, hR0, hleave⟩ := H.routine call hR hsg
    obtain ⟨s1, es1, t1, e1, r1, r2, hR1, hp1⟩ := ihb c' _ _ _ _ _ h1 hR0 hh1 hfb
    have hps : s1.pos.seg = s.pos.nseg := by rw [hp1, posRun_seg]; rfl
    obtain ⟨t2, hlv, hR2⟩ := hleave s1 es1 h1 t1 e1 hR1 hps
      (by rw [hp1, posRun_nseg]; simp [Pos.enter]; omega) (by rw [hp1]; exact hgate)
      (by rw [hp1]; exact hcons)
    obtain ⟨s', es', t'', e', r3, r4, hR'', hp⟩ := ihk c _ _ _ _ _ h' hR2 hh2
      (by simpa [hp1] using hfk)
    refine ⟨s', es', t'', e', ?_, ?_, hR'', ?_⟩
    · simp only [run]
      have : (semD φ).enter call s = .ok { pos := s.pos.enter, log := [] } := rfl
      rw [this, bind_ok, r1, bind_ok]
      exact r3
    · simp only [run, hent, bind_ok, r2, hlv]
      exact r4
    · rw [hp]; simp [posRun, hp1]
  | clone i k ih =>
    intro c s es h t e h' hR hh hf
    simp only [handles] at hh
    split at hh
    case isFalse => exact absurd hh (by simp)
    case isTrue hu =>
      obtain ⟨l1, l2⟩ := H.len hR
      obtain ⟨wS, _, hS⟩ := resolve_set (φ ⟨.b, 0, 0⟩) es i h l1 hu
      obtain ⟨w, hw, hE⟩ := resolve_set D.one e i h l2 hu
      obtain ⟨t', hg, hR'⟩ := H.clone i hR hu hw
      obtain ⟨s', es', t'', e', r1, r2, hR'', hp⟩ := ih c _ _ _ _ _ h' hR' hh hf
      refine ⟨s', es', t'', e', ?_, ?_, hR'', hp⟩
      · have : (semD φ).one = φ ⟨.b, 0, 0⟩ := rfl
        simp only [run, this, hS, bind_ok]
        exact r1
      · simp only [run, hE, hg, bind_ok]
        exact r2
  | drop i k ih =>
    intro c s es h t e h' hR hh hf
    simp only [handles] at hh
    split at hh
    case isFalse => exact absurd hh (by simp)
    case isTrue hu =>
      obtain ⟨l1, l2⟩ := H.len hR
      obtain ⟨wS, _, hS⟩ := resolve_set (φ ⟨.b, 0, 0⟩) es i h l1 hu
      obtain ⟨w, hw, hE⟩ := resolve_set D.one e i h l2 hu
      obtain ⟨t', hg, hR'⟩ := H.drop i hR hu hw
      obtain ⟨s', es', t'', e', r1, r2, hR'', hp⟩ := ih c _ _ _ _ _ h' hR' hh hf
      refine ⟨s', es', t'', e', ?_, ?_, hR'', hp⟩
      · have : (semD φ).one = φ ⟨.b, 0, 0⟩ := rfl
        simp only [run, this, hS, bind_ok]
        exact r1
      · simp only [run, hE, hg, bind_ok]
        exact r2

/-! ### The floor plan of the circuit's own counts has room for it -/

theorem posRun_indep (prog : Prog F) : ∀ p q : Pos, p.gates = q.gates → p.cons = q.cons →
    p.pend.isSome = q.pend.isSome → (posRun prog p).gates = (posRun prog q).gates ∧
      (posRun prog p).cons = (posRun prog q).cons := by
  induction prog with
  | done => intro p q h1 h2 _; exact ⟨h1, h2⟩
  | gate _ _ _ _ k ih | mul _ _ _ k ih =>
    intro p q h1 h2 h3
    exact ih _ _ (by simp [Pos.gate, h1]) h2 h3
  | alloc v k ih =>
    intro p q h1 h2 h3
    refine ih _ _ ?_ ?_ ?_ <;>
    · cases hp : p.pend <;> cases hq : q.pend <;> simp_all [Pos.alloc]
  | add _ k ih | clone _ k ih | drop _ k ih => intro p q h1 h2 h3; exact ih _ _ h1 h2 h3
  | enforce _ k ih =>
    intro p q h1 h2 h3
    exact ih _ _ h1 (by simp [Pos.enforce, h2]) h3
  | routine c b k ihb ihk =>
    intro p q h1 h2 h3
    exact ihk _ _ h1 h2 h3

theorem posRun_mono (prog : Prog F) : ∀ p, p.gates ≤ (posRun prog p).gates ∧
    p.cons ≤ (posRun prog p).cons := by
  induction prog with
  | done => intro p; exact ⟨le_refl _, le_refl _⟩
  | gate _ _ _ _ k ih | mul _ _ _ k ih =>
    intro p
    have := ih p.gate
    simp only [Pos.gate] at this
    simp only [posRun, Pos.gate]
    omega
  | alloc v k ih =>
    intro p
    have := ih p.alloc
    simp only [posRun]
    cases hp : p.pend <;> simp only [Pos.alloc, hp] at this ⊢ <;> omega
  | add _ k ih | clone _ k ih | drop _ k ih => intro p; exact ih p
  | enforce _ k ih =>
    intro p
    have := ih p.enforce
    simp only [Pos.enforce] at this
    simp only [posRun, Pos.enforce]
    omega
  | routine c b k ihb ihk =>
    intro p
    exact ihk (p.leave (posRun b p.enter))

def Seg.counts (sg : Seg) : ℕ × ℕ := (sg.numGates, sg.numCons)

theorem fits_of {fp : List Seg} {n N : ℕ}
    (hb : ∀ sg ∈ fp, sg.gateStart + sg.numGates ≤ n ∧ sg.consStart + sg.numCons ≤ N)
    (prog : Prog F) : ∀ (p : Pos) (rest : List (ℕ × ℕ)) (sg : Seg),
      fp[p.seg]? = some sg → (posRun prog p).gates ≤ sg.numGates →
      (posRun prog p).cons ≤ sg.numCons →
      (fp.drop p.nseg).map Seg.counts = subCounts prog ++ rest → Fits fp n N prog p := by
  induction prog with
  | done => intros; trivial
  | gate _ _ _ _ k ih | mul _ _ _ k ih =>
    intro p rest sg hsg hg hc hd
    have hm := (posRun_mono k p.gate).1
    have hbb := hb sg (List.mem_of_getElem? hsg)
    simp only [posRun, Pos.gate] at hg hm
    exact ⟨⟨sg, hsg, by omega, by omega⟩, ih _ rest sg hsg hg hc hd⟩
  | alloc v k ih =>
    intro p rest sg hsg hg hc hd
    have hm := (posRun_mono k p.alloc).1
    have hbb := hb sg (List.mem_of_getElem? hsg)
    have hn : p.alloc.nseg = p.nseg := by simp only [Pos.alloc]; split <;> rfl
    have hs : p.alloc.seg = p.seg := by simp only [Pos.alloc]; split <;> rfl
    refine ⟨?_, ih _ rest sg (by rw [hs]; exact hsg) hg hc (by rw [hn]; exact hd)⟩
    intro hp
    simp only [posRun] at hg
    simp only [Pos.alloc, hp] at hg hm
    exact ⟨sg, hsg, by omega, by omega⟩
  | add _ k ih | clone _ k ih | drop _ k ih =>
    intro p rest sg hsg hg hc hd
    exact ih p rest sg hsg hg hc hd
  | enforce _ k ih =>
    intro p rest sg hsg hg hc hd
    have hm := (posRun_mono k p.enforce).2
    have hbb := hb sg (List.mem_of_getElem? hsg)
    simp only [posRun, Pos.enforce] at hc hm
    exact ⟨⟨sg, hsg, by omega, by omega⟩, ih _ rest sg hsg hg hc hd⟩
  | routine c b k ihb ihk =>
    intro p rest sg hsg hg hc hd
    have hlt : p.nseg < fp.length := by
      by_contra hcon
      rw [List.drop_eq_nil_of_le (by omega)] at hd
      simp [subCounts] at hd
    rw [List.drop_eq_getElem_cons hlt] at hd
    simp only [subCounts, List.map_cons, List.cons_append, List.cons.injEq,
      List.append_assoc] at hd
    obtain ⟨hd1, hd2⟩ := hd
    have hi := posRun_indep b p.enter {} rfl rfl rfl
    have h1 : fp[p.nseg]? = some fp[p.nseg] := List.getElem?_eq_getElem hlt
    simp only [Seg.counts, Prod.mk.injEq] at hd1
    have hg' : (posRun b p.enter).gates = fp[p.nseg].numGates := by rw [hi.1, hd1.1]
    have hc' : (posRun b p.enter).cons = fp[p.nseg].numCons := by rw [hi.2, hd1.2]
    refine ⟨⟨_, h1, hg', hc'⟩, ?_, ?_⟩
    · exact ihb _ (subCounts k ++ rest) fp[p.nseg] h1 hg'.le hc'.le hd2
    · refine ihk _ rest sg hsg hg hc ?_
      have : (p.leave (posRun b p.enter)).nseg = p.nseg + 1 + (subCounts b).length := by
        simp [Pos.leave, posRun_nseg, Pos.enter]
      rw [this, ← List.drop_drop, List.map_drop, hd2]
      simp

theorem floorPlanFrom_counts (rs : List (ℕ × ℕ)) : ∀ g q,
    (floorPlanFrom g q rs).map Seg.counts = rs := by
  induction rs with
  | nil => intros; rfl
  | cons r rs ih => intro g q; simp [floorPlanFrom, ih, Seg.counts]

theorem floorPlanFrom_bound (rs : List (ℕ × ℕ)) : ∀ g q, ∀ sg ∈ floorPlanFrom g q rs,
    sg.gateStart + sg.numGates ≤ g + totalGates rs ∧
      sg.consStart + sg.numCons ≤ q + totalCons rs := by
  induction rs with
  | nil => intro g q sg hm; simp [floorPlanFrom] at hm
  | cons r rs ih =>
    intro g q sg hm
    simp only [floorPlanFrom, List.mem_cons] at hm
    simp only [totalGates, totalCons, List.map_cons, List.sum_cons] at ih ⊢
    rcases hm with rfl | hm
    · simp only; omega
    · have := ih _ _ sg hm; omega

theorem floorPlan_getElem (rs : List (ℕ × ℕ)) (i : ℕ) : ∀ g q,
    (floorPlanFrom g q rs)[i]? = (rs[i]?).map fun r =>
      ⟨g + totalGates (rs.take i), q + totalCons (rs.take i), r.1, r.2⟩ := by
  induction rs generalizing i with
  | nil => intro g q; simp [floorPlanFrom]
  | cons r rs ih =>
    intro g q
    cases i with
    | zero => simp [floorPlanFrom, totalGates, totalCons]
    | succ i =>
      simp only [floorPlanFrom, List.getElem?_cons_succ, ih, List.take_succ_cons]
      simp [totalGates, totalCons, Nat.add_assoc]

theorem floorPlan_length (rs : List (ℕ × ℕ)) : (floorPlan rs).length = rs.length := by
  rw [← List.length_map (f := Seg.counts), floorPlan, floorPlanFrom_counts]

/-- A circuit fits the floor plan computed from its own counts. -/
theorem circ_fits (c : Circ F) {n N : ℕ} (hn : totalGates c.counts ≤ n)
    (hN : totalCons c.counts ≤ N) :
    GateRoom (floorPlan c.counts) n {} ∧ Fits (floorPlan c.counts) n N c.main (Pos.gate {}) := by
  have hb : ∀ sg ∈ floorPlan c.counts, sg.gateStart + sg.numGates ≤ n ∧
      sg.consStart + sg.numCons ≤ N := by
    intro sg hm
    have := floorPlanFrom_bound c.counts 0 0 sg hm
    omega
  have h0 : (floorPlan c.counts)[0]? = some ⟨0, 0, (posRun c.main (Pos.gate {})).gates,
      (posRun c.main (Pos.gate {})).cons⟩ := rfl
  refine ⟨⟨_, h0, ?_, ?_⟩, fits_of hb c.main _ [] _ h0 le_rfl le_rfl ?_⟩
  · have := (posRun_mono c.main (Pos.gate {})).1
    simp only [Pos.gate] at this ⊢
    omega
  · have := (posRun_mono c.main (Pos.gate {})).1
    have h2 := (hb _ (List.mem_of_getElem? h0)).1
    simp only [Pos.gate] at this h2 ⊢
    omega
  · rw [List.map_drop]
    show List.drop 1 (List.map Seg.counts (floorPlan c.counts)) = _
    rw [floorPlan, floorPlanFrom_counts]
    simp [Circ.counts]

end Sim
end Ragu.Circuit

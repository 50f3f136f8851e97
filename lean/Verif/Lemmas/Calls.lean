/-
Gadget code and the driver calls it makes.
-/
import Verif.Spec.Calls
import Verif.Spec.Exec
import Verif.Spec.Revdot
import Verif.Lemmas.Shape
import Verif.Lemmas.Wiring
import Verif.Lemmas.SySim
import Verif.Lemmas.Exec

set_option linter.unusedSectionVars false

namespace Ragu.Circuit
open Ragu
variable {F : Type} [Field F] [DecidableEq F]

theorem sat_seq (p q : Prog F) : ∀ env env',
    (p.seq q).sat env env' ↔ ∃ e, p.sat env e ∧ q.sat e env' := by
  induction p with
  | done => intro env env'; simp [Prog.seq, Prog.sat]
  | gate a b c d k ih =>
    intro env env'
    simp only [Prog.seq, Prog.sat, ih]
    constructor
    · rintro ⟨a, b, c, d, h1, h2, e, h3, h4⟩; exact ⟨e, ⟨a, b, c, d, h1, h2, h3⟩, h4⟩
    · rintro ⟨e, ⟨a, b, c, d, h1, h2, h3⟩, h4⟩; exact ⟨a, b, c, d, h1, h2, e, h3, h4⟩
  | mul a b c k ih =>
    intro env env'
    simp only [Prog.seq, Prog.sat, ih]
    constructor
    · rintro ⟨a, b, c, d, h1, h2, e, h3, h4⟩; exact ⟨e, ⟨a, b, c, d, h1, h2, h3⟩, h4⟩
    · rintro ⟨e, ⟨a, b, c, d, h1, h2, h3⟩, h4⟩; exact ⟨a, b, c, d, h1, h2, e, h3, h4⟩
  | alloc v k ih =>
    intro env env'
    simp only [Prog.seq, Prog.sat, ih]
    constructor
    · rintro ⟨v, e, h1, h2⟩; exact ⟨e, ⟨v, h1⟩, h2⟩
    · rintro ⟨e, ⟨v, h1⟩, h2⟩; exact ⟨v, e, h1, h2⟩
  | add lc k ih =>
    intro env env'
    simp only [Prog.seq, Prog.sat, ih]
    constructor
    · rintro ⟨v, h0, e, h1, h2⟩; exact ⟨e, ⟨v, h0, h1⟩, h2⟩
    · rintro ⟨e, ⟨v, h0, h1⟩, h2⟩; exact ⟨v, h0, e, h1, h2⟩
  | enforce lc k ih =>
    intro env env'
    simp only [Prog.seq, Prog.sat, ih]
    constructor
    · rintro ⟨v, h0, hz, e, h1, h2⟩; exact ⟨e, ⟨v, h0, hz, h1⟩, h2⟩
    · rintro ⟨e, ⟨v, h0, hz, h1⟩, h2⟩; exact ⟨v, h0, hz, e, h1, h2⟩
  | routine c b k ihb ihk =>
    intro env env'
    simp only [Prog.seq, Prog.sat, ihk]
    constructor
    · rintro ⟨v, h0, e, h1, h2⟩; exact ⟨e, ⟨v, h0, h1⟩, h2⟩
    · rintro ⟨e, ⟨v, h0, h1⟩, h2⟩; exact ⟨v, h0, e, h1, h2⟩
  | clone w k ih | drop w k ih => intro env env'; exact ih _ _

theorem sem_log (φ : Base → F) (p : Prog F) : ∀ (s : Sem F) (env : List F) s' env',
    run (semD φ) p s env = .ok (s', env') → (∃ l, s'.log = s.log ++ l) ∧ s'.pos = posRun p s.pos := by
  induction p with
  | done =>
    intro s env s' env' h
    simp only [run, Except.ok.injEq, Prod.mk.injEq] at h
    obtain ⟨rfl, rfl⟩ := h
    exact ⟨⟨[], by simp⟩, rfl⟩
  | gate a b c d k ih | mul a b c k ih | alloc v k ih =>
    intro s env s' env' h
    exact ih _ _ _ _ h
  | add lc k ih =>
    intro s env s' env' h
    simp only [run] at h
    cases hq : resolveLc (semD φ).one env lc with
    | error e => rw [hq] at h; cases h
    | ok l => rw [hq] at h; exact ih _ _ _ _ h
  | enforce lc k ih =>
    intro s env s' env' h
    simp only [run] at h
    cases hq : resolveLc (semD φ).one env lc with
    | error e => rw [hq] at h; cases h
    | ok l =>
      rw [hq] at h
      obtain ⟨⟨l', e1⟩, e2⟩ := ih _ _ _ _ h
      exact ⟨⟨_, by rw [e1]; simp [List.append_assoc]; rfl⟩, e2⟩
  | routine c b k ihb ihk =>
    intro s env s' env' h
    have e1 : (semD φ).enter c s = .ok { pos := s.pos.enter, log := [] } := rfl
    simp only [run, e1, bind_ok] at h
    cases hq : run (semD φ) b { pos := s.pos.enter, log := [] } env with
    | error e => rw [hq] at h; cases h
    | ok r =>
      rw [hq] at h
      obtain ⟨s1, env1⟩ := r
      obtain ⟨-, p1⟩ := ihb _ _ _ _ hq
      have e2 : (semD φ).leave c s s1 = .ok { pos := s.pos.leave s1.pos, log := s.log ++ s1.log } := rfl
      simp only [bind_ok, e2] at h
      obtain ⟨⟨l', q1⟩, q2⟩ := ihk _ _ _ _ h
      refine ⟨⟨s1.log ++ l', by rw [q1]; simp⟩, ?_⟩
      rw [q2, p1]; rfl
  | clone w k ih | drop w k ih =>
    intro s env s' env' h
    simp only [run] at h
    cases hq : resolve (semD φ).one env (.idx w) with
    | error e => rw [hq] at h; cases h
    | ok l => rw [hq] at h; exact ih _ _ _ _ h

/-- An assignment that satisfies every gate and under which every constraint is zero satisfies the
program as a relation. -/
theorem sem_sat {n N : ℕ} {fp : List Seg} {r : Sparse.Poly F} (hg : GatesHold n r)
    (h1 : assignment n fp r ⟨.b, 0, 0⟩ = 1) (p : Prog F) : ∀ (s : Sem F) (env : List F) s' env',
    run (semD (assignment n fp r)) p s env = .ok (s', env') → Fits fp n N p s.pos →
    (∀ row ∈ s'.log, row.val = 0) → p.sat env env' := by
  have hroom : ∀ pos : Pos, GateRoom fp n pos →
      assignment n fp r ⟨.a, pos.seg, pos.gates⟩ * assignment n fp r ⟨.b, pos.seg, pos.gates⟩ =
        assignment n fp r ⟨.c, pos.seg, pos.gates⟩ ∧
      assignment n fp r ⟨.c, pos.seg, pos.gates⟩ * assignment n fp r ⟨.d, pos.seg, pos.gates⟩ = 0 := by
    rintro pos ⟨sg, e1, e2, e3⟩
    have := hg (sg.gateStart + pos.gates) e3
    simp only [assignment, absGate, e1, Option.map_some, Option.getD_some]
    exact this
  have hone : (semD (assignment n fp r)).one = 1 := h1
  induction p with
  | done =>
    intro s env s' env' h _ _
    simp only [run, Except.ok.injEq, Prod.mk.injEq] at h
    exact h.2.symm
  | gate a b c d k ih =>
    intro s env s' env' h hf hz
    exact ⟨_, _, _, _, (hroom _ hf.1).1, (hroom _ hf.1).2, ih _ _ _ _ h hf.2 hz⟩
  | mul a b c k ih =>
    intro s env s' env' h hf hz
    exact ⟨_, _, _, _, (hroom _ hf.1).1, (hroom _ hf.1).2, ih _ _ _ _ h hf.2 hz⟩
  | alloc v k ih =>
    intro s env s' env' h hf hz
    exact ⟨_, ih _ _ _ _ h hf.2 hz⟩
  | add lc k ih =>
    intro s env s' env' h hf hz
    simp only [run, hone] at h
    cases hq : resolveLc 1 env lc with
    | error e => rw [hq] at h; cases h
    | ok l => rw [hq] at h; exact ⟨l, hq, ih _ _ _ _ h hf hz⟩
  | enforce lc k ih =>
    intro s env s' env' h hf hz
    simp only [run, hone] at h
    cases hq : resolveLc 1 env lc with
    | error e => rw [hq] at h; cases h
    | ok l =>
      rw [hq] at h
      obtain ⟨⟨l', e1⟩, _⟩ := sem_log _ _ _ _ _ _ h
      refine ⟨l, hq, hz ⟨s.pos.seg, s.pos.cons, lcVal 1 l⟩ ?_, ih _ _ _ _ h hf.2 hz⟩
      rw [e1]; simp
  | routine c b k ihb ihk =>
    intro s env s' env' h hf hz
    have e1 : (semD (assignment n fp r)).enter c s = .ok { pos := s.pos.enter, log := [] } := rfl
    simp only [run, e1, bind_ok] at h
    cases hq : run (semD (assignment n fp r)) b { pos := s.pos.enter, log := [] } env with
    | error e => rw [hq] at h; cases h
    | ok x =>
      rw [hq] at h
      obtain ⟨s1, env1⟩ := x
      obtain ⟨-, p1⟩ := sem_log _ _ _ _ _ _ hq
      have e2 : (semD (assignment n fp r)).leave c s s1 =
        .ok { pos := s.pos.leave s1.pos, log := s.log ++ s1.log } := rfl
      simp only [bind_ok, e2] at h
      obtain ⟨⟨l', q1⟩, -⟩ := sem_log _ _ _ _ _ _ h
      refine ⟨env1, ihb _ _ _ _ hq hf.2.1 fun row hr => hz row (by rw [q1]; simp [hr]), ?_⟩
      refine ihk _ _ _ _ h ?_ hz
      have : Fits fp n N k (s.pos.leave (posRun b s.pos.enter)) := hf.2.2
      rw [← p1] at this
      exact this
  | clone w k ih | drop w k ih =>
    intro s env s' env' h hf hz
    simp only [run] at h
    cases hq : resolve (semD (assignment n fp r)).one env (.idx w) with
    | error e => rw [hq] at h; cases h
    | ok l => rw [hq] at h; exact ih _ _ _ _ h hf hz

end Ragu.Circuit

namespace Ragu.Gadget
open Ragu Ragu.Circuit
variable {F α : Type} [Field F] [DecidableEq F]

/-- Satisfying the calls a gadget makes is satisfying the gadget. -/
theorem Calls.sound {Q : List F → α → Prop} {p : Prog F} {env : List F} {x : Syn F α}
    (h : Calls Q p env x) : ∀ {env'}, p.sat env env' → ∃ r, x.sat r ∧ Q env' r := by
  induction h with
  | ret hq => intro env' hs; cases hs; exact ⟨_, rfl, hq⟩
  | gate _ ih =>
    rintro env' ⟨a, b, c, d, h1, h2, h3⟩
    obtain ⟨r, e1, e2⟩ := ih a b c d h3
    exact ⟨r, ⟨a, b, c, d, h1, h2, e1⟩, e2⟩
  | mul _ _ ih =>
    rintro env' ⟨a, b, c, d, h1, h2, h3⟩
    obtain ⟨r, e1, e2⟩ := ih a b c d h3
    exact ⟨r, ⟨a, b, c, d, h1, h2, e1⟩, e2⟩
  | alloc _ ih =>
    rintro env' ⟨v, h3⟩
    obtain ⟨r, e1, e2⟩ := ih v h3
    exact ⟨r, ⟨v, e1⟩, e2⟩
  | enforce hl hv _ ih =>
    rintro env' ⟨l, h1, h2, h3⟩
    obtain ⟨r, e1, e2⟩ := ih h3
    rw [hl, Except.ok.injEq] at h1
    subst h1
    exact ⟨r, ⟨hv.trans h2, e1⟩, e2⟩
  | add hl _ ih =>
    rintro env' ⟨l, h1, h3⟩
    rw [hl, Except.ok.injEq] at h1
    subst h1
    exact ih h3
  | routine _ ih => intro env' hs; exact ih ((sat_seq _ _ _ _).2 hs)
  | clone _ ih | drop _ ih => intro env' hs; exact ih hs
  | check _ ih => intro env' hs; exact ih hs

/-- Satisfying a gadget is satisfying the calls it makes. -/
theorem Calls.complete {Q : List F → α → Prop} {p : Prog F} {env : List F} {x : Syn F α}
    (h : Calls Q p env x) : ∀ {r}, x.sat r → ∃ env', p.sat env env' ∧ Q env' r := by
  induction h with
  | ret hq => intro r hs; cases hs; exact ⟨_, rfl, hq⟩
  | gate _ ih =>
    rintro r ⟨a, b, c, d, h1, h2, h3⟩
    obtain ⟨r, e1, e2⟩ := ih a b c d h3
    exact ⟨r, ⟨a, b, c, d, h1, h2, e1⟩, e2⟩
  | mul _ _ ih =>
    rintro r ⟨a, b, c, d, h1, h2, h3⟩
    obtain ⟨r, e1, e2⟩ := ih a b c d h3
    exact ⟨r, ⟨a, b, c, d, h1, h2, e1⟩, e2⟩
  | alloc _ ih =>
    rintro r ⟨v, h3⟩
    obtain ⟨r, e1, e2⟩ := ih v h3
    exact ⟨r, ⟨v, e1⟩, e2⟩
  | enforce hl hv _ ih =>
    rintro r ⟨h1, h2⟩
    obtain ⟨r, e1, e2⟩ := ih h2
    exact ⟨r, ⟨_, hl, hv.symm.trans h1, e1⟩, e2⟩
  | add hl _ ih =>
    intro r hs
    obtain ⟨r, e1, e2⟩ := ih hs
    exact ⟨r, ⟨_, hl, e1⟩, e2⟩
  | routine _ ih =>
    intro r hs
    obtain ⟨e, e1, e2⟩ := ih hs
    exact ⟨e, (sat_seq _ _ _ _).1 e1, e2⟩
  | clone _ ih | drop _ ih => intro r hs; exact ih hs
  | check _ ih => intro r hs; exact ih hs

/-- A program that supplies the values of gadget code the simulator accepts has only gates and
constraints that hold. -/
theorem Supplies.accepts {Q : List F → α → Prop} {p : Prog F} {env : List F} {x : Syn F α}
    (h : Supplies Q p env x) : ∀ {r}, x.sim = .ok r → ∀ K : Checks F, K.Hold →
      ∀ {K' env'}, run valD p K env = .ok (K', env') → K'.Hold ∧ Q env' r := by
  induction h with
  | ret hq =>
    intro r hr K hK K' env' hk
    simp only [run, Except.ok.injEq, Prod.mk.injEq] at hk
    obtain ⟨rfl, rfl⟩ := hk
    simp only [Syn.sim, Except.ok.injEq] at hr
    subst hr
    exact ⟨hK, hq⟩
  | @gate env w k p _ ih =>
    intro r hr K hK K' env' hk
    simp only [Syn.sim] at hr
    split at hr
    · cases hr
    · split at hr
      · cases hr
      · next h1 h2 =>
        refine ih hr { K with gates := K.gates ++ [(w.1, w.2.1, w.2.2.1, w.2.2.2)] } ?_ hk
        refine ⟨fun g hg => ?_, hK.2⟩
        rcases List.mem_append.1 hg with hg | hg
        · exact hK.1 g hg
        · rw [List.mem_singleton.1 hg]
          exact ⟨not_not.1 h1, not_not.1 h2⟩
  | @mul env w k p h0 _ ih =>
    intro r hr K hK K' env' hk
    simp only [Syn.sim] at hr
    split at hr
    · cases hr
    · split at hr
      · cases hr
      · next h1 h2 =>
        refine ih hr { K with gates := K.gates ++ [(w.1, w.2.1, w.2.2.1, 0)] } ?_ hk
        refine ⟨fun g hg => ?_, hK.2⟩
        rcases List.mem_append.1 hg with hg | hg
        · exact hK.1 g hg
        · rw [List.mem_singleton.1 hg]
          exact ⟨not_not.1 h1, mul_zero _⟩
  | alloc _ ih =>
    intro r hr K hK K' env' hk
    exact ih hr K hK hk
  | enforce hl hv _ ih =>
    intro r hr K hK K' env' hk
    simp only [Syn.sim] at hr
    split at hr
    · cases hr
    · next hv0 =>
      have hv0 := not_not.1 hv0
      have h1 : (valD (F := F)).one = 1 := rfl
      simp only [run, h1, hl, bind_ok] at hk
      refine ih hr { K with cons := K.cons ++ [_] } ⟨hK.1, fun v hm => ?_⟩ hk
      rcases List.mem_append.1 hm with hm | hm
      · exact hK.2 v hm
      · rw [List.mem_singleton.1 hm, ← hv, hv0]
  | add hl _ ih =>
    intro r hr K hK K' env' hk
    have h1 : (valD (F := F)).one = 1 := rfl
    simp only [run, h1, hl, bind_ok] at hk
    exact ih hr K hK hk
  | @routine env call b p x _ ih =>
    intro r hr K hK K' env' hk
    refine ih hr K hK ?_
    rw [run_seq]
    have e1 : (valD (F := F)).enter call K = .ok K := rfl
    simp only [run, e1, bind_ok] at hk
    cases hq : run valD b K env with
    | error e => rw [hq] at hk; cases hk
    | ok y => rw [hq] at hk; exact hk
  | @clone env w p x _ ih | @drop env w p x _ ih =>
    intro r hr K hK K' env' hk
    simp only [run] at hk
    cases hq : resolve (valD (F := F)).one env (.idx w) with
    | error e => rw [hq] at hk; cases hk
    | ok l => rw [hq] at hk; exact ih hr K hK hk
  | @check env e k p _ ih =>
    intro r hr K hK K' env' hk
    cases e with
    | none => exact ih hr K hK hk
    | some e => cases hr

theorem blank_seq_split {q1 q2 : Prog F} : ∀ {p : Prog F}, p.blank = q1.blank.seq q2.blank →
    ∃ p1 p2 : Prog F, p = p1.seq p2 ∧ p1.blank = q1.blank ∧ p2.blank = q2.blank := by
  induction q1 with
  | done => intro p h; exact ⟨.done, p, rfl, rfl, h⟩
  | gate a b c d k ih =>
    intro p h
    cases p <;> simp only [Prog.blank, Prog.seq, reduceCtorEq, Prog.gate.injEq] at h
    obtain ⟨p1, p2, e1, e2, e3⟩ := ih h.2.2.2.2
    exact ⟨.gate _ _ _ _ p1, p2, by rw [e1]; rfl, by simp [Prog.blank, e2], e3⟩
  | mul a b c k ih =>
    intro p h
    cases p <;> simp only [Prog.blank, Prog.seq, reduceCtorEq, Prog.mul.injEq] at h
    obtain ⟨p1, p2, e1, e2, e3⟩ := ih h.2.2.2
    exact ⟨.mul _ _ _ p1, p2, by rw [e1]; rfl, by simp [Prog.blank, e2], e3⟩
  | alloc v k ih =>
    intro p h
    cases p <;> simp only [Prog.blank, Prog.seq, reduceCtorEq, Prog.alloc.injEq] at h
    obtain ⟨p1, p2, e1, e2, e3⟩ := ih h.2
    exact ⟨.alloc _ p1, p2, by rw [e1]; rfl, by simp [Prog.blank, e2], e3⟩
  | add lc k ih =>
    intro p h
    cases p <;> simp only [Prog.blank, Prog.seq, reduceCtorEq, Prog.add.injEq] at h
    obtain ⟨p1, p2, e1, e2, e3⟩ := ih h.2
    exact ⟨.add _ p1, p2, by rw [e1]; rfl, by simp [Prog.blank, e2, h.1], e3⟩
  | enforce lc k ih =>
    intro p h
    cases p <;> simp only [Prog.blank, Prog.seq, reduceCtorEq, Prog.enforce.injEq] at h
    obtain ⟨p1, p2, e1, e2, e3⟩ := ih h.2
    exact ⟨.enforce _ p1, p2, by rw [e1]; rfl, by simp [Prog.blank, e2, h.1], e3⟩
  | routine c b k ihb ihk =>
    intro p h
    cases p <;> simp only [Prog.blank, Prog.seq, reduceCtorEq, Prog.routine.injEq] at h
    obtain ⟨p1, p2, e1, e2, e3⟩ := ihk h.2.2
    exact ⟨.routine _ _ p1, p2, by rw [e1]; rfl, by simp [Prog.blank, e2, h.1, h.2.1], e3⟩
  | clone w k ih =>
    intro p h
    cases p <;> simp only [Prog.blank, Prog.seq, reduceCtorEq, Prog.clone.injEq] at h
    obtain ⟨p1, p2, e1, e2, e3⟩ := ih h.2
    exact ⟨.clone _ p1, p2, by rw [e1]; rfl, by simp [Prog.blank, e2, h.1], e3⟩
  | drop w k ih =>
    intro p h
    cases p <;> simp only [Prog.blank, Prog.seq, reduceCtorEq, Prog.drop.injEq] at h
    obtain ⟨p1, p2, e1, e2, e3⟩ := ih h.2
    exact ⟨.drop _ p1, p2, by rw [e1]; rfl, by simp [Prog.blank, e2, h.1], e3⟩

/-- The program that makes a gadget's calls can be given the values the gadget supplies. -/
theorem Calls.fill {Q : List F → α → Prop} {p : Prog F} {env : List F} {x : Syn F α}
    (h : Calls Q p env x) : ∃ p', p'.blank = p.blank ∧ Supplies Q p' env x := by
  induction h with
  | ret hq => exact ⟨.done, rfl, .ret hq⟩
  | @gate env w k va vb vc vd p _ ih =>
    obtain ⟨p', e1, e2⟩ := ih w.1 w.2.1 w.2.2.1 w.2.2.2
    exact ⟨_, by simp [Prog.blank, e1], .gate e2⟩
  | @mul env w k va vb vc p h0 _ ih =>
    obtain ⟨p', e1, e2⟩ := ih w.1 w.2.1 w.2.2.1 w.2.2.2
    exact ⟨_, by simp [Prog.blank, e1], .mul h0 e2⟩
  | @alloc env w k v p _ ih =>
    obtain ⟨p', e1, e2⟩ := ih w
    exact ⟨_, by simp [Prog.blank, e1], .alloc e2⟩
  | @enforce env lc l v k p hl hv _ ih =>
    obtain ⟨p', e1, e2⟩ := ih
    exact ⟨.enforce lc p', by simp [Prog.blank, e1], .enforce hl hv e2⟩
  | @add env lc l x p hl _ ih =>
    obtain ⟨p', e1, e2⟩ := ih
    exact ⟨.add lc p', by simp [Prog.blank, e1], .add hl e2⟩
  | @routine env call b p x _ ih =>
    obtain ⟨p', e1, e2⟩ := ih
    rw [blank_seq] at e1
    obtain ⟨p1, p2, rfl, f1, f2⟩ := blank_seq_split e1
    exact ⟨.routine call p1 p2, by simp [Prog.blank, f1, f2], .routine e2⟩
  | @clone env w p x _ ih =>
    obtain ⟨p', e1, e2⟩ := ih
    exact ⟨.clone w p', by simp [Prog.blank, e1], .clone e2⟩
  | @drop env w p x _ ih =>
    obtain ⟨p', e1, e2⟩ := ih
    exact ⟨.drop w p', by simp [Prog.blank, e1], .drop e2⟩
  | @check env e k p _ ih =>
    obtain ⟨p', e1, e2⟩ := ih
    exact ⟨p', e1, .check e2⟩

end Ragu.Gadget

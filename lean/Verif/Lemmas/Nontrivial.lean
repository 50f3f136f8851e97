/-
Satisfying gadget code with wires of a trace.
-/
import Verif.Spec.Nontrivial
import Verif.Lemmas.Derivation

set_option linter.unusedSectionVars false

namespace Ragu.Circuit
open Ragu
variable {F : Type} [Field F] [DecidableEq F]

/-- `Prog.sat` with values of `S`. -/
def Prog.satBy (S : F → Prop) : Prog F → List F → List F → Prop
  | .done, env, env' => env' = env
  | .gate _ _ _ _ k, env, env' => ∃ a b c d, S a ∧ S b ∧ S c ∧ S d ∧ a * b = c ∧ c * d = 0 ∧
      k.satBy S (env ++ [a, b, c, d]) env'
  | .mul _ _ _ k, env, env' => ∃ a b c d, S a ∧ S b ∧ S c ∧ S d ∧ a * b = c ∧ c * d = 0 ∧
      k.satBy S (env ++ [a, b, c]) env'
  | .alloc _ k, env, env' => ∃ v, S v ∧ k.satBy S (env ++ [v]) env'
  | .add lc k, env, env' => ∃ l, resolveLc 1 env lc = .ok l ∧ k.satBy S (env ++ [lcVal 1 l]) env'
  | .enforce lc k, env, env' => ∃ l, resolveLc 1 env lc = .ok l ∧ lcVal 1 l = 0 ∧ k.satBy S env env'
  | .routine _ b k, env, env' => ∃ env1, b.satBy S env env1 ∧ k.satBy S env1 env'
  | .clone _ k, env, env' => k.satBy S env env'
  | .drop _ k, env, env' => k.satBy S env env'

theorem satBy_seq {S : F → Prop} (p q : Prog F) : ∀ env env', (p.seq q).satBy S env env' ↔
    ∃ env1, p.satBy S env env1 ∧ q.satBy S env1 env' := by
  induction p with
  | done => intro env env'; simp [Prog.seq, Prog.satBy]
  | gate a b c d k ih =>
    intro env env'; simp only [Prog.seq, Prog.satBy, ih]
    constructor
    · rintro ⟨a, b, c, d, h1, h2, h3, h4, h5, h6, e, h7, h8⟩
      exact ⟨e, ⟨a, b, c, d, h1, h2, h3, h4, h5, h6, h7⟩, h8⟩
    · rintro ⟨e, ⟨a, b, c, d, h1, h2, h3, h4, h5, h6, h7⟩, h8⟩
      exact ⟨a, b, c, d, h1, h2, h3, h4, h5, h6, e, h7, h8⟩
  | mul a b c k ih =>
    intro env env'; simp only [Prog.seq, Prog.satBy, ih]
    constructor
    · rintro ⟨a, b, c, d, h1, h2, h3, h4, h5, h6, e, h7, h8⟩
      exact ⟨e, ⟨a, b, c, d, h1, h2, h3, h4, h5, h6, h7⟩, h8⟩
    · rintro ⟨e, ⟨a, b, c, d, h1, h2, h3, h4, h5, h6, h7⟩, h8⟩
      exact ⟨a, b, c, d, h1, h2, h3, h4, h5, h6, e, h7, h8⟩
  | alloc v k ih =>
    intro env env'; simp only [Prog.seq, Prog.satBy, ih]
    constructor
    · rintro ⟨v, h1, e, h2, h3⟩; exact ⟨e, ⟨v, h1, h2⟩, h3⟩
    · rintro ⟨e, ⟨v, h1, h2⟩, h3⟩; exact ⟨v, h1, e, h2, h3⟩
  | add lc k ih =>
    intro env env'; simp only [Prog.seq, Prog.satBy, ih]
    constructor
    · rintro ⟨v, h1, e, h2, h3⟩; exact ⟨e, ⟨v, h1, h2⟩, h3⟩
    · rintro ⟨e, ⟨v, h1, h2⟩, h3⟩; exact ⟨v, h1, e, h2, h3⟩
  | enforce lc k ih =>
    intro env env'; simp only [Prog.seq, Prog.satBy, ih]
    constructor
    · rintro ⟨v, h1, h0, e, h2, h3⟩; exact ⟨e, ⟨v, h1, h0, h2⟩, h3⟩
    · rintro ⟨e, ⟨v, h1, h0, h2⟩, h3⟩; exact ⟨v, h1, h0, e, h2, h3⟩
  | routine c b k _ ih =>
    intro env env'; simp only [Prog.seq, Prog.satBy, ih]
    constructor
    · rintro ⟨v, h1, e, h2, h3⟩; exact ⟨e, ⟨v, h1, h2⟩, h3⟩
    · rintro ⟨e, ⟨v, h1, h2⟩, h3⟩; exact ⟨v, h1, e, h2, h3⟩
  | clone w k ih | drop w k ih => intro env env'; simp only [Prog.seq, Prog.satBy, ih]

/-- As `sem_sat`; every value is a coefficient of the trace. -/
theorem sem_satBy {n N : ℕ} {fp : List Seg} {r : Sparse.Poly F} (hg : GatesHold n r)
    (h1 : assignment n fp r ⟨.b, 0, 0⟩ = 1) (p : Prog F) : ∀ (s : Sem F) (env : List F) s' env',
    run (semD (assignment n fp r)) p s env = .ok (s', env') → Fits fp n N p s.pos →
    (∀ row ∈ s'.log, row.val = 0) → p.satBy (fun a => ∃ k, a = Spec.coeff r k) env env' := by
  have hroom : ∀ pos : Pos, GateRoom fp n pos →
      assignment n fp r ⟨.a, pos.seg, pos.gates⟩ * assignment n fp r ⟨.b, pos.seg, pos.gates⟩ =
        assignment n fp r ⟨.c, pos.seg, pos.gates⟩ ∧
      assignment n fp r ⟨.c, pos.seg, pos.gates⟩ * assignment n fp r ⟨.d, pos.seg, pos.gates⟩ = 0 := by
    rintro pos ⟨sg, e1, e2, e3⟩
    have := hg (sg.gateStart + pos.gates) e3
    simp only [assignment, absGate, e1, Option.map_some, Option.getD_some]
    exact this
  have hone : (semD (assignment n fp r)).one = 1 := h1
  induction p with
  | done =>
    intro s env s' env' h _ _
    simp only [run, Except.ok.injEq, Prod.mk.injEq] at h
    exact h.2.symm
  | gate a b c d k ih =>
    intro s env s' env' h hf hz
    exact ⟨_, _, _, _, ⟨_, rfl⟩, ⟨_, rfl⟩, ⟨_, rfl⟩, ⟨_, rfl⟩, (hroom _ hf.1).1, (hroom _ hf.1).2,
      ih _ _ _ _ h hf.2 hz⟩
  | mul a b c k ih =>
    intro s env s' env' h hf hz
    exact ⟨_, _, _, _, ⟨_, rfl⟩, ⟨_, rfl⟩, ⟨_, rfl⟩, ⟨_, rfl⟩, (hroom _ hf.1).1, (hroom _ hf.1).2,
      ih _ _ _ _ h hf.2 hz⟩
  | alloc v k ih =>
    intro s env s' env' h hf hz
    exact ⟨_, ⟨_, rfl⟩, ih _ _ _ _ h hf.2 hz⟩
  | add lc k ih =>
    intro s env s' env' h hf hz
    simp only [run, hone] at h
    cases hq : resolveLc 1 env lc with
    | error e => rw [hq] at h; cases h
    | ok l => rw [hq] at h; exact ⟨l, hq, ih _ _ _ _ h hf hz⟩
  | enforce lc k ih =>
    intro s env s' env' h hf hz
    simp only [run, hone] at h
    cases hq : resolveLc 1 env lc with
    | error e => rw [hq] at h; cases h
    | ok l =>
      rw [hq] at h
      obtain ⟨⟨l', e1⟩, _⟩ := sem_log _ _ _ _ _ _ h
      refine ⟨l, hq, hz ⟨s.pos.seg, s.pos.cons, lcVal 1 l⟩ ?_, ih _ _ _ _ h hf.2 hz⟩
      rw [e1]; simp
  | routine c b k ihb ihk =>
    intro s env s' env' h hf hz
    have e1 : (semD (assignment n fp r)).enter c s = .ok { pos := s.pos.enter, log := [] } := rfl
    simp only [run, e1, bind_ok] at h
    cases hq : run (semD (assignment n fp r)) b { pos := s.pos.enter, log := [] } env with
    | error e => rw [hq] at h; cases h
    | ok x =>
      rw [hq] at h
      obtain ⟨s1, env1⟩ := x
      obtain ⟨-, p1⟩ := sem_log _ _ _ _ _ _ hq
      have e2 : (semD (assignment n fp r)).leave c s s1 =
        .ok { pos := s.pos.leave s1.pos, log := s.log ++ s1.log } := rfl
      simp only [bind_ok, e2] at h
      obtain ⟨⟨l', q1⟩, -⟩ := sem_log _ _ _ _ _ _ h
      refine ⟨env1, ihb _ _ _ _ hq hf.2.1 fun row hr => hz row (by rw [q1]; simp [hr]), ?_⟩
      refine ihk _ _ _ _ h ?_ hz
      have : Fits fp n N k (s.pos.leave (posRun b s.pos.enter)) := hf.2.2
      rw [← p1] at this
      exact this
  | clone w k ih | drop w k ih =>
    intro s env s' env' h hf hz
    simp only [run] at h
    cases hq : resolve (semD (assignment n fp r)).one env (.idx w) with
    | error e => rw [hq] at h; cases h
    | ok l => rw [hq] at h; exact ih _ _ _ _ h hf hz

end Ragu.Circuit

namespace Ragu.Gadget
open Ragu Ragu.Circuit
variable {F α β : Type} [Field F] [DecidableEq F] {S : F → Prop}

theorem Calls.soundBy {Q : List F → α → Prop} {p : Prog F} {env : List F} {x : Syn F α}
    (h : Calls Q p env x) : ∀ {env'}, p.satBy S env env' → ∃ r, x.satBy S r ∧ Q env' r := by
  induction h with
  | ret hq => intro env' hs; cases hs; exact ⟨_, rfl, hq⟩
  | gate _ ih =>
    rintro env' ⟨a, b, c, d, s1, s2, s3, s4, h1, h2, h3⟩
    obtain ⟨r, e1, e2⟩ := ih a b c d h3
    exact ⟨r, ⟨a, b, c, d, s1, s2, s3, s4, h1, h2, e1⟩, e2⟩
  | mul _ _ ih =>
    rintro env' ⟨a, b, c, d, s1, s2, s3, s4, h1, h2, h3⟩
    obtain ⟨r, e1, e2⟩ := ih a b c d h3
    exact ⟨r, ⟨a, b, c, d, s1, s2, s3, s4, h1, h2, e1⟩, e2⟩
  | alloc _ ih =>
    rintro env' ⟨v, s1, h3⟩
    obtain ⟨r, e1, e2⟩ := ih v h3
    exact ⟨r, ⟨v, s1, e1⟩, e2⟩
  | enforce hl hv _ ih =>
    rintro env' ⟨l, h1, h2, h3⟩
    obtain ⟨r, e1, e2⟩ := ih h3
    rw [hl, Except.ok.injEq] at h1
    subst h1
    exact ⟨r, ⟨hv.trans h2, e1⟩, e2⟩
  | add hl _ ih =>
    rintro env' ⟨l, h1, h3⟩
    rw [hl, Except.ok.injEq] at h1
    subst h1
    exact ih h3
  | routine _ ih => intro env' hs; exact ih ((satBy_seq _ _ _ _).2 hs)
  | clone _ ih | drop _ ih => intro env' hs; exact ih hs
  | check _ ih => intro env' hs; exact ih hs

theorem Syn.satBy_sat {x : Syn F α} {r : α} (h : x.satBy S r) : x.sat r := by
  induction x with
  | ret a => exact h
  | gate w k ih =>
    obtain ⟨a, b, c, d, -, -, -, -, h1, h2, h3⟩ := h
    exact ⟨a, b, c, d, h1, h2, ih _ _ _ _ h3⟩
  | alloc w k ih => obtain ⟨v, -, h⟩ := h; exact ⟨v, ih _ h⟩
  | enforce v k ih => exact ⟨h.1, ih h.2⟩
  | check e k ih => exact ih h
  | panic => exact h

theorem Syn.satBy_bind (x : Syn F α) (f : α → Syn F β) (r : β) :
    (x >>= f).satBy S r ↔ ∃ a, x.satBy S a ∧ (f a).satBy S r := by
  show (x.bind f).satBy S r ↔ _
  induction x with
  | ret a => simp [Syn.bind, Syn.satBy]
  | gate w k ih =>
    simp only [Syn.bind, Syn.satBy, ih]
    constructor
    · rintro ⟨a, b, c, d, h1, h2, h3, h4, h5, h6, e, h7, h8⟩
      exact ⟨e, ⟨a, b, c, d, h1, h2, h3, h4, h5, h6, h7⟩, h8⟩
    · rintro ⟨e, ⟨a, b, c, d, h1, h2, h3, h4, h5, h6, h7⟩, h8⟩
      exact ⟨a, b, c, d, h1, h2, h3, h4, h5, h6, e, h7, h8⟩
  | alloc w k ih =>
    simp only [Syn.bind, Syn.satBy, ih]
    constructor
    · rintro ⟨v, h1, e, h2, h3⟩; exact ⟨e, ⟨v, h1, h2⟩, h3⟩
    · rintro ⟨e, ⟨v, h1, h2⟩, h3⟩; exact ⟨v, h1, e, h2, h3⟩
  | enforce v k ih =>
    simp only [Syn.bind, Syn.satBy, ih]
    constructor
    · rintro ⟨h1, e, h2, h3⟩; exact ⟨e, ⟨h1, h2⟩, h3⟩
    · rintro ⟨e, ⟨h1, h2⟩, h3⟩; exact ⟨h1, e, h2, h3⟩
  | check e k ih => simp only [Syn.bind, Syn.satBy, ih]
  | panic => simp [Syn.bind, Syn.satBy]

theorem Syn.satBy_pure (a r : α) : (pure a : Syn F α).satBy S r ↔ r = a := Iff.rfl

end Ragu.Gadget

namespace Ragu.Props
open Ragu Ragu.Circuit Ragu.Registry Ragu.Spec Ragu.Gadget Ragu.Pcd
variable {F : Type} [Field F] [DecidableEq F]

/-- As `holds_sat`; every value is a coefficient of the trace. -/
theorem holds_satBy {E : Env F} {n : ℕ} {R : Registry F} {i : ℕ} {c : Circ F} (h : Holds E n R i c)
    {x : Syn F (List F)} (hx : Realizes .base c fun _ => x) {r : Sparse.Poly F} (hg : GatesHold n r)
    {inst : List F} (hs : Satisfies (assignment n (floorPlan c.counts) r) c inst) :
    x.satBy (fun a => ∃ k, a = coeff r k) inst := by
  obtain ⟨k, hb, hk⟩ := hx
  obtain ⟨s, env, hrun, hz, hout, hone⟩ := hs
  obtain ⟨hn, hN, -⟩ := circuitY_coeff h (0 : F)
  have hfit : StagesFit .base := ((C28_exact .base k).2.1).1 ⟨_, hb⟩
  have hb' := hb
  rw [multiStage_eq .base k hfit, Except.ok.injEq] at hb'
  have hfits := fits_seq _ _ _ (circ_fits c hn hN.le).2
  have hk0 : c.body = k := hb'.symm
  rw [hk0] at hfits hrun
  have hsat := sem_satBy (N := 4 * n) hg hone k _ _ _ _ hrun hfits hz
  obtain ⟨r', s1, s2⟩ := (hk [] rfl).soundBy hsat
  rw [hone] at hout
  rw [hout, Except.ok.injEq] at s2
  rw [s2]
  exact s1

variable {N : ℕ}

/-- As `program_sat`. -/
theorem program_satBy {S : F → Prop} (hN : 0 < N) {s : StepProgram F} {w : s.W} {l r h : List F}
    (hl : l.length = N) (hr : r.length = N)
    (hs : (adapterWires (s.adapter N w)).satBy S (l ++ r ++ h)) : StepSatBy S N s l r h := by
  simp only [adapterWires, StepProgram.adapter, Syn.satBy_bind, Syn.satBy_pure] at hs
  obtain ⟨x, ⟨g, hg, rfl⟩, hs⟩ := hs
  split at hs
  · next o ho =>
    obtain ⟨ls, rs, os, e1, e2, e3, h1, h2, h3, e4, -⟩ := (C62_adapter hN s.left s.right s.output
      (l := .gadget g.1) (r := .gadget g.2.1) (o := .gadget g.2.2.1) trivial trivial trivial g.2.2.2 o).1 ho
    simp only [Syn.satBy_pure] at hs
    rw [e4, List.map_append, List.map_append] at hs
    obtain ⟨rfl, rfl, rfl⟩ := append₃_inj hs (by simp [hl, h1]) (by simp [hr, h2])
    exact ⟨w, g.1, g.2.1, g.2.2.1, g.2.2.2, hg, padded_wires hN e1, padded_wires hN e2, padded_wires hN e3⟩
  · exact hs.elim

end Ragu.Props

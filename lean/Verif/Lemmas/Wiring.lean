/-
The evaluators of `s(x, Y)` and `s(x, y)` compute the wiring polynomial.
-/
import Verif.Lemmas.Metrics
import Verif.Model.Wiring
import Verif.Props.Util
import Verif.Props.Sparse
import Mathlib.Tactic.FieldSimp

set_option linter.unusedSectionVars false

namespace Ragu.Circuit
open Ragu

section
variable {F : Type}

theorem run_seq {W σ : Type} (D : Driver F W σ) (p q : Prog F) : ∀ s e,
    run D (p.seq q) s e = (run D p s e >>= fun r => run D q r.1 r.2) := by
  induction p with
  | done => intro s e; rfl
  | gate va vb vc vd k ih =>
    intro s e; simp only [Prog.seq, run]
    cases h : D.gate va vb vc vd s with
    | error x => rfl
    | ok r => exact ih _ _
  | mul va vb vc k ih =>
    intro s e; simp only [Prog.seq, run]
    cases h : D.mul va vb vc s with
    | error x => rfl
    | ok r => exact ih _ _
  | alloc v k ih =>
    intro s e; simp only [Prog.seq, run]
    cases h : D.alloc v s with
    | error x => rfl
    | ok r => exact ih _ _
  | add lc k ih =>
    intro s e; simp only [Prog.seq, run]
    cases h : resolveLc D.one e lc with
    | error x => rfl
    | ok l =>
      simp only [bind_ok]
      cases h : D.add l s with
      | error x => rfl
      | ok r => exact ih _ _
  | enforce lc k ih =>
    intro s e; simp only [Prog.seq, run]
    cases h : resolveLc D.one e lc with
    | error x => rfl
    | ok l =>
      simp only [bind_ok]
      cases h : D.enforce l s with
      | error x => rfl
      | ok r => exact ih _ _
  | routine call b k ihb ihk =>
    intro s e; simp only [Prog.seq, run]
    cases h : D.enter call s with
    | error x => rfl
    | ok s0 =>
      simp only [bind_ok]
      cases h : run D b s0 e with
      | error x => rfl
      | ok r =>
        simp only [bind_ok]
        cases h : D.leave call s r.1 with
        | error x => rfl
        | ok s' => exact ihk _ _
  | clone w k ih =>
    intro s e; simp only [Prog.seq, run]
    cases h : resolve D.one e (.idx w) with
    | error x => rfl
    | ok l =>
      simp only [bind_ok]
      cases h : D.clone l s with
      | error x => rfl
      | ok r => exact ih _ _
  | drop w k ih =>
    intro s e; simp only [Prog.seq, run]
    cases h : resolve D.one e (.idx w) with
    | error x => rfl
    | ok l =>
      simp only [bind_ok]
      cases h : D.drop l s with
      | error x => rfl
      | ok r => exact ih _ _

theorem posRun_seq (p q : Prog F) : ∀ s, posRun (p.seq q) s = posRun q (posRun p s) := by
  induction p with
  | done => intro s; rfl
  | gate va vb vc vd k ih | mul va vb vc k ih | alloc v k ih | add lc k ih | enforce lc k ih
  | clone w k ih | drop w k ih => intro s; exact ih _
  | routine call b k ihb ihk => intro s; exact ihk _

theorem handles_seq (p q : Prog F) : ∀ h,
    handles (p.seq q) h = (handles p h).bind (handles q) := by
  induction p with
  | done => intro h; rfl
  | gate va vb vc vd k ih | mul va vb vc k ih | alloc v k ih => intro h; exact ih _
  | add lc k ih | enforce lc k ih | clone w k ih | drop w k ih =>
    intro h; simp only [Prog.seq, handles]; split
    · exact ih _
    · rfl
  | routine call b k ihb ihk =>
    intro h; simp only [Prog.seq, handles]
    cases hb : handles b h with
    | none => rfl
    | some h1 => exact ihk _

theorem Prog.seq_assoc (p q r : Prog F) : (p.seq q).seq r = p.seq (q.seq r) := by
  induction p with
  | done => rfl
  | gate va vb vc vd k ih | mul va vb vc k ih | alloc v k ih | add lc k ih | enforce lc k ih
  | clone w k ih | drop w k ih => simp [Prog.seq, ih]
  | routine call b k ihb ihk => simp [Prog.seq, ihk]

/-- The output constraints alone. -/
def outsProg (outs : List WRef) : Prog F := outs.foldr (fun w k => .enforce [.add w] k) .done

/-- The handles dropped at the end. -/
def dropsProg (l : List ℕ) : Prog F := l.foldr .drop .done

theorem epilogue_eq (outs : List WRef) (cl : List ℕ) :
    (epilogue outs cl : Prog F) =
      (outsProg outs).seq (.enforce [.add .one] (dropsProg cl)) := by
  induction outs with
  | nil => rfl
  | cons w r ih =>
    simp only [epilogue, outsProg, List.foldr_cons, Prog.seq] at ih ⊢
    rw [ih]

theorem main_eq (c : Circ F) :
    c.main = (c.body.seq (outsProg c.outs)).seq (.enforce [.add .one] (dropsProg c.cleanup)) := by
  rw [Circ.main, epilogue_eq, Prog.seq_assoc]

theorem posRun_drops (l : List ℕ) (p : Pos) : posRun (dropsProg (F := F) l) p = p := by
  induction l with
  | nil => rfl
  | cons i r ih => exact ih

theorem posRun_main (c : Circ F) (p : Pos) :
    posRun c.main p = (posRun (c.body.seq (outsProg c.outs)) p).enforce := by
  rw [main_eq, posRun_seq]
  exact posRun_drops _ _

end

variable {F : Type} [Field F] [DecidableEq F]

/-! ### A driver that does nothing, to prove facts about the meaning function -/

/-- The driver that accepts everything. -/
def unitD : Driver F Unit Unit where
  one := ()
  gate _ _ _ _ _ := .ok ((), (), (), (), ())
  mul _ _ _ _ := .ok ((), (), (), ())
  alloc _ _ := .ok ((), ())
  add _ _ := .ok ((), ())
  enforce _ _ := .ok ()
  enter _ _ := .ok ()
  leave _ _ _ := .ok ()
  clone _ _ := .ok ()
  drop _ _ := .ok ()

/-- The meaning of a well-used circuit that fits its floor plan exists. -/
theorem constraints_eq {φ : Base → F} {c : Circ F} {s : Sem F} {es : List F}
    (h : run (semD φ) c.main { pos := Pos.gate {} } [] = .ok (s, es)) :
    constraints φ c = s.log := by
  have : orchestrate (semD φ) c {} = run (semD φ) c.main { pos := Pos.gate {} } [] := rfl
  simp [constraints, this, h]

theorem lcVal_zero (g : F) (lc : List (LcStep F F))
    (h : ∀ w c, LcStep.term w c ∈ lc → w = 0) : lcVal g lc = 0 := by
  induction lc generalizing g with
  | nil => rfl
  | cons st r ih =>
    cases st with
    | gain c => exact ih _ (fun w c hm => h w c (List.mem_cons_of_mem _ hm))
    | term w c =>
      rw [lcVal, h w c (by simp), ih _ (fun w c hm => h w c (List.mem_cons_of_mem _ hm))]
      ring

theorem mem_resolveLc {W : Type} (one : W) (e : List W) (P : W → Prop) (h1 : P one)
    (he : ∀ w ∈ e, P w) (lc : List (LcStep F WRef)) : ∀ {l}, resolveLc one e lc = .ok l →
    ∀ w c, LcStep.term w c ∈ l → P w := by
  induction lc with
  | nil => intro l h; simp only [resolveLc, Except.ok.injEq] at h; subst h; simp
  | cons st r ih =>
    intro l h w c hm
    cases st with
    | gain c' =>
      simp only [resolveLc] at h
      cases q : resolveLc one e r with
      | error x => simp [q, bind, Except.bind] at h
      | ok m =>
        simp only [q, bind_ok, Except.ok.injEq] at h
        subst h
        exact ih q w c (by simpa using hm)
    | term w' c' =>
      simp only [resolveLc] at h
      cases p : resolve one e w' with
      | error x => simp [p, bind, Except.bind] at h
      | ok v =>
      cases q : resolveLc one e r with
      | error x => simp [p, q, bind, Except.bind] at h
      | ok m =>
        simp only [p, q, bind_ok, Except.ok.injEq] at h
        subst h
        rcases List.mem_cons.1 hm with hm | hm
        · simp only [LcStep.term.injEq] at hm
          rw [hm.1]
          cases w' with
          | one => simp only [resolve, Except.ok.injEq] at p; rw [← p]; exact h1
          | idx i =>
            simp only [resolve] at p
            cases hi : e[i]? with
            | none => simp [hi] at p
            | some z =>
              simp only [hi, Except.ok.injEq] at p
              rw [← p]; exact he z (List.mem_of_getElem? hi)
        · exact ih q w c hm

/-- With every base wire but one at zero and that one unused, every value is zero. -/
def ZeroRel (φ : Base → F) (_ : Unit) (s : Sem F) (es : List F) (h : List ℕ) (_ : Unit)
    (e : List Unit) : Prop :=
  (h.length = es.length ∧ h.length = e.length) ∧ (∀ w ∈ es, w = 0) ∧ (∀ r ∈ s.log, r.val = 0) ∧
  (s.pos.seg = 0 → 1 ≤ s.pos.gates) ∧ (∀ i, s.pos.pend = some i → φ ⟨.d, s.pos.seg, i⟩ = 0) ∧
  1 ≤ s.pos.nseg

theorem zero_sim {φ : Base → F} {fp : List Seg} {n N : ℕ} (h1 : φ ⟨.b, 0, 0⟩ = 0)
    (h0 : ∀ k seg loc sg, fp[seg]? = some sg → sg.gateStart + loc < n →
      (seg = 0 → 1 ≤ loc) → φ ⟨k, seg, loc⟩ = 0) :
    Sim (unitD (F := F)) φ fp n N (ZeroRel φ) where
  len h := h.1
  gate := by
    intro c s es h t e _ _ _ _ hR hg
    obtain ⟨sg, hsg, _, hn⟩ := hg
    obtain ⟨hl, hes, hlog, hp, hpend, hns⟩ := hR
    have hz := fun k => h0 k s.pos.seg s.pos.gates sg hsg hn hp
    refine ⟨(), (), (), (), (), rfl, ⟨by simp [hl.1], by simp [hl.2]⟩, ?_, hlog,
      fun _ => by simp [Pos.gate], hpend, hns⟩
    intro w hw
    simp only [List.mem_append, List.mem_cons, List.not_mem_nil, or_false, hz] at hw
    rcases hw with hw | hw
    · exact hes w hw
    · tauto
  mul := by
    intro c s es h t e _ _ _ hR hg
    obtain ⟨sg, hsg, _, hn⟩ := hg
    obtain ⟨hl, hes, hlog, hp, hpend, hns⟩ := hR
    have hz := fun k => h0 k s.pos.seg s.pos.gates sg hsg hn hp
    refine ⟨(), (), (), (), rfl, ⟨by simp [hl.1], by simp [hl.2]⟩, ?_, hlog,
      fun _ => by simp [Pos.gate], hpend, hns⟩
    intro w hw
    simp only [List.mem_append, List.mem_cons, List.not_mem_nil, or_false, hz] at hw
    rcases hw with hw | hw
    · exact hes w hw
    · tauto
  alloc := by
    intro c s es h t e _ hR hg
    obtain ⟨hl, hes, hlog, hp, hpend, hns⟩ := hR
    have hval : φ s.pos.allocBase = 0 := by
      cases hq : s.pos.pend with
      | some i => simp only [Pos.allocBase, hq]; exact hpend i hq
      | none =>
        obtain ⟨sg, hsg, _, hn⟩ := hg hq
        simp only [Pos.allocBase, hq]; exact h0 _ _ _ sg hsg hn hp
    refine ⟨(), (), rfl, ⟨by simp [hl.1], by simp [hl.2]⟩, ?_, hlog, ?_, ?_, ?_⟩
    · intro w hw
      simp only [List.mem_append, List.mem_cons, List.not_mem_nil, or_false] at hw
      rcases hw with hw | hw
      · exact hes w hw
      · rw [hw, hval]
    · cases hq : s.pos.pend <;> simp only [Pos.alloc, hq] <;> intro h' <;> have := hp h' <;> omega
    · cases hq : s.pos.pend with
      | some i => simp [Pos.alloc, hq]
      | none =>
        obtain ⟨sg, hsg, _, hn⟩ := hg hq
        intro i hi
        simp only [Pos.alloc, hq, Option.some.injEq] at hi ⊢
        subst hi
        exact h0 _ _ _ sg hsg hn hp
    · cases hq : s.pos.pend <;> simpa [Pos.alloc, hq] using hns
  add := by
    intro c s es h t e lc lcS lcE hR hu hS hE
    obtain ⟨hl, hes, hlog, hp, hpend, hns⟩ := hR
    refine ⟨(), (), rfl, ⟨by simp [hl.1], by simp [hl.2]⟩, ?_, hlog, hp, hpend, hns⟩
    intro w hw
    simp only [List.mem_append, List.mem_cons, List.not_mem_nil, or_false] at hw
    rcases hw with hw | hw
    · exact hes w hw
    · rw [hw]; exact lcVal_zero _ _ (mem_resolveLc _ _ (fun w => w = 0) h1 hes lc hS)
  enforce := by
    intro c s es h t e lc lcS lcE hR hu hS hE _
    obtain ⟨hl, hes, hlog, hp, hpend, hns⟩ := hR
    refine ⟨(), rfl, hl, hes, ?_, hp, hpend, hns⟩
    intro r hr
    simp only [List.mem_append, List.mem_cons, List.not_mem_nil, or_false] at hr
    rcases hr with hr | hr
    · exact hlog r hr
    · rw [hr]; exact lcVal_zero _ _ (mem_resolveLc _ _ (fun w => w = 0) h1 hes lc hS)
  routine := by
    intro c s es h t e sg call hR hsg
    obtain ⟨hl, hes, hlog, hp, hpend, hns⟩ := hR
    refine ⟨(), (), rfl, ⟨hl, hes, by simp, ?_, by simp [Pos.enter], by simp [Pos.enter]⟩, ?_⟩
    · simp only [Pos.enter]; omega
    · intro s1 es' h' t1 e' hR1 hseg hns1 _ _
      obtain ⟨hl1, hes1, hlog1, hp1, hpend1, hns1'⟩ := hR1
      refine ⟨(), rfl, hl1, hes1, ?_, hp, hpend, hns1'⟩
      intro r hr
      rcases List.mem_append.1 hr with hr | hr
      · exact hlog r hr
      · exact hlog1 r hr
  clone := by
    intro c s es h t e i w hR _ _
    obtain ⟨hl, hr⟩ := hR
    exact ⟨(), rfl, by simpa using hl, hr⟩
  drop := by
    intro c s es h t e i w hR _ _
    obtain ⟨hl, hr⟩ := hR
    exact ⟨(), rfl, by simpa using hl, hr⟩

/-- Where constraints can be: in their segment, and in the current segment only
below the current count. -/
def PlaceRel (fp : List Seg) (_ : Unit) (s : Sem F) (es : List F) (h : List ℕ) (_ : Unit)
    (e : List Unit) : Prop :=
  (h.length = es.length ∧ h.length = e.length) ∧ s.pos.seg < s.pos.nseg ∧
  ∀ r ∈ s.log, s.pos.seg ≤ r.seg ∧ (r.seg = s.pos.seg → r.loc < s.pos.cons) ∧
    ∃ sg, fp[r.seg]? = some sg ∧ r.loc < sg.numCons

theorem place_sim {φ : Base → F} {fp : List Seg} {n N : ℕ} :
    Sim (unitD (F := F)) φ fp n N (PlaceRel fp) where
  len h := h.1
  gate := by
    intro c s es h t e _ _ _ _ hR hg
    exact ⟨(), (), (), (), (), rfl, ⟨by simp [hR.1.1], by simp [hR.1.2]⟩, hR.2⟩
  mul := by
    intro c s es h t e _ _ _ hR hg
    exact ⟨(), (), (), (), rfl, ⟨by simp [hR.1.1], by simp [hR.1.2]⟩, hR.2⟩
  alloc := by
    intro c s es h t e _ hR hg
    refine ⟨(), (), rfl, ⟨by simp [hR.1.1], by simp [hR.1.2]⟩, ?_⟩
    have := hR.2
    cases hq : s.pos.pend <;> simpa [Pos.alloc, hq] using this
  add := by
    intro c s es h t e lc lcS lcE hR hu hS hE
    exact ⟨(), (), rfl, ⟨by simp [hR.1.1], by simp [hR.1.2]⟩, hR.2⟩
  enforce := by
    intro c s es h t e lc lcS lcE hR hu hS hE hc
    obtain ⟨hl, hns, hlog⟩ := hR
    refine ⟨(), rfl, hl, hns, ?_⟩
    intro r hr
    simp only [List.mem_append, List.mem_cons, List.not_mem_nil, or_false] at hr
    simp only [Pos.enforce]
    rcases hr with hr | hr
    · obtain ⟨a, b, c⟩ := hlog r hr
      exact ⟨a, fun h => by have := b h; omega, c⟩
    · subst hr
      obtain ⟨sg, h1, h2, _⟩ := hc
      exact ⟨le_rfl, fun _ => Nat.lt_succ_self _, sg, h1, h2⟩
  routine := by
    intro c s es h t e sg call hR hsg
    obtain ⟨hl, hns, hlog⟩ := hR
    refine ⟨(), (), rfl, ⟨hl, by simp [Pos.enter], by simp⟩, ?_⟩
    intro s1 es' h' t1 e' hR1 hseg hns1 _ _
    obtain ⟨hl1, hns1', hlog1⟩ := hR1
    refine ⟨(), rfl, hl1, ?_, ?_⟩
    · simp only [Pos.leave]; omega
    · intro r hr
      simp only [Pos.leave]
      rcases List.mem_append.1 hr with hr | hr
      · exact hlog r hr
      · obtain ⟨a, b, c⟩ := hlog1 r hr
        rw [hseg] at a
        exact ⟨by omega, fun h => by omega, c⟩
  clone := by
    intro c s es h t e i w hR _ _
    exact ⟨(), rfl, by simpa using hR.1, hR.2⟩
  drop := by
    intro c s es h t e i w hR _ _
    exact ⟨(), rfl, by simpa using hR.1, hR.2⟩

/-- Running drops changes nothing in the meaning. -/
theorem sem_drops {φ : Base → F} (l : List ℕ) : ∀ {s es s' es'},
    run (semD φ) (dropsProg l) s es = .ok (s', es') → s' = s := by
  induction l with
  | nil => intro s es s' es' h; simp only [dropsProg, List.foldr_nil, run, Except.ok.injEq,
      Prod.mk.injEq] at h; exact h.1.symm
  | cons i r ih =>
    intro s es s' es' h
    simp only [dropsProg, List.foldr_cons, run] at h
    cases q : resolve (semD φ).one es (.idx i) with
    | error x => simp [q, bind, Except.bind] at h
    | ok v =>
      simp only [q, bind_ok] at h
      exact ih h

/-- The constraints of a circuit end with the ONE constraint, and all others have
a positive exponent. -/
theorem log_split {φ : Base → F} {c : Circ F} (hu : c.WellUsed) {n N : ℕ}
    (hn : totalGates c.counts ≤ n) (hN : totalCons c.counts ≤ N) :
    ∃ log, constraints φ c = log ++ [⟨0, (posRun c.main (Pos.gate {})).cons - 1, φ ⟨.b, 0, 0⟩⟩] ∧
      ∀ r ∈ log, (r.seg = 0 → r.loc < (posRun c.main (Pos.gate {})).cons - 1) ∧
        ∃ sg, (floorPlan c.counts)[r.seg]? = some sg ∧ r.loc < sg.numCons := by
  obtain ⟨h', hh, _⟩ := hu
  have hf := (circ_fits c hn hN).2
  set fp := floorPlan c.counts with hfp
  have hR0 : PlaceRel fp () { pos := Pos.gate {}, log := [] } ([] : List F) [] () [] :=
    ⟨⟨rfl, rfl⟩, by simp [Pos.gate], by simp⟩
  rw [main_eq, handles_seq, Option.bind_eq_some_iff] at hh
  obtain ⟨h1, hh1, hh2⟩ := hh
  have hf1 : Fits fp n N (c.body.seq (outsProg c.outs)) (Pos.gate {}) := by
    have hb : ∀ sg ∈ fp, sg.gateStart + sg.numGates ≤ n ∧ sg.consStart + sg.numCons ≤ N := by
      intro sg hm
      have := floorPlanFrom_bound c.counts 0 0 sg hm
      omega
    have hsub : ∀ (p q : Prog F), ∃ r, subCounts (p.seq q) = subCounts p ++ r := by
      intro p q
      induction p with
      | done => exact ⟨_, rfl⟩
      | gate va vb vc vd k ih | mul va vb vc k ih | alloc v k ih | add lc k ih
      | enforce lc k ih | clone w k ih | drop w k ih => exact ih
      | routine call b k ihb ihk =>
        obtain ⟨r, hr⟩ := ihk
        exact ⟨r, by simp [Prog.seq, subCounts, hr]⟩
    obtain ⟨rest, hrest⟩ := hsub (c.body.seq (outsProg c.outs))
      (.enforce [.add .one] (dropsProg c.cleanup))
    rw [← main_eq] at hrest
    have h0 : fp[0]? = some ⟨0, 0, (posRun c.main (Pos.gate {})).gates,
      (posRun c.main (Pos.gate {})).cons⟩ := rfl
    refine fits_of hb _ _ rest _ h0 ?_ ?_ ?_
    · rw [posRun_main]; exact le_rfl
    · rw [posRun_main]; simp [Pos.enforce]
    · rw [List.map_drop, hfp, floorPlan, floorPlanFrom_counts]
      simp [Circ.counts, Pos.gate, hrest]
  obtain ⟨s1, es1, t1, e1, r1, _, hR1, hp1⟩ := sim_run (place_sim (φ := φ) (fp := fp) (n := n) (N := N))
    _ () _ _ _ _ _ h1 hR0 hh1 hf1
  -- the last constraint
  have hrun : run (semD φ) c.main { pos := Pos.gate {} } [] =
      run (semD φ) (.enforce [.add .one] (dropsProg c.cleanup)) s1 es1 := by
    rw [main_eq, run_seq, r1]; rfl
  obtain ⟨hl, hlog⟩ := hR1
  have hR2 : PlaceRel fp () s1 es1 h1 () (List.replicate h1.length ()) :=
    ⟨⟨hl.1, by simp⟩, hlog⟩
  have hfull : ∃ s2 es2, run (semD φ) (.enforce [.add .one] (dropsProg c.cleanup)) s1 es1
      = .ok (s2, es2) := by
    have hR0' : PlaceRel fp () { pos := Pos.gate {}, log := [] } ([] : List F) [] () [] := hR0
    obtain ⟨s2, es2, _, _, r2, _⟩ := sim_run (place_sim (φ := φ) (fp := fp) (n := n) (N := N))
      c.main () _ _ _ _ _ h' hR0' (by rw [main_eq, handles_seq, hh1]; exact hh2) hf
    exact ⟨s2, es2, by rw [← hrun]; exact r2⟩
  obtain ⟨s2, es2, r2⟩ := hfull
  rw [r2] at hrun
  have hs2 : s2 = { pos := s1.pos.enforce, log := s1.log ++ [⟨s1.pos.seg, s1.pos.cons,
      φ ⟨.b, 0, 0⟩⟩] } := by
    simp only [run, resolveLc, resolve, LcStep.add, bind_ok] at r2
    have := sem_drops _ r2
    rw [this]
    simp [semD, lcVal, Coeff.value]
  have hcons : s1.pos.cons = (posRun c.main (Pos.gate {})).cons - 1 := by
    rw [posRun_main, hp1]; simp [Pos.enforce]
  have hseg : s1.pos.seg = 0 := by rw [hp1, posRun_seg]; rfl
  refine ⟨s1.log, ?_, ?_⟩
  · rw [constraints_eq hrun, hs2, ← hcons, hseg]
  · intro r hr
    obtain ⟨_, b, c⟩ := hlog.2 r hr
    rw [hseg] at b
    exact ⟨fun h => by rw [← hcons]; exact b h, c⟩

theorem totalCons_take_succ {rs : List (ℕ × ℕ)} {i : ℕ} (hi : 0 < i) (r : ℕ × ℕ)
    (h0 : rs[0]? = some r) : r.2 ≤ totalCons (rs.take i) := by
  cases rs with
  | nil => simp at h0
  | cons a rs =>
    obtain ⟨j, rfl⟩ : ∃ j, i = j + 1 := ⟨i - 1, by omega⟩
    simp only [List.getElem?_cons_zero, Option.some.injEq] at h0
    subst h0
    simp [totalCons]

/-- At `y = 0` only the ONE constraint is left. -/
theorem weigh_zero {φ : Base → F} {c : Circ F} (hu : c.WellUsed) :
    weigh (floorPlan c.counts) 0 (constraints φ c) = φ ⟨.b, 0, 0⟩ := by
  obtain ⟨log, hlog, hpl⟩ := log_split (φ := φ) hu le_rfl le_rfl
  have hm : 1 ≤ (posRun c.main (Pos.gate {})).cons := by
    rw [posRun_main]; simp [Pos.enforce]
  have h0 : (floorPlan c.counts)[0]? = some ⟨0, 0, (posRun c.main (Pos.gate {})).gates,
      (posRun c.main (Pos.gate {})).cons⟩ := rfl
  rw [hlog, weigh, List.map_append, List.sum_append]
  have hz : (log.map fun r => (0 : F) ^ consExp (floorPlan c.counts) r.seg r.loc * r.val).sum = 0 := by
    apply List.sum_eq_zero
    intro v hv
    simp only [List.mem_map] at hv
    obtain ⟨r, hr, rfl⟩ := hv
    obtain ⟨ha, sg, hsg, hlt⟩ := hpl r hr
    have hpos : consExp (floorPlan c.counts) r.seg r.loc ≠ 0 := by
      simp only [consExp, hsg, Option.map_some, Option.getD_some]
      rcases Nat.eq_zero_or_pos r.seg with h | h
      · have := ha h
        rw [h] at hsg
        rw [h0, Option.some.injEq] at hsg
        subst hsg
        simp only
        omega
      · rw [floorPlan, floorPlan_getElem] at hsg
        simp only [Option.map_eq_some_iff] at hsg
        obtain ⟨r', _, rfl⟩ := hsg
        have := totalCons_take_succ h (rs := c.counts) _ rfl
        simp only [Circ.counts] at this hlt ⊢
        omega
    rw [zero_pow hpos, zero_mul]
  rw [hz]
  simp [consExp, h0]

/-- At `x = 0` the wiring polynomial vanishes. -/
theorem wiring_x_zero {c : Circ F} (hu : c.WellUsed) {n : ℕ} (hn : totalGates c.counts ≤ n)
    (y : F) : wiringAt n (floorPlan c.counts) c 0 y = 0 := by
  obtain ⟨h', hh, _⟩ := hu
  have hf := circ_fits c hn (le_refl (totalCons c.counts))
  have hn1 : 0 < n := by
    obtain ⟨⟨sg, _, _, h⟩, _⟩ := hf
    omega
  set fp := floorPlan c.counts with hfp
  have h0 : fp[0]? = some ⟨0, 0, (posRun c.main (Pos.gate {})).gates,
      (posRun c.main (Pos.gate {})).cons⟩ := rfl
  have hg1 : 1 ≤ (posRun c.main (Pos.gate {})).gates := (posRun_mono c.main (Pos.gate {})).1
  set φ : Base → F := fun b => 0 ^ wiringExp n (absGate fp b) b.kind with hφ
  have h1 : φ ⟨.b, 0, 0⟩ = 0 := by
    simp only [hφ, wiringExp, absGate]
    exact zero_pow (by omega)
  have hz : ∀ k seg loc sg, fp[seg]? = some sg → sg.gateStart + loc < n →
      (seg = 0 → 1 ≤ loc) → φ ⟨k, seg, loc⟩ = 0 := by
    intro k seg loc sg hsg hlt hs
    simp only [hφ]
    apply zero_pow
    simp only [absGate, hsg, Option.map_some, Option.getD_some]
    have hpos : 0 < sg.gateStart + loc := by
      rcases Nat.eq_zero_or_pos seg with h | h
      · have := hs h; omega
      · rw [hfp, floorPlan, floorPlan_getElem] at hsg
        simp only [Option.map_eq_some_iff] at hsg
        obtain ⟨r', _, rfl⟩ := hsg
        have : (posRun c.main (Pos.gate {})).gates ≤ totalGates (c.counts.take seg) := by
          obtain ⟨j, rfl⟩ : ∃ j, seg = j + 1 := ⟨seg - 1, by omega⟩
          simp [Circ.counts, totalGates]
        simp only
        omega
    cases k <;> simp only [wiringExp] <;> omega
  have hR0 : ZeroRel φ () { pos := Pos.gate {}, log := [] } ([] : List F) [] () [] :=
    ⟨⟨rfl, rfl⟩, by simp, by simp, by simp [Pos.gate], by simp [Pos.gate], by simp [Pos.gate]⟩
  obtain ⟨s, es, _, _, r, _, hR, _⟩ := sim_run (zero_sim (n := n) (N := totalCons c.counts) h1 hz)
    c.main () _ _ _ _ _ h' hR0 hh hf.2
  rw [wiringAt, constraints_eq r, weigh]
  apply List.sum_eq_zero
  intro v hv
  simp only [List.mem_map] at hv
  obtain ⟨q, hq, rfl⟩ := hv
  rw [hR.2.2.1 q hq, mul_zero]

end Ragu.Circuit

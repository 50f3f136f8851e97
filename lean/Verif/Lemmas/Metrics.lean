/-
The counting driver computes the static counts.
-/
import Verif.Lemmas.Circuit

set_option linter.unusedSectionVars false

namespace Ragu.Circuit
variable {F : Type} [Field F]

theorem handles_length (prog : Prog F) : ∀ h h', handles prog h = some h' →
    h.length ≤ h'.length := by
  induction prog with
  | done => intro h h' hh; simp only [handles, Option.some.injEq] at hh; rw [hh]
  | gate _ _ _ _ k ih | mul _ _ _ k ih | alloc _ k ih =>
    intro h h' hh
    have := ih _ _ hh
    simp at this; omega
  | add lc k ih =>
    intro h h' hh
    simp only [handles] at hh
    split at hh
    · have := ih _ _ hh; simp at this; omega
    · exact absurd hh (by simp)
  | enforce lc k ih =>
    intro h h' hh
    simp only [handles] at hh
    split at hh
    · exact ih _ _ hh
    · exact absurd hh (by simp)
  | routine c b k ihb ihk =>
    intro h h' hh
    simp only [handles, Option.bind_eq_some_iff] at hh
    obtain ⟨h1, hh1, hh2⟩ := hh
    exact (ihb _ _ hh1).trans (ihk _ _ hh2)
  | clone w k ih | drop w k ih =>
    intro h h' hh
    simp only [handles] at hh
    split at hh
    · have := ih _ _ hh; simpa using this
    · exact absurd hh (by simp)

namespace Counter

theorem alloc_uncounted (s : Counter) (h : s.counting = false) :
    ∃ b, s.alloc = .ok { s with availD := b } := by
  unfold alloc
  split
  · exact ⟨false, rfl⟩
  · exact ⟨true, by simp [gate, h, bind_ok]⟩

theorem remap_uncounted (k : ℕ) : ∀ s : Counter, s.counting = false →
    ∃ b, remap k s = .ok { s with availD := b } := by
  induction k with
  | zero => intro s _; exact ⟨s.availD, rfl⟩
  | succ k ih =>
    intro s h
    obtain ⟨b, hb⟩ := alloc_uncounted s h
    obtain ⟨b', hb'⟩ := ih { s with availD := b } h
    exact ⟨b', by simp [remap, hb, bind_ok, hb']⟩

theorem enter_eq (call : Call) (s : Counter) (h : s.counting = true) :
    enter call s = .ok { s with
          segments := s.segments ++ [(0, 0)]
          current := s.segments.length
          availD := false } := by
  obtain ⟨b, hb⟩ := remap_uncounted call.nin
    { s with
          segments := s.segments ++ [(0, 0)]
          current := s.segments.length
          availD := false
          counting := false } rfl
  simp [enter, uncounted, hb, bind_ok, h]

theorem leave_eq (call : Call) (sv e : Counter) (h : e.counting = true) :
    leave call sv e = .ok { e with current := sv.current, availD := sv.availD } := by
  obtain ⟨b, hb⟩ := remap_uncounted call.nout
    { e with availD := false, current := sv.current, counting := false } rfl
  simp [leave, uncounted, hb, bind_ok, h]

/-- What the counter knows at position `p`. -/
structure Agrees (p : Pos) (s : Counter) : Prop where
  pend : s.availD = p.pend.isSome
  counting : s.counting = true
  here : s.segments[s.current]? = some (p.gates, p.cons)

theorem gate_eq {p : Pos} {s : Counter} (h : Agrees p s) :
    s.gate = .ok { s with
          numGates := s.numGates + 1
          segments := s.segments.set s.current (p.gates + 1, p.cons) } := by
  simp [gate, h.counting, bump, h.here, bind_ok]

theorem lt_of_here {p : Pos} {s : Counter} (h : Agrees p s) : s.current < s.segments.length := by
  have := h.here
  by_contra hc
  rw [List.getElem?_eq_none (by omega)] at this
  exact absurd this (by simp)

/-- The whole effect of running a program on the counter. -/
theorem run_eq (prog : Prog F) : ∀ (p : Pos) (s : Counter) (h h' : List ℕ) (e : List Unit),
    Agrees p s → h.length = e.length → handles prog h = some h' →
    ∃ e' b, h'.length = e'.length ∧
      run (driver (F := F)) prog s e = .ok
        ({ availD := b, current := s.current, counting := true,
           numGates := s.numGates + ((posRun prog p).gates - p.gates) + totalGates (subCounts prog),
           numCons := s.numCons + ((posRun prog p).cons - p.cons) + totalCons (subCounts prog),
           segments := s.segments.set s.current ((posRun prog p).gates, (posRun prog p).cons) ++
             subCounts prog }, e') := by
  induction prog with
  | done =>
    intro p s h h' e hA hl hh
    simp only [handles, Option.some.injEq] at hh
    subst hh
    refine ⟨e, s.availD, hl, ?_⟩
    have hlt := lt_of_here hA
    have hset : s.segments.set s.current (p.gates, p.cons) = s.segments := by
      have := hA.here
      rw [List.getElem?_eq_getElem hlt, Option.some.injEq] at this
      rw [← this, List.set_getElem_self]
    obtain ⟨a, cu, g, q, sg, cn⟩ := s
    have := hA.counting
    simp only at this hset
    subst this
    simp [run, posRun, subCounts, totalGates, totalCons, hset]
  | gate va vb vc vd k ih =>
    intro p s h h' e hA hl hh
    have hlt := lt_of_here hA
    have hA' : Agrees p.gate { s with
          numGates := s.numGates + 1
          segments := s.segments.set s.current (p.gates + 1, p.cons) } :=
      ⟨hA.pend, hA.counting, by simp [Pos.gate, hlt]⟩
    obtain ⟨e', b, hl', hr⟩ := ih p.gate _ _ h' (e ++ [(), (), (), ()]) hA' (by simp [hl]) hh
    refine ⟨e', b, hl', ?_⟩
    simp only [run, driver, gate_eq hA, bind_ok]
    simp only [driver] at hr
    rw [hr]
    have hm := posRun_mono k p.gate
    simp only [Pos.gate] at hm
    simp only [posRun, subCounts, List.set_set, Except.ok.injEq, Prod.mk.injEq, and_true,
      Pos.gate, Counter.mk.injEq, true_and]
    omega
  | mul va vb vc k ih =>
    intro p s h h' e hA hl hh
    have hlt := lt_of_here hA
    have hA' : Agrees p.gate { s with
          numGates := s.numGates + 1
          segments := s.segments.set s.current (p.gates + 1, p.cons) } :=
      ⟨hA.pend, hA.counting, by simp [Pos.gate, hlt]⟩
    obtain ⟨e', b, hl', hr⟩ := ih p.gate _ _ h' (e ++ [(), (), ()]) hA' (by simp [hl]) hh
    refine ⟨e', b, hl', ?_⟩
    simp only [run, driver, gate_eq hA, bind_ok]
    simp only [driver] at hr
    rw [hr]
    have hm := posRun_mono k p.gate
    simp only [Pos.gate] at hm
    simp only [posRun, subCounts, List.set_set, Except.ok.injEq, Prod.mk.injEq, and_true,
      Pos.gate, Counter.mk.injEq, true_and]
    omega
  | alloc v k ih =>
    intro p s h h' e hA hl hh
    have hlt := lt_of_here hA
    cases hp : p.pend with
    | some i =>
      have hav : s.availD = true := by rw [hA.pend, hp]; rfl
      have hA' : Agrees p.alloc { s with availD := false } :=
        ⟨by simp [Pos.alloc, hp], hA.counting, by simp [Pos.alloc, hp, hA.here]⟩
      obtain ⟨e', b, hl', hr⟩ := ih p.alloc _ _ h' (e ++ [()]) hA' (by simp [hl]) hh
      refine ⟨e', b, hl', ?_⟩
      have hal : (driver (F := F)).alloc v s = .ok ({ s with availD := false }, ()) := by
        simp [driver, alloc, hav, bind_ok]
      simp only [run, hal, bind_ok]
      rw [hr]
      have e1 : p.alloc.gates = p.gates := by simp [Pos.alloc, hp]
      have e2 : p.alloc.cons = p.cons := by simp [Pos.alloc, hp]
      simp only [posRun, subCounts, e1, e2]
    | none =>
      have hav : s.availD = false := by rw [hA.pend, hp]; rfl
      have hA' : Agrees p.alloc { s with
          availD := true
          numGates := s.numGates + 1
          segments := s.segments.set s.current (p.gates + 1, p.cons) } :=
        ⟨by simp [Pos.alloc, hp], hA.counting, by simp [Pos.alloc, hp, hlt]⟩
      obtain ⟨e', b, hl', hr⟩ := ih p.alloc _ _ h' (e ++ [()]) hA' (by simp [hl]) hh
      refine ⟨e', b, hl', ?_⟩
      have hal : (driver (F := F)).alloc v s = .ok ({ s with
          availD := true
          numGates := s.numGates + 1
          segments := s.segments.set s.current (p.gates + 1, p.cons) }, ()) := by
        simp [driver, alloc, hav, gate_eq hA, bind_ok]
      simp only [run, hal, bind_ok]
      rw [hr]
      have hm := posRun_mono k p.alloc
      have e1 : p.alloc.gates = p.gates + 1 := by simp [Pos.alloc, hp]
      have e2 : p.alloc.cons = p.cons := by simp [Pos.alloc, hp]
      simp only [posRun, subCounts, List.set_set, Except.ok.injEq, Prod.mk.injEq, and_true,
        Counter.mk.injEq, true_and, e1, e2] at hm ⊢
      omega
  | add lc k ih =>
    intro p s h h' e hA hl hh
    simp only [handles] at hh
    split at hh
    case isFalse => exact absurd hh (by simp)
    case isTrue hu =>
      obtain ⟨lcE, hE⟩ := resolveLc_ok () e h lc hl hu
      obtain ⟨e', b, hl', hr⟩ := ih p s _ h' (e ++ [()]) hA (by simp [hl]) hh
      refine ⟨e', b, hl', ?_⟩
      have : (driver (F := F)).one = () := rfl
      simp only [run, this, hE, bind_ok]
      exact hr
  | enforce lc k ih =>
    intro p s h h' e hA hl hh
    have hlt := lt_of_here hA
    simp only [handles] at hh
    split at hh
    case isFalse => exact absurd hh (by simp)
    case isTrue hu =>
      obtain ⟨lcE, hE⟩ := resolveLc_ok () e h lc hl hu
      have hA' : Agrees p.enforce { s with
          numCons := s.numCons + 1
          segments := s.segments.set s.current (p.gates, p.cons + 1) } :=
        ⟨hA.pend, hA.counting, by simp [Pos.enforce, hlt]⟩
      obtain ⟨e', b, hl', hr⟩ := ih p.enforce _ _ h' e hA' hl hh
      refine ⟨e', b, hl', ?_⟩
      have : (driver (F := F)).one = () := rfl
      have hen : (driver (F := F)).enforce lcE s = .ok { s with
          numCons := s.numCons + 1
          segments := s.segments.set s.current (p.gates, p.cons + 1) } := by
        simp [driver, Counter.enforce, bump, hA.here, bind_ok]
      simp only [run, this, hE, bind_ok, hen]
      rw [hr]
      have hm := posRun_mono k p.enforce
      simp only [Pos.enforce] at hm
      simp only [posRun, subCounts, List.set_set, Except.ok.injEq, Prod.mk.injEq, and_true,
        Pos.enforce, Counter.mk.injEq, true_and]
      omega
  | routine call b k ihb ihk =>
    intro p s h h' e hA hl hh
    have hlt := lt_of_here hA
    simp only [handles, Option.bind_eq_some_iff] at hh
    obtain ⟨h1, hh1, hh2⟩ := hh
    have hent : (driver (F := F)).enter call s = _ := enter_eq call s hA.counting
    have hA0 : Agrees p.enter { s with
          segments := s.segments ++ [(0, 0)]
          current := s.segments.length
          availD := false } :=
      ⟨rfl, hA.counting, by simp [Pos.enter]⟩
    obtain ⟨e1, b1, hl1, hr1⟩ := ihb p.enter _ h h1 e hA0 hl hh1
    have hi := posRun_indep b p.enter {} rfl rfl rfl
    simp only [List.set_append_right _ _ (le_refl _), Nat.sub_self, List.set_cons_zero] at hr1
    have hlv := leave_eq call s ((Counter.mk b1 s.segments.length
        (s.numGates + ((posRun b p.enter).gates - p.enter.gates) + totalGates (subCounts b))
        (s.numCons + ((posRun b p.enter).cons - p.enter.cons) + totalCons (subCounts b))
        (s.segments ++ [((posRun b p.enter).gates, (posRun b p.enter).cons)] ++ subCounts b) true) : Counter) rfl
    have hA2 : Agrees (p.leave (posRun b p.enter))
        (Counter.mk s.availD s.current
        (s.numGates + ((posRun b p.enter).gates - p.enter.gates) + totalGates (subCounts b))
        (s.numCons + ((posRun b p.enter).cons - p.enter.cons) + totalCons (subCounts b))
        (s.segments ++ [((posRun b p.enter).gates, (posRun b p.enter).cons)] ++ subCounts b) true) :=
      ⟨hA.pend, rfl, by
        simp only [List.append_assoc]
        rw [List.getElem?_append_left hlt]; exact hA.here⟩
    obtain ⟨e', b', hl', hr⟩ := ihk _ _ _ h' e1 hA2 hl1 hh2
    refine ⟨e', b', hl', ?_⟩
    simp only [run, hent, bind_ok, hr1]
    have hlv' : (driver (F := F)).leave = leave := rfl
    rw [hlv', hlv, bind_ok, hr]
    simp only [posRun, subCounts, Except.ok.injEq, Prod.mk.injEq, and_true,
        Counter.mk.injEq, true_and, totalGates, totalCons, List.map_cons, List.map_append,
        List.sum_cons, List.sum_append, hi.1, hi.2]
    refine ⟨?_, ?_, ?_⟩
    · simp only [Pos.leave, Pos.enter]; omega
    · simp only [Pos.leave, Pos.enter]; omega
    · simp only [List.append_assoc]
      rw [List.set_append_left _ _ hlt]
      simp
  | clone i k ih =>
    intro p s h h' e hA hl hh
    simp only [handles] at hh
    split at hh
    case isFalse => exact absurd hh (by simp)
    case isTrue hu =>
      obtain ⟨w, hw, hE⟩ := resolve_set () e i h hl hu
      obtain ⟨e', b, hl', hr⟩ := ih p s _ h' e hA (by simp [hl]) hh
      refine ⟨e', b, hl', ?_⟩
      have : (driver (F := F)).one = () := rfl
      simp only [run, this, hE, bind_ok]
      exact hr
  | drop i k ih =>
    intro p s h h' e hA hl hh
    simp only [handles] at hh
    split at hh
    case isFalse => exact absurd hh (by simp)
    case isTrue hu =>
      obtain ⟨w, hw, hE⟩ := resolve_set () e i h hl hu
      obtain ⟨e', b, hl', hr⟩ := ih p s _ h' e hA (by simp [hl]) hh
      refine ⟨e', b, hl', ?_⟩
      have : (driver (F := F)).one = () := rfl
      simp only [run, this, hE, bind_ok]
      exact hr

end Counter

theorem metricsEval_eq (c : Circ F) (hu : c.WellUsed) :
    metricsEval c = .ok ⟨totalCons c.counts, totalGates c.counts, c.outs.length, c.counts⟩ := by
  obtain ⟨h', hh, _⟩ := hu
  have hA0 : Counter.Agrees {} ({} : Counter) := ⟨rfl, rfl, rfl⟩
  have hA : Counter.Agrees (Pos.gate {}) ({ numGates := 1, segments := [(1, 0)] } : Counter) :=
    ⟨rfl, rfl, rfl⟩
  obtain ⟨e', b, _, hr⟩ := Counter.run_eq c.main _ _ [] h' [] hA rfl hh
  have hm := posRun_mono c.main (Pos.gate {})
  have h1 : (1 : ℕ) ≤ (posRun c.main (Pos.gate {})).gates := hm.1
  have horch : orchestrate (Counter.driver (F := F)) c {} =
      run (Counter.driver (F := F)) c.main ({ numGates := 1, segments := [(1, 0)] } : Counter)
        [] := rfl
  unfold metricsEval
  rw [horch, hr, bind_ok]
  simp only [List.set_cons_zero, List.singleton_append, List.map_cons, List.sum_cons]
  rw [if_pos]
  · simp only [Except.ok.injEq, Metrics.mk.injEq, Circ.counts, totalGates, totalCons,
      List.map_cons, List.sum_cons, Pos.gate, true_and]
    simp only [Pos.gate] at h1
    constructor
    · omega
    · refine ⟨by omega, trivial⟩
  · simp only [totalGates, totalCons, Pos.gate] at h1 ⊢
    omega

end Ragu.Circuit

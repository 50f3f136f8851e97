/-
Properties C18 and C56: traces do not depend on scheduling, and the execution
drivers agree.
-/
import Verif.Lemmas.Exec
import Verif.Props.Circuit

set_option linter.unusedSectionVars false

namespace Ragu.Props
open Ragu Ragu.Circuit
variable {F : Type} [Field F] [DecidableEq F]

theorem body_handles {c : Circ F} (hu : c.WellUsed) : ∃ h, handles c.body [] = some h := by
  obtain ⟨h', hh, _⟩ := hu
  rw [Circ.main, handles_seq, Option.bind_eq_some_iff] at hh
  obtain ⟨h1, hh1, _⟩ := hh
  exact ⟨h1, hh1⟩

theorem canon_inline (prog : Prog F) : canon prog.inline = canon prog := by
  simp [canon, own_inline, dfs_inline]

/-- C18: whatever order deferred routines complete in, and however equal-looking
paths are sorted, the trace is the list of segments that running every routine in
place records, and the first segment is the root. -/
theorem C18_schedule {c : Circ F} (hu : c.WellUsed) {sorted : List (ASeg F)}
    (h : TraceEval c sorted) :
    (∃ s, run traceD c.body.inline (TraceState.new []) [] = .ok s ∧ s.1.sent = [] ∧
      sorted = s.1.segs) ∧
    sorted.head?.map Prod.fst = some [] := by
  obtain ⟨h', hh⟩ := body_handles hu
  obtain ⟨s, e, order, hr, hord, hperm, hsort⟩ := h
  obtain ⟨s0, e0, hr0, hp, _⟩ := trace_body hh
  rw [hr, Except.ok.injEq, Prod.mk.injEq] at hr0
  obtain ⟨rfl, rfl⟩ := hr0
  obtain ⟨s1, e1, hr1, _, hn1⟩ := trace_body (prog := c.body.inline)
    (by rw [handles_inline]; exact hh)
  obtain ⟨n1, n2⟩ := hn1 (noKnown_inline c.body)
  have hcan : sorted = canon c.body :=
    sorted_unique ((hperm.trans (List.Perm.append_left _ hord.flatten)).trans hp) hsort
      (canon_sorted c.body)
  refine ⟨⟨(s1, e1), hr1, n1, ?_⟩, ?_⟩
  · rw [n2, canon_inline, hcan]
  · rw [hcan]; rfl

/-- C18: some trace is always produced. -/
theorem C18_produced {c : Circ F} (hu : c.WellUsed) : ∃ sorted, TraceEval c sorted := by
  obtain ⟨h', hh⟩ := body_handles hu
  obtain ⟨s, e, hr, hp, _⟩ := trace_body hh
  exact ⟨canon c.body, s, e, s.sent, hr, List.Perm.refl _, hp.symm,
    (canon_sorted c.body).imp fun h => le_of_lt h⟩

/-- C18: circuits that differ only in which routine calls are deferred have the
same trace, under every schedule of either. -/
theorem C18_deferral {c c' : Circ F} (hu : c.WellUsed) (hu' : c'.WellUsed)
    (hb : c.body.inline = c'.body.inline) {t t' : List (ASeg F)} (h : TraceEval c t)
    (h' : TraceEval c' t') : t = t' := by
  obtain ⟨⟨s, hr, _, hs⟩, _⟩ := C18_schedule hu h
  obtain ⟨⟨s', hr', _, hs'⟩, _⟩ := C18_schedule hu' h'
  rw [hb, hr', Except.ok.injEq] at hr
  rw [hs, hs', hr]

theorem traceEval_segs {c : Circ F} (hu : c.WellUsed) {sorted : List (ASeg F)}
    (h : TraceEval c sorted) : sorted.map Prod.snd = segsOf c := by
  obtain ⟨h', hh⟩ := body_handles hu
  obtain ⟨s, e, order, hr, hord, hperm, hsort⟩ := h
  obtain ⟨s0, e0, hr0, hp, _⟩ := trace_body hh
  rw [hr, Except.ok.injEq, Prod.mk.injEq] at hr0
  obtain ⟨rfl, rfl⟩ := hr0
  have hcan : sorted = canon c.body :=
    sorted_unique ((hperm.trans (List.Perm.append_left _ hord.flatten)).trans hp) hsort
      (canon_sorted c.body)
  rw [hcan, segsOf]

/-- C18: assembling the trace of a circuit that fits succeeds under every
schedule, and the polynomial holds gate `i` of segment `s` at the place the floor
plan assigns to it; gate 0 holds the constant one and the blinding factor. -/
theorem C18_assemble {c : Circ F} (hu : c.WellUsed) {n : ℕ} (hn : totalGates c.counts ≤ n)
    {t : List (ASeg F)} (h : TraceEval c t) (alpha : F) :
    ∃ r, assemble n (floorPlan c.counts) (t.map Prod.snd) alpha = .ok r ∧
      Spec.WellFormed (4 * n) r ∧
      (∀ (s : ℕ) (path : List ℕ) (g : TSeg F), t[s]? = some (path, g) → ∀ i < g.a.length,
        (s = 0 → 1 ≤ i) →
        assignment n (floorPlan c.counts) r ⟨.a, s, i⟩ = g.a.getD i 0 ∧
        assignment n (floorPlan c.counts) r ⟨.b, s, i⟩ = g.b.getD i 0 ∧
        assignment n (floorPlan c.counts) r ⟨.c, s, i⟩ = g.c.getD i 0 ∧
        assignment n (floorPlan c.counts) r ⟨.d, s, i⟩ = g.d.getD i 0) ∧
      wireOf n r .a 0 = 0 ∧ wireOf n r .b 0 = 1 ∧ wireOf n r .c 0 = 0 ∧ wireOf n r .d 0 = alpha ∧
      ∀ i < n, totalGates c.counts ≤ i → ∀ k, wireOf n r k i = 0 := by
  have hseg := traceEval_segs hu h
  obtain ⟨r, h1, h2, h3⟩ := assemble_eq c hn alpha
  have hpos : 0 < totalGates c.counts := by
    have := (posRun_mono c.main (Pos.gate {})).1
    simp only [totalGates, Circ.counts, List.map_cons, List.sum_cons, Pos.gate] at this ⊢
    omega
  have hfl : ∀ k, ((segsOf c).map fun s => s.col k).flatten.length = totalGates c.counts := by
    intro k
    rw [flatten_length (fun s => s.col k) _ (fun s hs => col_length (segsOf_good c s hs) k),
      segsOf_lengths]
    rfl
  have hz : ∀ k, ((segsOf c).map fun s => s.col k).flatten.getD 0 0 = 0 := by
    intro k
    have hl : 0 < ((own c.body ⟨[0], [0], [0], [0]⟩ none).1.col k).length := by
      rw [col_length (segsOf_good c _ (List.mem_of_getElem? (root_get c)))]
      exact lt_of_lt_of_le (by simp) (own_mono c.body _ none)
    have := flatten_get (fun s : TSeg F => s.col k) (segsOf c) 0 _ 0 (root_get c) hl
    simp only [List.take_zero, List.map_nil, List.sum_nil, Nat.add_zero] at this
    rw [this, root_zero]
  refine ⟨r, by rw [hseg]; exact h1, h2, ?_, ?_, ?_, ?_, ?_, ?_⟩
  · intro s path g hg i hi h0
    have hs : (segsOf c)[s]? = some g := by
      rw [← hseg, List.getElem?_map, hg]; rfl
    exact ⟨assignment_eq c hn h3 (b := ⟨.a, s, i⟩) hs hi h0,
      assignment_eq c hn h3 (b := ⟨.b, s, i⟩) hs hi h0,
      assignment_eq c hn h3 (b := ⟨.c, s, i⟩) hs hi h0,
      assignment_eq c hn h3 (b := ⟨.d, s, i⟩) hs hi h0⟩
  · rw [h3 0 (by omega)]; exact hz .a
  · rw [h3 0 (by omega)]; rfl
  · rw [h3 0 (by omega)]; exact hz .c
  · rw [h3 0 (by omega)]; rfl
  · intro i hi ht k
    have hzi : ∀ k, ((segsOf c).map fun s => s.col k).flatten.getD i 0 = 0 := by
      intro k
      rw [List.getD_eq_getElem?_getD, List.getElem?_eq_none (by rw [hfl]; omega)]
      rfl
    have hne : i ≠ 0 := by omega
    rw [h3 i hi]
    cases k
    · exact hzi .a
    · simp only [traced, if_neg hne]; exact hzi .b
    · exact hzi .c
    · simp only [traced, if_neg hne]; exact hzi .d

/-- C22: a circuit that was registered never exceeds a limit when a trace is
assembled for it. -/
theorem C22_assemble_no_failure {c : Circ F} (hu : c.WellUsed) {n : ℕ} {m : Metrics}
    (hm : intoCircuitObject n c = .ok m) {t : List (ASeg F)} (h : TraceEval c t) (alpha : F) :
    ∃ r, assemble n (floorPlan m.segments) (t.map Prod.snd) alpha = .ok r := by
  obtain ⟨h1, _, h3⟩ := registered hu hm
  rw [h3]
  obtain ⟨r, hr, _⟩ := C18_assemble hu h1 h alpha
  exact ⟨r, hr⟩

-- the demo circuit has a deferred routine with a nested inline one
example : ∃ t, TraceEval demo t := C18_produced demo_wellUsed
example : segsOf demo = [⟨[0, 3, 0], [0, 5, 7], [0, 15, 0], [0, 0, 0]⟩,
    ⟨[0], [9], [0], [0]⟩, ⟨[1], [2], [2], [0]⟩] := by decide +kernel

/-! ### C56 -/

/-- C56: for every circuit and witness, the emulator succeeds and computes the
value of every wire; the simulator succeeds with the same values exactly if every
requested gate and constraint holds for them, and otherwise reports an invalid
witness. -/
theorem C56_simulator_emulator {c : Circ F} (hu : c.WellUsed) :
    ∃ (k : Checks F) (env : List F), run valD c.body {} [] = .ok (k, env) ∧
      run emuD c.body () [] = .ok ((), env) ∧
      (k.Hold → ∃ t, run simD c.body {} [] = .ok (t, env)) ∧
      (¬ k.Hold → run simD c.body {} [] = .error .invalidWitness) := by
  obtain ⟨h, hh⟩ := body_handles hu
  obtain ⟨k, env, hk⟩ := val_total c.body [] h {} [] hh rfl
  obtain ⟨a, b⟩ := sim_val c.body {} k {} [] env hk ⟨by simp, by simp⟩
  exact ⟨k, env, hk, (emu_val c.body {} []).1 k env hk, a, b⟩

/-- C56: the assembled trace polynomial gives every wire the value the emulator
computes, gives every constraint the value the simulator checks, and its gate
equations hold exactly if the gates the simulator checks do. -/
theorem C56_trace {c : Circ F} (hu : c.WellUsed) {n : ℕ} (hn : totalGates c.counts ≤ n)
    {t : List (ASeg F)} (h : TraceEval c t) {alpha : F} {r : Sparse.Poly F}
    (hr : assemble n (floorPlan c.counts) (t.map Prod.snd) alpha = .ok r) {k : Checks F}
    {env : List F} (hk : run valD c.body {} [] = .ok (k, env)) :
    ∃ s, run (semD (assignment n (floorPlan c.counts) r)) c.body { pos := Pos.gate {} } [] =
        .ok (s, env) ∧ s.log.map Row.val = k.cons ∧
      (GatesHold n r ↔ ∀ g ∈ k.gates, g.1 * g.2.1 = g.2.2.1 ∧ g.2.2.1 * g.2.2.2 = 0) := by
  obtain ⟨r', h1, _, h3⟩ := assemble_eq c hn alpha
  rw [traceEval_segs hu h, h1, Except.ok.injEq] at hr
  subst hr
  exact assembled_run hn h3 hk

-- the demo circuit violates a constraint, and the simulator says so
example : simulate demo = .error .invalidWitness := by decide +kernel

/-- A circuit with a satisfying witness: 3 · 5 = 15, 15 − 3 − 12 = 0. -/
def demoSat : Circ (ZMod 97) where
  body := .mul 3 5 15 <|
    .routine { known := true } (.alloc 12 <|
      .enforce [.term (.idx 2) .one, .gain .negativeOne, .term (.idx 0) .one, .term (.idx 3) .one]
        .done) <|
    .add [.term (.idx 3) .two, .term .one (.arbitrary 4)] .done
  outs := [.idx 2, .idx 4]
  cleanup := [0, 1, 2, 3, 4]

theorem demoSat_wellUsed : demoSat.WellUsed := ⟨_, rfl, by decide⟩

example : simulate demoSat = .ok [15, 28] ∧ emulate demoSat = .ok [15, 28] := by
  constructor <;> decide +kernel

end Ragu.Props

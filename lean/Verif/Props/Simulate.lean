/-
Properties C22 and C56: outputs and counters of the simulator, and the counts of a registry.
-/
import Verif.Props.Trace
import Verif.Props.RegistryClaim
import Verif.Lemmas.SizeCircuit

set_option linter.unusedSectionVars false

namespace Ragu.Props
open Ragu Ragu.Circuit Ragu.Registry Ragu.Spec Ragu.Gadget
variable {F : Type} [Field F] [DecidableEq F]

theorem mapM_outs {env : List F} {h : List ℕ} (hl : h.length = env.length) :
    ∀ {outs : List WRef} {h' : List ℕ}, handles (outsProg (F := F) outs) h = some h' →
      ∃ out, outs.mapM (resolve (1 : F) env) = .ok out
  | [], _, _ => ⟨[], rfl⟩
  | o :: outs, h', hu => by
    have hu : (if usableLc (F := F) h [.add o] = true then handles (outsProg (F := F) outs) h else none) =
      some h' := hu
    split at hu
    case isFalse => cases hu
    case isTrue hc =>
      obtain ⟨out, ho⟩ := mapM_outs hl hu
      obtain ⟨l, hq⟩ := resolveLc_ok (1 : F) env h [.add o] hl hc
      obtain ⟨v, hv⟩ : ∃ v, resolve (1 : F) env o = .ok v := by
        cases hr : resolve (1 : F) env o with
        | ok v => exact ⟨v, rfl⟩
        | error e =>
          simp only [LcStep.add, resolveLc, hr] at hq
          cases hq
      exact ⟨v :: out, by rw [List.mapM_cons, hv, ho]; rfl⟩

/-- C56: the emulator returns the outputs of every circuit; the simulator returns the same ones if all
gates and constraints hold for the witness, and reports an invalid witness otherwise. -/
theorem C56_outputs {c : Circ F} (hu : c.WellUsed) :
    ∃ (k : Checks F) (env out : List F), run valD c.body {} [] = .ok (k, env) ∧
      Circuit.emulate c = .ok out ∧
      (k.Hold → simulate c = .ok out) ∧ (¬ k.Hold → simulate c = .error .invalidWitness) := by
  obtain ⟨k, env, h1, h2, h3, h4⟩ := C56_simulator_emulator hu
  obtain ⟨out, ho⟩ : ∃ out, c.outs.mapM (resolve (1 : F) env) = .ok out := by
    obtain ⟨h', hh, -⟩ := hu
    rw [main_eq, handles_seq, handles_seq] at hh
    obtain ⟨h2, e2, -⟩ := Option.bind_eq_some_iff.1 hh
    obtain ⟨h1', e1, e2⟩ := Option.bind_eq_some_iff.1 e2
    exact mapM_outs (F := F) (run_length (D := valD) (e := ([] : List F)) e1 rfl h1) e2
  refine ⟨k, env, out, h1, ?_, fun h => ?_, fun h => ?_⟩
  · rw [Circuit.emulate, h2]; exact ho
  · obtain ⟨t, ht⟩ := h3 h
    rw [simulate, ht]; exact ho
  · rw [simulate, h4 h]; rfl

theorem ok_of_bind {α β : Type} {x : Except Circuit.Err α} {f : α → Except Circuit.Err β} {b : β}
    (h : x >>= f = .ok b) : ∃ a, x = .ok a ∧ f a = .ok b := by
  cases x with
  | error e => cases h
  | ok a => exact ⟨a, rfl, h⟩

theorem simRun_counts (p : Prog F) : ∀ {s t : SimCounts} {env env' : List F},
    run simD p s env = .ok (t, env') → t.numGates = s.numGates + p.size.gates ∧
      t.numAllocations = s.numAllocations + p.size.allocs ∧
      t.numConstraints = s.numConstraints + p.size.cons := by
  induction p with
  | done =>
    intro s t env env' h
    cases h
    exact ⟨rfl, rfl, rfl⟩
  | gate va vb vc vd p ih =>
    intro s t env env' h
    simp only [run] at h
    obtain ⟨r, h1, h⟩ := ok_of_bind h
    simp only [simD] at h1
    split at h1
    · cases h1
    split at h1
    · cases h1
    cases h1
    have := ih h
    dsimp only at this
    simp only [Prog.size, Size.add_gates, Size.add_allocs, Size.add_cons]
    omega
  | mul va vb vc p ih =>
    intro s t env env' h
    simp only [run] at h
    obtain ⟨r, h1, h⟩ := ok_of_bind h
    simp only [simD] at h1
    split at h1
    · cases h1
    split at h1
    · cases h1
    cases h1
    have := ih h
    dsimp only at this
    simp only [Prog.size, Size.add_gates, Size.add_allocs, Size.add_cons]
    omega
  | alloc v p ih =>
    intro s t env env' h
    have := ih (s := { s with numAllocations := s.numAllocations + 1 }) h
    dsimp only at this
    simp only [Prog.size, Size.add_gates, Size.add_allocs, Size.add_cons]
    omega
  | add lc p ih =>
    intro s t env env' h
    simp only [run] at h
    obtain ⟨l, -, h⟩ := ok_of_bind h
    exact ih h
  | enforce lc p ih =>
    intro s t env env' h
    simp only [run] at h
    obtain ⟨l, -, h⟩ := ok_of_bind h
    obtain ⟨s', h1, h⟩ := ok_of_bind h
    simp only [simD] at h1
    split at h1
    · cases h1
    cases h1
    have := ih h
    dsimp only at this
    simp only [Prog.size, Size.add_gates, Size.add_allocs, Size.add_cons]
    omega
  | routine c b p ihb ihp =>
    intro s t env env' h
    simp only [run] at h
    obtain ⟨s1, h1, h⟩ := ok_of_bind h
    cases h1
    obtain ⟨r, h1, h⟩ := ok_of_bind h
    obtain ⟨s2, h2, h⟩ := ok_of_bind h
    cases h2
    have a := ihb h1
    have b := ihp h
    simp only [Prog.size, Size.add_gates, Size.add_allocs, Size.add_cons]
    omega
  | clone w p ih | drop w p ih =>
    intro s t env env' h
    simp only [run] at h
    obtain ⟨l, -, h⟩ := ok_of_bind h
    obtain ⟨s', h1, h⟩ := ok_of_bind h
    cases h1
    exact ih h

/-- C56: after a simulation the counters are the numbers of calls: of gates, single allocations and
constraints. A circuit whose routines make no single allocations has a gate for the placeholder, the
gates, and one for every two allocations; and the constraints, one for each output and one for the
constant. -/
theorem C56_counts {c : Circ F} {t : SimCounts} {env : List F}
    (h : run simD c.body {} [] = .ok (t, env)) (ha : c.body.AllocsOutside) :
    totalGates c.counts = 1 + t.numGates + (t.numAllocations + 1) / 2 ∧
    totalCons c.counts = t.numConstraints + c.outs.length + 1 := by
  have e := simRun_counts _ h
  dsimp only at e
  obtain ⟨o1, o2⟩ := outs_size (F := F) c.outs c.cleanup
  have hm : c.main.size = ⟨t.numGates, t.numAllocations, t.numConstraints + c.outs.length + 1⟩ := by
    rw [Circ.main, Prog.size_seq, o1]
    apply Size.ext <;> simp only [Size.add_gates, Size.add_allocs, Size.add_cons] <;> omega
  have := posRun_size c.main (allocsOutside_seq ha o2) (Pos.gate {})
  rw [hm] at this
  simp only [Circ.counts, totalGates, totalCons, List.map_cons, List.sum_cons] at this ⊢
  rw [show Pos.room (Pos.gate {}) = 0 from rfl] at this
  simp only [Pos.gate] at this ⊢
  omega

/-- C22: the counts that a registry reports at the index of a circuit are the gates and constraints of
the circuit, which are within its limits. It reports no counts at an index with no circuit. -/
theorem C22_counts {E : Env F} {n : ℕ} {R : Registry F} {i : ℕ} {c : Circ F} (h : Holds E n R i c) :
    R.constraintCounts i = some (totalGates c.counts, totalCons c.counts) ∧
    totalGates c.counts ≤ n ∧ totalCons c.counts < 4 * n ∧
    ∀ j, R.constraintCounts j = none ↔ R.circuits.length ≤ j := by
  obtain ⟨o, ho, hi⟩ := h.here
  obtain ⟨m, hm, ho'⟩ := circuitObject_ok ho
  obtain ⟨h1, h2, -⟩ := registered h.used hm
  refine ⟨?_, h1, h2, fun j => ?_⟩
  · have e : intoCircuitObject n c = .ok ⟨totalCons c.counts, totalGates c.counts, c.outs.length,
        c.counts⟩ := by
      simp only [intoCircuitObject, metricsEval_eq c h.used, bind_ok, capacityCheck]
      rw [if_neg (by omega), if_neg (by omega)]
      rfl
    rw [hm, Except.ok.injEq] at e
    rw [Registry.constraintCounts, hi, ho', e]
    rfl
  · rw [Registry.constraintCounts, Option.map_eq_none_iff, List.getElem?_eq_none_iff]

/-- Non-vacuity of C22_counts. -/
example : ∃ R, Holds env97 8 R 1 demoSat ∧ R.constraintCounts 1 = some (3, 4) := by
  obtain ⟨R, h⟩ := demoSat_holds
  exact ⟨R, h, (C22_counts h).1⟩

/-- Non-vacuity of C56_outputs. -/
example : demoSat.WellUsed ∧ simulate demoSat = .ok [15, 28] := ⟨demoSat_wellUsed, by decide +kernel⟩

/-- Non-vacuity of C56_counts: a product, an allocation and a constraint inside a routine. -/
example : ∃ (c : Circ (ZMod 97)) (t : SimCounts) (env : List (ZMod 97)), c.WellUsed ∧
    c.body.AllocsOutside ∧ run simD c.body {} [] = .ok (t, env) ∧ t.numGates = 1 ∧
    t.numAllocations = 3 ∧ t.numConstraints = 1 ∧ totalGates c.counts = 4 ∧ totalCons c.counts = 3 := by
  refine ⟨⟨.mul 3 5 15 <| .alloc 7 <| .alloc 8 <| .alloc 9 <| .routine { known := true }
    (.enforce [.term (.idx 3) .one, .gain .negativeOne, .term (.idx 4) .one, .term .one (.arbitrary 96)]
      .done) .done, [.idx 2], [0, 1, 2, 3, 4, 5]⟩, ⟨1, 3, 1⟩, [3, 5, 15, 7, 8, 9], ⟨_, rfl, by decide⟩, ?_,
    by rfl, rfl, rfl, rfl, by rfl, by rfl⟩
  simp [Prog.AllocsOutside, Prog.size]

end Ragu.Props

/-
Why the claims of a fused proof hold for all challenges.
-/
import Verif.Lemmas.RunChallenges
import Verif.Props.Reject

set_option linter.unusedSectionVars false

namespace Ragu.Props
open Ragu Ragu.Circuit Ragu.Registry Ragu.Spec Ragu.Gadget Ragu.Pcd Finset

section
variable {F : Type} [Field F] [DecidableEq F]

/-! ### Circuits -/

/-- The blinding factors of the stages do not matter to their wires. -/
theorem stageWires_alpha {ch : Chain} {parts parts' : List (StageInput F)} {es : List F}
    (h : StageWires ch parts es)
    (he : parts.map (fun q => (q.stage, q.values)) = parts'.map fun q => (q.stage, q.values)) :
    StageWires ch parts' es := by
  have hst : parts.map StageInput.stage = parts'.map StageInput.stage := by
    have := congrArg (List.map Prod.fst) he
    simpa only [List.map_map, Function.comp_def] using this
  refine ⟨h.length, fun p hp j hj => ?_, fun d hd hnd => h.skipped d hd (hst ▸ hnd)⟩
  have : (p.stage, p.values) ∈ parts.map fun q => (q.stage, q.values) := by
    rw [he]; exact List.mem_map.2 ⟨p, hp, rfl⟩
  obtain ⟨q, hq, e⟩ := List.mem_map.1 this
  obtain ⟨e1, e2⟩ := Prod.mk.inj e
  rw [← e1, ← e2]
  exact h.given q hq j (by rw [e1]; exact hj)

/-- The wires of a stage that is given. -/
theorem given_wires {ch d : Chain} {parts : List (Chain × List F)} {es vs : List F}
    (h : StageWires ch (parts.map fun q => ⟨q.1, 0, q.2⟩) es) (hm : (d, vs) ∈ parts)
    (h0 : 0 < d.values) (hl : vs.length = d.values) :
    (es.drop (firstWire d)).take d.values = vs ∧ firstWire d + d.values ≤ es.length := by
  have hg := h.given ⟨d, 0, vs⟩ (List.mem_map.2 ⟨_, hm, rfl⟩)
  have hv : d.values ≤ 2 * d.numGates := by rw [Chain.numGates]; omega
  refine ⟨List.ext_getElem? fun j => ?_, ?_⟩
  · rw [List.getElem?_take, List.getElem?_drop]
    by_cases hj : j < d.values
    · rw [if_pos hj, hg j (by simp only; omega), List.getD_eq_getElem?_getD,
        List.getElem?_eq_getElem (by simp only; omega), Option.getD_some]
    · rw [if_neg hj, List.getElem?_eq_none (by omega)]
  · have := hg (d.values - 1) (by simp only; omega)
    have := (List.getElem?_eq_some_iff.1 this).1
    simp only at this
    omega

theorem exists_inputs {n : ℕ} : ∀ {parts : List (Chain × List F)} {ps : List (Sparse.Poly F)},
    List.Forall₂ (fun q p => ∃ alpha, q.1.rx n alpha q.2 = .ok p) parts ps →
    ∃ inputs : List (StageInput F), inputs.map (fun q => (q.stage, q.values)) = parts ∧
      List.Forall₂ (fun q p => q.stage.rx n q.alpha q.values = .ok p) inputs ps
  | _, _, .nil => ⟨[], rfl, .nil⟩
  | _, _, .cons (a := q) ⟨alpha, h⟩ hs => by
    obtain ⟨inputs, h1, h2⟩ := exists_inputs hs
    exact ⟨⟨q.1, alpha, q.2⟩ :: inputs, by rw [List.map_cons, h1], .cons h h2⟩

/-- The polynomial of a circuit's run is confined to the gates after the stages. -/
theorem run_only {E : Env F} {n : ℕ} {R : Registry F} {i : ℕ} {c0 : Circ F} (h : Holds E n R i c0)
    {ch : Chain} {parts : List (Chain × List F)} {x : List F → Syn F (List F)} {p : Sparse.Poly F}
    (hr : CircuitRun n R i c0 ch parts x p) :
    WellFormed (4 * n) p ∧
    OnlyIn n (ch.skipGates + ch.numGates) (n - (ch.skipGates + ch.numGates)) p ∧ coeff p 0 = 0 := by
  obtain ⟨es, c, t, alpha, -, hs, ⟨k, hb, -⟩, ht, hp⟩ := hr
  exact registry_trace_only h hs hb ht hp

/-- The claim of a circuit's run holds at every point. -/
theorem run_claim {E : Env F} {n : ℕ} {R : Registry F} {i : ℕ} {c0 : Circ F} (h : Holds E n R i c0)
    {ch : Chain} {parts : List (Chain × List F)} {x : List F → Syn F (List F)} {p : Sparse.Poly F}
    (hr : CircuitRun n R i c0 ch parts x p) (hnd : (parts.map Prod.fst).Nodup)
    (hin : ∀ q ∈ parts, InChain q.1 ch) {ps : List (Sparse.Poly F)}
    (hps : List.Forall₂ (fun q p => ∃ alpha, q.1.rx n alpha q.2 = .ok p) parts ps) {inst : List F}
    (hsim : ∀ es, StageWires ch (parts.map fun q => ⟨q.1, 0, q.2⟩) es → (x es).sim = .ok inst)
    {o : CircuitObject F} (ho : R.circuits[i]? = some o) (y z : F) :
    CircuitClaim n o R.key (p :: ps) inst y z := by
  have hwf := (run_only h hr).1
  obtain ⟨es, c, t, alpha, hes, hs, hx, ht, hp⟩ := hr
  obtain ⟨inputs, hi, hf⟩ := exists_inputs hps
  have hst : parts.map Prod.fst = inputs.map StageInput.stage := by
    rw [← hi, List.map_map]; rfl
  have hpw : ∀ q ∈ p :: ps, WellFormed (4 * n) q := by
    intro q hq
    rcases List.mem_cons.1 hq with rfl | hq
    · exact hwf
    · obtain ⟨a, -, alpha, ha⟩ := forall₂_mem hps q hq
      exact (rx_only ha).1
  obtain ⟨r, -, hr1, hr2⟩ := sumPolynomials_spec (4 * n) (p :: ps) (by simp) hpw
  refine (circuit_claim h ho hr1 hr2).2 (C67_complete h hs (parts := inputs) (hst ▸ hnd) ?_ hf
    (stageWires_alpha hes ?_) hx (hsim es hes) ht hp hr1 (fun a => ?_) y z)
  · intro q hq
    have : (q.stage, q.values) ∈ parts := by rw [← hi]; exact List.mem_map.2 ⟨q, hq, rfl⟩
    exact hin _ this
  · rw [hi, List.map_map]; simp [Function.comp_def]
  · rw [hr2, sumCoeff, List.map_cons, List.sum_cons]

/-! ### The internal circuits -/

theorem ok_bind {α β ε : Type} {x : Except ε α} {f : α → Except ε β} {r : β}
    (h : x.bind f = .ok r) : ∃ a, x = .ok a ∧ f a = .ok r := by
  cases x with
  | error e => cases h
  | ok a => exact ⟨a, rfl, h⟩

/-- The runs of the five circuits. -/
theorem circuits_split {P : StepParams F} {S : StepStages F} {value : (s : SlotId) → s.kind.Native F}
    {outs : List (List (Element F))} (h : internalCircuits P S value = .ok outs)
    {n : ℕ} {G : Type} {cs : Circuits F G} {R : Registry F} {rx : RxIndex → Sparse.Poly F}
    {i : Fin 6 → UnifiedInstance F} (hr : CircuitsRun n P cs R value S rx i) :
    ∃ o1 o2 o3 o4 o5, outs = [o1, o2, o3, o4, o5] ∧
      (hashes1Circuit P.poseidon P.tag P.b P.logCircuits S.preamble S.outerError (i 0)).sim =
        .ok (o1, i 1) ∧
      (hashes2Circuit P.poseidon P.b S.outerError (i 1)).sim = .ok (o2, i 2) ∧
      (innerCollapseCircuit P.b GROUP_SIZE S.preamble S.outerError S.innerError (i 2)).sim =
        .ok (o3, i 3) ∧
      (outerCollapseCircuit P.b P.headerSize NUM_GROUPS S.preamble S.outerError (i 3)).sim =
        .ok (o4, i 4) ∧
      (computeV P.env P.endo P.b P.logRank S.preamble S.query S.eval (i 4)).sim =
        .ok (o5, i 5) := by
  rw [internalCircuits] at h
  rw [← hr.start] at h
  obtain ⟨⟨o1, j1⟩, h1, h⟩ := ok_bind h
  obtain ⟨⟨o2, j2⟩, h2, h⟩ := ok_bind h
  obtain ⟨⟨o3, j3⟩, h3, h⟩ := ok_bind h
  obtain ⟨⟨o4, j4⟩, h4, h⟩ := ok_bind h
  obtain ⟨⟨o5, j5⟩, h5, h⟩ := ok_bind h
  dsimp only at h1 h2 h3 h4 h5 h
  obtain ⟨p1, e1⟩ := hr.hashes1
  rw [emulate_of_sim h1] at e1
  obtain rfl := (Prod.mk.inj (Except.ok.inj e1)).2
  obtain ⟨p2, e2⟩ := hr.hashes2
  rw [emulate_of_sim h2] at e2
  obtain rfl := (Prod.mk.inj (Except.ok.inj e2)).2
  obtain ⟨p3, e3⟩ := hr.innerCollapse
  rw [emulate_of_sim h3] at e3
  obtain rfl := (Prod.mk.inj (Except.ok.inj e3)).2
  obtain ⟨p4, e4⟩ := hr.outerCollapse
  rw [emulate_of_sim h4] at e4
  obtain rfl := (Prod.mk.inj (Except.ok.inj e4)).2
  obtain ⟨p5, e5⟩ := hr.computeV
  rw [emulate_of_sim h5] at e5
  obtain rfl := (Prod.mk.inj (Except.ok.inj e5)).2
  split at h
  · exact ⟨o1, o2, o3, o4, o5, (Except.ok.inj h).symm, h1, h2, h3, h4, h5⟩
  · cases h

theorem sim_wires {α : Type} {x : Syn F (List (Element F) × α)} {o : List (Element F)} {a : α}
    (h : x.sim = .ok (o, a)) :
    (x >>= fun r => (pure (r.1.map (·.wire)) : Syn F (List F))).sim = .ok (o.map (·.wire)) := by
  rw [Syn.sim_bind_ok h]; rfl

section
variable {N T : ℕ} {S : StepStages F} {es : List F}

theorem preamble_same (hS : StageTypes N T S) (h1 : (es.drop (firstWire (preambleStage N))).take
      (preambleStage N).values = S.preamble.elems.map (·.wire))
    (h2 : firstWire (preambleStage N) + (preambleStage N).values ≤ es.length) :
    preambleGuard N S.preamble es = .ret S.preamble := by
  obtain ⟨o, e1, e2, -, -, e3⟩ := C69_preambleGuard hS h2
  rw [e1, e3 (e2.trans h1)]

theorem outerError_same (hS : StageTypes N T S) (h1 : (es.drop (firstWire (outerErrorStage N T))).take
      (outerErrorStage N T).values = S.outerError.elems.map (·.wire))
    (h2 : firstWire (outerErrorStage N T) + (outerErrorStage N T).values ≤ es.length) :
    outerErrorGuard N T S.outerError es = .ret S.outerError := by
  obtain ⟨o, e1, e2, -, -, e3⟩ := C69_outerErrorGuard hS h2
  rw [e1, e3 (e2.trans h1)]

theorem innerError_same (hS : StageTypes N T S) (h1 : (es.drop (firstWire (innerErrorStage N T))).take
      (innerErrorStage N T).values = S.innerError.flatten.map (·.wire))
    (h2 : firstWire (innerErrorStage N T) + (innerErrorStage N T).values ≤ es.length) :
    innerErrorGuard N T S.innerError es = .ret S.innerError := by
  obtain ⟨o, e1, e2, -, -, e3⟩ := C69_innerErrorGuard hS h2
  rw [e1, e3 (e2.trans h1)]

theorem query_same (h1 : (es.drop (firstWire (queryStage N))).take
      (queryStage N).values = S.query.elems.map (·.wire))
    (h2 : firstWire (queryStage N) + (queryStage N).values ≤ es.length) :
    queryGuard N S.query es = .ret S.query := by
  obtain ⟨o, e1, e2, -, e3⟩ := C69_queryGuard (S := S) h2
  rw [e1, e3 (e2.trans h1)]

theorem eval_same (h1 : (es.drop (firstWire (evalStage N))).take
      (evalStage N).values = S.eval.elems.map (·.wire))
    (h2 : firstWire (evalStage N) + (evalStage N).values ≤ es.length) :
    evalGuard N S.eval es = .ret S.eval := by
  obtain ⟨o, e1, e2, -, e3⟩ := C69_evalGuard (S := S) h2
  rw [e1, e3 (e2.trans h1)]

end

end

variable {F G HC Data Out : Type} [Field F] [DecidableEq F] [Field G] [DecidableEq G]
  [AddCommGroup HC] [DecidableEq HC] [Module F HC]

section
variable {C : CycleEnv F G HC} {n : ℕ} {P : StepParams F} {cs : Circuits F G}
  {steps : List (StepDef F)} {app : Application F G}

/-- The polynomials and the application data of a new proof. -/
theorem fuse_fields {ec : EndoConsts F} {R : Registry F} {left right p : Proof F G HC}
    {ch : Challenges F} {t : FuseTraces F G} (h : fuseProof C ec n R left right ch t = some p) :
    (∀ i, p.nativeRx (.rx i) = t.rx i) ∧ p.application.circuitId = t.circuitId ∧
    p.application.leftHeader = t.leftHeader ∧ p.application.rightHeader = t.rightHeader ∧
    p.p.nested = t.nested := by
  unfold fuseProof at h
  obtain ⟨_, a1, h⟩ := Option.bind_eq_some_iff.1 h
  obtain ⟨_, a2, h⟩ := Option.bind_eq_some_iff.1 h
  obtain ⟨_, -, h⟩ := Option.bind_eq_some_iff.1 h
  obtain ⟨_, -, h⟩ := Option.bind_eq_some_iff.1 h
  obtain ⟨_, a3, h⟩ := Option.bind_eq_some_iff.1 h
  obtain ⟨_, -, h⟩ := Option.bind_eq_some_iff.1 h
  obtain ⟨_, a4, h⟩ := Option.bind_eq_some_iff.1 h
  obtain ⟨_, -, h⟩ := Option.bind_eq_some_iff.1 h
  obtain ⟨_, a5, h⟩ := Option.bind_eq_some_iff.1 h
  obtain ⟨_, -, h⟩ := Option.bind_eq_some_iff.1 h
  obtain ⟨_, a6, h⟩ := Option.bind_eq_some_iff.1 h
  obtain ⟨_, -, h⟩ := Option.bind_eq_some_iff.1 h
  obtain ⟨_, a7, h⟩ := Option.bind_eq_some_iff.1 h
  obtain ⟨_, a8, h⟩ := Option.bind_eq_some_iff.1 h
  obtain ⟨_, a9, h⟩ := Option.bind_eq_some_iff.1 h
  obtain ⟨_, a10, h⟩ := Option.bind_eq_some_iff.1 h
  obtain ⟨_, a11, h⟩ := Option.bind_eq_some_iff.1 h
  obtain ⟨_, -, rfl⟩ := Option.map_eq_some_iff.1 a1
  obtain ⟨_, -, rfl⟩ := Option.map_eq_some_iff.1 a2
  obtain ⟨_, -, rfl⟩ := Option.map_eq_some_iff.1 a3
  obtain ⟨_, -, rfl⟩ := Option.map_eq_some_iff.1 a4
  obtain ⟨_, -, rfl⟩ := Option.map_eq_some_iff.1 a5
  obtain ⟨_, -, rfl⟩ := Option.map_eq_some_iff.1 a6
  obtain ⟨_, -, rfl⟩ := Option.map_eq_some_iff.1 a7
  obtain ⟨_, -, rfl⟩ := Option.map_eq_some_iff.1 a8
  obtain ⟨_, -, rfl⟩ := Option.map_eq_some_iff.1 a9
  obtain ⟨_, -, rfl⟩ := Option.map_eq_some_iff.1 a10
  obtain ⟨_, -, rfl⟩ := Option.map_eq_some_iff.1 a11
  cases h
  exact ⟨fun i => by cases i <;> rfl, rfl, rfl, rfl, rfl⟩

theorem entry_holds (hA : AppOk C n P cs steps app) {id : NativeId} {c : Circ F} (hc : Compiles n c)
    (he : nativeEntry n P.headerSize P.poseidon.T P.logCircuits cs id = .circuit c) :
    Holds C.native n app.nativeRegistry (registryIndex id) c := by
  obtain ⟨o, h1, h2⟩ := app_entry hA id
  rw [he] at h2
  exact app_holds hA hc.1 h2 h1

/-- A step that the application knows is held by the registry. -/
theorem step_holds (hA : AppOk C n P cs steps app) {i : Index} {c : Circ F}
    (hi : stepCircuit cs steps i = some c) : ∃ j, i.circuitIndex steps.length = .ok j ∧
      j < app.nativeRegistry.circuits.length ∧ Holds C.native n app.nativeRegistry j c := by
  obtain ⟨b, hb, hf⟩ := hA.built
  obtain ⟨h1, -, -, h2, h3, -⟩ := C42_positions hb hf
  cases i with
  | internal s =>
    obtain ⟨j, o, e1, e2, e3⟩ := h2 s
    cases hi
    refine ⟨j, by rw [← h1]; exact e1, (List.getElem?_eq_some_iff.1 e2).1, app_holds hA ?_ e3 e2⟩
    cases s
    · exact hA.circuits.rerandomize.1
    · exact hA.circuits.trivial.1
  | application k =>
    obtain ⟨s, hs, rfl⟩ := Option.map_eq_some_iff.1 hi
    obtain ⟨j, o, e1, e2, e3⟩ := h3 k s hs
    exact ⟨j, by rw [← h1]; exact e1, (List.getElem?_eq_some_iff.1 e2).1,
      app_holds hA (hA.used s (List.mem_of_getElem? hs)) e3 e2⟩

theorem stage_values_pos (N T : ℕ) : 0 < (preambleStage N).values ∧
    0 < (outerErrorStage N T).values ∧ 0 < (innerErrorStage N T).values ∧
    0 < (queryStage N).values ∧ 0 < (evalStage N).values := by
  refine ⟨?_, ?_, ?_, ?_, ?_⟩
  · simp [preambleStage, stage, Chain.values]
  · simp [outerErrorStage, stage, Chain.values]
  · show 0 < NUM_GROUPS * numErrorTerms GROUP_SIZE
    decide
  · simp [queryStage, stage, Chain.values]
  · simp [evalStage, stage, Chain.values]

section
variable {S : StepStages F} {left right p : Proof F G HC} {t : FuseTraces F G} {state : List F}
  {fused : FuseAB F HC} {insts : Fin 6 → UnifiedInstance F}

/-- The polynomials of a run. -/
theorem run_rx (hA : AppOk C n P cs steps app) {c0 : Circ F} {i : ℕ}
    (hH : Holds C.native n app.nativeRegistry i c0) {x : List F → Syn F (List F)}
    (ha : CircuitRun n app.nativeRegistry i c0 .base [] x (t.rx .application))
    {s : FuseState F G HC} {ch : Challenges F}
    (hS : StagesRun C n P left right ch fused state s t S)
    {value : (s : SlotId) → s.kind.Native F}
    (hc : CircuitsRun n P cs app.nativeRegistry value S t.rx insts) :
    (∀ i, WellFormed (4 * n) (t.rx i)) ∧
    ∀ id ∈ maskIds, ∀ o, app.nativeRegistry.circuits[registryIndex id]? = some o →
      ∀ i ∈ bondedParts id, MaskOk n o app.nativeRegistry.key (t.rx i) := by
  have hcs := hA.circuits
  have hn := app_pos hA
  obtain ⟨_, _, _, -, -, ao, ho⟩ := hS.outerError
  obtain ⟨-, ap, hp⟩ := hS.preamble
  obtain ⟨-, ai, hi⟩ := hS.innerError
  obtain ⟨-, aq, hq⟩ := hS.query
  obtain ⟨-, ae, he⟩ := hS.eval
  have c1 := run_only (entry_holds hA (by rw [hA.log]; exact hcs.hashes1) rfl) hc.hashes1Trace
  have c2 := run_only (entry_holds hA hcs.hashes2 rfl) hc.hashes2Trace
  have c3 := run_only (entry_holds hA hcs.inner rfl) hc.innerCollapseTrace
  have c4 := run_only (entry_holds hA hcs.outer rfl) hc.outerCollapseTrace
  have c5 := run_only (entry_holds hA hcs.computeV rfl) hc.computeVTrace
  have stage : ∀ {id : NativeId} {d : Chain} {alpha vs r},
      nativeEntry n P.headerSize P.poseidon.T P.logCircuits cs id = .mask (d.mask n) →
      d.rx n alpha vs = .ok r → ∀ o, app.nativeRegistry.circuits[registryIndex id]? = some o →
      MaskOk n o app.nativeRegistry.key r := by
    intro id d alpha vs r hd hr o ho
    obtain ⟨o', h1, h2⟩ := app_entry hA id
    rw [ho, Option.some.injEq] at h1
    subst h1
    rw [hd] at h2
    obtain ⟨m, hm, rfl⟩ := h2
    exact stage_mask_ok hm hn hr _
  have final : ∀ {id : NativeId} {d : Chain} {r},
      nativeEntry n P.headerSize P.poseidon.T P.logCircuits cs id = .mask (d.finalMask n) →
      WellFormed (4 * n) r ∧ OnlyIn n (d.skipGates + d.numGates) (n - (d.skipGates + d.numGates)) r ∧
        coeff r 0 = 0 → ∀ o, app.nativeRegistry.circuits[registryIndex id]? = some o →
      MaskOk n o app.nativeRegistry.key r := by
    intro id d r hd hr o ho
    obtain ⟨o', h1, h2⟩ := app_entry hA id
    rw [ho, Option.some.injEq] at h1
    subst h1
    rw [hd] at h2
    obtain ⟨m, hm, rfl⟩ := h2
    exact mask_ok (C26_final hm) hn hr.1 hr.2.1 hr.2.2 _
  constructor
  · intro i
    cases i
    · exact (run_only hH ha).1
    · exact c1.1
    · exact c2.1
    · exact c3.1
    · exact c4.1
    · exact c5.1
    · exact (rx_only hp).1
    · exact (rx_only hi).1
    · exact (rx_only ho).1
    · exact (rx_only hq).1
    · exact (rx_only he).1
  · intro id hid o hob j hj
    simp only [maskIds, List.mem_cons, List.not_mem_nil, or_false] at hid
    rcases hid with rfl | rfl | rfl | rfl | rfl | rfl | rfl | rfl <;>
      simp only [bondedParts, List.mem_cons, List.not_mem_nil, or_false] at hj
    · subst hj; exact stage rfl hp o hob
    · subst hj; exact stage rfl hi o hob
    · subst hj; exact stage rfl ho o hob
    · subst hj; exact stage rfl hq o hob
    · subst hj; exact stage rfl he o hob
    · subst hj; exact final rfl c3 o hob
    · rcases hj with rfl | rfl | rfl
      · exact final rfl c1 o hob
      · exact final rfl c2 o hob
      · exact final rfl c4 o hob
    · subst hj; exact final rfl c5 o hob

/-- The claims about the five circuits. -/
theorem run_circuits [Finite F] (hA : AppOk C n P cs steps app)
    {s : FuseState F G HC} {ch : Challenges F}
    (hS : StagesRun C n P left right ch fused state s t S)
    (hT : StageTypes P.headerSize P.poseidon.T S)
    {value : (s : SlotId) → s.kind.Native F} (hready : StepReady P S value)
    (hc : CircuitsRun n P cs app.nativeRegistry value S t.rx insts) :
    ∀ id ∉ maskIds, ∀ o, app.nativeRegistry.circuits[registryIndex id]? = some o →
      ∀ y z, CircuitClaim n o app.nativeRegistry.key ((traceParts id).map t.rx)
        ((valuePublic value).toList ++ (if id = .hashes1Circuit then
          S.preamble.left.public.outputHeader ++ S.preamble.right.public.outputHeader else []) ++ [0])
        y z := by
  have hcs := hA.circuits
  obtain ⟨_, _, _, -, -, ao, ho⟩ := hS.outerError
  obtain ⟨-, ap, hp⟩ := hS.preamble
  obtain ⟨-, ai, hi⟩ := hS.innerError
  obtain ⟨-, aq, hq⟩ := hS.query
  obtain ⟨-, ae, he⟩ := hS.eval
  obtain ⟨outs, e1, e2⟩ := C65_circuits_complete P hA.params S
    ⟨hT.left.2.2, hT.right.2.2, hT.outerErrors, hT.collapsed, hT.innerErrors, hT.innerError, hT.state⟩
    value hready
  obtain ⟨o1, o2, o3, o4, o5, rfl, s1, s2, s3, s4, s5⟩ := circuits_split e1 hc
  simp only [List.map_cons, List.map_nil, List.replicate, List.cons.injEq, and_true] at e2
  obtain ⟨q1, q2, q3, q4, q5⟩ := e2
  obtain ⟨d1, d2, d3, d4, d5, d6⟩ := stages_nodup P.headerSize P.poseidon.T
  obtain ⟨v1, v2, v3, v4, v5⟩ := stage_values_pos P.headerSize P.poseidon.T
  have l1 : (S.preamble.elems.map (·.wire)).length = (preambleStage P.headerSize).values := by
    rw [List.length_map]; exact preamble_elems_length hT
  have l2 : (S.outerError.elems.map (·.wire)).length =
      (outerErrorStage P.headerSize P.poseidon.T).values := by
    rw [List.length_map]; exact outerError_elems_length hT
  have l3 : (S.innerError.flatten.map (·.wire)).length =
      (innerErrorStage P.headerSize P.poseidon.T).values := by
    rw [List.length_map]; exact innerError_elems_length hT
  have l4 : (S.query.elems.map (·.wire)).length = (queryStage P.headerSize).values := by
    rw [List.length_map]; exact query_elems_length _
  have l5 : (S.eval.elems.map (·.wire)).length = (evalStage P.headerSize).values := by
    rw [List.length_map]; exact eval_elems_length _
  have a1 : InChain (preambleStage P.headerSize) (outerErrorStage P.headerSize P.poseidon.T) :=
    .inr (.parent _ _)
  have a2 : InChain (preambleStage P.headerSize) (innerErrorStage P.headerSize P.poseidon.T) :=
    .inr (.step _ (.parent _ _))
  have a3 : InChain (outerErrorStage P.headerSize P.poseidon.T)
    (innerErrorStage P.headerSize P.poseidon.T) := .inr (.parent _ _)
  have a4 : InChain (preambleStage P.headerSize) (evalStage P.headerSize) :=
    .inr (.step _ (.parent _ _))
  have a5 : InChain (queryStage P.headerSize) (evalStage P.headerSize) := .inr (.parent _ _)
  intro id hid o hob y z
  revert hid
  cases id <;> intro hid <;> first | exact absurd (by decide) hid | skip
  · rw [if_pos rfl, ← List.append_assoc, ← q1]
    refine run_claim (entry_holds hA (by rw [hA.log]; exact hcs.hashes1) rfl) hc.hashes1Trace
      (by simp [d1]) (by simp only [List.forall_mem_cons]; exact ⟨a1, .inl rfl, by simp⟩)
      (.cons ⟨_, hp⟩ (.cons ⟨_, ho⟩ .nil)) (fun es hes => ?_) hob y z
    have w1 := given_wires hes (by simp) v1 l1
    have w2 := given_wires hes (by simp) v2 l2
    rw [hashes1Code, preamble_same hT w1.1 w1.2, outerError_same hT w2.1 w2.2]
    exact sim_wires s1
  · rw [if_neg (by decide), List.append_nil, ← q2]
    refine run_claim (entry_holds hA hcs.hashes2 rfl) hc.hashes2Trace (by simp)
      (by simp only [List.forall_mem_cons]; exact ⟨.inl rfl, by simp⟩)
      (.cons ⟨_, ho⟩ .nil) (fun es hes => ?_) hob y z
    have w2 := given_wires hes (by simp) v2 l2
    rw [hashes2Code, outerError_same hT w2.1 w2.2]
    exact sim_wires s2
  · rw [if_neg (by decide), List.append_nil, ← q3]
    refine run_claim (entry_holds hA hcs.inner rfl) hc.innerCollapseTrace (by simp [d1, d2, d3.symm])
      (by simp only [List.forall_mem_cons]; exact ⟨a2, .inl rfl, a3, by simp⟩)
      (.cons ⟨_, hp⟩ (.cons ⟨_, hi⟩ (.cons ⟨_, ho⟩ .nil))) (fun es hes => ?_) hob y z
    have w1 := given_wires hes (by simp) v1 l1
    have w2 := given_wires hes (by simp) v2 l2
    have w3 := given_wires hes (by simp) v3 l3
    rw [innerCollapseCode, preamble_same hT w1.1 w1.2, outerError_same hT w2.1 w2.2,
      innerError_same hT w3.1 w3.2]
    exact sim_wires s3
  · rw [if_neg (by decide), List.append_nil, ← q4]
    refine run_claim (entry_holds hA hcs.outer rfl) hc.outerCollapseTrace (by simp [d1])
      (by simp only [List.forall_mem_cons]; exact ⟨a1, .inl rfl, by simp⟩)
      (.cons ⟨_, hp⟩ (.cons ⟨_, ho⟩ .nil)) (fun es hes => ?_) hob y z
    have w1 := given_wires hes (by simp) v1 l1
    have w2 := given_wires hes (by simp) v2 l2
    rw [outerCollapseCode, preamble_same hT w1.1 w1.2, outerError_same hT w2.1 w2.2]
    exact sim_wires s4
  · rw [if_neg (by decide), List.append_nil, ← q5]
    refine run_claim (entry_holds hA hcs.computeV rfl) hc.computeVTrace (by simp [d4, d5, d6])
      (by simp only [List.forall_mem_cons]; exact ⟨a4, a5, .inl rfl, by simp⟩)
      (.cons ⟨_, hp⟩ (.cons ⟨_, hq⟩ (.cons ⟨_, he⟩ .nil))) (fun es hes => ?_) hob y z
    have w1 := given_wires hes (by simp) v1 l1
    have w4 := given_wires hes (by simp) v4 l4
    have w5 := given_wires hes (by simp) v5 l5
    rw [computeVCode, preamble_same hT w1.1 w1.2, query_same w4.1 w4.2, eval_same w5.1 w5.2]
    exact sim_wires s5

/-- A run of `fuse` makes a proof whose claims hold whatever the challenges are. -/
theorem run_settled [Finite F] {D : Type} (hA : AppOk C n P cs steps app)
    (hl : ChildOk C n app.nativeRegistry left) (hr : ChildOk C n app.nativeRegistry right)
    {nestedCommit : Sparse.Poly G → Option (F × F)}
    (hcurve : ∀ q x y, nestedCommit q = some (x, y) → y ^ 2 = x ^ 3 + C.b) {c0 : Circ F} {i : ℕ}
    (hi : i < app.nativeRegistry.circuits.length) (hH : Holds C.native n app.nativeRegistry i c0)
    {code : Syn F (Except Pcd.Err (AdapterOut F D))} {out : AdapterOut F D} {header : List F}
    (hsim : code.sim = .ok (.ok out))
    (hout : out.output.map (·.wire) = out.left ++ out.right ++ header)
    (hrun : FuseRun C n nestedCommit P cs app c0 i code out left right t p)
    (hcl : Settled C n P.headerSize app left out.left ∧
        Settled C n P.headerSize app right out.right ∨
      UnitHeader P.headerSize out.left ∧ UnitHeader P.headerSize out.right)
    (hch : Avoids p.challenges.u (fusePoints C.native ⟨left, right, p.sPrime.native,
      p.innerError.native, p.ab.native, p.query.native⟩ p.challenges)) :
    Settled C n P.headerSize app p header := by
  obtain ⟨state, fused, S, insts, htr, hfu, hS, hc⟩ := hrun.stages
  have hap := hrun.application
  obtain ⟨ht, hm⟩ := run_rx hA hH hap.trace hS hc
  have hpc : ∀ x y, some (x, y) ∈ bridgePoints p → y ^ 2 = x ^ 3 + C.b := by
    intro x y hxy
    rw [bridgePoints_traces hrun.assembled] at hxy
    obtain ⟨b, hb, hbe⟩ := List.mem_map.1 hxy
    exact hcurve b.rx x y (by rw [← hrun.bridges b hb, hbe])
  obtain ⟨hT, hready, hpre, hll, hlr, hpts, hcon⟩ := run_ready hA hl hr ht
    (by rw [hap.left, hap.right]; exact hcl) hpc
    ⟨(circuits_nonzero hc).1, (circuits_nonzero hc).2, hch⟩ hrun.assembled htr hfu hS
  obtain ⟨f1, f2, f3, f4, -⟩ := fuse_fields hrun.assembled
  have hpub := proofPublic_list hpts
  have hcc := run_circuits hA hS hT hready hc
  refine ⟨hcon, hpc, by rw [f2, hap.id]; exact hi, by rw [f3, hll], by rw [f4, hlr], hpts, ?_, ?_, ?_⟩
  · intro id hid o ho j hj
    rw [f1]
    exact hm id hid o ho j hj
  · intro id hid o ho y z
    have := hcc id hid o ho y z
    rw [valuePublic_eq, hpub, hpre] at this
    have e1 : rxsOf p (traceParts id) = (traceParts id).map t.rx := by
      rw [rxsOf]; exact List.map_congr_left fun i _ => f1 i
    have e2 : instanceOf p id = unifiedInstance p ++ (if id = .hashes1Circuit then
          (childGadget C left t.leftHeader).public.outputHeader ++
          (childGadget C right t.rightHeader).public.outputHeader else []) ++ [0] := by
      rw [childGadget_public, childGadget_public]
      cases id <;> simp [instanceOf, childPublic, f3, f4]
    rw [e1, e2]
    exact this
  · intro o ho y z
    rw [f2, hap.id] at ho
    rw [f1, f3, f4, hap.left, hap.right]
    refine run_claim hH hap.trace (by simp) (by simp) .nil (fun es _ => ?_) ho y z
    rw [adapterWires, Syn.sim_bind_ok hsim, ← hout]
    rfl

end

end

end Ragu.Props

/-
Property C80: the circuits of the library's own steps and of endoscaling are fixed, and how large they are.
Property C81: an application whose steps are in order can be built and used.
-/
import Verif.Lemmas.BuildSteps
import Verif.Props.Size
import Verif.Props.Pasta
import Verif.Props.Complete

set_option linter.unusedSectionVars false

namespace Ragu.Props
open Ragu Ragu.Circuit Ragu.Registry Ragu.Spec Ragu.Gadget Ragu.Pcd Ragu.Unif
variable {F G HC : Type} [Field F] [DecidableEq F] [Field G] [DecidableEq G]

/-! ### C80 -/

/-- The points of endoscaling in the numbers that the library uses: 37 points in all, 9 interstitials. -/
def PointsTyped (w : PointsWitness (Gadget.Point G)) : Prop :=
  w.inputs.length = 36 ∧ w.interstitials.length = 9

/-- What the prover brings to a step of endoscaling. -/
abbrev EndoWit (G : Type) := {e : Endoscalar G // e.bits.length = 128} ×
  {w : PointsWitness (Gadget.Point G) // PointsTyped w}

theorem numPoints_eq : NUM_ENDOSCALING_POINTS = 37 := rfl

theorem typed_length {w : PointsWitness (Gadget.Point G)} (h : PointsTyped w) :
    w.elems.length = 92 := by
  rw [PointsWitness.elems, pointElems_length, List.length_cons, List.length_append, h.1, h.2]

/-- The gadgets on the wires of the stages. -/
def endoG : Fam (EndoWit G) G (Endoscalar G) := fun w σ =>
  ⟨(injected (firstWire endoscalarStage) 128 (fun w => endoscalarElems w.1.1) w σ).map (·.wire), w.1.1.value⟩
def pointsG : Fam (EndoWit G) G (PointsWitness (Gadget.Point G)) := fun w σ =>
  .ofElems 36 9 (injected (firstWire pointsStage) 92 (fun w => w.2.1.elems) w σ)

theorem endoscalar_end : firstWire endoscalarStage + 128 = firstWire pointsStage := rfl
theorem points_end : firstWire pointsStage + 92 = firstWire pointsStage + 2 * pointsStage.numGates := rfl

theorem endoscalarGuard_eq (w : EndoWit G) {es : List G}
    (h : firstWire endoscalarStage + 128 ≤ es.length) :
    endoscalarGuard w.1.1 es = .ret (endoG w (vals es)) := by
  unfold endoscalarGuard guardWires
  have := injectElems_eq (elems := fun w : EndoWit G => endoscalarElems w.1.1)
    (fun w => by rw [endoscalarElems, List.length_map, w.1.2]) h w
  rw [show stageNumWires endoscalarStage = 128 from rfl, this]
  rfl

theorem pointsGuard_eq (w : EndoWit G) {es : List G} (h : firstWire pointsStage + 92 ≤ es.length) :
    pointsGuard w.2.1 es = .ret (pointsG w (vals es)) := by
  unfold pointsGuard guardWires
  have := injectElems_eq (elems := fun w : EndoWit G => w.2.1.elems)
    (fun w => typed_length w.2.2) h w
  rw [show stageNumWires pointsStage = 92 from rfl, this]
  rfl

theorem endoscaling_range {step : ℕ} (h : step < 9) :
    (inputRange NUM_ENDOSCALING_POINTS step).2 ≤ 36 ∧
    (inputRange NUM_ENDOSCALING_POINTS step).1 < (inputRange NUM_ENDOSCALING_POINTS step).2 ∧
    (inputRange NUM_ENDOSCALING_POINTS step).2 - (inputRange NUM_ENDOSCALING_POINTS step).1 = 4 := by
  simp only [inputRange, ENDOSCALINGS_PER_STEP, numPoints_eq]
  omega

/-- C80: for every step of endoscaling there is one circuit that, after its two stages, makes exactly the
calls of the step's code, whatever the endoscalar and the points are. -/
theorem C80_endoscaling (zeta : G) {step : ℕ} (h : step < 9) : ∃ c : Circ G, c.WellUsed ∧
    c.body.AllocsOutside ∧ c.outs.length = 0 ∧ ∀ e points, e.bits.length = 128 → PointsTyped points →
      Realizes pointsStage c (endoscalingCode 128 zeta step e points) := by
  obtain ⟨r1, r2, -⟩ := endoscaling_range h
  have he : EndoR (W := EndoWit G) 128 (firstWire pointsStage + 2 * pointsStage.numGates) endoG :=
    EndoR.ofElems (injected_listN (by rw [endoscalar_end]; omega) _)
  have hp : PointsR (W := EndoWit G) 36 9 (firstWire pointsStage + 2 * pointsStage.numGates) pointsG :=
    PointsR.ofElems (injected_listN points_end.le _)
  obtain ⟨c, a, a', b, e⟩ := realize (n := 0) (W := EndoWit G) points_fit
    (x := fun w es => endoscalingCode 128 zeta step w.1.1 w.2.1 es)
    (y := fun w σ => do
      Pcd.stepCircuit 128 zeta NUM_ENDOSCALING_POINTS step (endoG w σ) (pointsG w σ)
      return [])
    (Unif.bind (unif_stepCircuit 128 zeta r1 h r2 he hp) (fun _ _ _ _ => rfl)
      fun _ _ _ _ => UnifR.pure (outsR_const []))
    (fun w es hes => by
      unfold endoscalingCode
      rw [endoscalarGuard_eq w (by rw [hes, endoscalar_end]; omega),
        pointsGuard_eq w (by rw [hes]; exact points_end.le)]
      rfl)
  exact ⟨c, a, a', b, fun e' p he' hp' => e (⟨e', he'⟩, ⟨p, hp'⟩)⟩

/-- C80: the circuit of the rerandomization step is one circuit for all types of headers and all data:
whenever the data encodes into the header size, the step makes the calls of that circuit. -/
theorem C80_rerandomize {N : ℕ} (hN : 1 ≤ N) : ∃ c : Circ F, c.WellUsed ∧ c.body.AllocsOutside ∧
    c.outs.length = 3 * N ∧ ∀ {D O : Type} (H : Header F D O) (d : D) (header : List F),
      EncodedAs N H d header → Realizes .base c fun _ => adapterWires (rerandomize N H d) := by
  obtain ⟨c, a, a', b, e⟩ := realize (ch := .base) trivial
    (x := fun (w : {vs : List (Element F) // vs.length = N}) (_ : List F) => rerandomizeWires N w.1)
    (unif_rerandomize hN) fun w es hes => rfl
  refine ⟨c, a, a', b, fun H d header ⟨g, hg, hfit, _⟩ => ?_⟩
  obtain ⟨vs, h1, h2⟩ := rerandomize_wires hN hg hfit
  rw [h2]
  exact e ⟨vs, h1⟩

theorem trivial_wires {N : ℕ} (hN : 1 ≤ N) : adapterWires (trivialStep (F := F) N) =
    .ret (unitEncoding F N ++ unitEncoding F N ++ unitEncoding F N) := by
  obtain ⟨es, h1, h2, h3, h4⟩ := unit_write (F := F) hN
  have hf := finishAdapter (N := N) hN (HL := Header.unit) (HR := Header.unit) (HO := Header.unit)
    (l := .gadget ()) (r := .gadget ()) (o := .gadget ()) trivial trivial trivial () h1 h1 h1
  have hs : trivialStep (F := F) N = .ret (adapterFinish Header.unit Header.unit Header.unit
    (.gadget () : Encoded F Unit N) (.gadget () : Encoded F Unit N)
    (.gadget () : Encoded F Unit N) ()) := rfl
  rw [hs, hf]
  show Syn.ret _ = _
  simp [h3]

theorem unitEncoding_length {N : ℕ} (hN : 1 ≤ N) : (unitEncoding F N).length = N := by
  simp [unitEncoding, headerEncoding]; omega

/-- C80: the trivial step has a circuit. -/
theorem C80_trivial {N : ℕ} (hN : 1 ≤ N) : ∃ c : Circ F, c.WellUsed ∧ c.body.AllocsOutside ∧
    c.outs.length = 3 * N ∧ Realizes .base c fun _ => adapterWires (trivialStep N) := by
  obtain ⟨c, a, a', b, e⟩ := realize (ch := .base) (W := Unit) trivial
    (x := fun _ _ => adapterWires (trivialStep (F := F) N))
    (y := fun _ _ => .ret (unitEncoding F N ++ unitEncoding F N ++ unitEncoding F N))
    (UnifR.pure (outsR_const _)) fun w es hes => trivial_wires hN
  refine ⟨c, a, a', ?_, e ()⟩
  rw [b]
  simp only [List.length_append, unitEncoding_length hN]
  omega

section
variable {c : Circ G}

theorem sized_endoscalingCode (zeta : G) {step : ℕ} (h : step < 9) (w : EndoWit G) {es : List G}
    (hes : es.length = firstWire pointsStage + 2 * pointsStage.numGates) :
    Sized (fun _ => True) (endoscalingCode 128 zeta step w.1.1 w.2.1 es) ⟨1837, 0, 3676⟩ := by
  obtain ⟨r1, r2, r3⟩ := endoscaling_range h
  unfold endoscalingCode
  rw [endoscalarGuard_eq w (by rw [hes, endoscalar_end]; omega),
    pointsGuard_eq w (by rw [hes]; exact points_end.le)]
  have hb : (endoG w (vals es)).bits.length = 128 := by simp [endoG, injected]
  have hl : ∀ (k : ℕ) (l : List (Element G)), (pointsOfElems k l).length = k := by
    intro k
    induction k with
    | zero => intro l; rfl
    | succ k ih => intro l; simp [pointsOfElems, ih]
  have := (sized_stepCircuit zeta (numPoints := NUM_ENDOSCALING_POINTS) (step := step)
    (points := pointsG w (vals es)) hb.ge (by rw [pointsG]; simpa [PointsWitness.ofElems, hl] using r1)
    (by simpa [pointsG, PointsWitness.ofElems, hl] using h) r2).bind' (R := fun _ => True)
      fun _ => .pure (a := ([] : List G)) trivial
  rw [r3] at this
  exact this.cast (by size_eq)

/-- C80: a step of endoscaling takes 1948 gates and 3677 constraints. -/
theorem C80_endoscaling_size {zeta : G} {step : ℕ} (h : step < 9) (hc : c.body.AllocsOutside)
    (ho : c.outs.length = 0) {e : Endoscalar G} {points : PointsWitness (Gadget.Point G)}
    (he : e.bits.length = 128) (hp : PointsTyped points)
    (hr : Realizes pointsStage c (endoscalingCode 128 zeta step e points)) :
    totalGates c.counts = 1948 ∧ totalCons c.counts = 3677 := by
  obtain ⟨a, b⟩ := counts_of_realizes points_fit hc hr fun es hes =>
    sized_endoscalingCode zeta h (⟨⟨e, he⟩, ⟨points, hp⟩⟩ : EndoWit G) hes
  rw [a, b, ho]
  exact ⟨rfl, rfl⟩

/-- C80: the step of `rerandomize` takes one gate for two elements of the header, and one more. -/
theorem C80_rerandomize_size {N : ℕ} (hN : 1 ≤ N) {c : Circ F} (hc : c.body.AllocsOutside)
    (ho : c.outs.length = 3 * N) {D O : Type} {H : Header F D O} {d : D} {header : List F}
    (he : EncodedAs N H d header) (hr : Realizes .base c fun _ => adapterWires (rerandomize N H d)) :
    totalGates c.counts = 1 + (N + 1) / 2 ∧ totalCons c.counts = 3 * N + 1 := by
  obtain ⟨g, hg, hfit, -⟩ := he
  obtain ⟨vs, h1, h2⟩ := rerandomize_wires hN hg hfit
  rw [h2] at hr
  obtain ⟨a, b⟩ := counts_of_realizes (ch := .base) trivial hc hr fun es hes => sized_rerandomize vs
  rw [a, b, ho, h1]
  refine ⟨rfl, by simp⟩

/-- C80: the trivial step takes no gates besides the first. -/
theorem C80_trivial_size {N : ℕ} (hN : 1 ≤ N) {c : Circ F} (hc : c.body.AllocsOutside)
    (ho : c.outs.length = 3 * N) (hr : Realizes .base c fun _ => adapterWires (trivialStep N)) :
    totalGates c.counts = 1 ∧ totalCons c.counts = 3 * N + 1 := by
  rw [trivial_wires hN] at hr
  obtain ⟨a, b⟩ := counts_of_realizes (ch := .base) trivial hc hr fun es hes =>
    Sized.ret (Q := fun _ => True) trivial
  rw [a, b, ho]
  exact ⟨rfl, by simp⟩

end

/-- The circuits that the library brings: those of the fuse, of its two steps, and of endoscaling, each of
which makes the calls of its code for all data. -/
structure LibraryCircuits (P : StepParams F) (zeta : G) (cs : Circuits F G) : Prop where
  five : FiveCircuits P (cs.hashes1 P.logCircuits) cs.hashes2 cs.innerCollapse cs.outerCollapse cs.computeV
  rerandomize : cs.rerandomize.WellUsed ∧ cs.rerandomize.body.AllocsOutside ∧
    cs.rerandomize.outs.length = 3 * P.headerSize ∧
    ∀ {D O : Type} (H : Header F D O) (d : D) (header : List F), EncodedAs P.headerSize H d header →
      Realizes .base cs.rerandomize fun _ => adapterWires (rerandomize P.headerSize H d)
  trivial : cs.trivial.WellUsed ∧ cs.trivial.body.AllocsOutside ∧
    cs.trivial.outs.length = 3 * P.headerSize ∧
    Realizes .base cs.trivial fun _ => adapterWires (trivialStep P.headerSize)
  endoscaling : ∀ step < 9, (cs.endoscaling step).WellUsed ∧ (cs.endoscaling step).body.AllocsOutside ∧
    (cs.endoscaling step).outs.length = 0 ∧ ∀ e points, e.bits.length = 128 → PointsTyped points →
      Realizes pointsStage (cs.endoscaling step) (endoscalingCode 128 zeta step e points)

/-- C80: the library's circuits exist. -/
theorem C80_exist (P : StepParams F) (hP : StepParamsOk P) (zeta : G) : ∃ cs, LibraryCircuits P zeta cs := by
  obtain ⟨h1, h2, ic, oc, cv, h⟩ := C73_exist P hP
  obtain ⟨r, a1, a2, a3, a4⟩ := C80_rerandomize (F := F) hP.header
  obtain ⟨t, ht⟩ := C80_trivial (F := F) hP.header
  choose e he using fun step : {i : ℕ // i < 9} => C80_endoscaling zeta step.2
  exact ⟨⟨fun _ => h1, h2, ic, oc, cv, r, t, fun i => if h : i < 9 then e ⟨i, h⟩ else e ⟨0, by omega⟩⟩,
    h, ⟨a1, a2, a3, a4⟩, ht, fun step hs => by simpa only [dif_pos hs] using he ⟨step, hs⟩⟩

/-- A header that encodes, for the sizes. -/
theorem unit_encoded (N : ℕ) : EncodedAs N (Header.unit : Header F Unit Unit) () (unitEncoding F N) :=
  encodedAs_unit.2 rfl

def zeroPoints : PointsWitness (Gadget.Point G) :=
  ⟨⟨.zero, .zero⟩, List.replicate 36 ⟨.zero, .zero⟩, List.replicate 9 ⟨.zero, .zero⟩⟩

/-- C80: at the rank in use, all of the library's circuits compile exactly if
`13 HEADER_SIZE + 2 log2(circuits) ≤ 874`. -/
theorem C80_compile {P : StepParams F} (hP : StepParamsOk P) (hU : InUse P) {zeta : G}
    {cs : Circuits F G} (h : LibraryCircuits P zeta cs) {steps : ℕ} (hk : P.logCircuits = registryLog steps) :
    (CircuitsOk 2048 steps cs ↔ 13 * P.headerSize + 2 * P.logCircuits ≤ 874) ∧
    (Compiles 2048 (cs.hashes1 (registryLog steps)) ↔ 13 * P.headerSize + 2 * P.logCircuits ≤ 874) := by
  obtain ⟨l1, l2⟩ := C73_limit hP hU h.five
  refine ⟨⟨fun hc => l1.1 (hk ▸ hc.hashes1), fun hl => ?_⟩, hk ▸ l1⟩
  obtain ⟨c2, c3, c4, c5⟩ := l2 (l1.2 hl)
  refine ⟨hk ▸ l1.2 hl, c2, c3, c4, c5, ?_, ?_, fun i hi => ?_⟩
  · obtain ⟨a, b⟩ := C80_rerandomize_size hP.header h.rerandomize.2.1 h.rerandomize.2.2.1
      (unit_encoded _) (h.rerandomize.2.2.2 _ _ _ (unit_encoded _))
    rw [compiles_iff h.rerandomize.1]
    omega
  · obtain ⟨a, b⟩ := C80_trivial_size hP.header h.trivial.2.1 h.trivial.2.2.1 h.trivial.2.2.2
    rw [compiles_iff h.trivial.1]
    omega
  · obtain ⟨a1, a2, a3, a4⟩ := h.endoscaling i hi
    have he : (⟨List.replicate 128 0, 0⟩ : Endoscalar G).bits.length = 128 := by simp
    have hp : PointsTyped (zeroPoints (G := G)) := by constructor <;> simp [zeroPoints]
    obtain ⟨a, b⟩ := C80_endoscaling_size hi a2 a3 he hp (a4 _ _ he hp)
    rw [compiles_iff a1]
    omega

/-! ### C81 -/

/-- Steps as `register` wants them. -/
structure StepsInOrder (n : ℕ) (steps : List (StepDef F)) : Prop where
  index : ∀ (i : ℕ) (s : StepDef F), steps[i]? = some s → s.index = .application i
  headers : Consistent (allHeaders steps)
  compile : ∀ s ∈ steps, Compiles n s.circ

/-- A finalized application has a compiled first hash circuit. -/
theorem finalize_hashes1 {E : Env F} {E' : Env G} {n h T : ℕ} {cs : Circuits F G} {ss : List (StepDef F)}
    {b : AppBuilder F G} (hb : registerSteps n ss {} = .ok b) {app : Application F G}
    (hf : b.finalize E E' n h T cs = .ok app) : ∃ o, circuitObject n (cs.hashes1 (registryLog ss.length)) = .ok o := by
  have hh := registerSteps_holds ss [] {} b (holds_empty n) hb
  rw [List.nil_append] at hh
  rw [AppBuilder.finalize] at hf
  rcases hr : b.registries n h T cs with e | ⟨bn, be⟩
  · rw [hr] at hf; cases hf
  obtain ⟨os, o1, o2, os', -, h2, -⟩ := (registries_spec hh).2 bn be hr
  obtain ⟨o, -, ho⟩ := forall₂_mem h2.flip .hashes1Circuit (by decide)
  exact ⟨o, ho⟩

/-- C81: an application of steps in order can be finalized at the rank in use exactly if
`13 HEADER_SIZE + 2 log2(circuits) ≤ 874` and there are no more than 8177 steps. -/
theorem C81_finalizes {C : CycleEnv F G HC} (hE : EnvOk C.native) (hE' : EnvOk C.nested)
    (hS : 13 ≤ C.native.consts.S) (hS' : 13 ≤ C.nested.consts.S) (hk : KeysDistinct C.native 13)
    (hk' : KeysDistinct C.nested 13) {P : StepParams F} (hP : StepParamsOk P) (hU : InUse P) {zeta : G}
    {cs : Circuits F G} (h : LibraryCircuits P zeta cs) {steps : List (StepDef F)}
    (hs : StepsInOrder 2048 steps) (hl : P.logCircuits = registryLog steps.length) :
    ∃ b, registerSteps 2048 steps {} = .ok b ∧
      ((∃ app, b.finalize C.native C.nested 2048 P.headerSize P.poseidon.T cs = .ok app) ↔
        13 * P.headerSize + 2 * P.logCircuits ≤ 874 ∧ steps.length ≤ 8177) := by
  obtain ⟨b, hb⟩ := (C41_register (G := G) 2048 steps).1.2 ⟨hs.index, hs.headers, fun s h => (hs.compile s h).2⟩
  refine ⟨b, hb, ?_⟩
  obtain ⟨c1, c2⟩ := C80_compile hP hU h hl
  have key : 13 * P.headerSize + 2 * P.logCircuits ≤ 874 → _ := fun hle =>
    C42_total hE hE' (n := 2048) (q := 13) (by norm_num) hS hS' hk hk' hb (fun s h => (hs.compile s h).1)
      (c1.2 hle) (h := P.headerSize) (T := P.poseidon.T) (by rw [hU.width]; omega)
  constructor
  · rintro ⟨app, ha⟩
    have hle : 13 * P.headerSize + 2 * P.logCircuits ≤ 874 :=
      c2.1 ⟨hl ▸ h.five.hashes1.1, finalize_hashes1 hb ha⟩
    refine ⟨hle, ?_⟩
    by_contra hlt
    rw [(key hle).2 (by omega)] at ha
    cases ha
  · rintro ⟨hle, hn⟩
    exact (key hle).1 (by omega)

section
open Ragu.Pasta

/-- `RAGU_TAG`, `FIXME`, crates/ragu_pcd/src/lib.rs:51. -/
def raguTag : List UInt8 := [70, 73, 88, 77, 69]

/-- The parameters of an application over the Pasta cycle, at the rank in use. -/
abbrev pastaParams (M : Machine Fp) (sqrt : Fp → Option Fp) (steps headerSize : ℕ) : StepParams Fp :=
  pastaStep M sqrt raguTag (registryLog steps) 11 headerSize

theorem pasta_inUse (M : Machine Fp) (sqrt : Fp → Option Fp) (steps headerSize : ℕ) :
    InUse (pastaParams M sqrt steps headerSize) where
  width := rfl
  rate := rfl
  full := rfl
  partials := rfl
  tag := rfl
  rank := rfl
  nbits := rfl

theorem pasta_ok (M : Machine Fp) {sqrt : Fp → Option Fp} (hs : SqrtSpec sqrt) (steps : ℕ) {headerSize : ℕ}
    (hh : 1 ≤ headerSize) : StepParamsOk (pastaParams M sqrt steps headerSize) :=
  ⟨wf_p, by change 1 ≤ 4; omega, by change 4 ≤ 5; omega,
    by simpa [pastaStep, endoP] using C75_fields.2.2.2.2.2.2.2.1, hs, hh⟩

/-- C81: over the Pasta cycle, with the library's own circuits, every list of steps in order and headers
of up to 65 elements, for up to 8177 steps, makes an application, which meets the assumptions of the
theorems about proofs. -/
theorem C81_pasta {M : Machine Fp} {M' : Machine Fq} (hM : 0 < M.threads) (hM' : 0 < M'.threads)
    {sqrt : Fp → Option Fp} (hs : SqrtSpec sqrt) {gens : List Vesta} (hg : 8192 ≤ gens.length)
    {headerSize : ℕ} (hh : 1 ≤ headerSize) (hh' : headerSize ≤ 65) {steps : List (StepDef Fp)}
    (hsteps : StepsInOrder 2048 steps) (hn : steps.length ≤ 8177) :
    (∃ cs, LibraryCircuits (pastaParams M sqrt steps.length headerSize) (zetaQ : Fq) cs) ∧
    ∀ cs, LibraryCircuits (pastaParams M sqrt steps.length headerSize) (zetaQ : Fq) cs →
      ∃ app, AppOk (pastaCycle M M' gens) 2048 (pastaParams M sqrt steps.length headerSize) cs steps app := by
  have hP := pasta_ok M hs steps.length hh
  have hU := pasta_inUse M sqrt steps.length headerSize
  refine ⟨C80_exist _ hP _, fun cs hcs => ?_⟩
  have hlog : registryLog steps.length ≤ 13 := Nat.clog_le_of_le_pow (by omega)
  have hle : 13 * headerSize + 2 * registryLog steps.length ≤ 874 := by omega
  obtain ⟨b, hb, hf⟩ := C81_finalizes (C := pastaCycle M M' gens) (C75_env hM hM').1 (C75_env hM hM').2
    (by change 13 ≤ 32; omega) (by change 13 ≤ 32; omega)
    (C76_keys (M := M) (M' := M') le_rfl).1 (C76_keys (M := M) (M' := M') le_rfl).2 hP hU hcs hsteps rfl
  obtain ⟨app, ha⟩ := hf.2 ⟨hle, hn⟩
  have h5 := hcs.five
  exact ⟨app, C75_app (logRank := 11) hM hM' hs le_rfl (by simpa using hg) hh ⟨b, hb, ha⟩
    (fun s h => (hsteps.compile s h).1) ((C80_compile hP hU hcs rfl).1.2 hle)
    ⟨h5.hashes1.2.2, h5.hashes2.2.2, h5.innerCollapse.2.2, h5.outerCollapse.2.2, h5.computeV.2.2⟩⟩

/-- C81: over the Pasta cycle every proof that is made with `seed` and `fuse` is accepted: nothing has to
be assumed about the curves, the fields or the parameters. -/
theorem C81_accepted {M : Machine Fp} {M' : Machine Fq} {sqrt : Fp → Option Fp} {gens : List Vesta}
    {headerSize : ℕ} {cs : Circuits Fp Fq} {steps : List (StepDef Fp)} {app : Application Fp Fq}
    (hA : AppOk (pastaCycle M M' gens) 2048 (pastaParams M sqrt steps.length headerSize) cs steps app)
    (commit : Sparse.Poly Fq → Pallas) {D O : Type} {H : Header Fp D O} {p : Proof Fp Fq Vesta} {data : D}
    (h : Made (pastaCycle M M' gens) pastaHost 2048 (fun q => coordinates (commit q))
      (pastaParams M sqrt steps.length headerSize) cs steps app H p data) (ch : VerifyChallenges Fp Fq) :
    verify (pastaCycle M M' gens) 2048 headerSize app H p data ch = .ok true := by
  refine C74_accepted hA (C75_host sqrt) (fun q x y hq => ?_) h ch
  revert hq
  rcases commit q with _ | ⟨x', y', h'⟩
  · intro hq; cases hq
  · intro hq; cases hq
    have := (WeierstrassCurve.Affine.equation_iff _ _).1 h'.1
    simpa [curve, pastaCycle, curveB] using this

/-! ### Examples -/

/-- Non-vacuity of C81: steps in order exist, here two steps whose circuit is that of the trivial step. -/
example : ∃ steps : List (StepDef Fp), steps.length = 2 ∧ StepsInOrder 2048 steps := by
  obtain ⟨c, a, a', b, e⟩ := C80_trivial (F := Fp) (N := 4) (by omega)
  have hc : Compiles 2048 c := by
    obtain ⟨h1, h2⟩ := C80_trivial_size (by omega) a' b e
    rw [compiles_iff a]
    omega
  refine ⟨[⟨.application 0, ⟨.internal 0, 0⟩, ⟨.internal 0, 0⟩, ⟨.application 3, 7⟩, c⟩,
    ⟨.application 1, ⟨.application 3, 7⟩, ⟨.internal 0, 0⟩, ⟨.application 4, 8⟩, c⟩], rfl, ?_, ?_, ?_⟩
  · rintro (_ | _ | i) s h
    · cases h; rfl
    · cases h; rfl
    · simp at h
  · simp only [allHeaders, Consistent, List.flatMap_cons, List.flatMap_nil, headersOf]
    decide
  · intro s h
    simp only [List.mem_cons, List.not_mem_nil, or_false] at h
    rcases h with rfl | rfl <;> exact hc

end

end Ragu.Props

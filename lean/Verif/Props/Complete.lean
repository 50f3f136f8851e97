/-
C74: proofs made with `seed`, `fuse` and `rerandomize` are accepted.
-/
import Verif.Lemmas.NestedRun
import Verif.Props.Step

set_option linter.unusedSectionVars false

namespace Ragu.Props
open Ragu Ragu.Circuit Ragu.Registry Ragu.Spec Ragu.Gadget Ragu.Pcd Finset
variable {F G HC : Type} [Field F] [DecidableEq F] [Field G] [DecidableEq G]
  [AddCommGroup HC] [DecidableEq HC] [Module F HC]

/-- What a correct step does on the data `dl` and `dr` of the two inputs: its synthesis succeeds with
every constraint satisfied, it encodes the inputs' data for the inputs' headers, and it publishes these
and the encoding of the data it returns. -/
structure StepOk {D1 O1 D2 O2 D3 O3 : Type} (N : ℕ) (HL : Header F D1 O1) (HR : Header F D2 O2)
    (HO : Header F D3 O3) (dl : D1) (dr : D2) (code : Syn F (Except Pcd.Err (AdapterOut F D3)))
    (out : AdapterOut F D3) : Prop where
  sim : code.sim = .ok (.ok out)
  left : EncodedAs N HL dl out.left
  right : EncodedAs N HR dr out.right
  output : ∃ header, EncodedAs N HO out.data header ∧
    out.output.map (·.wire) = out.left ++ out.right ++ header

/-- A successful call of `fuse` on `left` with data `dl` and `right` with data `dr` that gives `p` with
data `data`: some registered step runs, the bridges and the endoscaling steps over the scalar field run,
and the challenge `u` is not one of the points that the quotient polynomial divides by. -/
def Fuses {D1 O1 D2 O2 D3 O3 : Type} (C : CycleEnv F G HC) (K : NestedParams G HC) (n : ℕ)
    (nestedCommit : Sparse.Poly G → Option (F × F)) (P : StepParams F) (cs : Circuits F G)
    (steps : List (StepDef F)) (app : Application F G) (HL : Header F D1 O1) (HR : Header F D2 O2)
    (HO : Header F D3 O3) (left : Proof F G HC) (dl : D1) (right : Proof F G HC) (dr : D2)
    (p : Proof F G HC) (data : D3) : Prop :=
  ∃ (i : Index) (j : ℕ) (c0 : Circ F) (code : Syn F (Except Pcd.Err (AdapterOut F D3)))
    (out : AdapterOut F D3) (t : FuseTraces F G),
    stepCircuit cs steps i = some c0 ∧ i.circuitIndex steps.length = .ok j ∧
    StepOk P.headerSize HL HR HO dl dr code out ∧ out.data = data ∧
    FuseRun C n nestedCommit P cs app c0 j code out left right t p ∧
    BridgesRun K n left right p t ∧
    EndoscalingRun K n P.endo cs app.nestedRegistry left right p t ∧
    Avoids p.challenges.u (fusePoints C.native ⟨left, right, p.sPrime.native, p.innerError.native,
      p.ab.native, p.query.native⟩ p.challenges)

/-- The proofs that a program can make: `seed` fuses two trivial proofs with a step that takes no
inputs, and `fuse` fuses two proofs made before. `rerandomize` is a fuse with a seeded trivial proof. -/
inductive Made (C : CycleEnv F G HC) (K : NestedParams G HC) (n : ℕ)
    (nestedCommit : Sparse.Poly G → Option (F × F)) (P : StepParams F) (cs : Circuits F G)
    (steps : List (StepDef F)) (app : Application F G) :
    {D O : Type} → Header F D O → Proof F G HC → D → Prop
  | seed {D O : Type} {H : Header F D O} {q p : Proof F G HC} {data : D} :
      trivialProof C n P.headerSize nestedCommit app.nativeRegistry = some q →
      Fuses C K n nestedCommit P cs steps app Header.unit Header.unit H q () q () p data →
      Made C K n nestedCommit P cs steps app H p data
  | fuse {D1 O1 D2 O2 D3 O3 : Type} {HL : Header F D1 O1} {HR : Header F D2 O2}
      {HO : Header F D3 O3} {left right p : Proof F G HC} {dl : D1} {dr : D2} {data : D3} :
      Made C K n nestedCommit P cs steps app HL left dl →
      Made C K n nestedCommit P cs steps app HR right dr →
      Fuses C K n nestedCommit P cs steps app HL HR HO left dl right dr p data →
      Made C K n nestedCommit P cs steps app HO p data

theorem encodedAs_unique {D O : Type} {N : ℕ} {H : Header F D O} {d : D} {h h' : List F}
    (e : EncodedAs N H d h) (e' : EncodedAs N H d h') : h = h' := by
  obtain ⟨g, e1, -, rfl⟩ := e
  obtain ⟨g', e1', -, rfl⟩ := e'
  rw [e1] at e1'
  cases e1'
  rfl

theorem encodedAs_unit {N : ℕ} {h : List F} :
    EncodedAs N (Header.unit : Header F Unit Unit) () h ↔ h = unitEncoding F N := by
  constructor
  · rintro ⟨g, -, -, rfl⟩
    simp [Header.unit, Suffix.get, unitEncoding, headerEncoding]
  · rintro rfl
    exact ⟨(), rfl, by simp [Header.unit],
      by simp [Header.unit, Suffix.get, unitEncoding, headerEncoding]⟩

theorem unit_unitHeader {N : ℕ} {h : List F}
    (e : EncodedAs N (Header.unit : Header F Unit Unit) () h) : UnitHeader N h := by
  rw [encodedAs_unit.1 e, UnitHeader, unitEncoding, headerEncoding]
  simp

/-! ### Steps -/

/-- A step in its adapter, crates/ragu_pcd/src/step/internal/adapter.rs:74-112: the step's own synthesis
gives the encoded headers and the output data. -/
def adapterCode {D1 O1 D2 O2 D3 O3 : Type} (N : ℕ) (HL : Header F D1 O1) (HR : Header F D2 O2)
    (HO : Header F D3 O3)
    (step : Syn F ((Encoded F O1 N × Encoded F O2 N × Encoded F O3 N) × D3)) :
    Syn F (Except Pcd.Err (AdapterOut F D3)) := do
  let r ← step
  return adapterFinish HL HR HO r.1.1 r.1.2.1 r.1.2.2 r.2

/-- The gadget a step returns for a header encodes `data`: what it writes has wires that carry their
values, and these are the values of an encoding of `data`. -/
def EncodesData {D O : Type} (N : ℕ) (H : Header F D O) (data : D) (g : O) : Prop :=
  (∀ e ∈ H.write g, e.Honest) ∧ (H.write g).length ≤ N - 1 ∧ ∃ g', Pcd.emulate (H.encode data) = .ok g' ∧
    (H.write g').map (·.value) = (H.write g).map (·.value)

theorem encodes_write {D O : Type} {N : ℕ} (hN : 0 < N) {H : Header F D O} {data : D} {g : O}
    (h : EncodesData N H data g) : ∃ es, (Encoded.gadget g : Encoded F O N).write H = .ok es ∧
      EncodedAs N H data (es.map (·.value)) ∧ es.map (·.wire) = es.map (·.value) := by
  obtain ⟨h1, h2, g', h3, h4⟩ := h
  obtain ⟨es, e1, -, e2, e3⟩ := (C39_encode hN H g).1 h2
  have hw : (H.write g).map (·.wire) = (H.write g).map (·.value) :=
    List.map_congr_left fun e he => (h1 e he).symm
  have hl := congrArg List.length h4
  rw [List.length_map, List.length_map] at hl
  refine ⟨es, e1, ⟨g', h3, by omega, ?_⟩, by rw [e2, e3, hw]⟩
  rw [e3, headerEncoding, List.length_map, h4, hl]

/-- C74: a step whose synthesis succeeds with every constraint satisfied, and that returns gadgets which
encode the data of the inputs and the output data, is a correct step. -/
theorem C74_step {D1 O1 D2 O2 D3 O3 : Type} {N : ℕ} (hN : 0 < N) (HL : Header F D1 O1)
    (HR : Header F D2 O2) (HO : Header F D3 O3) (dl : D1) (dr : D2) {g1 : O1} {g2 : O2} {g3 : O3}
    {data : D3} {step : Syn F ((Encoded F O1 N × Encoded F O2 N × Encoded F O3 N) × D3)}
    (hs : step.sim = .ok ((.gadget g1, .gadget g2, .gadget g3), data))
    (h1 : EncodesData N HL dl g1) (h2 : EncodesData N HR dr g2) (h3 : EncodesData N HO data g3) :
    ∃ out, StepOk N HL HR HO dl dr (adapterCode N HL HR HO step) out ∧ out.data = data := by
  obtain ⟨l, l1, l2, l3⟩ := encodes_write hN h1
  obtain ⟨r, r1, r2, r3⟩ := encodes_write hN h2
  obtain ⟨o, o1, o2, o3⟩ := encodes_write hN h3
  refine ⟨⟨l ++ r ++ o, l.map (·.value), r.map (·.value), data⟩, ⟨?_, l2, r2, _, o2, ?_⟩, rfl⟩
  · rw [adapterCode, Syn.sim_bind_ok hs]
    exact congrArg Except.ok (finishAdapter hN (l := .gadget g1) (r := .gadget g2) (o := .gadget g3)
      trivial trivial trivial data l1 r1 o1)
  · simp only [List.map_append, l3, r3, o3]

/-- C74: the step of `rerandomize` is correct for all data that fits, and carries it over. -/
theorem C74_rerandomize {D O : Type} {N : ℕ} (hN : 0 < N) (H : Header F D O) (d : D) {header : List F}
    (he : EncodedAs N H d header) : ∃ out,
    StepOk N H Header.unit H d () (rerandomize N H d) out ∧ out.data = d := by
  obtain ⟨g, hg, hfit, rfl⟩ := he
  obtain ⟨out, h1, h2, h3, h4, h5⟩ := C55_data (N := N) hN hg hfit
  have hl : EncodedAs N H d out.left := by
    refine ⟨g, hg, hfit, ?_⟩
    rw [h3, headerEncoding, List.length_map]
  exact ⟨out, ⟨h1, hl, encodedAs_unit.2 h4, out.left, by rw [h2]; exact hl, h5⟩, h2⟩

/-- C74: the trivial step is correct. -/
theorem C74_trivial {N : ℕ} (hN : 0 < N) : ∃ out,
    StepOk N (Header.unit (F := F)) Header.unit Header.unit () () (trivialStep (F := F) N) out := by
  obtain ⟨es, h1, h2, h3, h4⟩ := unit_write (F := F) hN
  have hf := finishAdapter (N := N) hN (HL := Header.unit) (HR := Header.unit) (HO := Header.unit)
    (l := .gadget ()) (r := .gadget ()) (o := .gadget ()) trivial trivial trivial () h1 h1 h1
  refine ⟨_, ⟨congrArg Except.ok hf, encodedAs_unit.2 h4, encodedAs_unit.2 h4, _,
    encodedAs_unit.2 rfl, ?_⟩⟩
  simp [h3, h4]

/-! ### Examples of steps -/

/-- A step that multiplies: it takes one element from each side and outputs the product. -/
def mulStep (a b : ZMod 97) : Syn (ZMod 97)
    ((Encoded (ZMod 97) (List (Element (ZMod 97))) 4 × Encoded (ZMod 97) (List (Element (ZMod 97))) 4 ×
      Encoded (ZMod 97) (List (Element (ZMod 97))) 4) × List (ZMod 97)) := do
  let x ← Element.alloc a
  let y ← Element.alloc b
  let z ← x.mul y
  return ((.gadget [x], .gadget [y], .gadget [z]), [z.value])

/-- Non-vacuity of C74_step: the step that multiplies is correct on every two elements. -/
example (a b : ZMod 97) : ∃ out,
    StepOk 4 (listHeader (ZMod 97) (Suffix.new 7)) (listHeader (ZMod 97) (Suffix.new 7))
      (listHeader (ZMod 97) (Suffix.new 8)) [a] [b]
      (adapterCode 4 (listHeader (ZMod 97) (Suffix.new 7)) (listHeader (ZMod 97) (Suffix.new 7))
        (listHeader (ZMod 97) (Suffix.new 8)) (mulStep a b)) out ∧
    out.data = [a * b] := by
  refine C74_step (by decide) _ _ _ _ _ (g1 := [⟨a, a⟩]) (g2 := [⟨b, b⟩]) (g3 := [⟨a * b, a * b⟩])
    ?_ ?_ ?_ ?_
  · rw [mulStep, Syn.sim_bind_ok (Element.alloc_sim a), Syn.sim_bind_ok (Element.alloc_sim b),
      Syn.sim_bind_ok (Element.mul_sim (a := ⟨a, a⟩) (b := ⟨b, b⟩) rfl rfl)]
    rfl
  · exact ⟨by simp [listHeader, Element.Honest], by simp [listHeader], [⟨a, a⟩], rfl, rfl⟩
  · exact ⟨by simp [listHeader, Element.Honest], by simp [listHeader], [⟨b, b⟩], rfl, rfl⟩
  · exact ⟨by simp [listHeader, Element.Honest], by simp [listHeader], [⟨a * b, a * b⟩], rfl, rfl⟩

/-- Non-vacuity of C74_rerandomize and C74_trivial. -/
example : EncodedAs 4 (listHeader (ZMod 97) (Suffix.new 7)) [3, 5] [3, 5, 0, 9] ∧
    ∃ out, StepOk 4 (listHeader (ZMod 97) (Suffix.new 7)) Header.unit
      (listHeader (ZMod 97) (Suffix.new 7)) [3, 5] ()
      (rerandomize 4 (listHeader (ZMod 97) (Suffix.new 7)) [3, 5]) out ∧ out.data = [3, 5] := by
  have h : EncodedAs 4 (listHeader (ZMod 97) (Suffix.new 7)) [3, 5] [3, 5, 0, 9] :=
    ⟨[⟨3, 3⟩, ⟨5, 5⟩], rfl, by decide, by decide⟩
  exact ⟨h, C74_rerandomize (by decide) _ _ h⟩

/-! ### Histories -/

section
variable {C : CycleEnv F G HC} {K : NestedParams G HC} {n : ℕ} {P : StepParams F} {cs : Circuits F G}
  {steps : List (StepDef F)} {app : Application F G} {nestedCommit : Sparse.Poly G → Option (F × F)}

/-- A child that the preamble stage takes has no identity among its commitments. -/
theorem alloc_points {N : ℕ} {p : Proof F G HC} {output : List F} {c : ChildInputs F}
    (h : Pcd.emulate (ChildInputs.alloc C N p output) = .ok c) : none ∉ bridgePoints p := by
  simp only [ChildInputs.alloc, emulate_bind] at h
  obtain ⟨l, -, r, -, o, -, i, -, u, h5, -⟩ := h
  refine (points_slots p).2 fun s => ?_
  have h := emulate_slots h5 s
  revert h
  generalize u s = g
  generalize p.unifiedValue s = v
  revert g v
  generalize s.kind = k
  intro g v h
  cases k with
  | element => trivial
  | point =>
    have h' : Pcd.emulate (Point.alloc C.b v) = .ok g := h
    cases v with
    | none => cases h'
    | some p => exact fun hc => nomatch hc

theorem trivial_points {N : ℕ} {R : Registry F} {q : Proof F G HC}
    (h : trivialProof C n N nestedCommit R = some q) :
    ∀ c ∈ bridgePoints q, ∃ r, c = nestedCommit r := by
  unfold trivialProof at h
  obtain ⟨_, -, h⟩ := Option.bind_eq_some_iff.1 h
  obtain ⟨o, -, h⟩ := Option.bind_eq_some_iff.1 h
  obtain ⟨_, -, h⟩ := Option.bind_eq_some_iff.1 h
  obtain ⟨_, -, h⟩ := Option.bind_eq_some_iff.1 h
  obtain ⟨_, -, h⟩ := Option.bind_eq_some_iff.1 h
  cases h
  intro c hc
  simp only [bridgePoints, List.mem_cons, List.not_mem_nil, or_false] at hc
  rcases hc with h | h | h | h | h | h | h | h <;> exact ⟨o, h⟩

/-- The trivial proof can be a child of a run that succeeds. -/
theorem trivial_child (hA : AppOk C n P cs steps app)
    (hcurve : ∀ q x y, nestedCommit q = some (x, y) → y ^ 2 = x ^ 3 + C.b) {q : Proof F G HC}
    (h : trivialProof C n P.headerSize nestedCommit app.nativeRegistry = some q)
    (hp : none ∉ bridgePoints q) : ChildOk C n app.nativeRegistry q := by
  obtain ⟨bn, ss, hE⟩ := app_fuseEnv hA
  obtain ⟨q', h1, h2, -, h3, -⟩ := C63_trivial hE P.headerSize nestedCommit
  rw [h] at h1
  cases h1
  refine ⟨h2, fun x y hm => ?_, ?_, hp⟩
  · obtain ⟨r, hr⟩ := trivial_points h _ hm
    exact hcurve r x y hr.symm
  · rw [h3]
    obtain ⟨j, -, h4, -⟩ := step_holds hA (i := .internal .trivial) rfl
    omega

theorem run_points {D : Type} {c0 : Circ F} {j : ℕ}
    {code : Syn F (Except Pcd.Err (AdapterOut F D))} {out : AdapterOut F D}
    {left right p : Proof F G HC} {t : FuseTraces F G}
    (h : FuseRun C n nestedCommit P cs app c0 j code out left right t p) :
    none ∉ bridgePoints left ∧ none ∉ bridgePoints right := by
  obtain ⟨state, fused, S, insts, -, -, hS, -⟩ := h.stages
  have := hS.preamble.1
  simp only [preambleStageCode, emulate_bind] at this
  obtain ⟨l, h1, r, h2, -⟩ := this
  exact ⟨alloc_points h1, alloc_points h2⟩

/-- C74: the claims of a proof that was made hold, for the encoding of its data, whatever the
challenges of a verifier are. -/
theorem made_settled [Finite F] (hA : AppOk C n P cs steps app) (hK : HostOk K P.endo)
    (hcurve : ∀ q x y, nestedCommit q = some (x, y) → y ^ 2 = x ^ 3 + C.b) {D O : Type}
    {H : Header F D O} {p : Proof F G HC} {data : D}
    (h : Made C K n nestedCommit P cs steps app H p data) :
    NestedSettled n app.nestedRegistry p ∧ ∃ header, EncodedAs P.headerSize H data header ∧
      Settled C n P.headerSize app p header := by
  induction h with
  | seed hq hf =>
    obtain ⟨i, j, c0, code, out, t, h1, h2, h3, rfl, h4, hB, hE, h5⟩ := hf
    obtain ⟨j', e, hj, hH⟩ := step_holds hA h1
    rw [h2] at e
    cases e
    obtain ⟨header, o1, o2⟩ := h3.output
    have hc := trivial_child hA hcurve hq (run_points h4).1
    exact ⟨nested_settled hA hK h4.assembled hB hE, header, o1, run_settled hA hc hc hcurve hj hH h3.sim o2 h4
      (.inr ⟨unit_unitHeader h3.left, unit_unitHeader h3.right⟩) h5⟩
  | fuse _ _ hf ihl ihr =>
    obtain ⟨-, hl, el, sl⟩ := ihl
    obtain ⟨-, hr, er, sr⟩ := ihr
    obtain ⟨i, j, c0, code, out, t, h1, h2, h3, rfl, h4, hB, hE, h5⟩ := hf
    obtain ⟨j', e, hj, hH⟩ := step_holds hA h1
    rw [h2] at e
    cases e
    obtain ⟨header, o1, o2⟩ := h3.output
    cases encodedAs_unique el h3.left
    cases encodedAs_unique er h3.right
    exact ⟨nested_settled hA hK h4.assembled hB hE, header, o1, run_settled hA sl.childOk sr.childOk hcurve hj hH h3.sim o2 h4
      (.inl ⟨sl, sr⟩) h5⟩

/-- C74: every proof that is made with `seed` and `fuse`, in any number of operations, is accepted with
its data, whatever challenges the verifier draws. -/
theorem C74_accepted [Finite F] (hA : AppOk C n P cs steps app) (hK : HostOk K P.endo)
    (hcurve : ∀ q x y, nestedCommit q = some (x, y) → y ^ 2 = x ^ 3 + C.b) {D O : Type}
    {H : Header F D O} {p : Proof F G HC} {data : D}
    (h : Made C K n nestedCommit P cs steps app H p data) (ch : VerifyChallenges F G) :
    verify C n P.headerSize app H p data ch = .ok true := by
  obtain ⟨h1, header, h2, h3⟩ := made_settled hA hK hcurve h
  exact settled_accepted hA h3 h1 h2 ch

end

end Ragu.Props

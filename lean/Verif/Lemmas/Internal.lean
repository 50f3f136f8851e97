/-
The internal circuits of a fuse, one by one.
-/
import Verif.Lemmas.Transcript
import Verif.Lemmas.ComputeV
import Verif.Spec.Internal
import Verif.Props.Sponge
import Verif.Props.Step
import Verif.Props.Gadget

set_option linter.unusedSectionVars false
namespace Ragu.Pcd
open Ragu Ragu.Circuit Ragu.Registry Ragu.Gadget Ragu.Spec Ragu.Props Finset
variable {F : Type} [Field F] [DecidableEq F] {m : Prop}

/-! ### Public values -/

/-- The coordinates on the wires of a point. -/
def pointWires (p : Point F) : F × F := (p.x.wire, p.y.wire)

/-- The public values on the wires of an output. -/
def outputPublic (o : UnifiedOutput F) : StepPublic F where
  bridgePreamble := pointWires (o .bridgePreamble)
  w := Element.wire (o .w)
  bridgeSPrime := pointWires (o .bridgeSPrime)
  y := Element.wire (o .y)
  z := Element.wire (o .z)
  bridgeInnerError := pointWires (o .bridgeInnerError)
  mu := Element.wire (o .mu)
  nu := Element.wire (o .nu)
  bridgeOuterError := pointWires (o .bridgeOuterError)
  muPrime := Element.wire (o .muPrime)
  nuPrime := Element.wire (o .nuPrime)
  c := Element.wire (o .c)
  bridgeAb := pointWires (o .bridgeAb)
  x := Element.wire (o .x)
  bridgeQuery := pointWires (o .bridgeQuery)
  alpha := Element.wire (o .alpha)
  bridgeF := pointWires (o .bridgeF)
  u := Element.wire (o .u)
  bridgeEval := pointWires (o .bridgeEval)
  preBeta := Element.wire (o .preBeta)
  v := Element.wire (o .v)

/-- A child as its wires. -/
def ChildInputs.public (c : ChildInputs F) : ChildPublic F :=
  ⟨c.leftHeader.map (·.wire), c.rightHeader.map (·.wire), c.outputHeader.map (·.wire),
    c.circuitId.wire, outputPublic c.unified⟩

theorem write_public (o : UnifiedOutput F) : o.write.map (·.wire) = (outputPublic o).toList := rfl

theorem toList_inj {p q : StepPublic F} (h : p.toList = q.toList) : p = q := by
  obtain ⟨⟨a1, a2⟩, a3, ⟨a4, a5⟩, a6, a7, ⟨a8, a9⟩, a10, a11, ⟨a12, a13⟩, a14, a15, a16, ⟨a17, a18⟩,
    a19, ⟨a20, a21⟩, a22, ⟨a23, a24⟩, a25, ⟨a26, a27⟩, a28, a29⟩ := p
  obtain ⟨⟨b1, b2⟩, b3, ⟨b4, b5⟩, b6, b7, ⟨b8, b9⟩, b10, b11, ⟨b12, b13⟩, b14, b15, b16, ⟨b17, b18⟩,
    b19, ⟨b20, b21⟩, b22, ⟨b23, b24⟩, b25, ⟨b26, b27⟩, b28, b29⟩ := q
  simp only [StepPublic.toList, List.cons.injEq, and_true] at h
  obtain ⟨rfl, rfl, rfl, rfl, rfl, rfl, rfl, rfl, rfl, rfl, rfl, rfl, rfl, rfl, rfl, rfl, rfl, rfl,
    rfl, rfl, rfl, rfl, rfl, rfl, rfl, rfl, rfl, rfl, rfl⟩ := h
  rfl

theorem toList_length (p : StepPublic F) : p.toList.length = 29 := rfl

/-- The instance's values as public values. -/
def valuePublic (value : (s : SlotId) → s.kind.Native F) : StepPublic F :=
  outputPublic fun s => honestGadget s.kind (value s)

/-- The commitments the transcript absorbs. -/
def publicCommitments (p : StepPublic F) : Transcript.Commitments F :=
  ⟨p.bridgePreamble, p.bridgeSPrime, p.bridgeInnerError, p.bridgeOuterError, p.bridgeAb,
    p.bridgeQuery, p.bridgeF, p.bridgeEval⟩

theorem publicInput_eq (l : List F) (y : F) : Ky.kyEval l y = publicInput l y := C21_ky l y

/-- Witness values and wires of a child agree. -/
structure ChildInputs.Honest (c : ChildInputs F) : Prop where
  leftHeader : ∀ e ∈ c.leftHeader, e.Honest
  rightHeader : ∀ e ∈ c.rightHeader, e.Honest
  outputHeader : ∀ e ∈ c.outputHeader, e.Honest
  circuitId : c.circuitId.Honest
  unified : ∀ e ∈ c.unified.write, e.Honest

theorem runs_applicationKy {c : ChildInputs F} {y : Element F} (hy : m → y.Honest)
    (hc : m → c.Honest) :
    Runs m (c.parts.applicationKy y) (fun r => r.wire = c.public.applicationInput y.wire ∧
      (m → r.Honest)) := by
  have h1 := (C53_in_circuit c.parts y).2
  refine ⟨fun hm r hr => ⟨?_, fun k => (hm k).elim⟩, fun hm => ?_⟩
  · rw [h1 r hr, publicInput_eq]; rfl
  · obtain ⟨r, h2, h3⟩ := (C53_in_circuit_complete c.parts (hy hm) (hc hm).leftHeader
      (hc hm).rightHeader (hc hm).outputHeader (hc hm).unified).2
    refine ⟨r, h2, ?_, fun _ => h3⟩
    rw [h1 r (Syn.sim_sat h2), publicInput_eq]; rfl

theorem runs_unifiedKy {c : ChildInputs F} {y : Element F} (hy : m → y.Honest)
    (hc : m → c.Honest) :
    Runs m (c.parts.unifiedKyValues y) (fun r => r.1.wire = c.public.unifiedInput y.wire ∧
      r.2.wire = c.public.bridgeInput y.wire ∧ (m → r.1.Honest ∧ r.2.Honest)) := by
  have h1 := (C53_in_circuit c.parts y).1
  have h4 : ∀ r, (c.parts.unifiedKyValues y).sat r → r.1.wire = c.public.unifiedInput y.wire ∧
      r.2.wire = c.public.bridgeInput y.wire := by
    intro r hr
    obtain ⟨e1, e2⟩ := h1 r hr
    rw [publicInput_eq] at e1 e2
    refine ⟨e1, ?_⟩
    rw [e2, ChildPublic.bridgeInput, ← List.append_assoc]
    rfl
  refine ⟨fun hm r hr => ⟨(h4 r hr).1, (h4 r hr).2, fun k => (hm k).elim⟩, fun hm => ?_⟩
  obtain ⟨r, h2, h3⟩ := (C53_in_circuit_complete c.parts (hy hm) (hc hm).leftHeader
      (hc hm).rightHeader (hc hm).outputHeader (hc hm).unified).1
  have := h4 r (Syn.sim_sat h2)
  exact ⟨r, h2, this.1, this.2, fun _ => h3⟩

theorem runs_rootOfUnity {x : Element F} {k : ℕ} (hx : m → x.Honest ∧ x.wire ^ 2 ^ k = 1) :
    Runs m (x.enforceRootOfUnity k) (fun _ => x.wire ^ 2 ^ k = 1) :=
  ⟨fun _ _ hr => (C33_root_of_unity x k).1.1 hr, fun hm =>
    ⟨(), ((C33_root_of_unity x k).2 (hx hm).1).2 (hx hm).2, (hx hm).2⟩⟩

/-! ### The first hash circuit -/

/-- The staged public values of a child are those of the specification at `y`. -/
structure KyHolds (c : ChildPublic F) (y : F) (k : ChildKyOutputs F) : Prop where
  application : k.application.wire = c.applicationInput y
  unified : k.unified.wire = c.unifiedInput y
  unifiedBridge : k.unifiedBridge.wire = c.bridgeInput y

/-- The first part of the transcript gives `w`, `y`, `z` and the staged state. -/
def FirstHalf (p : PoseidonParams F) (tag : List UInt8) (staged : List F) (pub : StepPublic F) : Prop :=
  ∃ md, SpongeSpec.run (Poseidon.native p) p.rate
      (Transcript.hashes1Ops (Transcript.tagElems tag) (publicCommitments pub)) (Sponge.new 0 p.T) =
        ([pub.w, pub.y, pub.z].map .ok, md) ∧
    saveP (Poseidon.native p) p.rate md = .ok staged

/-- What the first hash circuit establishes. -/
structure Hashes1Holds (p : PoseidonParams F) (tag : List UInt8) (k : ℕ) (pre : PreambleOutput F)
    (oe : OuterErrorOutput F) (pub : StepPublic F) : Prop where
  ids : pre.left.circuitId.wire ^ 2 ^ k = 1 ∧ pre.right.circuitId.wire ^ 2 ^ k = 1
  transcript : FirstHalf p tag (oe.spongeState.map (·.wire)) pub
  left : KyHolds pre.left.public pub.y oe.left
  right : KyHolds pre.right.public pub.y oe.right

/-- What an honest run of the first hash circuit needs. -/
structure Hashes1Ready (p : PoseidonParams F) (tag : List UInt8) (b : F) (k : ℕ)
    (pre : PreambleOutput F) (oe : OuterErrorOutput F) (inst : UnifiedInstance F) : Prop where
  left : pre.left.Honest
  right : pre.right.Honest
  valid : ∀ s, ValidNative b s.kind (inst.value s)
  fresh : ∀ s ∈ [SlotId.bridgePreamble, .w, .bridgeSPrime, .y, .z, .bridgeInnerError],
    inst.coverage s = false
  holds : Hashes1Holds p tag k pre oe (valuePublic inst.value)

/-- The result of an internal circuit with output `o`. -/
structure CircuitResult (m : Prop) (b : F) (provided covered : List SlotId)
    (inst : UnifiedInstance F) (o : UnifiedOutput F) (inst' : UnifiedInstance F) : Prop where
  rest : ∀ s, s ∉ provided → Allocated b s.kind (inst.value s) (o s)
  honest : m → ∀ s, o s = honestGadget s.kind (inst.value s)
  after : m → inst' = ⟨inst.value, fun s => inst.coverage s || decide (s ∈ covered)⟩

theorem honest_el {e : Element F} {v : F} (he : e.Honest) (hv : e.wire = v) :
    e = ⟨v, v⟩ := by
  obtain ⟨w, x⟩ := e
  have h1 : x = w := he
  have h2 : w = v := hv
  subst h1 h2
  rfl

theorem honestPoint_honest (n : Kind.point.Native F) : Point.Honest (honestGadget .point n) :=
  ⟨rfl, rfl⟩

theorem hashes1Ops_split {E : Type} (tag : List E) (c : Transcript.Commitments E) :
    Transcript.hashes1Ops tag c = (Transcript.newOps tag ++ Transcript.writePoint c.preamble ++
      [.squeeze] ++ Transcript.writePoint c.sPrime ++ [.squeeze, .squeeze]) ++
        [c.innerError.1, c.innerError.2].map .absorb := rfl

theorem runs_hashes1 {p : PoseidonParams F} (hp : Poseidon.WF p) (hr : 1 ≤ p.rate)
    (hT : p.rate ≤ p.T) {tag : List UInt8} {b : F} {k : ℕ} {pre : PreambleOutput F}
    {oe : OuterErrorOutput F} {inst : UnifiedInstance F} (hlen : oe.spongeState.length = p.T)
    (hm : m → Hashes1Ready p tag b k pre oe inst) :
    Runs m (hashes1Circuit p tag b k pre oe inst) (fun r => ∃ o : UnifiedOutput F,
      r.1 = hashes1Output pre o ∧ Hashes1Holds p tag k pre oe (outputPublic o) ∧
      CircuitResult m b [.w, .y, .z] [.bridgePreamble, .w, .bridgeSPrime, .y, .z, .bridgeInnerError]
        inst o r.2) := by
  rw [hashes1Circuit]
  refine (runs_rootOfUnity fun h => ⟨(hm h).left.circuitId, (hm h).holds.ids.1⟩).bind
    fun _ hid1 => ?_
  refine (runs_rootOfUnity fun h => ⟨(hm h).right.circuitId, (hm h).holds.ids.2⟩).bind
    fun _ hid2 => ?_
  refine (runs_new hp hr tag).bind fun t ht => ?_
  refine (runs_receive (T := []) rfl fun h => (hm h).valid _).bind fun r hr' => ?_
  obtain ⟨preamble, B⟩ := r; obtain ⟨hpre, hB⟩ := hr'; dsimp only at hpre hB ⊢; subst hB
  refine (runs_writePoint hp hr (fun h => by rw [hpre.2 h]; exact honestPoint_honest _)
    ht.1).bind fun t ht => ?_
  refine (runs_challenge hp hr hT ht.1 ht.2.live).bind fun r hr' => ?_
  obtain ⟨w, t⟩ := r; obtain ⟨ht, hl, hw⟩ := hr'; dsimp only at ht hl hw ⊢
  refine (runs_provide rfl _).bind fun B hB => ?_
  subst hB
  refine (runs_receive rfl fun h => (hm h).valid _).bind fun r hr' => ?_
  obtain ⟨sPrime, B⟩ := r; obtain ⟨hsp, hB⟩ := hr'; dsimp only at hsp hB ⊢; subst hB
  refine (runs_writePoint hp hr (fun h => by rw [hsp.2 h]; exact honestPoint_honest _)
    ht).bind fun t ht => ?_
  refine (runs_challenge hp hr hT ht.1 ht.2.live).bind fun r hr' => ?_
  obtain ⟨y, t⟩ := r; obtain ⟨ht, hl, hy⟩ := hr'; dsimp only at ht hl hy ⊢
  refine (runs_challenge hp hr hT ht hl).bind fun r hr' => ?_
  obtain ⟨z, t⟩ := r; obtain ⟨ht, hl, hz⟩ := hr'; dsimp only at ht hl hz ⊢
  refine (runs_provide rfl _).bind fun B hB => ?_
  subst hB
  refine (runs_provide rfl _).bind fun B hB => ?_
  subst hB
  -- in an honest run the challenges are the instance's
  have hch : m → w.wire = (valuePublic inst.value).w ∧ y.wire = (valuePublic inst.value).y ∧
      z.wire = (valuePublic inst.value).z := by
    intro h
    obtain ⟨md, h1, -⟩ := (hm h).holds.transcript
    rw [hashes1Ops_split, SpongeSpec.run_append, SpongeSpec.run_absorbs_out] at h1
    have h2 := ht.run
    rw [hpre.2 h, hsp.2 h] at h2
    have h3 := congrArg Prod.fst h2
    have h4 := congrArg Prod.fst h1
    dsimp only at h3 h4
    rw [List.append_nil] at h4
    have h5 : ([w.wire, y.wire, z.wire].map .ok : List (Except SpongeErr F)) =
        [(valuePublic inst.value).w, (valuePublic inst.value).y,
          (valuePublic inst.value).z].map .ok := by
      rw [← h4]
      refine Eq.trans h3.symm ?_
      simp only [Transcript.newOps, Transcript.writePoint, List.append_assoc, List.cons_append,
        List.nil_append, publicCommitments]
      rfl
    simpa using h5
  refine (runs_applicationKy hy fun h => (hm h).left).bind fun la hla => ?_
  refine (runs_applicationKy hy fun h => (hm h).right).bind fun ra hra => ?_
  refine (Runs.enforceEqual fun h => ?_).bind fun _ ela => ?_
  · rw [hla.1, (hch h).2.1, (hm h).holds.left.application]
  refine (Runs.enforceEqual fun h => ?_).bind fun _ era => ?_
  · rw [hra.1, (hch h).2.1, (hm h).holds.right.application]
  refine (runs_unifiedKy hy fun h => (hm h).left).bind fun r hlu => ?_
  obtain ⟨lu, lb⟩ := r; dsimp only at hlu ⊢
  refine (runs_unifiedKy hy fun h => (hm h).right).bind fun r hru => ?_
  obtain ⟨ru, rb⟩ := r; dsimp only at hru ⊢
  refine (Runs.enforceEqual fun h => ?_).bind fun _ elu => ?_
  · rw [hlu.1, (hch h).2.1, (hm h).holds.left.unified]
  refine (Runs.enforceEqual fun h => ?_).bind fun _ eru => ?_
  · rw [hru.1, (hch h).2.1, (hm h).holds.right.unified]
  refine (Runs.enforceEqual fun h => ?_).bind fun _ elb => ?_
  · rw [hlu.2.1, (hch h).2.1, (hm h).holds.left.unifiedBridge]
  refine (Runs.enforceEqual fun h => ?_).bind fun _ erb => ?_
  · rw [hru.2.1, (hch h).2.1, (hm h).holds.right.unifiedBridge]
  refine (runs_receive rfl fun h => (hm h).valid _).bind fun r hr' => ?_
  obtain ⟨ie, B⟩ := r; obtain ⟨hie, hB⟩ := hr'; dsimp only at hie hB ⊢; subst hB
  refine (runs_writePoint hp hr (fun h => by rw [hie.2 h]; exact honestPoint_honest _)
    ht).bind fun t ht => ?_
  refine (runs_save hp ht.1 ht.2).bind fun s hs => ?_
  refine (runs_enforceEqualStates s oe.spongeState (by rw [hs.2.1, hlen]) fun h => ?_).bind
    fun _ es => ?_
  · obtain ⟨md, h1, h2⟩ := (hm h).holds.transcript
    have h3 := ht.1.run
    rw [hpre.2 h, hsp.2 h, hie.2 h] at h3
    have h4 := h3.symm.trans (Eq.trans (by
      simp only [Transcript.newOps, Transcript.writePoint, List.append_assoc, List.cons_append,
        List.nil_append, publicCommitments, Transcript.hashes1Ops]
      rfl) h1)
    have h5 := hs.1
    rw [(Prod.mk.inj h4).2] at h5
    exact (Except.ok.inj (h2.symm.trans h5)).symm
  refine (runs_finishNoSuffix (by simp only [List.map_cons, List.map_nil]; decide)
    (fun h => (hm h).valid) fun h s hs' => ?_).bind fun r hr' => ?_
  · cases s
    case bridgePreamble => exact (hm h).fresh _ (by simp)
    case w => exact (hm h).fresh _ (by simp)
    case bridgeSPrime => exact (hm h).fresh _ (by simp)
    case y => exact (hm h).fresh _ (by simp)
    case z => exact (hm h).fresh _ (by simp)
    case bridgeInnerError => exact (hm h).fresh _ (by simp)
    all_goals exact absurd hs' Bool.false_ne_true
  obtain ⟨o, inst'⟩ := r
  dsimp only at hr' ⊢
  have e1 := hr'.slots ⟨.bridgePreamble, true, preamble⟩
    (by simp only [List.mem_cons, true_or, or_true])
  have e2 := hr'.slots ⟨.w, true, w⟩ (by simp only [List.mem_cons, true_or, or_true])
  have e3 := hr'.slots ⟨.bridgeSPrime, true, sPrime⟩
    (by simp only [List.mem_cons, true_or, or_true])
  have e4 := hr'.slots ⟨.y, true, y⟩ (by simp only [List.mem_cons, true_or, or_true])
  have e5 := hr'.slots ⟨.z, true, z⟩ (by simp only [List.mem_cons, true_or, or_true])
  have e6 := hr'.slots ⟨.bridgeInnerError, true, ie⟩ List.mem_cons_self
  dsimp only at e1 e2 e3 e4 e5 e6
  have hrest := hr'.rest
  refine Runs.pure ⟨o, rfl, ⟨⟨hid1, hid2⟩,
    ⟨Sponge.mapMode Element.wire t, ?_, ?_⟩, ⟨?_, ?_, ?_⟩, ⟨?_, ?_, ?_⟩⟩, ⟨?_, ?_, ?_⟩⟩
  · refine Eq.trans ?_ (ht.1.run.trans ?_)
    · simp only [Transcript.newOps, Transcript.writePoint, List.append_assoc, List.cons_append,
        List.nil_append, publicCommitments, Transcript.hashes1Ops, outputPublic, e1, e3, e6]
      rfl
    · simp only [outputPublic, e2, e4, e5]
      rfl
  · rw [← es]; exact hs.1
  · rw [show (outputPublic o).y = y.wire by simp only [outputPublic, e4], ← ela, hla.1]
  · rw [show (outputPublic o).y = y.wire by simp only [outputPublic, e4], ← elu, hlu.1]
  · rw [show (outputPublic o).y = y.wire by simp only [outputPublic, e4], ← elb, hlu.2.1]
  · rw [show (outputPublic o).y = y.wire by simp only [outputPublic, e4], ← era, hra.1]
  · rw [show (outputPublic o).y = y.wire by simp only [outputPublic, e4], ← eru, hru.1]
  · rw [show (outputPublic o).y = y.wire by simp only [outputPublic, e4], ← erb, hru.2.1]
  · intro s hs'
    cases s
    case w => exact absurd (by simp) hs'
    case y => exact absurd (by simp) hs'
    case z => exact absurd (by simp) hs'
    case bridgePreamble => rw [e1]; exact hpre.1
    case bridgeSPrime => rw [e3]; exact hsp.1
    case bridgeInnerError => rw [e6]; exact hie.1
    all_goals exact (hrest _ (by simp only [List.map_cons, List.map_nil]; decide)).1
  · intro h s
    cases s
    case w => rw [e2]; exact honest_el (hw h) (hch h).1
    case y => rw [e4]; exact honest_el (hy h) (hch h).2.1
    case z => rw [e5]; exact honest_el (hz h) (hch h).2.2
    case bridgePreamble => rw [e1]; exact hpre.2 h
    case bridgeSPrime => rw [e3]; exact hsp.2 h
    case bridgeInnerError => rw [e6]; exact hie.2 h
    all_goals exact (hrest _ (by simp only [List.map_cons, List.map_nil]; decide)).2 h
  · intro h
    rw [hr'.after h]
    dsimp only
    congr 1
    funext s
    cases s <;> rfl

/-! ### The second hash circuit -/

/-- The second part of the transcript, from the staged state, gives the other challenges. -/
def SecondHalf (p : PoseidonParams F) (staged : List F) (pub : StepPublic F) : Prop :=
  ∃ md, SpongeSpec.run (Poseidon.native p) p.rate (Transcript.hashes2Ops (publicCommitments pub))
    (Sponge.resume p.rate staged) = ([pub.mu, pub.nu, pub.muPrime, pub.nuPrime, pub.x, pub.alpha,
      pub.u, pub.preBeta].map .ok, md)

/-- The slots of the second hash circuit. -/
def hashes2Slots : List SlotId :=
  [.mu, .nu, .bridgeOuterError, .muPrime, .nuPrime, .bridgeAb, .x, .bridgeQuery, .alpha, .bridgeF,
    .u, .bridgeEval, .preBeta]

/-- What an honest run of the second hash circuit needs. -/
structure Hashes2Ready (p : PoseidonParams F) (b : F) (oe : OuterErrorOutput F)
    (inst : UnifiedInstance F) : Prop where
  staged : ∀ e ∈ oe.spongeState, e.Honest
  valid : ∀ s, ValidNative b s.kind (inst.value s)
  fresh : ∀ s ∈ hashes2Slots, inst.coverage s = false
  holds : SecondHalf p (oe.spongeState.map (·.wire)) (valuePublic inst.value)

theorem mapMode_resume (rate : ℕ) (s : List (Element F)) :
    Sponge.mapMode Element.wire (Sponge.resume rate s) =
      Sponge.resume rate (s.map Element.wire) := by
  simp [Sponge.resume, Sponge.mapMode, Sponge.getRate]

theorem runs_hashes2 {p : PoseidonParams F} (hp : Poseidon.WF p) (hr : 1 ≤ p.rate)
    (hT : p.rate ≤ p.T) {b : F} {oe : OuterErrorOutput F} {inst : UnifiedInstance F}
    (hlen : oe.spongeState.length = p.T) (hm : m → Hashes2Ready p b oe inst) :
    Runs m (hashes2Circuit p b oe inst) (fun r => ∃ o : UnifiedOutput F,
      r.1 = o.write ++ [Element.zero] ∧
      SecondHalf p (oe.spongeState.map (·.wire)) (outputPublic o) ∧
      CircuitResult m b [.mu, .nu, .muPrime, .nuPrime, .x, .alpha, .u, .preBeta] hashes2Slots
        inst o r.2) := by
  have h0 : Follows m p (Sponge.resume p.rate (oe.spongeState.map Element.wire)) [] []
      (Sponge.resume p.rate oe.spongeState) := by
    refine ⟨?_, ?_, fun h => ⟨?_, ?_, ?_⟩⟩
    · rw [mapMode_resume]; rfl
    · rw [mapMode_resume]; simp [Sponge.resume, Sponge.state, hlen]
    · intro e he
      rw [Sponge.getRate, List.mem_reverse] at he
      exact (hm h).staged e (List.mem_of_mem_take he)
    · exact (hm h).staged
    · exact hlen
  have hl0 : Live p.T (Sponge.mapMode Element.wire (Sponge.resume p.rate oe.spongeState)) := by
    rw [mapMode_resume]
    simp [Sponge.resume, Live, hlen]
  rw [hashes2Circuit]
  dsimp only
  refine (runs_challenge hp hr hT h0 hl0).bind fun r hr' => ?_
  obtain ⟨mu, t⟩ := r; obtain ⟨ht, hl, hmu⟩ := hr'; dsimp only at ht hl hmu ⊢
  refine (runs_provide (T := []) rfl _).bind fun B hB => ?_
  subst hB
  refine (runs_challenge hp hr hT ht hl).bind fun r hr' => ?_
  obtain ⟨nu, t⟩ := r; obtain ⟨ht, hl, hnu⟩ := hr'; dsimp only at ht hl hnu ⊢
  refine (runs_provide rfl _).bind fun B hB => ?_
  subst hB
  refine (runs_receive rfl fun h => (hm h).valid _).bind fun r hr' => ?_
  obtain ⟨oerr, B⟩ := r; obtain ⟨hoe, hB⟩ := hr'; dsimp only at hoe hB ⊢; subst hB
  refine (runs_writePoint hp hr (fun h => by rw [hoe.2 h]; exact honestPoint_honest _)
    ht).bind fun t ht => ?_
  refine (runs_challenge hp hr hT ht.1 ht.2.live).bind fun r hr' => ?_
  obtain ⟨mu', t⟩ := r; obtain ⟨ht, hl, hmu'⟩ := hr'; dsimp only at ht hl hmu' ⊢
  refine (runs_challenge hp hr hT ht hl).bind fun r hr' => ?_
  obtain ⟨nu', t⟩ := r; obtain ⟨ht, hl, hnu'⟩ := hr'; dsimp only at ht hl hnu' ⊢
  refine (runs_provide rfl _).bind fun B hB => ?_
  subst hB
  refine (runs_provide rfl _).bind fun B hB => ?_
  subst hB
  refine (runs_receive rfl fun h => (hm h).valid _).bind fun r hr' => ?_
  obtain ⟨ab, B⟩ := r; obtain ⟨hab, hB⟩ := hr'; dsimp only at hab hB ⊢; subst hB
  refine (runs_writePoint hp hr (fun h => by rw [hab.2 h]; exact honestPoint_honest _)
    ht).bind fun t ht => ?_
  refine (runs_challenge hp hr hT ht.1 ht.2.live).bind fun r hr' => ?_
  obtain ⟨x, t⟩ := r; obtain ⟨ht, hl, hx⟩ := hr'; dsimp only at ht hl hx ⊢
  refine (runs_provide rfl _).bind fun B hB => ?_
  subst hB
  refine (runs_receive rfl fun h => (hm h).valid _).bind fun r hr' => ?_
  obtain ⟨qu, B⟩ := r; obtain ⟨hqu, hB⟩ := hr'; dsimp only at hqu hB ⊢; subst hB
  refine (runs_writePoint hp hr (fun h => by rw [hqu.2 h]; exact honestPoint_honest _)
    ht).bind fun t ht => ?_
  refine (runs_challenge hp hr hT ht.1 ht.2.live).bind fun r hr' => ?_
  obtain ⟨al, t⟩ := r; obtain ⟨ht, hl, hal⟩ := hr'; dsimp only at ht hl hal ⊢
  refine (runs_provide rfl _).bind fun B hB => ?_
  subst hB
  refine (runs_receive rfl fun h => (hm h).valid _).bind fun r hr' => ?_
  obtain ⟨f, B⟩ := r; obtain ⟨hf, hB⟩ := hr'; dsimp only at hf hB ⊢; subst hB
  refine (runs_writePoint hp hr (fun h => by rw [hf.2 h]; exact honestPoint_honest _)
    ht).bind fun t ht => ?_
  refine (runs_challenge hp hr hT ht.1 ht.2.live).bind fun r hr' => ?_
  obtain ⟨u, t⟩ := r; obtain ⟨ht, hl, hu⟩ := hr'; dsimp only at ht hl hu ⊢
  refine (runs_provide rfl _).bind fun B hB => ?_
  subst hB
  refine (runs_receive rfl fun h => (hm h).valid _).bind fun r hr' => ?_
  obtain ⟨ev, B⟩ := r; obtain ⟨hev, hB⟩ := hr'; dsimp only at hev hB ⊢; subst hB
  refine (runs_writePoint hp hr (fun h => by rw [hev.2 h]; exact honestPoint_honest _)
    ht).bind fun t ht => ?_
  refine (runs_challenge hp hr hT ht.1 ht.2.live).bind fun r hr' => ?_
  obtain ⟨pb, t⟩ := r; obtain ⟨ht, hl, hpb⟩ := hr'; dsimp only at ht hl hpb ⊢
  refine (runs_provide rfl _).bind fun B hB => ?_
  subst hB
  refine (runs_finish (by simp only [List.map_cons, List.map_nil]; decide)
    (fun h => (hm h).valid) fun h s hs' => ?_).mono fun r hr' => ?_
  · cases s
    case bridgePreamble => exact absurd hs' Bool.false_ne_true
    case w => exact absurd hs' Bool.false_ne_true
    case bridgeSPrime => exact absurd hs' Bool.false_ne_true
    case y => exact absurd hs' Bool.false_ne_true
    case z => exact absurd hs' Bool.false_ne_true
    case bridgeInnerError => exact absurd hs' Bool.false_ne_true
    case c => exact absurd hs' Bool.false_ne_true
    case v => exact absurd hs' Bool.false_ne_true
    all_goals exact (hm h).fresh _ (by simp [hashes2Slots])
  obtain ⟨o, ho, hr'⟩ := hr'
  have e1 := hr'.slots ⟨.mu, true, mu⟩ (by simp only [List.mem_cons, true_or, or_true])
  have e2 := hr'.slots ⟨.nu, true, nu⟩ (by simp only [List.mem_cons, true_or, or_true])
  have e3 := hr'.slots ⟨.bridgeOuterError, true, oerr⟩
    (by simp only [List.mem_cons, true_or, or_true])
  have e4 := hr'.slots ⟨.muPrime, true, mu'⟩ (by simp only [List.mem_cons, true_or, or_true])
  have e5 := hr'.slots ⟨.nuPrime, true, nu'⟩ (by simp only [List.mem_cons, true_or, or_true])
  have e6 := hr'.slots ⟨.bridgeAb, true, ab⟩ (by simp only [List.mem_cons, true_or, or_true])
  have e7 := hr'.slots ⟨.x, true, x⟩ (by simp only [List.mem_cons, true_or, or_true])
  have e8 := hr'.slots ⟨.bridgeQuery, true, qu⟩ (by simp only [List.mem_cons, true_or, or_true])
  have e9 := hr'.slots ⟨.alpha, true, al⟩ (by simp only [List.mem_cons, true_or, or_true])
  have e10 := hr'.slots ⟨.bridgeF, true, f⟩ (by simp only [List.mem_cons, true_or, or_true])
  have e11 := hr'.slots ⟨.u, true, u⟩ (by simp only [List.mem_cons, true_or, or_true])
  have e12 := hr'.slots ⟨.bridgeEval, true, ev⟩ (by simp only [List.mem_cons, true_or, or_true])
  have e13 := hr'.slots ⟨.preBeta, true, pb⟩ List.mem_cons_self
  dsimp only at e1 e2 e3 e4 e5 e6 e7 e8 e9 e10 e11 e12 e13
  have hrest := hr'.rest
  have hrun : SpongeSpec.run (Poseidon.native p) p.rate
      (Transcript.hashes2Ops (publicCommitments (outputPublic o)))
      (Sponge.resume p.rate (oe.spongeState.map Element.wire)) = ([mu.wire, nu.wire, mu'.wire,
        nu'.wire, x.wire, al.wire, u.wire, pb.wire].map .ok, Sponge.mapMode Element.wire t) := by
    refine Eq.trans ?_ ht.run
    simp only [Transcript.writePoint, List.append_assoc, List.cons_append,
      List.nil_append, publicCommitments, Transcript.hashes2Ops, outputPublic, e3, e6, e8, e10, e12]
    rfl
  -- in an honest run the challenges are the instance's
  have hch : m → [mu.wire, nu.wire, mu'.wire, nu'.wire, x.wire, al.wire, u.wire, pb.wire] =
      [(valuePublic inst.value).mu, (valuePublic inst.value).nu, (valuePublic inst.value).muPrime,
        (valuePublic inst.value).nuPrime, (valuePublic inst.value).x,
        (valuePublic inst.value).alpha, (valuePublic inst.value).u,
        (valuePublic inst.value).preBeta] := by
    intro h
    obtain ⟨md, h1⟩ := (hm h).holds
    have h2 := hrun
    have h3 : Transcript.hashes2Ops (publicCommitments (outputPublic o)) =
        Transcript.hashes2Ops (publicCommitments (valuePublic inst.value)) := by
      simp only [Transcript.writePoint, List.append_assoc, List.cons_append,
        List.nil_append, publicCommitments, Transcript.hashes2Ops, outputPublic, valuePublic,
        e3, e6, e8, e10, e12, hoe.2 h, hab.2 h, hqu.2 h, hf.2 h, hev.2 h]
    rw [h3] at h2
    have h4 := (Prod.mk.inj (h2.symm.trans h1)).1
    exact (List.map_injective_iff.2 fun a b h => Except.ok.inj h) h4
  refine ⟨o, ho, ⟨Sponge.mapMode Element.wire t, hrun.trans ?_⟩, ⟨?_, ?_, ?_⟩⟩
  · simp only [outputPublic, e1, e2, e4, e5, e7, e9, e11, e13]
  · intro s hs'
    cases s
    case mu => exact absurd (by simp) hs'
    case nu => exact absurd (by simp) hs'
    case muPrime => exact absurd (by simp) hs'
    case nuPrime => exact absurd (by simp) hs'
    case x => exact absurd (by simp) hs'
    case alpha => exact absurd (by simp) hs'
    case u => exact absurd (by simp) hs'
    case preBeta => exact absurd (by simp) hs'
    case bridgeOuterError => rw [e3]; exact hoe.1
    case bridgeAb => rw [e6]; exact hab.1
    case bridgeQuery => rw [e8]; exact hqu.1
    case bridgeF => rw [e10]; exact hf.1
    case bridgeEval => rw [e12]; exact hev.1
    all_goals exact (hrest _ (by simp only [List.map_cons, List.map_nil]; decide)).1
  · intro h s
    have hc := hch h
    simp only [List.cons.injEq, and_true] at hc
    obtain ⟨c1, c2, c3, c4, c5, c6, c7, c8⟩ := hc
    cases s
    case mu => rw [e1]; exact honest_el (hmu h) c1
    case nu => rw [e2]; exact honest_el (hnu h) c2
    case muPrime => rw [e4]; exact honest_el (hmu' h) c3
    case nuPrime => rw [e5]; exact honest_el (hnu' h) c4
    case x => rw [e7]; exact honest_el (hx h) c5
    case alpha => rw [e9]; exact honest_el (hal h) c6
    case u => rw [e11]; exact honest_el (hu h) c7
    case preBeta => rw [e13]; exact honest_el (hpb h) c8
    case bridgeOuterError => rw [e3]; exact hoe.2 h
    case bridgeAb => rw [e6]; exact hab.2 h
    case bridgeQuery => rw [e8]; exact hqu.2 h
    case bridgeF => rw [e10]; exact hf.2 h
    case bridgeEval => rw [e12]; exact hev.2 h
    all_goals exact (hrest _ (by simp only [List.map_cons, List.map_nil]; decide)).2 h
  · intro h
    rw [hr'.after h]
    congr 1
    funext s
    cases s <;> rfl

/-! ### The collapse circuits -/

theorem runs_folder {mu nu : Element F} (hmu : m → mu.Honest ∧ mu.wire ≠ 0) (hnu : m → nu.Honest) :
    Runs m (Fold.ClaimFolder.new mu nu) (fun cf => mu.wire ≠ 0 ∧ cf.muInv.wire = mu.wire⁻¹ ∧
      cf.muNu.wire = mu.wire * nu.wire ∧ (m → cf.muInv.Honest ∧ cf.muNu.Honest)) := by
  rw [Fold.ClaimFolder.new]
  refine (Runs.mul (fun h => (hmu h).1) hnu).bind fun a ha => ?_
  refine (Runs.invert hmu).bind fun i hi => ?_
  exact Runs.pure ⟨hi.1, hi.2.1, ha.1, fun h => ⟨hi.2.2 h, ha.2 h⟩⟩

theorem runs_foldProducts {n : ℕ} {muNu muInv : Element F} {es ks : List (Element F)}
    (h1 : m → muNu.Honest) (h2 : m → muInv.Honest) (hes : es.length = n * n - n)
    (hks : ks.length = n) (he : m → ∀ e ∈ es, e.Honest) (hk : m → ∀ e ∈ ks, e.Honest) :
    Runs m (Fold.foldProducts n muNu muInv es ks) (fun r =>
      r.wire = foldedClaim n muInv.wire muNu.wire
        (claimMatrix n (es.map (·.wire)) (ks.map (·.wire))) ∧ (m → r.Honest)) := by
  refine (Runs.of_computes (Fold.foldProducts_computes h1 h2 hes hks he hk)).mono fun r hr => ?_
  rw [Fold.hornerE_matrix] at hr
  subst hr
  refine ⟨rfl, fun h => ?_⟩
  have e1 : es.map (·.value) = es.map (·.wire) := List.map_congr_left fun e h' => he h e h'
  have e2 : ks.map (·.value) = ks.map (·.wire) := List.map_congr_left fun e h' => hk h e h'
  show foldedClaim n muInv.value muNu.value _ = foldedClaim n muInv.wire muNu.wire _
  rw [e1, e2, show muInv.value = muInv.wire from h2 h, show muNu.value = muNu.wire from h1 h]

/-- The loop's equations for the groups `i, i+1, …`. -/
def GroupsHold (n : ℕ) (muInv muNu : F) (ky : ℕ → F) (collapsed : List F) (i : ℕ)
    (errs : List (List F)) : Prop :=
  ∀ j < errs.length, collapsed[i + j]? = some (foldedClaim n muInv muNu
    (claimMatrix n (errs.getD j []) ((List.range n).map fun l => ky ((i + j) * n + l))))

theorem runs_innerLoop {cf : Fold.ClaimFolder F} {n : ℕ} {ky : ℕ → Element F}
    {collapsed : List (Element F)} (hcf : m → cf.muInv.Honest ∧ cf.muNu.Honest)
    (hky : m → ∀ i, (ky i).Honest) : ∀ (errs : List (List (Element F))) (i : ℕ),
    (∀ e ∈ errs, e.length = n * n - n) → (m → ∀ l ∈ errs, ∀ e ∈ l, e.Honest) →
    (m → GroupsHold n cf.muInv.wire cf.muNu.wire (fun i => (ky i).wire)
      (collapsed.map (·.wire)) i (errs.map fun l => l.map (·.wire))) →
    Runs m (innerCollapseLoop cf n ky collapsed i errs) (fun _ =>
      GroupsHold n cf.muInv.wire cf.muNu.wire (fun i => (ky i).wire)
        (collapsed.map (·.wire)) i (errs.map fun l => l.map (·.wire)))
  | [], i, _, _, _ => Runs.pure fun j hj => by simp at hj
  | es :: errs, i, hl, he, hm => by
    rw [innerCollapseLoop]
    refine (runs_foldProducts (fun h => (hcf h).2) (fun h => (hcf h).1) (hl es (by simp)) (by simp)
      (fun h => he h es (by simp)) fun h e he' => ?_).bind fun v hv => ?_
    · obtain ⟨j, -, rfl⟩ := List.mem_map.1 he'
      exact hky h _
    have hv1 := hv.1
    rw [List.map_map] at hv1
    have key : ∀ c : F, collapsed[i]?.map (·.wire) = some c → c = v.wire → GroupsHold n cf.muInv.wire
        cf.muNu.wire (fun i => (ky i).wire) (collapsed.map (·.wire)) (i + 1)
        (errs.map fun l => l.map (·.wire)) → GroupsHold n cf.muInv.wire cf.muNu.wire
        (fun i => (ky i).wire) (collapsed.map (·.wire)) i
        ((es :: errs).map fun l => l.map (·.wire)) := by
      intro c h1 h2 h3 j hj
      cases j with
      | zero =>
        rw [Nat.add_zero, List.getElem?_map, h1, h2, hv1]
        rfl
      | succ j =>
        have := h3 j (by simpa using hj)
        rw [show i + 1 + j = i + (j + 1) by omega] at this
        rw [this]
        rfl
    have key2 : m → collapsed[i]?.map (·.wire) = some v.wire := by
      intro h
      have := hm h 0 (by simp)
      rw [Nat.add_zero, List.getElem?_map] at this
      rw [this, hv1]
      rfl
    cases hc : collapsed[i]? with
    | none =>
      refine ⟨fun _ r hr => hr.elim, fun h => ?_⟩
      have := key2 h
      rw [hc] at this
      simp at this
    | some c =>
      dsimp only
      refine (Runs.enforceEqual fun h => ?_).bind fun _ e1 => ?_
      · have := key2 h
        rw [hc] at this
        exact (Option.some.inj this).symm
      refine (runs_innerLoop hcf hky errs (i + 1) (fun e h => hl e (by simp [h]))
        (fun h l hl' => he h l (by simp [hl'])) fun h j hj => ?_).mono fun _ h => ?_
      · have := hm h (j + 1) (by simpa using hj)
        rw [show i + (j + 1) = i + 1 + j by omega] at this
        rw [this]
        rfl
      · exact key c.wire (by rw [hc]; rfl) e1.symm h

/-- What the inner collapse circuit establishes. -/
def InnerHolds (n : ℕ) (pre : PreambleOutput F) (oe : OuterErrorOutput F)
    (errs : List (List (Element F))) (pub : StepPublic F) : Prop :=
  pub.mu ≠ 0 ∧ GroupsHold n pub.mu⁻¹ (pub.mu * pub.nu)
    (fun i => (circuitKyValues pre oe.left oe.right i).wire) (oe.collapsed.map (·.wire)) 0
    (errs.map fun l => l.map (·.wire))

/-- Witness values and wires agree. -/
structure ChildKyOutputs.Honest (k : ChildKyOutputs F) : Prop where
  application : k.application.Honest
  unified : k.unified.Honest
  unifiedBridge : k.unifiedBridge.Honest

theorem getD_all {α : Type} {P : α → Prop} {l : List α} {d : α} (hl : ∀ e ∈ l, P e) (hd : P d)
    (i : ℕ) : P (l.getD i d) := by
  rw [List.getD_eq_getElem?_getD]
  cases h : l[i]? with
  | none => exact hd
  | some e => exact hl e (List.mem_of_getElem? h)

theorem circuitKyValues_honest {pre : PreambleOutput F} {l r : ChildKyOutputs F}
    (hc : Element.Honest (pre.left.unified .c) ∧ Element.Honest (pre.right.unified .c))
    (hl : l.Honest) (hr : r.Honest) (i : ℕ) : (circuitKyValues pre l r i).Honest := by
  have h : ∀ es : List (Element F), es.Forall Element.Honest → ∀ e ∈ es, e.Honest :=
    fun es h => List.forall_iff_forall_mem.1 h
  refine getD_all (h _ ?_) zero_honest i
  exact ⟨hc.1, hc.2, hl.1, hr.1, hl.3, hr.3, hl.2, hr.2, hl.2, hr.2, hl.2, hr.2, hl.2, hr.2⟩

theorem circuitKyValues_wire {pre : PreambleOutput F} {l r : ChildKyOutputs F} {y : F}
    (hl : KyHolds pre.left.public y l) (hr : KyHolds pre.right.public y r) (i : ℕ) :
    (circuitKyValues pre l r i).wire =
      (claimedValues y pre.left.public pre.right.public).getD i 0 := by
  have h : ∀ (es : List (Element F)) (i : ℕ), (es.getD i Element.zero).wire =
      (es.map (·.wire)).getD i 0 := by
    intro es i
    rw [List.getD_eq_getElem?_getD, List.getD_eq_getElem?_getD, List.getElem?_map]
    cases es[i]? <;> simp
  rw [circuitKyValues, KySource.values]
  refine (h _ i).trans ?_
  congr 1
  show [Element.wire (pre.left.unified .c), Element.wire (pre.right.unified .c),
    l.application.wire, r.application.wire,
    l.unifiedBridge.wire, r.unifiedBridge.wire, l.unified.wire, r.unified.wire, l.unified.wire,
    r.unified.wire, l.unified.wire, r.unified.wire, l.unified.wire, r.unified.wire] = _
  rw [hl.1, hl.2, hl.3, hr.1, hr.2, hr.3]
  rfl

/-- What an honest run of the inner collapse circuit needs. -/
structure InnerReady (b : F) (n : ℕ) (pre : PreambleOutput F) (oe : OuterErrorOutput F)
    (errs : List (List (Element F))) (inst : UnifiedInstance F) : Prop where
  c : Element.Honest (pre.left.unified .c) ∧ Element.Honest (pre.right.unified .c)
  left : oe.left.Honest
  right : oe.right.Honest
  errors : ∀ l ∈ errs, ∀ e ∈ l, e.Honest
  valid : ∀ s, ValidNative b s.kind (inst.value s)
  holds : InnerHolds n pre oe errs (valuePublic inst.value)

theorem runs_innerCollapse {b : F} {n : ℕ} {pre : PreambleOutput F} {oe : OuterErrorOutput F}
    {errs : List (List (Element F))} {inst : UnifiedInstance F}
    (hlen : ∀ e ∈ errs, e.length = n * n - n) (hm : m → InnerReady b n pre oe errs inst) :
    Runs m (innerCollapseCircuit b n pre oe errs inst) (fun r => ∃ o : UnifiedOutput F,
      r.1 = o.write ++ [Element.zero] ∧ InnerHolds n pre oe errs (outputPublic o) ∧
      CircuitResult m b [] [] inst o r.2) := by
  rw [innerCollapseCircuit]
  refine (runs_read (T := []) rfl fun h => (hm h).valid _).bind fun r hr => ?_
  obtain ⟨mu, B⟩ := r; obtain ⟨hmu, hB⟩ := hr; dsimp only at hmu hB ⊢; subst hB
  refine (runs_read rfl fun h => (hm h).valid _).bind fun r hr => ?_
  obtain ⟨nu, B⟩ := r; obtain ⟨hnu, hB⟩ := hr; dsimp only at hnu hB ⊢; subst hB
  refine (runs_folder (fun h => ?_) fun h => ?_).bind fun cf hcf => ?_
  · rw [hmu.2 h]; exact ⟨rfl, (hm h).holds.1⟩
  · rw [hnu.2 h]; rfl
  refine (runs_innerLoop hcf.2.2.2 (fun h => circuitKyValues_honest (hm h).c (hm h).left
    (hm h).right) errs 0 hlen (fun h => (hm h).errors) fun h => ?_).bind fun _ hg => ?_
  · rw [hcf.2.1, hcf.2.2.1, hmu.2 h, hnu.2 h]
    exact (hm h).holds.2
  refine (runs_finish (by simp only [List.map_cons, List.map_nil]; decide) (fun h => (hm h).valid)
    fun h s hs => ?_).mono fun r hr => ?_
  · cases s <;> exact absurd hs Bool.false_ne_true
  obtain ⟨o, ho, hr⟩ := hr
  have e1 := hr.slots ⟨.mu, false, mu⟩ (by simp only [List.mem_cons, true_or, or_true])
  have e2 := hr.slots ⟨.nu, false, nu⟩ (by simp only [List.mem_cons, true_or, or_true])
  dsimp only at e1 e2
  have hrest := hr.rest
  refine ⟨o, ho, ?_, ?_, ?_, ?_⟩
  · rw [hcf.2.1, hcf.2.2.1] at hg
    rw [InnerHolds, show (outputPublic o).mu = mu.wire by simp only [outputPublic, e1],
      show (outputPublic o).nu = nu.wire by simp only [outputPublic, e2]]
    exact ⟨hcf.1, hg⟩
  · intro s _
    cases s
    case mu => rw [e1]; exact hmu.1
    case nu => rw [e2]; exact hnu.1
    all_goals exact (hrest _ (by simp only [List.map_cons, List.map_nil]; decide)).1
  · intro h s
    cases s
    case mu => rw [e1]; exact hmu.2 h
    case nu => rw [e2]; exact hnu.2 h
    all_goals exact (hrest _ (by simp only [List.map_cons, List.map_nil]; decide)).2 h
  · intro h
    rw [hr.after h]
    congr 1

theorem runs_isTrivial {N : ℕ} {c : ChildInputs F} (hc : m → (∀ e ∈ c.outputHeader, e.Honest) ∧
    N - 1 < c.outputHeader.length) :
    Runs m (c.parts.isTrivial N) (fun r =>
      (c.public.Trivial N → r.wire = 1) ∧ (¬ c.public.Trivial N → r.wire = 0) ∧
      (m → r.Honest)) := by
  rw [ProofInputs.isTrivial]
  have hT : c.public.Trivial N ↔ (c.outputHeader[N - 1]?).map (·.wire) = some 1 := by
    rw [ChildPublic.Trivial, ChildInputs.public, List.getElem?_map]
  show Runs m (match c.outputHeader[N - 1]? with | none => .panic | some s => s.isEqual Element.one) _
  cases he : c.outputHeader[N - 1]? with
  | none => exact ⟨fun _ r hr => hr.elim, fun h => by
      rw [List.getElem?_eq_none_iff] at he
      have := (hc h).2
      omega⟩
  | some e =>
    dsimp only
    have hT' : c.public.Trivial N ↔ (e.sub Element.one).wire = 0 := by
      rw [hT, he, Option.map_some, Option.some_inj, Element.sub_wire, Element.one_wire, sub_eq_zero]
    refine ⟨fun hm r hr => ?_, fun h => ?_⟩
    · rw [show r = _ from (isZero_sat _ r).1 hr]
      refine ⟨fun h => if_pos (hT'.1 h), fun h => if_neg fun h' => h (hT'.2 h'),
        fun h => (hm h).elim⟩
    · have h1 : e.Honest := (hc h).1 e (List.mem_of_getElem? he)
      have h2 : (e.sub Element.one).Honest := by
        show _ = _
        rw [Element.sub_value, Element.sub_wire, Element.one_wire, Element.one_value,
          show e.value = e.wire from h1]
      refine ⟨_, isZero_sim h2, fun h => ?_, fun h => ?_, fun _ => rfl⟩
      · rw [hT', Element.sub_wire, Element.one_wire] at h; simp [h, fe]
      · rw [hT', Element.sub_wire, Element.one_wire] at h; simp [h, fe]

theorem runs_isBaseCase {N : ℕ} {l r : ChildInputs F}
    (hl : m → (∀ e ∈ l.outputHeader, e.Honest) ∧ N - 1 < l.outputHeader.length)
    (hr : m → (∀ e ∈ r.outputHeader, e.Honest) ∧ N - 1 < r.outputHeader.length) :
    Runs m (isBaseCase N l.parts r.parts) (fun c =>
      (l.public.Trivial N ∧ r.public.Trivial N → c.wire = 1) ∧
      (¬ (l.public.Trivial N ∧ r.public.Trivial N) → c.wire = 0) ∧ (m → c.Honest)) := by
  rw [isBaseCase]
  refine (runs_isTrivial hl).bind fun a ha => ?_
  refine (runs_isTrivial hr).bind fun c hc => ?_
  have key : (l.public.Trivial N ∧ r.public.Trivial N → a.wire * c.wire = 1) ∧
      (¬ (l.public.Trivial N ∧ r.public.Trivial N) → a.wire * c.wire = 0) := by
    refine ⟨fun h => by rw [ha.1 h.1, hc.1 h.2, one_mul], fun h => ?_⟩
    by_cases h1 : l.public.Trivial N
    · rw [hc.2.1 fun h2 => h ⟨h1, h2⟩, mul_zero]
    · rw [ha.2.1 h1, zero_mul]
  refine ⟨fun hm r hr => ?_, fun h => ?_⟩
  · rw [(Boolean.and_sat _ _ _).1 hr]
    exact ⟨key.1, key.2, fun h => (hm h).elim⟩
  · refine ⟨_, Boolean.and_sim (ha.2.2 h) (hc.2.2 h), key.1, key.2, fun _ => ?_⟩
    show fe (a.value && c.value) = a.wire * c.wire
    rw [← fe_and, show (fe a.value : F) = a.wire from ha.2.2 h,
      show (fe c.value : F) = c.wire from hc.2.2 h]

theorem runs_conditionalEnforceEqual {s : Boolean F} {a c : Element F} (hs : m → s.Honest)
    (ha : m → a.Honest) (hc : m → c.Honest) (h : m → s.wire = 0 ∨ a.wire = c.wire) :
    Runs m (s.conditionalEnforceEqual a c) (fun _ => s.wire = 0 ∨ a.wire = c.wire) := by
  refine ⟨fun _ r hr => (Boolean.conditionalEnforceEqual_sat s a c r).1 hr, fun hm => ⟨(), ?_, h hm⟩⟩
  have h1 : s.element.Honest := hs hm
  have h2 : (a.sub c).Honest := by
    show _ = _
    rw [Element.sub_value, Element.sub_wire, show a.value = a.wire from ha hm,
      show c.value = c.wire from hc hm]
  rw [Boolean.conditionalEnforceEqual, Syn.sim_bind_ok (Element.mul_sim h1 h2)]
  have h3 : s.element.wire * (a.sub c).wire = 0 := by
    rw [Element.sub_wire, Boolean.element_wire]
    rcases h hm with h | h
    · rw [h, zero_mul]
    · rw [h, sub_self, mul_zero]
  rw [h3]
  simp [Element.enforceZero]

/-- What the outer collapse circuit establishes. -/
def OuterHolds (N g : ℕ) (pre : PreambleOutput F) (oe : OuterErrorOutput F) (pub : StepPublic F) :
    Prop :=
  pub.muPrime ≠ 0 ∧ (¬ (pre.left.public.Trivial N ∧ pre.right.public.Trivial N) → pub.c =
    foldedClaim g pub.muPrime⁻¹ (pub.muPrime * pub.nuPrime)
      (claimMatrix g (oe.errorTerms.map (·.wire)) (oe.collapsed.map (·.wire))))

/-- What an honest run of the outer collapse circuit needs. -/
structure OuterReady (b : F) (N g : ℕ) (pre : PreambleOutput F) (oe : OuterErrorOutput F)
    (inst : UnifiedInstance F) : Prop where
  left : (∀ e ∈ pre.left.outputHeader, e.Honest) ∧ N - 1 < pre.left.outputHeader.length
  right : (∀ e ∈ pre.right.outputHeader, e.Honest) ∧ N - 1 < pre.right.outputHeader.length
  errs : ∀ e ∈ oe.errorTerms, e.Honest
  collapsed : ∀ e ∈ oe.collapsed, e.Honest
  valid : ∀ s, ValidNative b s.kind (inst.value s)
  fresh : inst.coverage .c = false
  holds : OuterHolds N g pre oe (valuePublic inst.value)

theorem runs_outerCollapse {b : F} {N g : ℕ} {pre : PreambleOutput F} {oe : OuterErrorOutput F}
    {inst : UnifiedInstance F} (he : oe.errorTerms.length = g * g - g) (hc : oe.collapsed.length = g)
    (hm : m → OuterReady b N g pre oe inst) :
    Runs m (outerCollapseCircuit b N g pre oe inst) (fun r => ∃ o : UnifiedOutput F,
      r.1 = o.write ++ [Element.zero] ∧ OuterHolds N g pre oe (outputPublic o) ∧
      CircuitResult m b [] [.c] inst o r.2) := by
  rw [outerCollapseCircuit]
  refine (runs_read (T := []) rfl fun h => (hm h).valid _).bind fun r hr => ?_
  obtain ⟨mu, B⟩ := r; obtain ⟨hmu, hB⟩ := hr; dsimp only at hmu hB ⊢; subst hB
  refine (runs_read rfl fun h => (hm h).valid _).bind fun r hr => ?_
  obtain ⟨nu, B⟩ := r; obtain ⟨hnu, hB⟩ := hr; dsimp only at hnu hB ⊢; subst hB
  refine (runs_folder (fun h => ?_) fun h => ?_).bind fun cf hcf => ?_
  · rw [hmu.2 h]; exact ⟨rfl, (hm h).holds.1⟩
  · rw [hnu.2 h]; rfl
  refine (runs_foldProducts (fun h => (hcf.2.2.2 h).2) (fun h => (hcf.2.2.2 h).1) he hc
    (fun h => (hm h).errs) fun h => (hm h).collapsed).bind fun v hv => ?_
  rw [hcf.2.1, hcf.2.2.1] at hv
  refine (runs_receive rfl fun h => (hm h).valid _).bind fun r hr => ?_
  obtain ⟨c, B⟩ := r; obtain ⟨hcc, hB⟩ := hr; dsimp only at hcc hB ⊢; subst hB
  refine (runs_isBaseCase (fun h => (hm h).left) fun h => (hm h).right).bind fun base hbase => ?_
  refine (runs_conditionalEnforceEqual (fun h => ?_) (fun h => ?_) (fun h => hv.2 h)
    fun h => ?_).bind fun _ hce => ?_
  · have := hbase.2.2 h
    show fe (!base.value) = base.not.wire
    rw [fe_not, Boolean.not_wire, show (fe base.value : F) = base.wire from this]
  · rw [hcc.2 h]; rfl
  · by_cases ht : pre.left.public.Trivial N ∧ pre.right.public.Trivial N
    · left; rw [Boolean.not_wire, hbase.1 ht, sub_self]
    · right
      rw [hcc.2 h, hv.1, hmu.2 h, hnu.2 h]
      exact (hm h).holds.2 ht
  refine (runs_finish (by simp only [List.map_cons, List.map_nil]; decide) (fun h => (hm h).valid)
    fun h s hs => ?_).mono fun r hr => ?_
  · cases s
    case c => exact (hm h).fresh
    all_goals exact absurd hs Bool.false_ne_true
  obtain ⟨o, ho, hr⟩ := hr
  have e1 := hr.slots ⟨.muPrime, false, mu⟩ (by simp only [List.mem_cons, true_or, or_true])
  have e2 := hr.slots ⟨.nuPrime, false, nu⟩ (by simp only [List.mem_cons, true_or, or_true])
  have e3 := hr.slots ⟨.c, true, c⟩ (by simp only [List.mem_cons, true_or, or_true])
  dsimp only at e1 e2 e3
  have hrest := hr.rest
  refine ⟨o, ho, ?_, ?_, ?_, ?_⟩
  · rw [OuterHolds, show (outputPublic o).muPrime = mu.wire by simp only [outputPublic, e1],
      show (outputPublic o).nuPrime = nu.wire by simp only [outputPublic, e2],
      show (outputPublic o).c = c.wire by simp only [outputPublic, e3]]
    refine ⟨hcf.1, fun ht => ?_⟩
    rcases hce with h | h
    · rw [Boolean.not_wire, hbase.2.1 ht, sub_zero] at h
      exact absurd h one_ne_zero
    · rw [← hv.1]; exact h
  · intro s _
    cases s
    case muPrime => rw [e1]; exact hmu.1
    case nuPrime => rw [e2]; exact hnu.1
    case c => rw [e3]; exact hcc.1
    all_goals exact (hrest _ (by simp only [List.map_cons, List.map_nil]; decide)).1
  · intro h s
    cases s
    case muPrime => rw [e1]; exact hmu.2 h
    case nuPrime => rw [e2]; exact hnu.2 h
    case c => rw [e3]; exact hcc.2 h
    all_goals exact (hrest _ (by simp only [List.map_cons, List.map_nil]; decide)).2 h
  · intro h
    rw [hr.after h]
    congr 1
    funext s
    cases s <;> rfl

end Ragu.Pcd

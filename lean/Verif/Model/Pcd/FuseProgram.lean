/-
Model of `fuse` (`ragu_pcd/src/fuse/`) as a program, one function for each function of the code and in
the order of the code.

A call draws random field elements and the calls of the trace evaluator may be scheduled in any order,
so a call has a set of outcomes. An outcome is a result or a `Stop`, which says which call returned an
error or panicked, and on what.
-/
import Verif.Model.Pcd.NestedRun

namespace Ragu.Pcd
open Ragu Ragu.Circuit Ragu.Registry Ragu.Gadget Ragu.Spec

/-! ### Outcomes -/

/-- The set of outcomes of a call: `.ok` with a result or `.error` with the reason to stop. -/
def Outcomes (E α : Type) := Except E α → Prop

/-- The rest of the program runs on every possible result; a stop ends it. -/
instance {E : Type} : Monad (Outcomes E) where
  pure a := fun r => r = .ok a
  bind m f := fun r => (∃ a, m (.ok a) ∧ f a r) ∨ ∃ e, m (.error e) ∧ r = .error e

/-- A call that returns a `Result`, followed by `?`. -/
def Outcomes.call {E ε α : Type} (stop : ε → E) (x : Except ε α) : Outcomes E α :=
  fun r => match x with
    | .ok a => r = .ok a
    | .error e => r = .error (stop e)

/-- A call that panics when it gives `none`. -/
def Outcomes.expect {E α : Type} (stop : E) (x : Option α) : Outcomes E α :=
  fun r => match x with
    | some a => r = .ok a
    | none => r = .error stop

/-- Any result with the property `p`. -/
def Outcomes.any {E α : Type} (p : α → Prop) : Outcomes E α := fun r => ∃ a, p a ∧ r = .ok a

/-- `Field::random`. -/
def Outcomes.random {E : Type} (K : Type) : Outcomes E K := .any fun _ => True

/-- Why a call of `fuse` ends without a proof. -/
inductive Stop (F G HC : Type) where
  /-- the synthesis of the step in its adapter -/
  | step (e : Err)
  /-- `Point::constant` of a bridge's commitment for the transcript -/
  | commitment (c : Option (F × F)) (e : Err)
  /-- inverting a challenge of the folding -/
  | inverse (mu : F)
  /-- `Point::alloc` of host curve points in the witness of a stage over the scalar field -/
  | hostPoints (l : List HC) (e : Err)
  /-- the synthesis of a step of endoscaling the points `l` with the endoscalar `endo` -/
  | endoscaling (endo : ℕ) (l : List HC) (e : Err)
  /-- the synthesis of one of the five internal circuits, for the components `s` and the challenges
  `ch` -/
  | circuits (s : FuseState F G HC) (ch : Challenges F) (e : Err)
  /-- any other call -/
  | other (e : Err)

variable {F G HC : Type} [Field F] [DecidableEq F] [Field G] [DecidableEq G]

/-- An error of a synthesis. -/
def Stop.ofSynth (e : Circuit.Err) : Stop F G HC := .other (.synth e)

/-- A call that panics when it gives `none`. -/
def must {α : Type} (x : Option α) : Outcomes (Stop F G HC) α := .expect (.other .panic) x

/-! ### Stages, circuits and the transcript -/

/-- `StageExt::rx` with a random blinding factor, crates/ragu_circuits/src/staging/mod.rs:337-403, over
either field: the gadget of the stage and its polynomial. -/
def stageRx {F' α : Type} [Field F'] [DecidableEq F'] (stop : Err → Stop F G HC) (n : ℕ) (d : Chain)
    (code : Syn F' α) (elems : α → List (Element F')) : Outcomes (Stop F G HC) (α × Sparse.Poly F') := do
  let alpha ← Outcomes.random F'
  let g ← Outcomes.call stop (emulate code)
  let rx ← Outcomes.call .ofSynth (d.rx n alpha ((elems g).map (·.wire)))
  return (g, rx)

/-- `CircuitExt::trace`, crates/ragu_circuits/src/lib.rs:160-177: any trace of a synthesis of the circuit
`c0` on the witness values of the code `x`, and `Registry::assemble` with a random blinding factor,
crates/ragu_circuits/src/registry.rs:356-380. The synthesis itself is run before, see the callers. -/
def traceCircuit {F' : Type} [Field F'] [DecidableEq F'] (n : ℕ) (R : Registry F') (i : ℕ) (c0 : Circ F')
    (ch : Chain) (parts : List (Chain × List F')) (x : List F' → Syn F' (List F')) :
    Outcomes (Stop F G HC) (Sparse.Poly F') := do
  let t ← Outcomes.any fun t => ∃ es c, StageWires ch (parts.map fun q => ⟨q.1, 0, q.2⟩) es ∧
    c.SameShape c0 ∧ Synthesizes ch c es (x es) ∧ TraceEval c t
  let alpha ← Outcomes.random F'
  let r ← must (R.assembleWithAlpha n (t.map Prod.snd) i alpha)
  Outcomes.call .ofSynth r

/-- A call on the transcript's emulator, crates/ragu_pcd/src/fuse/mod.rs:65. -/
def onTranscript {α : Type} (x : Syn F α) : Outcomes (Stop F G HC) α := .call .other (emulate x)

/-- `Point::constant` and `write` of a bridge's commitment, crates/ragu_pcd/src/fuse/mod.rs:69-70. -/
def absorb (p : PoseidonParams F) (c : Option (F × F)) (t : Mode (Element F)) :
    Outcomes (Stop F G HC) (Mode (Element F)) :=
  .call (.commitment c) (emulate (transcriptWriteCommitment p c t))

/-- `transcript.challenge`, crates/ragu_pcd/src/fuse/mod.rs:69. -/
def squeeze (p : PoseidonParams F) (t : Mode (Element F)) :
    Outcomes (Stop F G HC) (Element F × Mode (Element F)) := onTranscript (transcriptChallenge p t)

section
variable [AddCommGroup HC] [Module F HC]

/-- What an application and its cycle give to `fuse`. -/
structure FuseEnvironment (F G HC : Type) where
  C : CycleEnv F G HC
  K : NestedParams G HC
  n : ℕ
  /-- `commit_to_affine` with the generators of the nested curve -/
  nestedCommit : Sparse.Poly G → Option (F × F)
  P : StepParams F
  cs : Circuits F G
  app : Application F G

variable (V : FuseEnvironment F G HC)

/-- `commit_to_affine` with the host generators. -/
def FuseEnvironment.triple (rx : Sparse.Poly F) : Outcomes (Stop F G HC) (RxTriple F HC) := do
  let c ← must (Msm.commit (4 * V.n) V.C.numBits V.C.repr rx V.C.hostGens)
  return ⟨rx, c⟩

/-- A stage over the scalar field that holds host curve points, and `Bridge::commit`,
crates/ragu_pcd/src/proof/components.rs:43-48. -/
def FuseEnvironment.bridge (d : Chain) (l : List HC) : Outcomes (Stop F G HC) (Bridge F G) := do
  let (_, rx) ← stageRx (.hostPoints l) V.n d (bridgeCode V.K l) pointElems
  return ⟨rx, V.nestedCommit rx⟩

/-! ### The rounds -/

/-- `compute_application_proof`, crates/ragu_pcd/src/fuse/_01_application.rs:18-60: `code` is the
synthesis of the step's adapter on the children's data and the witness, `c0` the step's circuit and `i`
its index. -/
def FuseEnvironment.computeApplication {D : Type} (c0 : Circ F) (i : ℕ)
    (code : Syn F (Except Err (AdapterOut F D))) :
    Outcomes (Stop F G HC) (AppProof F HC × AdapterOut F D) := do
  let r ← Outcomes.call .step (emulate code)
  let out ← Outcomes.call .step r
  let rx ← traceCircuit V.n V.app.nativeRegistry i c0 .base [] (fun _ => adapterWires code)
  let triple ← V.triple rx
  return (⟨i, out.left, out.right, triple⟩, out)

/-- `compute_preamble`, crates/ragu_pcd/src/fuse/_02_preamble.rs:18-72; the result has the gadget of the
stage instead of its witness. -/
def FuseEnvironment.computePreamble (left right : Proof F G HC) (application : AppProof F HC) :
    Outcomes (Stop F G HC) (Bridged (RxTriple F HC) F G × PreambleOutput F) := do
  let (g, rx) ← stageRx .other V.n (preambleStage V.P.headerSize)
    (preambleStageCode V.C V.P.headerSize left right application.leftHeader application.rightHeader)
    PreambleOutput.elems
  let native ← V.triple rx
  let bridge ← V.bridge bridgePreamble (native.commitment :: (bridgeChild left ++ bridgeChild right))
  return (⟨native, bridge⟩, g)

/-- `compute_s_prime`, crates/ragu_pcd/src/fuse/_03_s_prime.rs:14-63. -/
def FuseEnvironment.computeSPrime (w : F) (left right : Proof F G HC) :
    Outcomes (Stop F G HC) (Bridged (NativeSPrime F HC) F G) := do
  let native ← must (computeNativeSPrime V.C.native V.n V.C.numBits V.C.repr V.C.hostGens
    V.app.nativeRegistry w left right)
  let bridge ← V.bridge bridgeSPrime [native.registryWx0Commitment, native.registryWx1Commitment]
  return ⟨native, bridge⟩

/-- `inner_error_terms`, crates/ragu_pcd/src/fuse/_04_inner_error.rs:25-119: the component, the error
terms, the gadget of the stage and the claims. -/
def FuseEnvironment.innerErrorTerms (w y z : F) (source : FuseSource F G HC) :
    Outcomes (Stop F G HC) (Bridged (NativeInnerError F HC) F G × List (List F) ×
      List (List (Element F)) × ClaimBuilder F (Tracked FoldKey F)) := do
  let B ← must (ClaimBuilder.new V.n y z)
  let B ← must (buildClaims source.source (trackedProcessor V.C.native V.n V.app.nativeRegistry) B)
  let errors ← must (Fold.innerErrorTerms (4 * V.n) GROUP_SIZE NUM_GROUPS (B.a.map (·.poly)) B.b)
  let (g, rx) ← stageRx .other V.n (innerErrorStage V.P.headerSize V.P.poseidon.T)
    (innerErrorStageCode errors) List.flatten
  let (wy, wyCommitment) ← must (computeRegistryWy V.C.native V.n V.C.numBits V.C.repr V.C.hostGens
    V.app.nativeRegistry w y)
  let triple ← V.triple rx
  let bridge ← V.bridge bridgeInnerError [triple.commitment, wyCommitment]
  return (⟨⟨wy, wyCommitment, triple⟩, bridge⟩, errors, g, B)

/-- `outer_error_terms`, crates/ragu_pcd/src/fuse/_05_outer_error.rs:37-186: the component, the error
terms, the gadget of the stage and the folded claims. `headers` are the children's output headers in
the preamble's witness. -/
def FuseEnvironment.outerErrorTerms (left right : Proof F G HC) (headers : List F × List F)
    (innerErrors : List (List F)) (B : ClaimBuilder F (Tracked FoldKey F)) (y mu nu : F)
    (state : List F) :
    Outcomes (Stop F G HC) (Bridged (RxTriple F HC) F G × List F × OuterErrorOutput F ×
      List (Tracked FoldKey F) × List (Sparse.Poly F)) := do
  let muInv ← Outcomes.expect (.inverse mu) (if mu = 0 then none else some mu⁻¹)
  let a ← must (Fold.foldInner (trackedFoldable (4 * V.n)) GROUP_SIZE NUM_GROUPS B.a muInv)
  let b ← must (Fold.foldInner (polyFoldable (4 * V.n)) GROUP_SIZE NUM_GROUPS B.b (mu * nu))
  let ((l, r), collapsed) ← Outcomes.call .other (emulate (do
    let pre ← preambleStageCode V.C V.P.headerSize left right headers.1 headers.2
    outerErrorValues GROUP_SIZE pre innerErrors y mu nu))
  let errors ← must (Fold.outerErrorTerms (4 * V.n) NUM_GROUPS (a.map (·.poly)) b)
  let (g, rx) ← stageRx .other V.n (outerErrorStage V.P.headerSize V.P.poseidon.T)
    (outerErrorStageCode ⟨errors, collapsed,
      ⟨l.application.value, l.unified.value, l.unifiedBridge.value⟩,
      ⟨r.application.value, r.unified.value, r.unifiedBridge.value⟩, state⟩)
    OuterErrorOutput.elems
  let native ← V.triple rx
  let bridge ← V.bridge bridgeOuterError [native.commitment]
  return (⟨native, bridge⟩, errors, g, a, b)

/-- `compute_ab`, crates/ragu_pcd/src/fuse/_06_ab.rs:53-144. -/
def FuseEnvironment.computeAb (a : List (Tracked FoldKey F)) (b : List (Sparse.Poly F))
    (source : FuseSource F G HC) (muPrime nuPrime : F) :
    Outcomes (Stop F G HC) (Bridged (NativeAB F HC) F G) := do
  let _ ← Outcomes.expect (.inverse muPrime) (if muPrime = 0 then none else some muPrime⁻¹)
  let native ← must (computeNativeAb (4 * V.n) V.C.numBits V.C.repr V.C.hostGens source a b muPrime
    nuPrime)
  let bridge ← V.bridge bridgeAB [native.aCommitment, native.bCommitment]
  return ⟨native, bridge⟩

/-- `compute_query`, crates/ragu_pcd/src/fuse/_07_query.rs:24-127. -/
def FuseEnvironment.computeQuery (w x y z : F) (wy : Sparse.Poly F) (left right : Proof F G HC) :
    Outcomes (Stop F G HC) (Bridged (NativeQuery F HC) F G × QueryOutput (Element F)) := do
  let (xy, xyCommitment) ← must (computeRegistryXy V.C.native V.n V.C.numBits V.C.repr V.C.hostGens
    V.app.nativeRegistry x y)
  let (g, rx) ← stageRx .other V.n (queryStage V.P.headerSize)
    (queryStageCode ⟨fun id => Sparse.eval (4 * V.n) xy (id.omega V.C.native),
      Sparse.eval (4 * V.n) xy w,
      QueryChild.fromProof V.C.native (4 * V.n) left w x (x * z) xy wy,
      QueryChild.fromProof V.C.native (4 * V.n) right w x (x * z) xy wy⟩)
    QueryOutput.elems
  let triple ← V.triple rx
  let bridge ← V.bridge bridgeQuery [triple.commitment, xyCommitment]
  return (⟨⟨xy, xyCommitment, triple⟩, bridge⟩, g)

/-- `compute_f`, crates/ragu_pcd/src/fuse/_08_f.rs:31-183. -/
def FuseEnvironment.computeF (s : FuseState F G HC) (w y z x alpha : F) :
    Outcomes (Stop F G HC) (Bridged (NativeF F HC) F G) := do
  let native ← must (computeNativeF V.C.native (4 * V.n) V.C.numBits V.C.repr V.C.hostGens s w y z x
    alpha)
  let bridge ← V.bridge bridgeF [native.commitment]
  return ⟨native, bridge⟩

/-- `compute_eval`, crates/ragu_pcd/src/fuse/_09_eval.rs:20-103. -/
def FuseEnvironment.computeEval (s : FuseState F G HC) (u : F) :
    Outcomes (Stop F G HC) (Bridged (RxTriple F HC) F G × EvalOutput (Element F)) := do
  let (g, rx) ← stageRx .other V.n (evalStage V.P.headerSize)
    (evalStageCode (evalWitness (4 * V.n) s u)) EvalOutput.elems
  let native ← V.triple rx
  let bridge ← V.bridge bridgeEval [native.commitment]
  return (⟨native, bridge⟩, g)

/-- The loop over the steps of the endoscaling, crates/ragu_pcd/src/fuse/_10_p.rs:146-163, for the steps
`l`; the points are `w` and their gadgets `points`. -/
def FuseEnvironment.stepRxs (endo : ℕ) (w : PointsWitness HC) (e : Endoscalar G)
    (points : PointsWitness (Gadget.Point G)) : List ℕ → Outcomes (Stop F G HC) (List (Sparse.Poly G))
  | [] => return []
  | i :: l => do
    let _ ← Outcomes.call (.endoscaling endo (w.initial :: w.inputs)) (emulate
      (stepCircuit V.P.endo.nbits V.K.zeta NUM_ENDOSCALING_POINTS i e points))
    let j ← must (NestedId.endoscalingStep i).circuitIndex
    let rx ← traceCircuit V.n V.app.nestedRegistry j (V.cs.endoscaling i) pointsStage
      [(endoscalarStage, (endoscalarElems e).map (·.wire)), (pointsStage, points.elems.map (·.wire))]
      (endoscalingCode V.P.endo.nbits V.K.zeta i e points)
    let rxs ← FuseEnvironment.stepRxs endo w e points l
    return rx :: rxs

/-- `compute_p`, crates/ragu_pcd/src/fuse/_10_p.rs:51-190. -/
def FuseEnvironment.computePart (s : FuseState F G HC) (f : NativeF F HC) (preBeta u : F) :
    Outcomes (Stop F G HC) (ProofP F G HC) := do
  let endo ← must (extractNative V.P.endo.nbits V.P.endo.sqrt V.P.endo.gen preBeta)
  let (native, w) ← must (computeP (4 * V.n) V.P.endo.nbits V.P.endo.sqrt V.P.endo.gen V.P.endo.zeta s
    f preBeta u)
  let (e, endoscalarRx) ← stageRx .other V.n endoscalarStage (Endoscalar.alloc V.P.endo.nbits endo)
    endoscalarElems
  let (points, pointsRx) ← stageRx (.hostPoints (w.initial :: (w.inputs ++ w.interstitials))) V.n
    pointsStage (pointsStageCode V.K w) PointsWitness.elems
  let rxs ← V.stepRxs endo w e points (List.range NUM_ENDOSCALING_STEPS)
  return ⟨native, ⟨rxs, endoscalarRx, pointsRx⟩⟩

/-- One circuit of `compute_internal_circuits`: its synthesis hands on the instance, and its trace is
assembled, for example crates/ragu_pcd/src/fuse/_11_circuits.rs:58-78. -/
def FuseEnvironment.internalCircuit (stop : Err → Stop F G HC) (id : NativeId) (c0 : Circ F) (ch : Chain)
    (parts : List (Chain × List F)) (code : Syn F (List (Element F) × UnifiedInstance F))
    (x : List F → Syn F (List F)) : Outcomes (Stop F G HC) (UnifiedInstance F × Sparse.Poly F) := do
  let (_, inst) ← Outcomes.call stop (emulate code)
  let i ← must id.circuitIndex
  let rx ← traceCircuit V.n V.app.nativeRegistry i c0 ch parts x
  return (inst, rx)

/-- `compute_internal_circuits`, crates/ragu_pcd/src/fuse/_11_circuits.rs:13-190: `value` are the values
of the unified instance and `S` the gadgets of the stages. -/
def FuseEnvironment.computeInternalCircuits (stop : Err → Stop F G HC)
    (value : (s : SlotId) → s.kind.Native F) (S : StepStages F) :
    Outcomes (Stop F G HC) (InternalCircuits F HC) := do
  let pre := (preambleStage V.P.headerSize, S.preamble.elems.map (·.wire))
  let oe := (outerErrorStage V.P.headerSize V.P.poseidon.T, S.outerError.elems.map (·.wire))
  let ie := (innerErrorStage V.P.headerSize V.P.poseidon.T, S.innerError.flatten.map (·.wire))
  let qu := (queryStage V.P.headerSize, S.query.elems.map (·.wire))
  let ev := (evalStage V.P.headerSize, S.eval.elems.map (·.wire))
  let i0 : UnifiedInstance F := ⟨value, fun _ => false⟩
  let (i1, h1) ← V.internalCircuit stop .hashes1Circuit (V.cs.hashes1 V.P.logCircuits) oe.1 [pre, oe]
    (hashes1Circuit V.P.poseidon V.P.tag V.P.b V.P.logCircuits S.preamble S.outerError i0)
    (hashes1Code V.P S i0)
  let (i2, h2) ← V.internalCircuit stop .hashes2Circuit V.cs.hashes2 oe.1 [oe]
    (hashes2Circuit V.P.poseidon V.P.b S.outerError i1) (hashes2Code V.P S i1)
  let (i3, h3) ← V.internalCircuit stop .innerCollapseCircuit V.cs.innerCollapse ie.1 [pre, ie, oe]
    (innerCollapseCircuit V.P.b GROUP_SIZE S.preamble S.outerError S.innerError i2)
    (innerCollapseCode V.P S i2)
  let (i4, h4) ← V.internalCircuit stop .outerCollapseCircuit V.cs.outerCollapse oe.1 [pre, oe]
    (outerCollapseCircuit V.P.b V.P.headerSize NUM_GROUPS S.preamble S.outerError i3)
    (outerCollapseCode V.P S i3)
  let (i5, h5) ← V.internalCircuit stop .computeVCircuit V.cs.computeV ev.1 [pre, qu, ev]
    (computeV V.P.env V.P.endo V.P.b V.P.logRank S.preamble S.query S.eval i4) (computeVCode V.P S i4)
  let _ ← Outcomes.expect (stop .panic) (assertComplete i5.coverage)
  let h1 ← V.triple h1
  let h2 ← V.triple h2
  let h3 ← V.triple h3
  let h4 ← V.triple h4
  let h5 ← V.triple h5
  return ⟨h1, h2, h3, h4, h5⟩

/-! ### The whole -/

/-- The values of the unified instance, crates/ragu_pcd/src/fuse/_11_circuits.rs:32-55. -/
def instanceValues (preamble : Bridged (RxTriple F HC) F G) (sPrime : Bridged (NativeSPrime F HC) F G)
    (innerError : Bridged (NativeInnerError F HC) F G) (outerError : Bridged (RxTriple F HC) F G)
    (ab : Bridged (NativeAB F HC) F G) (query : Bridged (NativeQuery F HC) F G)
    (f : Bridged (NativeF F HC) F G) (eval : Bridged (RxTriple F HC) F G) (p : ProofP F G HC)
    (ch : Challenges F) : (s : SlotId) → s.kind.Native F
  | .bridgePreamble => preamble.bridge.commitment
  | .w => ch.w
  | .bridgeSPrime => sPrime.bridge.commitment
  | .y => ch.y
  | .z => ch.z
  | .bridgeInnerError => innerError.bridge.commitment
  | .mu => ch.mu
  | .nu => ch.nu
  | .bridgeOuterError => outerError.bridge.commitment
  | .muPrime => ch.muPrime
  | .nuPrime => ch.nuPrime
  | .c => ab.native.c
  | .bridgeAb => ab.bridge.commitment
  | .x => ch.x
  | .bridgeQuery => query.bridge.commitment
  | .alpha => ch.alpha
  | .bridgeF => f.bridge.commitment
  | .u => ch.u
  | .bridgeEval => eval.bridge.commitment
  | .preBeta => ch.preBeta
  | .v => p.native.v

/-- `fuse`, crates/ragu_pcd/src/fuse/mod.rs:51-204: the new proof and the data it carries. -/
def FuseEnvironment.fuse {D : Type} (c0 : Circ F) (i : ℕ) (code : Syn F (Except Err (AdapterOut F D)))
    (left right : Proof F G HC) : Outcomes (Stop F G HC) (Proof F G HC × D) := do
  let (application, out) ← V.computeApplication c0 i code
  let t ← onTranscript (transcriptNew V.P.poseidon V.P.tag)
  let (preamble, S1) ← V.computePreamble left right application
  let t ← absorb V.P.poseidon preamble.bridge.commitment t
  let (w, t) ← squeeze V.P.poseidon t
  let sPrime ← V.computeSPrime w.value left right
  let t ← absorb V.P.poseidon sPrime.bridge.commitment t
  let (y, t) ← squeeze V.P.poseidon t
  let (z, t) ← squeeze V.P.poseidon t
  let (innerError, innerErrors, S2, B) ← V.innerErrorTerms w.value y.value z.value ⟨left, right⟩
  let t ← absorb V.P.poseidon innerError.bridge.commitment t
  let state ← onTranscript (transcriptSave V.P.poseidon t)
  let (mu, t) ← squeeze V.P.poseidon t
  let (nu, t) ← squeeze V.P.poseidon t
  let (outerError, _, S3, a, b) ← V.outerErrorTerms left right
    (application.leftHeader, application.rightHeader) innerErrors B y.value mu.value nu.value
    (state.map (·.value))
  let t ← absorb V.P.poseidon outerError.bridge.commitment t
  let (muPrime, t) ← squeeze V.P.poseidon t
  let (nuPrime, t) ← squeeze V.P.poseidon t
  let ab ← V.computeAb a b ⟨left, right⟩ muPrime.value nuPrime.value
  let t ← absorb V.P.poseidon ab.bridge.commitment t
  let (x, t) ← squeeze V.P.poseidon t
  let (query, S4) ← V.computeQuery w.value x.value y.value z.value innerError.native.registryWyPoly left
    right
  let t ← absorb V.P.poseidon query.bridge.commitment t
  let (alpha, t) ← squeeze V.P.poseidon t
  let s : FuseState F G HC := ⟨left, right, sPrime.native, innerError.native, ab.native, query.native⟩
  let f ← V.computeF s w.value y.value z.value x.value alpha.value
  let t ← absorb V.P.poseidon f.bridge.commitment t
  let (u, t) ← squeeze V.P.poseidon t
  let (eval, S5) ← V.computeEval s u.value
  let t ← absorb V.P.poseidon eval.bridge.commitment t
  let (preBeta, _) ← squeeze V.P.poseidon t
  let p ← V.computePart s f.native preBeta.value u.value
  let ch : Challenges F := ⟨w.value, y.value, z.value, mu.value, nu.value, muPrime.value, nuPrime.value,
    x.value, alpha.value, u.value, preBeta.value⟩
  let circuits ← V.computeInternalCircuits (.circuits s ch)
    (instanceValues preamble sPrime innerError outerError ab query f eval p ch) ⟨S1, S3, S2, S4, S5⟩
  return (⟨application, preamble, sPrime, innerError, outerError, ab, query, f, eval, p, ch, circuits⟩,
    out.data)

/-! ### The operations on top of `fuse` -/

/-- `seed`, crates/ragu_pcd/src/lib.rs:219-226: both inputs are the trivial proof with the data `()`. -/
def FuseEnvironment.seed {D : Type} (c0 : Circ F) (i : ℕ) (code : Syn F (Except Err (AdapterOut F D))) :
    Outcomes (Stop F G HC) (Proof F G HC × D) := do
  let q ← must (trivialProof V.C V.n V.P.headerSize V.nestedCommit V.app.nativeRegistry)
  V.fuse c0 i code q q

/-- `seeded_trivial_pcd`, crates/ragu_pcd/src/lib.rs:236-247: `cell` is what `self.seeded_trivial` holds
before the call, and the result is what it holds afterwards. A `seed` that stops is a panic. -/
def FuseEnvironment.seededTrivial :
    Option (Proof F G HC) → Outcomes (Stop F G HC) (Proof F G HC)
  | some s => return s
  | none => do
    let (s, ()) ← V.seed V.cs.trivial (NUM_INTERNAL_CIRCUITS + InternalStep.trivial.discr)
      (trivialStep V.P.headerSize)
    return s

/-- `rerandomize`, crates/ragu_pcd/src/lib.rs:256-275, of the proof `p` with the data `d`: the new proof,
the data it carries and the seeded trivial proof that is now cached. -/
def FuseEnvironment.rerandomize {D O : Type} (cell : Option (Proof F G HC)) (H : Header F D O)
    (p : Proof F G HC) (d : D) : Outcomes (Stop F G HC) ((Proof F G HC × D) × Proof F G HC) := do
  let s ← V.seededTrivial cell
  let r ← V.fuse V.cs.rerandomize (NUM_INTERNAL_CIRCUITS + InternalStep.rerandomize.discr)
    (Pcd.rerandomize V.P.headerSize H d) p s
  return (r, s)

end
end Ragu.Pcd

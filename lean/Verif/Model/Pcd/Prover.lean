/-
Model of a run of `fuse` (`ragu_pcd/src/fuse/`) over the circuit field: the order of the transcript,
the witnesses of the stages, the traces of the circuits and the resulting proof.

A run draws blinding factors, and the calls of the trace evaluator may be scheduled in any order, so a
run is a relation between the children and the new proof.
-/
import Verif.Model.Pcd.Fuse
import Verif.Model.Pcd.Stages
import Verif.Model.Trace
import Verif.Spec.Realize
import Verif.Spec.Shape
import Verif.Spec.ClaimEq

namespace Ragu.Pcd
open Ragu Ragu.Circuit Ragu.Registry Ragu.Gadget Ragu.Spec
variable {F G HC : Type} [Field F] [DecidableEq F] [Field G] [DecidableEq G]

/-! ### The transcript -/

/-- `Point::constant` of a commitment and its `write` into the transcript, for example
crates/ragu_pcd/src/fuse/mod.rs:69-70. The identity is an error. -/
def transcriptWriteCommitment (p : PoseidonParams F) (c : Option (F × F)) (t : Mode (Element F)) :
    Syn F (Mode (Element F)) :=
  match Point.constant c with
  | .ok q => transcriptWritePoint p q t
  | .error e => .check (some e) .panic

/-- The transcript of a fuse on an emulator, crates/ragu_pcd/src/fuse/mod.rs:62-150: the challenges and
the sponge state that is saved after the third commitment. The commitments are those of the bridges of
the proof `q`; each is computed from the challenges before it. -/
def proverTranscript (p : PoseidonParams F) (tag : List UInt8) (q : Proof F G HC) :
    Syn F (Challenges F × List F) := do
  let t ← transcriptNew p tag
  let t ← transcriptWriteCommitment p q.preamble.bridge.commitment t
  let (w, t) ← transcriptChallenge p t
  let t ← transcriptWriteCommitment p q.sPrime.bridge.commitment t
  let (y, t) ← transcriptChallenge p t
  let (z, t) ← transcriptChallenge p t
  let t ← transcriptWriteCommitment p q.innerError.bridge.commitment t
  let state ← transcriptSave p t
  let (mu, t) ← transcriptChallenge p t
  let (nu, t) ← transcriptChallenge p t
  let t ← transcriptWriteCommitment p q.outerError.bridge.commitment t
  let (muPrime, t) ← transcriptChallenge p t
  let (nuPrime, t) ← transcriptChallenge p t
  let t ← transcriptWriteCommitment p q.ab.bridge.commitment t
  let (x, t) ← transcriptChallenge p t
  let t ← transcriptWriteCommitment p q.query.bridge.commitment t
  let (alpha, t) ← transcriptChallenge p t
  let t ← transcriptWriteCommitment p q.f.bridge.commitment t
  let (u, t) ← transcriptChallenge p t
  let t ← transcriptWriteCommitment p q.eval.bridge.commitment t
  let (preBeta, _) ← transcriptChallenge p t
  return (⟨w.value, y.value, z.value, mu.value, nu.value, muPrime.value, nuPrime.value, x.value,
    alpha.value, u.value, preBeta.value⟩, state.map (·.value))

/-! ### Stages and circuits -/

/-- `StageExt::rx` with a random blinding factor, crates/ragu_circuits/src/staging/mod.rs:337-403: the witness code gives the gadget `g`, whose wires the polynomial `p` holds. -/
def StageRun {α : Type} (n : ℕ) (d : Chain) (code : Syn F α) (elems : α → List (Element F)) (g : α)
    (p : Sparse.Poly F) : Prop :=
  emulate code = .ok g ∧ ∃ alpha, d.rx n alpha ((elems g).map (·.wire)) = .ok p

/-- `CircuitExt::trace` and `Registry::assemble` with a random blinding factor for the circuit
registered at `i` as `c0`, crates/ragu_circuits/src/lib.rs:160-177 and
crates/ragu_circuits/src/registry.rs:356-380: the synthesis `c` of the prover makes the calls of the
circuit with the witness values of the code `x`; the stages of the circuit that are not skipped hold
`parts`. -/
def CircuitRun (n : ℕ) (R : Registry F) (i : ℕ) (c0 : Circ F) (ch : Chain)
    (parts : List (Chain × List F)) (x : List F → Syn F (List F)) (p : Sparse.Poly F) : Prop :=
  ∃ es c t alpha, StageWires ch (parts.map fun q => ⟨q.1, 0, q.2⟩) es ∧ c.SameShape c0 ∧
    Synthesizes ch c es (x es) ∧ TraceEval c t ∧
    R.assembleWithAlpha n (t.map Prod.snd) i alpha = some (.ok p)

/-- The output wires of a step's adapter; an error ends the synthesis, here as a panic. -/
def adapterWires {D : Type} (code : Syn F (Except Err (AdapterOut F D))) : Syn F (List F) := do
  let r ← code
  match r with
  | .ok o => return o.output.map (·.wire)
  | .error _ => .panic

/-- `compute_application_proof`, crates/ragu_pcd/src/fuse/_01_application.rs:18-60: `code` is the
synthesis of the step's adapter on the children's data and the witness, `c0` the step's circuit and `i`
its index. -/
structure ApplicationRun {D : Type} (n : ℕ) (R : Registry F) (c0 : Circ F) (i : ℕ)
    (code : Syn F (Except Err (AdapterOut F D))) (out : AdapterOut F D) (t : FuseTraces F G) :
    Prop where
  aux : emulate code = .ok (.ok out)
  id : t.circuitId = i
  left : t.leftHeader = out.left
  right : t.rightHeader = out.right
  trace : CircuitRun n R i c0 .base [] (fun _ => adapterWires code) (t.rx .application)

/-- The stages, crates/ragu_pcd/src/fuse/_02_preamble.rs:47-71, _04_inner_error.rs:79-97,
_05_outer_error.rs:69-169, _07_query.rs:62-91 and _09_eval.rs:55-80: `S` are the gadgets that the
witness code of the stages computes, `fused` the errors and folded polynomials, `state` the saved state
of the transcript and `s` the components that the evaluations are taken of. -/
structure StagesRun (C : CycleEnv F G HC) (n : ℕ) (P : StepParams F) (left right : Proof F G HC)
    (ch : Challenges F) (fused : FuseAB F HC) (state : List F) (s : FuseState F G HC)
    (t : FuseTraces F G) (S : StepStages F) : Prop where
  preamble : StageRun n (preambleStage P.headerSize)
    (preambleStageCode C P.headerSize left right t.leftHeader t.rightHeader) PreambleOutput.elems
    S.preamble (t.rx .preamble)
  innerError : StageRun n (innerErrorStage P.headerSize P.poseidon.T)
    (innerErrorStageCode fused.innerErrors) List.flatten S.innerError (t.rx .innerError)
  outerError : ∃ l r collapsed,
    emulate (do
      let pre ← preambleStageCode C P.headerSize left right t.leftHeader t.rightHeader
      outerErrorValues GROUP_SIZE pre fused.innerErrors ch.y ch.mu ch.nu) =
        .ok ((l, r), collapsed) ∧
    StageRun n (outerErrorStage P.headerSize P.poseidon.T)
      (outerErrorStageCode ⟨fused.outerErrors, collapsed,
        ⟨l.application.value, l.unified.value, l.unifiedBridge.value⟩,
        ⟨r.application.value, r.unified.value, r.unifiedBridge.value⟩, state⟩)
      OuterErrorOutput.elems S.outerError (t.rx .outerError)
  query : StageRun n (queryStage P.headerSize)
    (queryStageCode (queryWitness C.native (4 * n) s ch.w ch.x ch.z)) QueryOutput.elems S.query
    (t.rx .query)
  eval : StageRun n (evalStage P.headerSize) (evalStageCode (evalWitness (4 * n) s ch.u))
    EvalOutput.elems S.eval (t.rx .eval)

/-- `compute_internal_circuits`, crates/ragu_pcd/src/fuse/_11_circuits.rs:32-190: every circuit's
synthesis hands its instance to the next, and in the end every value is covered. -/
structure CircuitsRun (n : ℕ) (P : StepParams F) (cs : Circuits F G) (R : Registry F)
    (value : (s : SlotId) → s.kind.Native F) (S : StepStages F) (rx : RxIndex → Sparse.Poly F)
    (i : Fin 6 → UnifiedInstance F) : Prop where
  start : i 0 = ⟨value, fun _ => false⟩
  hashes1 : ∃ o, emulate (hashes1Circuit P.poseidon P.tag P.b P.logCircuits S.preamble S.outerError
    (i 0)) = .ok (o, i 1)
  hashes1Trace : CircuitRun n R (registryIndex .hashes1Circuit) (cs.hashes1 P.logCircuits)
    (outerErrorStage P.headerSize P.poseidon.T)
    [(preambleStage P.headerSize, S.preamble.elems.map (·.wire)),
      (outerErrorStage P.headerSize P.poseidon.T, S.outerError.elems.map (·.wire))]
    (hashes1Code P S (i 0)) (rx .hashes1)
  hashes2 : ∃ o, emulate (hashes2Circuit P.poseidon P.b S.outerError (i 1)) = .ok (o, i 2)
  hashes2Trace : CircuitRun n R (registryIndex .hashes2Circuit) cs.hashes2
    (outerErrorStage P.headerSize P.poseidon.T)
    [(outerErrorStage P.headerSize P.poseidon.T, S.outerError.elems.map (·.wire))]
    (hashes2Code P S (i 1)) (rx .hashes2)
  innerCollapse : ∃ o, emulate (innerCollapseCircuit P.b GROUP_SIZE S.preamble S.outerError
    S.innerError (i 2)) = .ok (o, i 3)
  innerCollapseTrace : CircuitRun n R (registryIndex .innerCollapseCircuit) cs.innerCollapse
    (innerErrorStage P.headerSize P.poseidon.T)
    [(preambleStage P.headerSize, S.preamble.elems.map (·.wire)),
      (innerErrorStage P.headerSize P.poseidon.T, S.innerError.flatten.map (·.wire)),
      (outerErrorStage P.headerSize P.poseidon.T, S.outerError.elems.map (·.wire))]
    (innerCollapseCode P S (i 2)) (rx .innerCollapse)
  outerCollapse : ∃ o, emulate (outerCollapseCircuit P.b P.headerSize NUM_GROUPS S.preamble
    S.outerError (i 3)) = .ok (o, i 4)
  outerCollapseTrace : CircuitRun n R (registryIndex .outerCollapseCircuit) cs.outerCollapse
    (outerErrorStage P.headerSize P.poseidon.T)
    [(preambleStage P.headerSize, S.preamble.elems.map (·.wire)),
      (outerErrorStage P.headerSize P.poseidon.T, S.outerError.elems.map (·.wire))]
    (outerCollapseCode P S (i 3)) (rx .outerCollapse)
  computeV : ∃ o, emulate (computeV P.env P.endo P.b P.logRank S.preamble S.query S.eval (i 4)) =
    .ok (o, i 5)
  computeVTrace : CircuitRun n R (registryIndex .computeVCircuit) cs.computeV
    (evalStage P.headerSize)
    [(preambleStage P.headerSize, S.preamble.elems.map (·.wire)),
      (queryStage P.headerSize, S.query.elems.map (·.wire)),
      (evalStage P.headerSize, S.eval.elems.map (·.wire))]
    (computeVCode P S (i 4)) (rx .computeV)
  complete : assertComplete (i 5).coverage ≠ none

variable [AddCommGroup HC] [Module F HC]

/-- The bridges of a fuse. -/
def FuseTraces.bridges (t : FuseTraces F G) : List (Bridge F G) :=
  [t.preambleBridge, t.sPrimeBridge, t.innerErrorBridge, t.outerErrorBridge, t.abBridge, t.queryBridge,
    t.fBridge, t.evalBridge]

/-- A successful run of `fuse`, crates/ragu_pcd/src/fuse/mod.rs:51-204, over the circuit field: `t` holds
the traces, the headers, the bridges and the nested polynomials, and `p` is the new proof.
`nestedCommit` is `commit_to_affine` with the generators of the nested curve, as in `Bridge::commit`,
crates/ragu_pcd/src/proof/components.rs:43-48. -/
structure FuseRun {D : Type} (C : CycleEnv F G HC) (n : ℕ)
    (nestedCommit : Sparse.Poly G → Option (F × F)) (P : StepParams F) (cs : Circuits F G)
    (app : Application F G) (c0 : Circ F) (i : ℕ) (code : Syn F (Except Err (AdapterOut F D)))
    (out : AdapterOut F D) (left right : Proof F G HC) (t : FuseTraces F G) (p : Proof F G HC) :
    Prop where
  application : ApplicationRun n app.nativeRegistry c0 i code out t
  bridges : ∀ b ∈ t.bridges, b.commitment = nestedCommit b.rx
  assembled : fuseProof C P.endo n app.nativeRegistry left right p.challenges t = some p
  stages : ∃ state fused S insts,
    emulate (proverTranscript P.poseidon P.tag p) = .ok (p.challenges, state) ∧
    fuseAb C.native n C.numBits C.repr C.hostGens app.nativeRegistry ⟨left, right⟩ p.challenges.y
      p.challenges.z p.challenges.mu p.challenges.nu p.challenges.muPrime p.challenges.nuPrime =
        some fused ∧
    StagesRun C n P left right p.challenges fused state
      ⟨left, right, p.sPrime.native, p.innerError.native, p.ab.native, p.query.native⟩ t S ∧
    CircuitsRun n P cs app.nativeRegistry p.unifiedValue S t.rx insts

end Ragu.Pcd

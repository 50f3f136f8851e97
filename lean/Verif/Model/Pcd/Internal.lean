/-
Model of the circuits `hashes_1`, `hashes_2`, `inner_collapse` and `outer_collapse` in
`ragu_pcd/src/internal/native/circuits/`, and of the order in which a fuse runs the five internal
circuits.

The gadgets of the stages hold wires that were placed by the stage polynomials, so they are
arguments here; vectors whose length is fixed by a type are lists, and the theorems assume the
lengths.  A sponge call that returns an error ends the synthesis with that error; here it is a panic.
-/
import Verif.Model.Transcript
import Verif.Model.Pcd.ComputeV
import Verif.Model.Pcd.Claims
import Verif.Model.Pcd.Fold

namespace Ragu.Pcd
open Ragu Ragu.Circuit Ragu.Registry Ragu.Gadget
variable {F : Type} [Field F] [DecidableEq F]

/-! ### The transcript, call by call -/

/-- `Buffer::write` of a transcript, crates/ragu_pcd/src/internal/transcript.rs:178-182. -/
def transcriptWrite (p : PoseidonParams F) (v : Element F) (t : Mode (Element F)) :
    Syn F (Mode (Element F)) := do
  let (r, t) ← Sponge.absorb Element.add (Poseidon.permutation p) p.rate v t
  match r with
  | .ok _ => return t
  | .error _ => .panic

/-- Writing several elements in a row. -/
def transcriptWriteAll (p : PoseidonParams F) : List (Element F) → Mode (Element F) →
    Syn F (Mode (Element F))
  | [], t => return t
  | v :: vs, t => do
    let t ← transcriptWrite p v t
    transcriptWriteAll p vs t

/-- `Point::write` into a transcript (derived, crates/ragu_primitives/src/point.rs:24-33). -/
def transcriptWritePoint (p : PoseidonParams F) (v : Point F) (t : Mode (Element F)) :
    Syn F (Mode (Element F)) := transcriptWriteAll p [v.x, v.y] t

/-- `Transcript::new`, crates/ragu_pcd/src/internal/transcript.rs:84-102. -/
def transcriptNew (p : PoseidonParams F) (tag : List UInt8) : Syn F (Mode (Element F)) :=
  transcriptWriteAll p ((Transcript.tagElems tag).map Element.constant)
    (Sponge.new Element.zero p.T)

/-- `Transcript::challenge` and `ResumedTranscript::challenge`,
crates/ragu_pcd/src/internal/transcript.rs:105-107 and 153-156. -/
def transcriptChallenge (p : PoseidonParams F) (t : Mode (Element F)) :
    Syn F (Element F × Mode (Element F)) := do
  let (r, t) ← Sponge.squeeze Element.add (Poseidon.permutation p) p.rate t
  match r with
  | .ok c => return (c, t)
  | .error _ => .panic

/-- `Transcript::save_state` with its `expect`,
crates/ragu_pcd/src/internal/native/circuits/hashes_1.rs:284-287. -/
def transcriptSave (p : PoseidonParams F) (t : Mode (Element F)) : Syn F (List (Element F)) := do
  let r ← Sponge.saveState Element.add (Poseidon.permutation p) p.rate t
  match r with
  | .ok s => return s
  | .error _ => .panic

/-! ### Stages -/

/-- `ChildKyOutputs`, crates/ragu_pcd/src/internal/native/stages/outer_error.rs:64-76. -/
structure ChildKyOutputs (F : Type) where
  application : Element F
  unified : Element F
  unifiedBridge : Element F

/-- `Output`, crates/ragu_pcd/src/internal/native/stages/outer_error.rs:81-107. -/
structure OuterErrorOutput (F : Type) where
  errorTerms : List (Element F)
  collapsed : List (Element F)
  left : ChildKyOutputs F
  right : ChildKyOutputs F
  spongeState : List (Element F)

/-- A child of the preamble as the elements each part writes. -/
def ChildInputs.parts (c : ChildInputs F) : ProofInputs F :=
  ⟨c.leftHeader, c.rightHeader, c.outputHeader, c.circuitId, c.unified.write⟩

/-! ### The circuits -/

/-- The public output of `hashes_1`,
crates/ragu_pcd/src/internal/native/circuits/hashes_1.rs:103-123 and 293-303: derived `Write` puts
the unified output first, then the two headers, and `WithSuffix` appends a zero. -/
def hashes1Output (pre : PreambleOutput F) (o : UnifiedOutput F) : List (Element F) :=
  o.write ++ pre.left.outputHeader ++ pre.right.outputHeader ++ [Element.zero]

/-- `hashes_1`, crates/ragu_pcd/src/internal/native/circuits/hashes_1.rs:203-302; `k` is
`log2_circuits`. -/
def hashes1Circuit (p : PoseidonParams F) (tag : List UInt8) (b : F) (k : ℕ)
    (pre : PreambleOutput F) (oe : OuterErrorOutput F) (inst : UnifiedInstance F) :
    Syn F (List (Element F) × UnifiedInstance F) := do
  pre.left.circuitId.enforceRootOfUnity k
  pre.right.circuitId.enforceRootOfUnity k
  let B := OutputBuilder.new inst
  let t ← transcriptNew p tag
  let (preamble, B) ← B.receive b .bridgePreamble
  let t ← transcriptWritePoint p preamble t
  let (w, t) ← transcriptChallenge p t
  let B ← B.provide .w w
  let (sPrime, B) ← B.receive b .bridgeSPrime
  let t ← transcriptWritePoint p sPrime t
  let (y, t) ← transcriptChallenge p t
  let (z, t) ← transcriptChallenge p t
  let B ← B.provide .y y
  let B ← B.provide .z z
  let leftApp ← pre.left.parts.applicationKy y
  let rightApp ← pre.right.parts.applicationKy y
  enforceEqual leftApp.wire oe.left.application.wire
  enforceEqual rightApp.wire oe.right.application.wire
  let (leftUnified, leftBridge) ← pre.left.parts.unifiedKyValues y
  let (rightUnified, rightBridge) ← pre.right.parts.unifiedKyValues y
  enforceEqual leftUnified.wire oe.left.unified.wire
  enforceEqual rightUnified.wire oe.right.unified.wire
  enforceEqual leftBridge.wire oe.left.unifiedBridge.wire
  enforceEqual rightBridge.wire oe.right.unifiedBridge.wire
  let (innerError, B) ← B.receive b .bridgeInnerError
  let t ← transcriptWritePoint p innerError t
  let state ← transcriptSave p t
  Transcript.enforceEqualStates state oe.spongeState
  let (o, inst) ← B.finishNoSuffix b
  return (hashes1Output pre o, inst)

/-- `hashes_2`, crates/ragu_pcd/src/internal/native/circuits/hashes_2.rs:149-228.
`into_transcript` keeps the sponge; its assertion holds as challenges were squeezed. -/
def hashes2Circuit (p : PoseidonParams F) (b : F) (oe : OuterErrorOutput F)
    (inst : UnifiedInstance F) : Syn F (List (Element F) × UnifiedInstance F) := do
  let B := OutputBuilder.new inst
  let t := Sponge.resume p.rate oe.spongeState
  let (mu, t) ← transcriptChallenge p t
  let B ← B.provide .mu mu
  let (nu, t) ← transcriptChallenge p t
  let B ← B.provide .nu nu
  let (outerError, B) ← B.receive b .bridgeOuterError
  let t ← transcriptWritePoint p outerError t
  let (muPrime, t) ← transcriptChallenge p t
  let (nuPrime, t) ← transcriptChallenge p t
  let B ← B.provide .muPrime muPrime
  let B ← B.provide .nuPrime nuPrime
  let (ab, B) ← B.receive b .bridgeAb
  let t ← transcriptWritePoint p ab t
  let (x, t) ← transcriptChallenge p t
  let B ← B.provide .x x
  let (query, B) ← B.receive b .bridgeQuery
  let t ← transcriptWritePoint p query t
  let (alpha, t) ← transcriptChallenge p t
  let B ← B.provide .alpha alpha
  let (f, B) ← B.receive b .bridgeF
  let t ← transcriptWritePoint p f t
  let (u, t) ← transcriptChallenge p t
  let B ← B.provide .u u
  let (eval, B) ← B.receive b .bridgeEval
  let t ← transcriptWritePoint p eval t
  let (preBeta, _) ← transcriptChallenge p t
  let B ← B.provide .preBeta preBeta
  B.finish b

/-- The public values of the claims of the two children, in the order of the claims,
crates/ragu_pcd/src/internal/native/circuits/inner_collapse.rs:169-175. -/
def circuitKyValues (pre : PreambleOutput F) (left right : ChildKyOutputs F) : ℕ → Element F :=
  (twoProofKySource (K := Element F) (pre.left.unified .c) (pre.right.unified .c)
    left.application right.application left.unifiedBridge right.unifiedBridge
    left.unified right.unified Element.zero).values

/-- The loop over the groups,
crates/ragu_pcd/src/internal/native/circuits/inner_collapse.rs:181-187: group `i` takes the next `m`
public values; `outer_error.collapsed[i]` panics out of bounds. -/
def innerCollapseLoop (cf : Fold.ClaimFolder F) (m : ℕ) (ky : ℕ → Element F)
    (collapsed : List (Element F)) : ℕ → List (List (Element F)) → Syn F Unit
  | _, [] => return ()
  | i, errorTerms :: rest => do
    let v ← cf.foldInner m errorTerms ((List.range m).map fun j => ky (i * m + j))
    match collapsed[i]? with
    | none => .panic
    | some c => do
      enforceEqual v.wire c.wire
      innerCollapseLoop cf m ky collapsed (i + 1) rest

/-- `inner_collapse`, crates/ragu_pcd/src/internal/native/circuits/inner_collapse.rs:136-191;
`enforced` stages hold elements only, for which there is nothing to enforce. -/
def innerCollapseCircuit (b : F) (m : ℕ) (pre : PreambleOutput F) (oe : OuterErrorOutput F)
    (innerErrors : List (List (Element F))) (inst : UnifiedInstance F) :
    Syn F (List (Element F) × UnifiedInstance F) := do
  let B := OutputBuilder.new inst
  let (mu, B) ← B.read b .mu
  let (nu, B) ← B.read b .nu
  let cf ← Fold.ClaimFolder.new mu nu
  innerCollapseLoop cf m (circuitKyValues pre oe.left oe.right) oe.collapsed 0 innerErrors
  B.finish b

/-- `outer_collapse`, crates/ragu_pcd/src/internal/native/circuits/outer_collapse.rs:135-185; `N` is
`HEADER_SIZE`. -/
def outerCollapseCircuit (b : F) (N g : ℕ) (pre : PreambleOutput F) (oe : OuterErrorOutput F)
    (inst : UnifiedInstance F) : Syn F (List (Element F) × UnifiedInstance F) := do
  let B := OutputBuilder.new inst
  let (muPrime, B) ← B.read b .muPrime
  let (nuPrime, B) ← B.read b .nuPrime
  let cf ← Fold.ClaimFolder.new muPrime nuPrime
  let computed ← cf.foldOuter g oe.errorTerms oe.collapsed
  let (witnessed, B) ← B.receive b .c
  let base ← isBaseCase N pre.left.parts pre.right.parts
  base.not.conditionalEnforceEqual witnessed computed
  B.finish b

/-! ### The prover -/

/-- One group of the prover's collapsed values,
crates/ragu_pcd/src/fuse/_05_outer_error.rs:112-124; the error terms are values, so `alloc` gives
elements that carry them. -/
def collapsedValues (cf : Fold.ClaimFolder F) (m : ℕ) (ky : ℕ → Element F) :
    ℕ → List (List F) → Syn F (List F)
  | _, [] => return []
  | i, errs :: rest => do
    let v ← cf.foldInner m (errs.map fun e => ⟨e, e⟩) ((List.range m).map fun j => ky (i * m + j))
    let vs ← collapsedValues cf m ky (i + 1) rest
    return v.value :: vs

/-- The prover's emulation that gives the public values and the collapsed values of the outer error
stage, crates/ragu_pcd/src/fuse/_05_outer_error.rs:69-141.  The preamble stage's gadgets are an
argument. -/
def outerErrorValues (m : ℕ) (pre : PreambleOutput F) (innerErrors : List (List F)) (y mu nu : F) :
    Syn F ((ChildKyOutputs F × ChildKyOutputs F) × List F) := do
  let y ← Element.alloc y
  let (leftUnified, leftBridge) ← pre.left.parts.unifiedKyValues y
  let (rightUnified, rightBridge) ← pre.right.parts.unifiedKyValues y
  let leftApp ← pre.left.parts.applicationKy y
  let left : ChildKyOutputs F := ⟨leftApp, leftUnified, leftBridge⟩
  let rightApp ← pre.right.parts.applicationKy y
  let right : ChildKyOutputs F := ⟨rightApp, rightUnified, rightBridge⟩
  let mu ← Element.alloc mu
  let nu ← Element.alloc nu
  let cf ← Fold.ClaimFolder.new mu nu
  let collapsed ← collapsedValues cf m (circuitKyValues pre left right) 0 innerErrors
  return ((left, right), collapsed)

/-- The parameters of the internal circuits: Poseidon, the transcript's tag, the curve constant, the
registry's environment, the constants of the endoscalar gadgets, the logarithms of the number of
circuits and of the rank, and the header size. -/
structure StepParams (F : Type) where
  poseidon : PoseidonParams F
  tag : List UInt8
  b : F
  env : Env F
  endo : EndoConsts F
  logCircuits : ℕ
  logRank : ℕ
  headerSize : ℕ

/-- The gadgets of the stages. -/
structure StepStages (F : Type) where
  preamble : PreambleOutput F
  outerError : OuterErrorOutput F
  innerError : List (List (Element F))
  query : QueryOutput (Element F)
  eval : EvalOutput (Element F)

/-- The five circuits in the order of `compute_internal_circuits`,
crates/ragu_pcd/src/fuse/_11_circuits.rs:57-145, and the final `assert_complete`: each circuit's
simulation hands its instance to the next.  Returns the public outputs. -/
def internalCircuits (P : StepParams F) (S : StepStages F)
    (value : (s : SlotId) → s.kind.Native F) : Except Circuit.Err (List (List (Element F))) := do
  let inst : UnifiedInstance F := ⟨value, fun _ => false⟩
  let (o1, inst) ← (hashes1Circuit P.poseidon P.tag P.b P.logCircuits S.preamble S.outerError
    inst).sim
  let (o2, inst) ← (hashes2Circuit P.poseidon P.b S.outerError inst).sim
  let (o3, inst) ← (innerCollapseCircuit P.b GROUP_SIZE S.preamble S.outerError S.innerError
    inst).sim
  let (o4, inst) ← (outerCollapseCircuit P.b P.headerSize NUM_GROUPS S.preamble S.outerError
    inst).sim
  let (o5, inst) ← (computeV P.env P.endo P.b P.logRank S.preamble S.query S.eval inst).sim
  match assertComplete inst.coverage with
  | some _ => return [o1, o2, o3, o4, o5]
  | none => .error .panic

end Ragu.Pcd

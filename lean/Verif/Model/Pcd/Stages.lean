/-
Model of the stages of the native field, `ragu_pcd/src/internal/native/stages/`, and of how the
internal circuits get their gadgets from the stages' wires
(`ragu_circuits/src/staging/builder.rs`).
-/
import Verif.Model.Pcd.Internal
import Verif.Model.Pcd.Verify
import Verif.Model.Staging

namespace Ragu.Pcd
open Ragu Ragu.Circuit Ragu.Registry Ragu.Gadget
variable {F G HC : Type} [Field F] [DecidableEq F] [Field G] [DecidableEq G]

/-! ### The witness code of the stages -/

/-- `ProofInputs::alloc`, crates/ragu_pcd/src/internal/native/stages/preamble.rs:152-196, with the
unified output kept as a gadget. -/
def ChildInputs.alloc (C : CycleEnv F G HC) (N : ℕ) (p : Proof F G HC) (outputHeader : List F) :
    Syn F (ChildInputs F) := do
  let left ← allocHeader N p.application.leftHeader
  let right ← allocHeader N p.application.rightHeader
  let output ← allocHeader N outputHeader
  let circuitId ← Element.alloc (omegaJ C.native p.application.circuitId)
  let unified ← allocFromProof C.b p
  return ⟨left, right, output, circuitId, unified⟩

/-- `witness` of the preamble stage,
crates/ragu_pcd/src/internal/native/stages/preamble.rs:265-286. -/
def preambleStageCode (C : CycleEnv F G HC) (N : ℕ) (left right : Proof F G HC)
    (leftOutput rightOutput : List F) : Syn F (PreambleOutput F) := do
  let l ← ChildInputs.alloc C N left leftOutput
  let r ← ChildInputs.alloc C N right rightOutput
  return ⟨l, r⟩

/-- `ChildKyValues`, crates/ragu_pcd/src/internal/native/stages/outer_error.rs:25-32. -/
structure ChildKyValues (F : Type) where
  application : F
  unified : F
  unifiedBridge : F

/-- `Witness`, crates/ragu_pcd/src/internal/native/stages/outer_error.rs:47-62. -/
structure OuterErrorWitness (F : Type) where
  errorTerms : List F
  collapsed : List F
  left : ChildKyValues F
  right : ChildKyValues F
  spongeState : List F

/-- `witness` of the outer error stage,
crates/ragu_pcd/src/internal/native/stages/outer_error.rs:127-169. -/
def outerErrorStageCode (w : OuterErrorWitness F) : Syn F (OuterErrorOutput F) := do
  let errorTerms ← allocAll w.errorTerms
  let collapsed ← allocAll w.collapsed
  let la ← Element.alloc w.left.application
  let lu ← Element.alloc w.left.unified
  let lb ← Element.alloc w.left.unifiedBridge
  let ra ← Element.alloc w.right.application
  let ru ← Element.alloc w.right.unified
  let rb ← Element.alloc w.right.unifiedBridge
  let spongeState ← allocAll w.spongeState
  return ⟨errorTerms, collapsed, ⟨la, lu, lb⟩, ⟨ra, ru, rb⟩, spongeState⟩

/-- `witness` of the inner error stage,
crates/ragu_pcd/src/internal/native/stages/inner_error.rs:64-80. -/
def innerErrorStageCode : List (List F) → Syn F (List (List (Element F)))
  | [] => return []
  | l :: ls => do
    let e ← allocAll l
    let es ← innerErrorStageCode ls
    return e :: es

/-- `RxValues::try_from_fn` with `Element::alloc`,
crates/ragu_pcd/src/internal/native/mod.rs:275-292. -/
def allocRx (f : RxIndex → F) : Syn F (RxIndex → Element F) := do
  let r0 ← Element.alloc (f .application)
  let r1 ← Element.alloc (f .hashes1)
  let r2 ← Element.alloc (f .hashes2)
  let r3 ← Element.alloc (f .innerCollapse)
  let r4 ← Element.alloc (f .outerCollapse)
  let r5 ← Element.alloc (f .computeV)
  let r6 ← Element.alloc (f .preamble)
  let r7 ← Element.alloc (f .innerError)
  let r8 ← Element.alloc (f .outerError)
  let r9 ← Element.alloc (f .query)
  let r10 ← Element.alloc (f .eval)
  return fun
    | .application => r0
    | .hashes1 => r1
    | .hashes2 => r2
    | .innerCollapse => r3
    | .outerCollapse => r4
    | .computeV => r5
    | .preamble => r6
    | .innerError => r7
    | .outerError => r8
    | .query => r9
    | .eval => r10

/-- `alloc_fixed_registry`, crates/ragu_pcd/src/internal/native/stages/query.rs:96-103, with
`InternalCircuitValues::try_from_fn`, crates/ragu_pcd/src/internal/native/mod.rs:156-175. -/
def allocFixedRegistry (f : NativeId → F) : Syn F (NativeId → Element F) := do
  let r0 ← Element.alloc (f .hashes1Circuit)
  let r1 ← Element.alloc (f .hashes2Circuit)
  let r2 ← Element.alloc (f .innerCollapseCircuit)
  let r3 ← Element.alloc (f .outerCollapseCircuit)
  let r4 ← Element.alloc (f .computeVCircuit)
  let r5 ← Element.alloc (f .preambleStage)
  let r6 ← Element.alloc (f .innerErrorStage)
  let r7 ← Element.alloc (f .outerErrorStage)
  let r8 ← Element.alloc (f .queryStage)
  let r9 ← Element.alloc (f .evalStage)
  let r10 ← Element.alloc (f .innerErrorFinalStaged)
  let r11 ← Element.alloc (f .outerErrorFinalStaged)
  let r12 ← Element.alloc (f .evalFinalStaged)
  return fun
    | .hashes1Circuit => r0
    | .hashes2Circuit => r1
    | .innerCollapseCircuit => r2
    | .outerCollapseCircuit => r3
    | .computeVCircuit => r4
    | .preambleStage => r5
    | .innerErrorStage => r6
    | .outerErrorStage => r7
    | .queryStage => r8
    | .evalStage => r9
    | .innerErrorFinalStaged => r10
    | .outerErrorFinalStaged => r11
    | .evalFinalStaged => r12

/-- `ChildEvaluations::alloc`, crates/ragu_pcd/src/internal/native/stages/query.rs:222-251. -/
def QueryChild.alloc (w : QueryChild F) : Syn F (QueryChild (Element F)) := do
  let rx ← allocRx w.rx
  let a ← Element.alloc w.aPolyAtXz
  let b ← Element.alloc w.bPolyAtX
  let xyw ← Element.alloc w.childRegistryXyAtCurrentW
  let xyc ← Element.alloc w.currentRegistryXyAtChildCircuitId
  let wyx ← Element.alloc w.currentRegistryWyAtChildX
  return ⟨rx, a, b, xyw, xyc, wyx⟩

/-- `witness` of the query stage, crates/ragu_pcd/src/internal/native/stages/query.rs:290-308. -/
def queryStageCode (w : QueryOutput F) : Syn F (QueryOutput (Element F)) := do
  let fixedRegistry ← allocFixedRegistry w.fixedRegistry
  let registryWxy ← Element.alloc w.registryWxy
  let left ← QueryChild.alloc w.left
  let right ← QueryChild.alloc w.right
  return ⟨fixedRegistry, registryWxy, left, right⟩

/-- `ChildEvaluations::alloc`, crates/ragu_pcd/src/internal/native/stages/eval.rs:80-97. -/
def EvalChild.alloc (w : EvalChild F) : Syn F (EvalChild (Element F)) := do
  let rx ← allocRx w.rx
  let a ← Element.alloc w.aPoly
  let b ← Element.alloc w.bPoly
  let xy ← Element.alloc w.registryXyPoly
  let p ← Element.alloc w.pPoly
  return ⟨rx, a, b, xy, p⟩

/-- `witness` of the eval stage, crates/ragu_pcd/src/internal/native/stages/eval.rs:140-166. -/
def evalStageCode (w : EvalOutput F) : Syn F (EvalOutput (Element F)) := do
  let left ← EvalChild.alloc w.left
  let right ← EvalChild.alloc w.right
  let wx0 ← Element.alloc w.registryWx0
  let wx1 ← Element.alloc w.registryWx1
  let wy ← Element.alloc w.registryWy
  let a ← Element.alloc w.aPoly
  let b ← Element.alloc w.bPoly
  let xy ← Element.alloc w.registryXy
  return ⟨left, right, wx0, wx1, wy, a, b, xy⟩

/-! ### The wires of the gadgets

The derived `GadgetKind::map_gadget` visits the fields in the order of their declaration. -/

/-- Derived `Gadget` of `ProofInputs`,
crates/ragu_pcd/src/internal/native/stages/preamble.rs:67-92. -/
def ChildInputs.elems (c : ChildInputs F) : List (Element F) :=
  c.leftHeader ++ c.rightHeader ++ c.outputHeader ++ [c.circuitId] ++ c.unified.write

/-- Derived `Gadget` of `Output`, crates/ragu_pcd/src/internal/native/stages/preamble.rs:225-235. -/
def PreambleOutput.elems (o : PreambleOutput F) : List (Element F) := o.left.elems ++ o.right.elems

/-- Derived `Gadget` of `ChildKyOutputs`,
crates/ragu_pcd/src/internal/native/stages/outer_error.rs:64-76. -/
def ChildKyOutputs.elems (c : ChildKyOutputs F) : List (Element F) :=
  [c.application, c.unified, c.unifiedBridge]

/-- Derived `Gadget` of `Output`,
crates/ragu_pcd/src/internal/native/stages/outer_error.rs:81-107. -/
def OuterErrorOutput.elems (o : OuterErrorOutput F) : List (Element F) :=
  o.errorTerms ++ o.collapsed ++ o.left.elems ++ o.right.elems ++ o.spongeState

/-- Derived `Gadget` of `ChildEvaluations`,
crates/ragu_pcd/src/internal/native/stages/query.rs:196-220, with `RxValues` in the order of
`try_from_fn` (149-161). -/
def QueryChild.elems (c : QueryChild (Element F)) : List (Element F) :=
  RxIndex.all.map c.rx ++ [c.aPolyAtXz, c.bPolyAtX, c.childRegistryXyAtCurrentW,
    c.currentRegistryXyAtChildCircuitId, c.currentRegistryWyAtChildX]

/-- Derived `Gadget` of `Output`, crates/ragu_pcd/src/internal/native/stages/query.rs:253-270, with
`InternalCircuitValues` in the order of `try_from_fn` (110-130). -/
def QueryOutput.elems (o : QueryOutput (Element F)) : List (Element F) :=
  NativeId.all.map o.fixedRegistry ++ [o.registryWxy] ++ o.left.elems ++ o.right.elems

/-- Derived `Gadget` of `Output`, crates/ragu_pcd/src/internal/native/stages/eval.rs:99-120: the
same order as its derived `Write`. -/
def EvalOutput.elems (o : EvalOutput (Element F)) : List (Element F) := o.write

/-! ### Gadgets from wires

Mapping a gadget keeps its shape and replaces its wires by the next ones in this order. -/

/-- How many wires a field of the unified output has. -/
def Kind.width : Kind → ℕ
  | .point => 2
  | .element => 1

/-- How many wires come before a field of the unified output. -/
def SlotId.offset (s : SlotId) : ℕ := ((SlotId.all.takeWhile (· ≠ s)).map fun t => t.kind.width).sum

/-- A field of the unified output whose wires start at `i`. -/
def Kind.ofElems (l : List (Element F)) (i : ℕ) : (k : Kind) → k.Gadget F
  | .point => ⟨l.getD i Element.zero, l.getD (i + 1) Element.zero⟩
  | .element => l.getD i Element.zero

/-- Derived `map_gadget` of the unified output,
crates/ragu_pcd/src/internal/native/unified.rs:107-113. -/
def UnifiedOutput.ofElems (l : List (Element F)) : UnifiedOutput F :=
  fun s => s.kind.ofElems l s.offset

/-- Derived `map_gadget` of `ProofInputs`,
crates/ragu_pcd/src/internal/native/stages/preamble.rs:67-92. -/
def ChildInputs.ofElems (N : ℕ) (l : List (Element F)) : ChildInputs F where
  leftHeader := l.take N
  rightHeader := (l.drop N).take N
  outputHeader := (l.drop (2 * N)).take N
  circuitId := l.getD (3 * N) Element.zero
  unified := .ofElems (l.drop (3 * N + 1))

/-- Derived `map_gadget` of `Output`,
crates/ragu_pcd/src/internal/native/stages/preamble.rs:225-235. -/
def PreambleOutput.ofElems (N : ℕ) (l : List (Element F)) : PreambleOutput F :=
  ⟨.ofElems N l, .ofElems N (l.drop (3 * N + 1 + NUM_WIRES))⟩

/-- Derived `map_gadget` of `ChildKyOutputs`,
crates/ragu_pcd/src/internal/native/stages/outer_error.rs:64-76. -/
def ChildKyOutputs.ofElems (l : List (Element F)) : ChildKyOutputs F :=
  ⟨l.getD 0 Element.zero, l.getD 1 Element.zero, l.getD 2 Element.zero⟩

/-- Derived `map_gadget` of `Output`,
crates/ragu_pcd/src/internal/native/stages/outer_error.rs:81-107. -/
def OuterErrorOutput.ofElems (g T : ℕ) (l : List (Element F)) : OuterErrorOutput F where
  errorTerms := l.take (numErrorTerms g)
  collapsed := (l.drop (numErrorTerms g)).take g
  left := .ofElems (l.drop (numErrorTerms g + g))
  right := .ofElems (l.drop (numErrorTerms g + g + 3))
  spongeState := (l.drop (numErrorTerms g + g + 6)).take T

/-- Derived `map_gadget` of `Output`,
crates/ragu_pcd/src/internal/native/stages/inner_error.rs:37-43: `g` groups of `k` error terms. -/
def innerErrorOfElems (k : ℕ) : ℕ → List (Element F) → List (List (Element F))
  | 0, _ => []
  | g + 1, l => l.take k :: innerErrorOfElems k g (l.drop k)

/-- Derived `map_gadget` of `ChildEvaluations`,
crates/ragu_pcd/src/internal/native/stages/query.rs:196-220. -/
def QueryChild.ofElems (l : List (Element F)) : QueryChild (Element F) where
  rx i := l.getD (RxIndex.all.findIdx (· == i)) Element.zero
  aPolyAtXz := l.getD 11 Element.zero
  bPolyAtX := l.getD 12 Element.zero
  childRegistryXyAtCurrentW := l.getD 13 Element.zero
  currentRegistryXyAtChildCircuitId := l.getD 14 Element.zero
  currentRegistryWyAtChildX := l.getD 15 Element.zero

/-- Derived `map_gadget` of `Output`,
crates/ragu_pcd/src/internal/native/stages/query.rs:253-270. -/
def QueryOutput.ofElems (l : List (Element F)) : QueryOutput (Element F) where
  fixedRegistry i := l.getD (NativeId.all.findIdx (· == i)) Element.zero
  registryWxy := l.getD 13 Element.zero
  left := .ofElems (l.drop 14)
  right := .ofElems (l.drop 30)

/-- Derived `map_gadget` of `ChildEvaluations`,
crates/ragu_pcd/src/internal/native/stages/eval.rs:66-78. -/
def EvalChild.ofElems (l : List (Element F)) : EvalChild (Element F) where
  rx i := l.getD (RxIndex.all.findIdx (· == i)) Element.zero
  aPoly := l.getD 11 Element.zero
  bPoly := l.getD 12 Element.zero
  registryXyPoly := l.getD 13 Element.zero
  pPoly := l.getD 14 Element.zero

/-- Derived `map_gadget` of `Output`, crates/ragu_pcd/src/internal/native/stages/eval.rs:99-120. -/
def EvalOutput.ofElems (l : List (Element F)) : EvalOutput (Element F) where
  left := .ofElems l
  right := .ofElems (l.drop 15)
  registryWx0 := l.getD 30 Element.zero
  registryWx1 := l.getD 31 Element.zero
  registryWy := l.getD 32 Element.zero
  aPoly := l.getD 33 Element.zero
  bPoly := l.getD 34 Element.zero
  registryXy := l.getD 35 Element.zero

/-! ### Guards -/

/-- How many wires the gadget of the last stage of a chain has. -/
def stageNumWires : Chain → ℕ
  | .base => 0
  | .child _ s => s.numWires

/-- The wires that the guard of the stage `d` holds, among all wires of the stages,
crates/ragu_circuits/src/staging/builder.rs:187-216. -/
def guardWires (d : Chain) (es : List F) : List F := (es.drop (firstWire d)).take (stageNumWires d)

/-- `StageGuard::unenforced`, crates/ragu_circuits/src/staging/builder.rs:142-155, on the elements of
the gadget that the stage's witness code computed: the values stay, and the wires are the guard's.
Running out of wires is an error of the synthesis, here a panic. -/
def injectElems (es : List (Element F)) (ws : List F) : Syn F (List (Element F)) :=
  match inject es.length ws with
  | .ok l => return List.zipWith (fun e w => ⟨w, e.value⟩) es l
  | .error _ => .panic

/-- The preamble stage's guard, with the gadget `o` from its witness code. -/
def preambleGuard (N : ℕ) (o : PreambleOutput F) (es : List F) : Syn F (PreambleOutput F) := do
  let l ← injectElems o.elems (guardWires (preambleStage N) es)
  return .ofElems N l

/-- The outer error stage's guard. -/
def outerErrorGuard (N T : ℕ) (o : OuterErrorOutput F) (es : List F) :
    Syn F (OuterErrorOutput F) := do
  let l ← injectElems o.elems (guardWires (outerErrorStage N T) es)
  return .ofElems NUM_GROUPS T l

/-- The inner error stage's guard. -/
def innerErrorGuard (N T : ℕ) (o : List (List (Element F))) (es : List F) :
    Syn F (List (List (Element F))) := do
  let l ← injectElems o.flatten (guardWires (innerErrorStage N T) es)
  return innerErrorOfElems (numErrorTerms GROUP_SIZE) NUM_GROUPS l

/-- The query stage's guard. -/
def queryGuard (N : ℕ) (o : QueryOutput (Element F)) (es : List F) :
    Syn F (QueryOutput (Element F)) := do
  let l ← injectElems o.elems (guardWires (queryStage N) es)
  return .ofElems l

/-- The eval stage's guard. -/
def evalGuard (N : ℕ) (o : EvalOutput (Element F)) (es : List F) :
    Syn F (EvalOutput (Element F)) := do
  let l ← injectElems o.elems (guardWires (evalStage N) es)
  return .ofElems l

/-! ### The circuits

What is synthesised after the stages. `S` holds the gadgets that the stages' witness code computed,
`es` the wires of all stages of the circuit. The public output is the list of the output's wires. -/

/-- `hashes_1`, crates/ragu_pcd/src/internal/native/circuits/hashes_1.rs:203-302. -/
def hashes1Code (P : StepParams F) (S : StepStages F) (inst : UnifiedInstance F) (es : List F) :
    Syn F (List F) := do
  let pre ← preambleGuard P.headerSize S.preamble es
  let oe ← outerErrorGuard P.headerSize P.poseidon.T S.outerError es
  let r ← hashes1Circuit P.poseidon P.tag P.b P.logCircuits pre oe inst
  return r.1.map (·.wire)

/-- `hashes_2`, crates/ragu_pcd/src/internal/native/circuits/hashes_2.rs:149-228; the preamble stage is
skipped. -/
def hashes2Code (P : StepParams F) (S : StepStages F) (inst : UnifiedInstance F) (es : List F) :
    Syn F (List F) := do
  let oe ← outerErrorGuard P.headerSize P.poseidon.T S.outerError es
  let r ← hashes2Circuit P.poseidon P.b oe inst
  return r.1.map (·.wire)

/-- `inner_collapse`, crates/ragu_pcd/src/internal/native/circuits/inner_collapse.rs:136-191. -/
def innerCollapseCode (P : StepParams F) (S : StepStages F) (inst : UnifiedInstance F)
    (es : List F) : Syn F (List F) := do
  let pre ← preambleGuard P.headerSize S.preamble es
  let oe ← outerErrorGuard P.headerSize P.poseidon.T S.outerError es
  let ie ← innerErrorGuard P.headerSize P.poseidon.T S.innerError es
  let r ← innerCollapseCircuit P.b GROUP_SIZE pre oe ie inst
  return r.1.map (·.wire)

/-- `outer_collapse`, crates/ragu_pcd/src/internal/native/circuits/outer_collapse.rs:135-185. -/
def outerCollapseCode (P : StepParams F) (S : StepStages F) (inst : UnifiedInstance F)
    (es : List F) : Syn F (List F) := do
  let pre ← preambleGuard P.headerSize S.preamble es
  let oe ← outerErrorGuard P.headerSize P.poseidon.T S.outerError es
  let r ← outerCollapseCircuit P.b P.headerSize NUM_GROUPS pre oe inst
  return r.1.map (·.wire)

/-- `compute_v`, crates/ragu_pcd/src/internal/native/circuits/compute_v.rs:140-243. -/
def computeVCode (P : StepParams F) (S : StepStages F) (inst : UnifiedInstance F) (es : List F) :
    Syn F (List F) := do
  let pre ← preambleGuard P.headerSize S.preamble es
  let query ← queryGuard P.headerSize S.query es
  let eval ← evalGuard P.headerSize S.eval es
  let r ← computeV P.env P.endo P.b P.logRank pre query eval inst
  return r.1.map (·.wire)

end Ragu.Pcd

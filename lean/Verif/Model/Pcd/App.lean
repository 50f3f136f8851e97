/-
Model of the application builder and of the internal circuit tables: `ragu_pcd/src/lib.rs`,
`step/mod.rs`, `internal/native/mod.rs`, `internal/nested/mod.rs` and the sizes of the stages.
-/
import Verif.Model.Pcd.Header
import Verif.Model.Registry
import Verif.Model.Staging

namespace Ragu.Pcd
open Ragu Ragu.Circuit Ragu.Registry

/-! ### Sizes of the stages -/

/-- A stage whose output gadget has exactly `values()` wires. -/
def stage (parent : Chain) (values : ℕ) : Chain := .child parent ⟨values, values⟩

/-- `NumErrorTerms::len`, crates/ragu_pcd/src/internal/fold_revdot.rs:68-74. -/
def numErrorTerms (n : ℕ) : ℕ := n * n - n

/-- `unified::NUM_WIRES`, crates/ragu_pcd/src/internal/native/unified.rs:42. -/
def NUM_WIRES : ℕ := 29

/-- `NUM_INTERNAL_CIRCUITS`, crates/ragu_pcd/src/internal/native/mod.rs:52. -/
def NUM_INTERNAL_CIRCUITS : ℕ := 13

/-- `RevdotParameters`, crates/ragu_pcd/src/internal/native/mod.rs:19-22. -/
def NUM_GROUPS : ℕ := 19
/-- `RevdotParameters`, crates/ragu_pcd/src/internal/native/mod.rs:19-22. -/
def GROUP_SIZE : ℕ := 7

/-- crates/ragu_pcd/src/internal/native/stages/preamble.rs:253-263. -/
def preambleStage (headerSize : ℕ) : Chain := stage .base (2 * (3 * headerSize + 1 + NUM_WIRES))
/-- crates/ragu_pcd/src/internal/native/stages/outer_error.rs:112-125; `T` is the width of the sponge. -/
def outerErrorStage (headerSize T : ℕ) : Chain :=
  stage (preambleStage headerSize) (numErrorTerms NUM_GROUPS + NUM_GROUPS + 6 + T)
/-- crates/ragu_pcd/src/internal/native/stages/inner_error.rs:51-62. -/
def innerErrorStage (headerSize T : ℕ) : Chain :=
  stage (outerErrorStage headerSize T) (NUM_GROUPS * numErrorTerms GROUP_SIZE)
/-- crates/ragu_pcd/src/internal/native/stages/query.rs:278-288. -/
def queryStage (headerSize : ℕ) : Chain :=
  stage (preambleStage headerSize) (NUM_INTERNAL_CIRCUITS + 1 + 2 * 16)
/-- crates/ragu_pcd/src/internal/native/stages/eval.rs:128-138. -/
def evalStage (headerSize : ℕ) : Chain := stage (queryStage headerSize) (2 * 15 + 6)

/-- `ENDOSCALINGS_PER_STEP`, crates/ragu_pcd/src/internal/endoscalar.rs:42. -/
def ENDOSCALINGS_PER_STEP : ℕ := 4

/-- `num_steps`, crates/ragu_pcd/src/internal/endoscalar.rs:57-62; `none` is the failed assertion. -/
def numSteps (numPoints : ℕ) : Option ℕ :=
  if numPoints > 0 then
    let steps := (numPoints - 1 + ENDOSCALINGS_PER_STEP - 1) / ENDOSCALINGS_PER_STEP
    some (if steps > 1 then steps else 1)
  else none

/-- `NUM_ENDOSCALING_POINTS` and `NUM_ENDOSCALING_STEPS`,
crates/ragu_pcd/src/internal/nested/mod.rs:26-30. -/
def NUM_ENDOSCALING_POINTS : ℕ := 37
/-- `NUM_ENDOSCALING_POINTS` and `NUM_ENDOSCALING_STEPS`,
crates/ragu_pcd/src/internal/nested/mod.rs:26-30. -/
def NUM_ENDOSCALING_STEPS : ℕ := (numSteps NUM_ENDOSCALING_POINTS).getD 0

/-- crates/ragu_pcd/src/internal/endoscalar.rs:77-82 (`Uendo::BITS` is 128 in the build that uses
`u128`, crates/ragu_arithmetic/src/uendo.rs). -/
def endoscalarStage : Chain := stage .base 128
/-- crates/ragu_pcd/src/internal/endoscalar.rs:177-185. -/
def pointsStage : Chain :=
  stage endoscalarStage (2 * (1 + (NUM_ENDOSCALING_POINTS - 1) + NUM_ENDOSCALING_STEPS))

/-- The bridge stages, crates/ragu_pcd/src/internal/nested/stages/mod.rs:79-81 and 124-160 and
preamble.rs:19-20 and 122-129: two wires per point. -/
def bridgePreamble : Chain := stage .base (13 * 2)
/-- crates/ragu_pcd/src/internal/nested/stages/mod.rs:125-128. -/
def bridgeSPrime : Chain := stage bridgePreamble (2 * 2)
/-- crates/ragu_pcd/src/internal/nested/stages/mod.rs:130-133. -/
def bridgeInnerError : Chain := stage bridgeSPrime (2 * 2)
/-- crates/ragu_pcd/src/internal/nested/stages/mod.rs:135-137. -/
def bridgeOuterError : Chain := stage bridgeInnerError (1 * 2)
/-- crates/ragu_pcd/src/internal/nested/stages/mod.rs:139-142. -/
def bridgeAB : Chain := stage bridgeOuterError (2 * 2)
/-- crates/ragu_pcd/src/internal/nested/stages/mod.rs:144-147. -/
def bridgeQuery : Chain := stage bridgeAB (2 * 2)
/-- crates/ragu_pcd/src/internal/nested/stages/mod.rs:149-151. -/
def bridgeF : Chain := stage bridgeQuery (1 * 2)
/-- crates/ragu_pcd/src/internal/nested/stages/mod.rs:153-155. -/
def bridgeEval : Chain := stage bridgeF (1 * 2)

/-! ### Internal circuits -/

/-- `native::InternalCircuitIndex`, crates/ragu_pcd/src/internal/native/mod.rs:31-48. -/
inductive NativeId where
  | hashes1Circuit | hashes2Circuit | innerCollapseCircuit | outerCollapseCircuit | computeVCircuit
  | preambleStage | innerErrorStage | outerErrorStage | queryStage | evalStage
  | innerErrorFinalStaged | outerErrorFinalStaged | evalFinalStaged
deriving DecidableEq

/-- `InternalCircuitIndex::ALL`, crates/ragu_pcd/src/internal/native/mod.rs:69-89. -/
def NativeId.all : List NativeId :=
  [.hashes1Circuit, .hashes2Circuit, .innerCollapseCircuit, .outerCollapseCircuit, .computeVCircuit,
    .preambleStage, .innerErrorStage, .outerErrorStage, .queryStage, .evalStage,
    .innerErrorFinalStaged, .outerErrorFinalStaged, .evalFinalStaged]

/-- `circuit_index`, crates/ragu_pcd/src/internal/native/mod.rs:91-97; `none` is the failed `expect`. -/
def NativeId.circuitIndex (id : NativeId) : Option ℕ := NativeId.all.findIdx? (· == id)

/-- `nested::InternalCircuitIndex`, crates/ragu_pcd/src/internal/nested/mod.rs:36-61. -/
inductive NestedId where
  | endoscalingStep (step : ℕ)
  | endoscalarStage | pointsStage | pointsFinalStaged
  | bridgePreamble | bridgeSPrime | bridgeInnerError | bridgeOuterError | bridgeAB | bridgeQuery
  | bridgeF | bridgeEval
deriving DecidableEq

/-- `InternalCircuitIndex::ALL`, crates/ragu_pcd/src/internal/nested/mod.rs:76-99. -/
def NestedId.all : List NestedId :=
  (List.range NUM_ENDOSCALING_STEPS).map .endoscalingStep ++
    [.endoscalarStage, .pointsStage, .pointsFinalStaged, .bridgePreamble, .bridgeSPrime,
      .bridgeInnerError, .bridgeOuterError, .bridgeAB, .bridgeQuery, .bridgeF, .bridgeEval]

/-- `NUM_INTERNAL_CIRCUITS`, crates/ragu_pcd/src/internal/nested/mod.rs:65. -/
def NESTED_INTERNAL_CIRCUITS : ℕ := NUM_ENDOSCALING_STEPS + 11

/-- `circuit_index`, crates/ragu_pcd/src/internal/nested/mod.rs:105-111. -/
def NestedId.circuitIndex (id : NestedId) : Option ℕ := NestedId.all.findIdx? (· == id)

/-- What is registered for an internal circuit: a circuit, or a stage mask. -/
inductive Entry (F : Type) where
  | circuit (c : Circ F)
  | mask (m : Except Circuit.Err StageMask)

section
variable {F G : Type} [Field F] [DecidableEq F] [Field G] [DecidableEq G]

/-- One iteration of the registration loops: `register_internal_circuit` or `register_bonding`. -/
def registerEntry (n : ℕ) (b : Builder F) : Entry F → Except Circuit.Err (Builder F)
  | .circuit c => b.registerInternalCircuit n c
  | .mask m => do
    let m ← m
    .ok (b.registerBonding (m.object n))

/-- The registration loops. -/
def registerEntries (n : ℕ) : Builder F → List (Entry F) → Except Circuit.Err (Builder F)
  | b, [] => .ok b
  | b, e :: es => do
    let b ← registerEntry n b e
    registerEntries n b es

/-- The five internal circuits of the native field and the two internal steps, as circuits; the first
hash circuit depends on the size of the registry. The steps of endoscaling for the nested field. -/
structure Circuits (F G : Type) where
  hashes1 : ℕ → Circ F
  hashes2 : Circ F
  innerCollapse : Circ F
  outerCollapse : Circ F
  computeV : Circ F
  rerandomize : Circ F
  trivial : Circ F
  endoscaling : ℕ → Circ G

/-- The body of the loop of `register_all`, crates/ragu_pcd/src/internal/native/mod.rs:319-396. -/
def nativeEntry (n headerSize T log2 : ℕ) (cs : Circuits F G) : NativeId → Entry F
  | .preambleStage => .mask ((preambleStage headerSize).mask n)
  | .innerErrorStage => .mask ((innerErrorStage headerSize T).mask n)
  | .outerErrorStage => .mask ((outerErrorStage headerSize T).mask n)
  | .queryStage => .mask ((queryStage headerSize).mask n)
  | .evalStage => .mask ((evalStage headerSize).mask n)
  | .innerErrorFinalStaged => .mask ((innerErrorStage headerSize T).finalMask n)
  | .outerErrorFinalStaged => .mask ((outerErrorStage headerSize T).finalMask n)
  | .evalFinalStaged => .mask ((evalStage headerSize).finalMask n)
  | .hashes1Circuit => .circuit (cs.hashes1 log2)
  | .hashes2Circuit => .circuit cs.hashes2
  | .innerCollapseCircuit => .circuit cs.innerCollapse
  | .outerCollapseCircuit => .circuit cs.outerCollapse
  | .computeVCircuit => .circuit cs.computeV

/-- The body of the loop of `register_all`, crates/ragu_pcd/src/internal/nested/mod.rs:196-237. -/
def nestedEntry (n : ℕ) (cs : Circuits F G) : NestedId → Entry G
  | .endoscalingStep step => .circuit (cs.endoscaling step)
  | .endoscalarStage => .mask (endoscalarStage.mask n)
  | .pointsStage => .mask (pointsStage.mask n)
  | .pointsFinalStaged => .mask (pointsStage.finalMask n)
  | .bridgePreamble => .mask (bridgePreamble.mask n)
  | .bridgeSPrime => .mask (bridgeSPrime.mask n)
  | .bridgeInnerError => .mask (bridgeInnerError.mask n)
  | .bridgeOuterError => .mask (bridgeOuterError.mask n)
  | .bridgeAB => .mask (bridgeAB.mask n)
  | .bridgeQuery => .mask (bridgeQuery.mask n)
  | .bridgeF => .mask (bridgeF.mask n)
  | .bridgeEval => .mask (bridgeEval.mask n)

/-- An error of the circuit crate as an error of this crate. -/
def liftErr {E : Type} : Except Circuit.Err E → Except Err E
  | .ok a => .ok a
  | .error e => .error (.synth e)

/-- `native::register_all`, crates/ragu_pcd/src/internal/native/mod.rs:312-405. -/
def registerAllNative (n headerSize T log2 : ℕ) (cs : Circuits F G) (b : Builder F) :
    Except Err (Builder F) := do
  let r ← liftErr (registerEntries n b (NativeId.all.map (nativeEntry n headerSize T log2 cs)))
  if r.numInternalCircuits = b.numInternalCircuits + NUM_INTERNAL_CIRCUITS then .ok r
  else .error .panic

/-- `nested::register_all`, crates/ragu_pcd/src/internal/nested/mod.rs:189-246. -/
def registerAllNested (n : ℕ) (cs : Circuits F G) (b : Builder G) : Except Err (Builder G) := do
  let r ← liftErr (registerEntries n b (NestedId.all.map (nestedEntry n cs)))
  if r.numInternalCircuits = b.numInternalCircuits + NESTED_INTERNAL_CIRCUITS then .ok r
  else .error .panic

/-! ### Steps -/

/-- `NUM_INTERNAL_STEPS`, crates/ragu_pcd/src/step/mod.rs:36. -/
def NUM_INTERNAL_STEPS : ℕ := 2

/-- `InternalStepIndex`, crates/ragu_pcd/src/step/mod.rs:20-25. -/
inductive InternalStep where
  | rerandomize
  | trivial
deriving DecidableEq

/-- The discriminant of `InternalStepIndex`. -/
def InternalStep.discr : InternalStep → ℕ
  | .rerandomize => 0
  | .trivial => 1

/-- `Index` and `StepIndex`, crates/ragu_pcd/src/step/mod.rs:27-45. -/
inductive Index where
  | internal (i : InternalStep)
  | application (i : ℕ)
deriving DecidableEq

/-- `Index::circuit_index`, crates/ragu_pcd/src/step/mod.rs:63-83. -/
def Index.circuitIndex (numApplicationSteps : ℕ) : Index → Except Err ℕ
  | .internal i => .ok (NUM_INTERNAL_CIRCUITS + i.discr)
  | .application i =>
    if i ≥ numApplicationSteps then .error .initialization
    else .ok (NUM_INTERNAL_STEPS + NUM_INTERNAL_CIRCUITS + i)

/-- `Index::assert_index`, crates/ragu_pcd/src/step/mod.rs:99-112. -/
def Index.assertIndex (expectId : ℕ) : Index → Except Err Unit
  | .application i => if i ≠ expectId then .error .initialization else .ok ()
  | .internal _ => .error .panic

/-- What registration sees of a `Header` type: its suffix and its `TypeId`. -/
structure HeaderId where
  suffix : Suffix
  typeId : ℕ
deriving DecidableEq

/-- What registration sees of a `Step`: its index, its three headers, and the circuit of its adapter. -/
structure StepDef (F : Type) where
  index : Index
  left : HeaderId
  right : HeaderId
  output : HeaderId
  circ : Circ F

/-- `ApplicationBuilder`, crates/ragu_pcd/src/lib.rs:54-60. The map is an association list. -/
structure AppBuilder (F G : Type) where
  native : Builder F := {}
  nested : Builder G := {}
  numApplicationSteps : ℕ := 0
  headerMap : List (Suffix × ℕ) := []

/-- `prevent_duplicate_suffixes`, crates/ragu_pcd/src/lib.rs:184-199. -/
def preventDuplicate (m : List (Suffix × ℕ)) (h : HeaderId) : Except Err (List (Suffix × ℕ)) :=
  match m.lookup h.suffix with
  | some ty => if ty ≠ h.typeId then .error .initialization else .ok m
  | none => .ok ((h.suffix, h.typeId) :: m)

/-- `register`, crates/ragu_pcd/src/lib.rs:93-106. -/
def AppBuilder.register (n : ℕ) (b : AppBuilder F G) (s : StepDef F) : Except Err (AppBuilder F G) := do
  s.index.assertIndex b.numApplicationSteps
  let m ← preventDuplicate b.headerMap s.output
  let m ← preventDuplicate m s.left
  let m ← preventDuplicate m s.right
  let native ← liftErr (b.native.registerCircuit n s.circ)
  .ok { b with
    native := native
    numApplicationSteps := b.numApplicationSteps + 1
    headerMap := m }

/-- `total_circuit_counts`, crates/ragu_pcd/src/internal/native/mod.rs:56-60. -/
def totalCircuitCounts (numApplicationSteps : ℕ) : ℕ × ℕ :=
  let total := numApplicationSteps + NUM_INTERNAL_STEPS + NUM_INTERNAL_CIRCUITS
  (total, Nat.log 2 (Fft.nextPow2 total))

/-- `Application`, crates/ragu_pcd/src/lib.rs:203-211, without the parameters and the cache. -/
structure Application (F G : Type) where
  nativeRegistry : Registry.Registry F
  nestedRegistry : Registry.Registry G
  numApplicationSteps : ℕ

/-- An error of `RegistryBuilder::finalize` as an error of this crate. -/
def liftFinalize {E : Type} : Except FinalizeErr E → Except Err E
  | .ok a => .ok a
  | .error (.circuitBound l) => .error (.circuitBound l)
  | .error .panic => .error .panic

/-- The two builders `finalize` finalizes, crates/ragu_pcd/src/lib.rs:134-171. -/
def AppBuilder.registries (n headerSize T : ℕ) (cs : Circuits F G) (b : AppBuilder F G) :
    Except Err (Builder F × Builder G) := do
  let counts := totalCircuitCounts b.numApplicationSteps
  let native ← registerAllNative n headerSize T counts.2 cs b.native
  let native ← liftErr (native.registerInternalStep n cs.rerandomize)
  let native ← liftErr (native.registerInternalStep n cs.trivial)
  if native.log2Circuits ≠ counts.2 then .error .panic
  else if native.numCircuits ≠ counts.1 then .error .panic
  else do
    let nested ← registerAllNested n cs b.nested
    .ok (native, nested)

/-- `finalize`, crates/ragu_pcd/src/lib.rs:130-182. -/
def AppBuilder.finalize (E : Env F) (E' : Env G) (n headerSize T : ℕ) (cs : Circuits F G)
    (b : AppBuilder F G) : Except Err (Application F G) := do
  let bs ← b.registries n headerSize T cs
  let native ← liftFinalize (bs.1.finalize E n)
  let nested ← liftFinalize (bs.2.finalize E' n)
  .ok ⟨native, nested, b.numApplicationSteps⟩

end
end Ragu.Pcd

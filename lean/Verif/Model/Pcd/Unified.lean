/-
Model of the unified instance of the internal circuits: `ragu_pcd/src/internal/native/unified.rs`.

The struct fields generated by `define_unified_instance!` are indexed by `SlotId`; a field's gadget
and native type follow from its kind.  `b` is the constant of the nested curve `y² = x³ + b`.
-/
import Verif.Model.Gadget.Point
import Verif.Model.Pcd.Proof
import Mathlib.Logic.Function.Basic

namespace Ragu.Pcd
open Ragu Ragu.Circuit Ragu.Gadget
variable {F : Type} [Field F] [DecidableEq F]

/-- The fields, crates/ragu_pcd/src/internal/native/unified.rs:243-286. -/
inductive SlotId where
  | bridgePreamble | w | bridgeSPrime | y | z | bridgeInnerError | mu | nu | bridgeOuterError
  | muPrime | nuPrime | c | bridgeAb | x | bridgeQuery | alpha | bridgeF | u | bridgeEval
  | preBeta | v
deriving DecidableEq

/-- The fields in order, crates/ragu_pcd/src/internal/native/unified.rs:243-286. -/
def SlotId.all : List SlotId :=
  [.bridgePreamble, .w, .bridgeSPrime, .y, .z, .bridgeInnerError, .mu, .nu, .bridgeOuterError,
    .muPrime, .nuPrime, .c, .bridgeAb, .x, .bridgeQuery, .alpha, .bridgeF, .u, .bridgeEval,
    .preBeta, .v]

/-- `$field_type`, crates/ragu_pcd/src/internal/native/unified.rs:45-62. -/
inductive Kind where
  | point | element

/-- The kind of a field, crates/ragu_pcd/src/internal/native/unified.rs:243-286. -/
def SlotId.kind : SlotId → Kind
  | .bridgePreamble | .bridgeSPrime | .bridgeInnerError | .bridgeOuterError | .bridgeAb
  | .bridgeQuery | .bridgeF | .bridgeEval => .point
  | _ => .element

/-- `unified_output_type!`, crates/ragu_pcd/src/internal/native/unified.rs:45-52. -/
abbrev Kind.Gadget (F : Type) : Kind → Type
  | .point => Point F
  | .element => Element F

/-- `unified_instance_type!`, crates/ragu_pcd/src/internal/native/unified.rs:55-62. -/
abbrev Kind.Native (F : Type) : Kind → Type
  | .point => Option (F × F)
  | .element => F

/-- `$field_type::alloc`, crates/ragu_pcd/src/internal/native/unified.rs:65-71. -/
def Kind.alloc (b : F) : (k : Kind) → k.Native F → Syn F (k.Gadget F)
  | .point, p => Point.alloc b p
  | .element, e => Element.alloc e

/-- The elements a field writes (derived `Write`: a point writes x then y). -/
def Kind.write : (k : Kind) → k.Gadget F → List (Element F)
  | .point, p => [p.x, p.y]
  | .element, e => [e]

/-- `Output`, crates/ragu_pcd/src/internal/native/unified.rs:107-113. -/
abbrev UnifiedOutput (F : Type) := (s : SlotId) → s.kind.Gadget F

/-- Derived `Write` of `Output`: the fields in order. -/
def UnifiedOutput.write (o : UnifiedOutput F) : List (Element F) :=
  SlotId.all.flatMap fun s => s.kind.write (o s)

/-- `Instance`, crates/ragu_pcd/src/internal/native/unified.rs:125-131. -/
structure UnifiedInstance (F : Type) where
  value : (s : SlotId) → s.kind.Native F
  coverage : SlotId → Bool

/-- `Slot`, crates/ragu_pcd/src/internal/native/unified.rs:316-322. -/
structure Slot (F : Type) (k : Kind) where
  value : Option (k.Gadget F)
  inst : k.Native F
  wasSet : Bool

/-- `Slot::new`, crates/ragu_pcd/src/internal/native/unified.rs:326-337. -/
def Slot.new {k : Kind} (inst : k.Native F) : Slot F k := ⟨none, inst, false⟩

/-- `Slot::read`, crates/ragu_pcd/src/internal/native/unified.rs:350-355. -/
def Slot.read (b : F) {k : Kind} (s : Slot F k) : Syn F (k.Gadget F × Slot F k) :=
  if s.value.isSome then .panic
  else do
    let value ← k.alloc b s.inst
    return (value, { s with value := some value })

/-- `Slot::provide`, crates/ragu_pcd/src/internal/native/unified.rs:369-373. -/
def Slot.provide {k : Kind} (s : Slot F k) (value : k.Gadget F) : Syn F (Slot F k) :=
  if s.value.isSome then .panic
  else return { s with
    value := some value
    wasSet := true }

/-- `Slot::receive`, crates/ragu_pcd/src/internal/native/unified.rs:388-394. -/
def Slot.receive (b : F) {k : Kind} (s : Slot F k) : Syn F (k.Gadget F × Slot F k) :=
  if s.value.isSome then .panic
  else do
    let value ← k.alloc b s.inst
    return (value, { s with
      value := some value
      wasSet := true })

/-- `Slot::take`, crates/ragu_pcd/src/internal/native/unified.rs:400-406; the flag is the field
`wasSet`. -/
def Slot.take (b : F) {k : Kind} (s : Slot F k) : Syn F (k.Gadget F) :=
  match s.value with
  | some value => return value
  | none => k.alloc b s.inst

/-- `OutputBuilder`, crates/ragu_pcd/src/internal/native/unified.rs:162-167. -/
structure OutputBuilder (F : Type) where
  slots : (s : SlotId) → Slot F s.kind
  inst : UnifiedInstance F

/-- `OutputBuilder::new`, crates/ragu_pcd/src/internal/native/unified.rs:177-184. -/
def OutputBuilder.new (inst : UnifiedInstance F) : OutputBuilder F :=
  ⟨fun s => Slot.new (inst.value s), inst⟩

/-- `builder.field.read(dr)`. -/
def OutputBuilder.read (b : F) (B : OutputBuilder F) (s : SlotId) :
    Syn F (s.kind.Gadget F × OutputBuilder F) := do
  let (value, slot) ← (B.slots s).read b
  return (value, { B with slots := Function.update B.slots s slot })

/-- `builder.field.provide(value)`. -/
def OutputBuilder.provide (B : OutputBuilder F) (s : SlotId) (value : s.kind.Gadget F) :
    Syn F (OutputBuilder F) := do
  let slot ← (B.slots s).provide value
  return { B with slots := Function.update B.slots s slot }

/-- `builder.field.receive(dr)`. -/
def OutputBuilder.receive (b : F) (B : OutputBuilder F) (s : SlotId) :
    Syn F (s.kind.Gadget F × OutputBuilder F) := do
  let (value, slot) ← (B.slots s).receive b
  return (value, { B with slots := Function.update B.slots s slot })

/-- A value for every field, computed in the order of the fields: the repetition
`$( let $field = …; )+`, crates/ragu_pcd/src/internal/native/unified.rs:197-200. -/
def forEachSlot {β : SlotId → Type} (f : (s : SlotId) → Syn F (β s)) : Syn F ((s : SlotId) → β s) := do
  let r0 ← f .bridgePreamble
  let r1 ← f .w
  let r2 ← f .bridgeSPrime
  let r3 ← f .y
  let r4 ← f .z
  let r5 ← f .bridgeInnerError
  let r6 ← f .mu
  let r7 ← f .nu
  let r8 ← f .bridgeOuterError
  let r9 ← f .muPrime
  let r10 ← f .nuPrime
  let r11 ← f .c
  let r12 ← f .bridgeAb
  let r13 ← f .x
  let r14 ← f .bridgeQuery
  let r15 ← f .alpha
  let r16 ← f .bridgeF
  let r17 ← f .u
  let r18 ← f .bridgeEval
  let r19 ← f .preBeta
  let r20 ← f .v
  return fun
    | .bridgePreamble => r0
    | .w => r1
    | .bridgeSPrime => r2
    | .y => r3
    | .z => r4
    | .bridgeInnerError => r5
    | .mu => r6
    | .nu => r7
    | .bridgeOuterError => r8
    | .muPrime => r9
    | .nuPrime => r10
    | .c => r11
    | .bridgeAb => r12
    | .x => r13
    | .bridgeQuery => r14
    | .alpha => r15
    | .bridgeF => r16
    | .u => r17
    | .bridgeEval => r18
    | .preBeta => r19
    | .v => r20

/-- `Coverage::cover`, crates/ragu_pcd/src/internal/native/unified.rs:224-227. -/
def cover (cov : SlotId → Bool) (s : SlotId) : Option (SlotId → Bool) :=
  if cov s then none else some (Function.update cov s true)

/-- The update of the coverage, crates/ragu_pcd/src/internal/native/unified.rs:201-208. -/
def coverAll (wasSet : SlotId → Bool) (cov : SlotId → Bool) : Option (SlotId → Bool) :=
  SlotId.all.foldlM (fun cov s => if wasSet s then cover cov s else some cov) cov

/-- `finish_no_suffix`, crates/ragu_pcd/src/internal/native/unified.rs:193-210. The coverage is
updated inside a witness closure, so its assertion fails only where witness values exist. -/
def OutputBuilder.finishNoSuffix (b : F) (B : OutputBuilder F) :
    Syn F (UnifiedOutput F × UnifiedInstance F) := do
  let output ← forEachSlot fun s => (B.slots s).take b
  match coverAll (fun s => (B.slots s).wasSet) B.inst.coverage with
  | some cov => return (output, { B.inst with coverage := cov })
  | none => .check (some .panic) (return (output, B.inst))

/-- `finish`, crates/ragu_pcd/src/internal/native/unified.rs:485-495: the elements of the output and
then the zero suffix. -/
def OutputBuilder.finish (b : F) (B : OutputBuilder F) :
    Syn F (List (Element F) × UnifiedInstance F) := do
  let zero := Element.zero
  let (output, inst) ← B.finishNoSuffix b
  return (output.write ++ [zero], inst)

/-- `assert_complete`, crates/ragu_pcd/src/internal/native/unified.rs:139-141 and 230-236. -/
def assertComplete (cov : SlotId → Bool) : Option Unit :=
  if SlotId.all.all cov then some () else none

/-- The values of a proof's unified instance: the fields read by `alloc_from_proof`,
crates/ragu_pcd/src/internal/native/unified.rs:421-448, and written to `Instance` by
crates/ragu_pcd/src/fuse/_11_circuits.rs:32-55. -/
def Proof.unifiedValue {G HC : Type} (p : Proof F G HC) : (s : SlotId) → s.kind.Native F
  | .bridgePreamble => p.preamble.bridge.commitment
  | .w => p.challenges.w
  | .bridgeSPrime => p.sPrime.bridge.commitment
  | .y => p.challenges.y
  | .z => p.challenges.z
  | .bridgeInnerError => p.innerError.bridge.commitment
  | .mu => p.challenges.mu
  | .nu => p.challenges.nu
  | .bridgeOuterError => p.outerError.bridge.commitment
  | .muPrime => p.challenges.muPrime
  | .nuPrime => p.challenges.nuPrime
  | .c => p.ab.native.c
  | .bridgeAb => p.ab.bridge.commitment
  | .x => p.challenges.x
  | .bridgeQuery => p.query.bridge.commitment
  | .alpha => p.challenges.alpha
  | .bridgeF => p.f.bridge.commitment
  | .u => p.challenges.u
  | .bridgeEval => p.eval.bridge.commitment
  | .preBeta => p.challenges.preBeta
  | .v => p.p.native.v

/-- `Output::alloc_from_proof`, crates/ragu_pcd/src/internal/native/unified.rs:417-473. -/
def allocFromProof {G HC : Type} (b : F) (p : Proof F G HC) : Syn F (UnifiedOutput F) :=
  forEachSlot fun s => s.kind.alloc b (p.unifiedValue s)

end Ragu.Pcd

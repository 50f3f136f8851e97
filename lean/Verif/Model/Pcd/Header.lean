/-
Model of headers and steps: `ragu_pcd/src/header.rs`, `internal/suffix.rs`, `step/encoder.rs`,
`step/internal/{padded,adapter,rerandomize,trivial}.rs`, and the public inputs computed from headers
in `internal/native/stages/preamble.rs`.
-/
import Verif.Model.Gadget.Horner
import Verif.Model.Pcd.FixedVec

namespace Ragu.Pcd
open Ragu Ragu.Gadget
variable {F : Type} [Field F] [DecidableEq F]

/-! ### Suffixes -/

/-- `NUM_INTERNAL_SUFFIXES`, crates/ragu_pcd/src/header.rs:19. -/
def NUM_INTERNAL_SUFFIXES : ℕ := 2

/-- `HeaderSuffix` and `Suffix`, crates/ragu_pcd/src/header.rs:23-37. The payloads are `usize`
values, below `2^64`. -/
inductive Suffix where
  | internal (i : ℕ)
  | application (i : ℕ)
deriving DecidableEq

/-- `Suffix::new`, crates/ragu_pcd/src/header.rs:41-45. -/
def Suffix.new (value : ℕ) : Suffix := .application value

/-- `Suffix::internal`, crates/ragu_pcd/src/header.rs:58-67; `none` is the failed assertion. -/
def Suffix.mkInternal (value : ℕ) : Option Suffix :=
  if value < NUM_INTERNAL_SUFFIXES then some (.internal value) else none

/-- `Suffix::get`, crates/ragu_pcd/src/header.rs:49-54, in a build without overflow checks. -/
def Suffix.get : Suffix → ℕ
  | .internal i => i
  | .application i => (i + NUM_INTERNAL_SUFFIXES) % 2 ^ 64

/-! ### Headers and their encoding -/

/-- A `Header` implementation, crates/ragu_pcd/src/header.rs:84-100: its suffix, the identity of its
type, the gadget code of `encode`, and the elements its output writes, in order. The element an
output's `Write` implementation writes may be a linear combination of wires, so it is a function of
the output; `Write` implementations that create gates are not modelled. -/
structure Header (F Data Out : Type) where
  suffix : Suffix
  typeId : ℕ
  encode : Data → Syn F Out
  write : Out → List (Element F)

/-- `impl Header for ()`, crates/ragu_pcd/src/header.rs:103-115. -/
def Header.unit : Header F Unit Unit := ⟨.internal 1, 0, fun _ => .ret (), fun _ => []⟩

/-- `CountingBuffer::write`, crates/ragu_pcd/src/step/internal/padded.rs:103-117, on the count and
what has been written to the inner buffer. `N - 1` underflows for `N = 0`. -/
def countingWrite {E : Type} (N : ℕ) (s : ℕ × List E) (value : E) : Except Err (ℕ × List E) :=
  if N = 0 then .error .panic
  else if s.1 ≥ N - 1 then .error .malformedEncoding
  else .ok (s.1 + 1, s.2 ++ [value])

/-- Writing a list of elements to a counting buffer. -/
def countingWriteAll {E : Type} (N : ℕ) : ℕ × List E → List E → Except Err (ℕ × List E)
  | s, [] => .ok s
  | s, v :: vs => do
    let s' ← countingWrite N s v
    countingWriteAll N s' vs

/-- The padding loop, crates/ragu_pcd/src/step/internal/padded.rs:85-87. -/
def padLoop {E : Type} (N : ℕ) (zero : E) : ℕ → ℕ × List E → Except Err (ℕ × List E)
  | 0, s => .ok s
  | fuel + 1, s =>
    if s.1 < N - 1 then do
      let s' ← countingWrite N s zero
      padLoop N zero fuel s'
    else .ok s

/-- `write_gadget` of `PaddedContent`, crates/ragu_pcd/src/step/internal/padded.rs:65-91, to an
empty buffer. The loop runs at most `N` times. -/
def paddedContent {E : Type} (N : ℕ) (zero : E) (vs : List E) : Except Err (List E) := do
  let s ← countingWriteAll N (0, []) vs
  if N = 0 then .error .panic
  else
    let s ← padLoop N zero N s
    .ok s.2

/-- `for_header` followed by writing the result, crates/ragu_pcd/src/step/internal/padded.rs:36-50 and
crates/ragu_pcd/src/internal/suffix.rs:29-38: the padded content and then the suffix. -/
def padded (N : ℕ) (suffix : Suffix) (vs : List (Element F)) : Except Err (List (Element F)) := do
  let content ← paddedContent N Element.zero vs
  .ok (content ++ [Element.constant (suffix.get : F)])

/-- `EncodedInner`, crates/ragu_pcd/src/step/encoder.rs:46-56. -/
inductive Encoded (F Out : Type) (N : ℕ) where
  | gadget (g : Out)
  | uniform (es : FixedVec (Element F) N)

/-- Running gadget code on a wireless emulator (crates/ragu_core/src/drivers/emulator.rs): gates and
constraints are not checked, wires do not exist, and only the witness values matter; a `try_just`
whose closure fails is an error. -/
def emulate {α : Type} : Syn F α → Except Err α
  | .ret a => .ok a
  | .gate w k => emulate (k w.1 w.2.1 w.2.2.1 w.2.2.2)
  | .alloc w k => emulate (k w)
  | .enforce _ k => emulate k
  | .check (some e) _ => .error (.synth e)
  | .check none k => emulate k
  | .panic => .error .panic

/-- `Pipe::write` for each element, crates/ragu_primitives/src/io/pipe.rs:32-35: allocate its value on
the destination driver. -/
def pipeAll : List (Element F) → Syn F (List (Element F))
  | [] => return []
  | e :: es => do
    let a ← Element.alloc e.value
    let r ← pipeAll es
    return a :: r

variable {Data Out : Type} {N : ℕ}

/-- `Encoded::new`, crates/ragu_pcd/src/step/encoder.rs:111-113. -/
def Encoded.new (H : Header F Data Out) (data : Data) : Syn F (Encoded F Out N) := do
  let g ← H.encode data
  return .gadget g

/-- `Encoded::new_uniform`, crates/ragu_pcd/src/step/encoder.rs:124-133. -/
def Encoded.newUniform (H : Header F Data Out) (data : Data) :
    Syn F (Except Err (Encoded F Out N)) :=
  match (do let g ← emulate (H.encode data)
            padded N H.suffix (H.write g) : Except Err (List (Element F))) with
  | .error e => return .error e
  | .ok vs => do
    let raw ← pipeAll vs
    return (do let v ← FixedVec.tryFrom N raw
               .ok (.uniform v))

/-- `Encoded::write`, crates/ragu_pcd/src/step/encoder.rs:95-105: the elements appended to the
buffer. -/
def Encoded.write (H : Header F Data Out) : Encoded F Out N → Except Err (List (Element F))
  | .gadget g => padded N H.suffix (H.write g)
  | .uniform es =>
    match es.intoInner with
    | some v => .ok v
    | none => .error .panic

/-! ### The step adapter -/

/-- What `Adapter::witness` returns: the output elements, and the left and right header values and
output data of `Aux`. -/
structure AdapterOut (F D : Type) where
  output : List (Element F)
  left : List F
  right : List F
  data : D

/-- `Adapter::witness` after the step's own synthesis has returned its three encoded headers and its
output data, crates/ragu_pcd/src/step/internal/adapter.rs:86-109. -/
def adapterFinish {D1 O1 D2 O2 D3 O3 : Type} (HL : Header F D1 O1) (HR : Header F D2 O2)
    (HO : Header F D3 O3) (l : Encoded F O1 N) (r : Encoded F O2 N) (o : Encoded F O3 N) (data : D3) :
    Except Err (AdapterOut F D3) := do
  let l ← l.write HL
  let r ← r.write HR
  let o ← o.write HO
  let elements := l ++ r ++ o
  let leftHeader ← FixedVec.collectFixed N ((elements.take N).map (·.value))
  let rightHeader ← FixedVec.collectFixed N (((elements.drop N).take N).map (·.value))
  let out ← FixedVec.tryFrom (N * 3) elements
  .ok ⟨out.v, leftHeader.v, rightHeader.v, data⟩

/-- `Rerandomize::witness` in the adapter, crates/ragu_pcd/src/step/internal/rerandomize.rs:44-75. -/
def rerandomize (N : ℕ) (H : Header F Data Out) (data : Data) :
    Syn F (Except Err (AdapterOut F Data)) := do
  let l ← Encoded.newUniform (N := N) H data
  match l with
  | .error e => return .error e
  | .ok l => do
    let r ← Encoded.new (N := N) Header.unit ()
    return adapterFinish H Header.unit H l r l data

/-- `Trivial::witness` in the adapter, crates/ragu_pcd/src/step/internal/trivial.rs:35-55. -/
def trivialStep (N : ℕ) : Syn F (Except Err (AdapterOut F Unit)) := do
  let l ← Encoded.new (N := N) (Header.unit (F := F)) ()
  let r ← Encoded.new (N := N) (Header.unit (F := F)) ()
  return adapterFinish Header.unit Header.unit Header.unit l r (.gadget () : Encoded F Unit N) ()

/-! ### Public inputs -/

/-- `ProofInputs`, crates/ragu_pcd/src/internal/native/stages/preamble.rs:78-92, with the elements
each part writes. -/
structure ProofInputs (F : Type) where
  left : List (Element F)
  right : List (Element F)
  output : List (Element F)
  circuitId : Element F
  unified : List (Element F)

/-- `unified_ky_values`, crates/ragu_pcd/src/internal/native/stages/preamble.rs:107-128. -/
def ProofInputs.unifiedKyValues (p : ProofInputs F) (y : Element F) :
    Syn F (Element F × Element F) := do
  let ky ← Horner.writeAll y none p.unified
  let a ← Horner.write y ky Element.zero
  let a ← Horner.finishKy y a
  let b ← Horner.writeAll y ky p.left
  let b ← Horner.writeAll y b p.right
  let b ← Horner.write y b Element.zero
  let b ← Horner.finishKy y b
  return (a, b)

/-- `application_ky`, crates/ragu_pcd/src/internal/native/stages/preamble.rs:133-139. -/
def ProofInputs.applicationKy (p : ProofInputs F) (y : Element F) : Syn F (Element F) := do
  let ky ← Horner.writeAll y none p.left
  let ky ← Horner.writeAll y ky p.right
  let ky ← Horner.writeAll y ky p.output
  Horner.finishKy y ky

/-- `is_trivial`, crates/ragu_pcd/src/internal/native/stages/preamble.rs:142-145; indexing out of
bounds panics. -/
def ProofInputs.isTrivial (N : ℕ) (p : ProofInputs F) : Syn F (Boolean F) :=
  match p.output[N - 1]? with
  | none => .panic
  | some suffix => suffix.isEqual Element.one

/-- `is_base_case`, crates/ragu_pcd/src/internal/native/stages/preamble.rs:241-245. -/
def isBaseCase (N : ℕ) (left right : ProofInputs F) : Syn F (Boolean F) := do
  let l ← left.isTrivial N
  let r ← right.isTrivial N
  l.and r

end Ragu.Pcd

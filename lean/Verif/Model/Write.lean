/-
Writing gadgets to buffers: `Write::write_gadget` of the gadgets that consist of other gadgets, the
buffers, and the pipe between two drivers.
-/
import Verif.Model.Driver

namespace Ragu.Write
open Ragu Ragu.Circuit

/-- `Buffer::write`, crates/ragu_primitives/src/io.rs:50-53. The state is that of the driver and of the
buffer; it may change also if the call fails. -/
abbrev Buf (E σ : Type) := E → σ → σ × Except Err Unit

mutual
/-- Gadgets that implement `Write`, over elements `E`. `element` is an `Element`
(crates/ragu_primitives/src/element.rs:364-372), or a `Boolean`, which writes its element
(crates/ragu_primitives/src/boolean.rs:191-199). `array` is an array or a `FixedVec`
(crates/ragu_primitives/src/vec.rs:169-180), or the record of the `rx` values in their order
(crates/ragu_pcd/src/internal/native/stages/query.rs:181-192). `withSuffix` is
crates/ragu_pcd/src/internal/suffix.rs:14-27 and `padded` is `PaddedContent`
(crates/ragu_pcd/src/step/internal/padded.rs:52-63) with its `HEADER_SIZE` and the element that
`Element::zero` returns. -/
inductive Gadget (E : Type) where
  | unit
  | element (e : E)
  | array (l : List (Gadget E))
  | pair (a b : Gadget E)
  | box (g : Gadget E)
  | struct (fs : List (Field E))
  | withSuffix (g : Gadget E) (suffix : E)
  | padded (size : ℕ) (zero : E) (g : Gadget E)
/-- A field of a struct that derives `Write`, with whether it is annotated with `skip` and with
`phantom`. -/
inductive Field (E : Type) where
  | mk (skip phantom : Bool) (g : Gadget E)
end

variable {E σ : Type}

/-- `CountingBuffer::write`, crates/ragu_pcd/src/step/internal/padded.rs:103-117. `HEADER_SIZE - 1`
underflows for 0. -/
def counting (size : ℕ) (buf : Buf E σ) : Buf E (σ × ℕ) := fun e s =>
  if size = 0 then (s, .error .panic)
  else if s.2 ≥ size - 1 then (s, .error .malformedEncoding)
  else match buf e s.1 with
    | (t, .error x) => ((t, s.2), .error x)
    | (t, .ok ()) => ((t, s.2 + 1), .ok ())

/-- The padding loop, crates/ragu_pcd/src/step/internal/padded.rs:85-87; it takes `fuel` to bound the
number of rounds. -/
def padLoop (size : ℕ) (zero : E) (buf : Buf E σ) : ℕ → σ × ℕ → (σ × ℕ) × Except Err Unit
  | 0, s => (s, .ok ())
  | fuel + 1, s =>
    if s.2 < size - 1 then
      match counting size buf zero s with
      | (s, .error x) => (s, .error x)
      | (s, .ok ()) => padLoop size zero buf fuel s
    else (s, .ok ())

mutual
/-- `Write::write_gadget`: crates/ragu_primitives/src/foreign.rs:13-61 for units, arrays, pairs and boxes,
crates/ragu_macros/src/derive/gadgetwrite.rs:115-138 for structs, crates/ragu_pcd/src/internal/suffix.rs:29-38
and crates/ragu_pcd/src/step/internal/padded.rs:65-91. -/
def Gadget.write : Gadget E → {σ : Type} → Buf E σ → σ → σ × Except Err Unit
  | .unit, _, _, s => (s, .ok ())
  | .element e, _, buf, s => buf e s
  | .array l, _, buf, s => writeList l buf s
  | .pair a b, _, buf, s =>
    match a.write buf s with
    | (s, .error x) => (s, .error x)
    | (s, .ok ()) => b.write buf s
  | .box g, _, buf, s => g.write buf s
  | .struct fs, _, buf, s => writeFields fs buf s
  | .withSuffix g e, _, buf, s =>
    match g.write buf s with
    | (s, .error x) => (s, .error x)
    | (s, .ok ()) => buf e s
  | .padded size zero g, _, buf, s =>
    match g.write (counting size buf) (s, 0) with
    | (s, .error x) => (s.1, .error x)
    | (s, .ok ()) =>
      if size = 0 then (s.1, .error .panic)
      else ((padLoop size zero buf size s).1.1, (padLoop size zero buf size s).2)
/-- The loop over the items, crates/ragu_primitives/src/foreign.rs:29-31 and
crates/ragu_primitives/src/vec.rs:175-177. -/
def writeList : List (Gadget E) → {σ : Type} → Buf E σ → σ → σ × Except Err Unit
  | [], _, _, s => (s, .ok ())
  | g :: l, _, buf, s =>
    match g.write buf s with
    | (s, .error x) => (s, .error x)
    | (s, .ok ()) => writeList l buf s
/-- The derived calls, crates/ragu_macros/src/derive/gadgetwrite.rs:68-82, 115-120: none for a field that is
annotated with `skip` or `phantom`. -/
def writeFields : List (Field E) → {σ : Type} → Buf E σ → σ → σ × Except Err Unit
  | [], _, _, s => (s, .ok ())
  | .mk skip phantom g :: l, _, buf, s =>
    if skip || phantom then writeFields l buf s
    else match g.write buf s with
      | (s, .error x) => (s, .error x)
      | (s, .ok ()) => writeFields l buf s
end

/-- The buffer `Vec<Element>`, crates/ragu_primitives/src/element.rs:375-380. -/
def vecBuf : Buf E (List E) := fun e l => (l ++ [e], .ok ())

/-- The buffer `()`, crates/ragu_primitives/src/element.rs:383-387. -/
def unitBuf : Buf E Unit := fun _ s => (s, .ok ())

/-- The buffer `usize`, crates/ragu_primitives/src/element.rs:390-395; without overflow. -/
def countBuf : Buf E ℕ := fun _ n => (n + 1, .ok ())

/-- `Pipe::write`, crates/ragu_primitives/src/io/pipe.rs:29-36. `alloc` is `Element::alloc` on the
destination driver, whose state is `δ`; `value` is the value of a source element. The source driver is not
used. -/
def pipe {F E' δ β : Type} (value : E → F) (alloc : F → δ → δ × Except Err E') (buf : Buf E' (δ × β)) :
    Buf E (δ × β) := fun e s =>
  match alloc (value e) s.1 with
  | (d, .error x) => ((d, s.2), .error x)
  | (d, .ok e') => buf e' (d, s.2)

/-- The buffer `Vec<Element>` together with a driver, which it does not use. -/
def vecBufOn {δ : Type} : Buf E (δ × List E) := fun e s => ((s.1, s.2 ++ [e]), .ok ())

end Ragu.Write

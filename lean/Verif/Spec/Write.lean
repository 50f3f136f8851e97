/-
What a gadget writes, as a list, and what a buffer does with a list.
-/
import Verif.Model.Write

namespace Ragu.Write
open Ragu Ragu.Circuit

variable {E σ : Type}

/-- Give the elements to the buffer one after the other, until it fails; if it does not, end with the error
`x`, if there is one. -/
def feed (buf : Buf E σ) (x : Option Err) : List E → σ → σ × Except Err Unit
  | [], s => (s, match x with | none => .ok () | some e => .error e)
  | e :: es, s =>
    match (buf e s).2 with
    | .error y => ((buf e s).1, .error y)
    | .ok () => feed buf x es (buf e s).1

mutual
/-- The elements of a gadget, from left to right, without the fields that are not written; padded content is
filled up to one less than its size. -/
def Gadget.elems : Gadget E → List E
  | .unit => []
  | .element e => [e]
  | .array l => elemsList l
  | .pair a b => a.elems ++ b.elems
  | .box g => g.elems
  | .struct fs => elemsFields fs
  | .withSuffix g e => g.elems ++ [e]
  | .padded size zero g => g.elems ++ List.replicate (size - 1 - g.elems.length) zero
def elemsList : List (Gadget E) → List E
  | [] => []
  | g :: l => g.elems ++ elemsList l
def elemsFields : List (Field E) → List E
  | [] => []
  | .mk skip phantom g :: l => (if skip || phantom then [] else g.elems) ++ elemsFields l
end

mutual
/-- `P` holds of the size and of the content of all padded content that is written. -/
def Gadget.All (P : ℕ → Gadget E → Prop) : Gadget E → Prop
  | .unit => True
  | .element _ => True
  | .array l => AllList P l
  | .pair a b => a.All P ∧ b.All P
  | .box g => g.All P
  | .struct fs => AllFields P fs
  | .withSuffix g _ => g.All P
  | .padded size _ g => P size g ∧ g.All P
def AllList (P : ℕ → Gadget E → Prop) : List (Gadget E) → Prop
  | [] => True
  | g :: l => g.All P ∧ AllList P l
def AllFields (P : ℕ → Gadget E → Prop) : List (Field E) → Prop
  | [] => True
  | .mk skip phantom g :: l => (skip = false → phantom = false → g.All P) ∧ AllFields P l
end

/-- All padded content that is written fits, and leaves room for the suffix. -/
def Gadget.Fits (g : Gadget E) : Prop := g.All fun size c => c.elems.length + 1 ≤ size

/-- No padded content that is written has size 0. -/
def Gadget.Sized (g : Gadget E) : Prop := g.All fun size _ => size ≠ 0

mutual
/-- The gadgets have the same kind; their elements and the values in fields that are not written can
differ. -/
def Gadget.SameKind : Gadget E → Gadget E → Prop
  | .unit, .unit => True
  | .element _, .element _ => True
  | .array l, .array l' => SameKindList l l'
  | .pair a b, .pair a' b' => a.SameKind a' ∧ b.SameKind b'
  | .box g, .box g' => g.SameKind g'
  | .struct fs, .struct fs' => SameKindFields fs fs'
  | .withSuffix g _, .withSuffix g' _ => g.SameKind g'
  | .padded size zero g, .padded size' zero' g' => size = size' ∧ zero = zero' ∧ g.SameKind g'
  | _, _ => False
def SameKindList : List (Gadget E) → List (Gadget E) → Prop
  | [], [] => True
  | g :: l, g' :: l' => g.SameKind g' ∧ SameKindList l l'
  | _, _ => False
def SameKindFields : List (Field E) → List (Field E) → Prop
  | [], [] => True
  | .mk skip phantom g :: l, .mk skip' phantom' g' :: l' =>
    skip = skip' ∧ phantom = phantom' ∧ (skip = false → phantom = false → g.SameKind g') ∧
      SameKindFields l l'
  | _, _ => False
end

mutual
/-- The gadgets are equal up to the values in fields that are not written. -/
def Gadget.Agrees : Gadget E → Gadget E → Prop
  | .unit, .unit => True
  | .element e, .element e' => e = e'
  | .array l, .array l' => AgreesList l l'
  | .pair a b, .pair a' b' => a.Agrees a' ∧ b.Agrees b'
  | .box g, .box g' => g.Agrees g'
  | .struct fs, .struct fs' => AgreesFields fs fs'
  | .withSuffix g e, .withSuffix g' e' => g.Agrees g' ∧ e = e'
  | .padded size zero g, .padded size' zero' g' => size = size' ∧ zero = zero' ∧ g.Agrees g'
  | _, _ => False
def AgreesList : List (Gadget E) → List (Gadget E) → Prop
  | [], [] => True
  | g :: l, g' :: l' => g.Agrees g' ∧ AgreesList l l'
  | _, _ => False
def AgreesFields : List (Field E) → List (Field E) → Prop
  | [], [] => True
  | .mk skip phantom g :: l, .mk skip' phantom' g' :: l' =>
    skip = skip' ∧ phantom = phantom' ∧ (skip = false → phantom = false → g.Agrees g') ∧
      AgreesFields l l'
  | _, _ => False
end

end Ragu.Write

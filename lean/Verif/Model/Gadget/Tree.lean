/-
Gadgets as data: wires and witness values in a fixed arrangement, and what all gadgets can do: be mapped
to another driver, be constrained to be equal, be counted, be demoted. Also what the derive macros
generate.
-/
import Verif.Model.Gadget.Element

namespace Ragu.Gadget
open Ragu Ragu.Circuit

/-- A gadget over a driver with wires `W`, with witness values in `V`
(crates/ragu_core/src/gadgets.rs:120-172). The arrangement of the fields of a struct is `pair`s that end
in `unit`; see `Tree.fields`. A witness value is `none` for a driver without witnesses
(crates/ragu_core/src/maybe/empty.rs:1-25). `demoted` is a field whose type is `Demoted`
(crates/ragu_primitives/src/promotion.rs:106-118). All values have one type here. -/
inductive Tree (W V : Type) where
  | unit
  | phantom
  | wire (w : W)
  | value (v : Option V)
  | pair (a b : Tree W V)
  | demoted (t : Tree W V)
deriving DecidableEq

/-- The fields of a struct, in the order in which they are declared; also arrays
(crates/ragu_core/src/gadgets/foreign.rs:52-64) and `FixedVec`
(crates/ragu_primitives/src/vec.rs:233-238). A `Box` is its content
(crates/ragu_core/src/gadgets/foreign.rs:145-157). -/
def Tree.fields {W V : Type} : List (Tree W V) → Tree W V
  | [] => .unit
  | t :: l => .pair t (fields l)

/-- `WireMap::convert_wire`, crates/ragu_core/src/convert.rs:51-68: it may fail, and it changes the
state of the map in both cases. -/
abbrev WireMap (S W W' : Type) := W → S → S × Except Err W'

variable {S W W' W'' V : Type}

/-- `D::just(|| this.field.as_ref().take().clone())`, crates/ragu_macros/src/derive/gadget.rs:230-238;
`has` says whether the driver has witnesses. Taking the value of a driver that has none panics
(crates/ragu_core/src/maybe/empty.rs:28-34; at compile time). -/
def takeValue (has : Bool) (v : Option V) : Except Err (Option V) :=
  if has then match v with
    | some x => .ok (some x)
    | none => .error .panic
  else .ok none

/-- `GadgetKind::map_gadget`: crates/ragu_macros/src/derive/gadget.rs:228-248, 258-270 for structs,
crates/ragu_core/src/gadgets/foreign.rs:27-36, 66-83, 118-127, 159-168 for units, arrays, pairs and
boxes, crates/ragu_primitives/src/vec.rs:240-253 for `FixedVec`, and
crates/ragu_primitives/src/promotion.rs:84-103, 166-177 for demoted gadgets. `has` says whether the
destination has witnesses. -/
def Tree.mapGadget (wm : WireMap S W W') : Bool → Tree W V → S → S × Except Err (Tree W' V)
  | _, unit, s => (s, .ok .unit)
  | _, phantom, s => (s, .ok .phantom)
  | _, wire w, s =>
    match wm w s with
    | (s, .ok w') => (s, .ok (.wire w'))
    | (s, .error e) => (s, .error e)
  | has, value v, s =>
    match takeValue has v with
    | .ok v' => (s, .ok (.value v'))
    | .error e => (s, .error e)
  | has, pair a b, s =>
    match mapGadget wm has a s with
    | (s, .error e) => (s, .error e)
    | (s, .ok a') =>
      match mapGadget wm has b s with
      | (s, .error e) => (s, .error e)
      | (s, .ok b') => (s, .ok (.pair a' b'))
  | _, demoted t, s =>
    match mapGadget wm false t s with
    | (s, .ok t') => (s, .ok (.demoted t'))
    | (s, .error e) => (s, .error e)

/-- `CloneWires`, crates/ragu_core/src/convert.rs:98-120. -/
def cloneWires : WireMap Unit W W := fun w s => (s, .ok w)

/-- `StripWires`, crates/ragu_core/src/convert.rs:131-146. -/
def stripWires : WireMap Unit W Unit := fun _ s => (s, .ok ())

/-- `WireMap::remap`, crates/ragu_core/src/convert.rs:71-89, for maps without state. -/
def Tree.remap (wm : WireMap Unit W W') (has : Bool) (t : Tree W V) : Except Err (Tree W' V) :=
  (t.mapGadget wm has ()).2

/-- `Gadget::num_wires`, crates/ragu_core/src/gadgets.rs:150-172. -/
def Tree.numWires (t : Tree W V) : Except Err ℕ :=
  match t.mapGadget (fun _ (count : ℕ) => (count + 1, .ok ())) false 0 with
  | (count, .ok _) => .ok count
  | (_, .error e) => .error e

/-- `Emulator::wires`, crates/ragu_core/src/drivers/emulator.rs:173-194. -/
def Tree.extract (t : Tree W V) : Except Err (List W) :=
  match t.mapGadget (fun w (ws : List W) => (ws ++ [w], .ok ())) false [] with
  | (ws, .ok _) => .ok ws
  | (_, .error e) => .error e

/-- The derived `Clone`, crates/ragu_macros/src/derive/gadget.rs:158-181; `has` says whether the driver
has witnesses. -/
def Tree.clone : Bool → Tree W V → Except Err (Tree W V)
  | _, unit => .ok .unit
  | _, phantom => .ok .phantom
  | _, wire w => .ok (.wire w)
  | has, value v => do return .value (← takeValue has v)
  | has, pair a b => do return .pair (← clone has a) (← clone has b)
  | _, demoted t => do return .demoted (← clone false t)

/-- `Demoted::new`, crates/ragu_primitives/src/promotion.rs:129-134. -/
def Tree.demote (t : Tree W V) : Except Err (Tree W V) := do
  return .demoted (← t.remap cloneWires false)

/-- `Boolean` as a gadget, crates/ragu_primitives/src/boolean.rs:27-37. -/
def boolTree (wire : W) (value : Option V) : Tree W V := .fields [.wire wire, .value value]

/-- `Promotion::promote` for `Boolean`, crates/ragu_primitives/src/boolean.rs:201-213. -/
def promoteBool (d : Tree W V) (witness : Option V) : Option (Tree W V) :=
  match d with
  | .demoted (.pair (.wire w) (.pair (.value _) .unit)) => some (boolTree w witness)
  | _ => none

section
variable {F : Type} [Field F] [DecidableEq F]

/-- `GadgetKind::enforce_equal_gadget`: crates/ragu_macros/src/derive/gadget.rs:183-191, 272-279,
crates/ragu_core/src/gadgets/foreign.rs:38-48, 85-98, 129-141, 170-180,
crates/ragu_primitives/src/vec.rs:255-268 and crates/ragu_primitives/src/promotion.rs:179-189. Gadgets of
one kind have one arrangement; the last case does not occur. -/
def Tree.enforceEqual : Tree F V → Tree F V → Syn F Unit
  | wire v, wire w => Gadget.enforceEqual v w
  | pair a b, pair c d => do
    enforceEqual a c
    enforceEqual b d
  | demoted a, demoted b => enforceEqual a b
  | _, _ => .ret ()

end

/-! ### The derive macros -/

/-- The attributes of a field that the macros look at, crates/ragu_macros/src/helpers.rs:8-19. -/
inductive Attr where
  | value | wire | gadget | phantom | skip
deriving DecidableEq

/-- The kinds of fields of the `Gadget` macro, crates/ragu_macros/src/derive/gadget.rs:94-99. -/
inductive FieldType where
  | value | wire | gadget | phantom
deriving DecidableEq

/-- The kind of a field from its attributes, crates/ragu_macros/src/derive/gadget.rs:115-146; `none` is
an error of the macro. -/
def fieldType (attrs : List Attr) : Option FieldType :=
  match attrs.contains .value, attrs.contains .wire, attrs.contains .gadget, attrs.contains .phantom with
  | true, false, false, false => some .value
  | false, true, false, false => some .wire
  | false, false, true, false => some .gadget
  | false, false, false, true => some .phantom
  | false, false, false, false => some .gadget
  | _, _, _, _ => none

/-- The initializer of one field in the derived `map_gadget`,
crates/ragu_macros/src/derive/gadget.rs:228-248. The content of a field that is not annotated as what it
is does not compile: `none`. -/
def mapField (wm : WireMap S W W') (has : Bool) :
    FieldType → Tree W V → S → Option (S × Except Err (Tree W' V))
  | .value, .value v, s => some (s, (takeValue has v).map .value)
  | .wire, .wire w, s => some ((wm w s).1, (wm w s).2.map .wire)
  | .phantom, .phantom, s => some (s, .ok .phantom)
  | .gadget, .unit, s => some (s, .ok .unit)
  | .gadget, .pair a b, s => some ((Tree.pair a b).mapGadget wm has s)
  | .gadget, .demoted t, s => some ((Tree.demoted t).mapGadget wm has s)
  | _, _, _ => none

/-- The derived `map_gadget` of a struct with these fields,
crates/ragu_macros/src/derive/gadget.rs:258-270: the initializers run in the order of the fields. -/
def mapFields (wm : WireMap S W W') (has : Bool) :
    List (List Attr × Tree W V) → S → Option (S × Except Err (Tree W' V))
  | [], s => some (s, .ok .unit)
  | (attrs, t) :: fs, s => do
    let ty ← fieldType attrs
    match ← mapField wm has ty t s with
    | (s, .error e) => some (s, .error e)
    | (s, .ok t') =>
      match ← mapFields wm has fs s with
      | (s, .error e) => some (s, .error e)
      | (s, .ok r) => some (s, .ok (.pair t' r))

/-- The derived `write_gadget`, crates/ragu_macros/src/derive/gadgetwrite.rs:68-82, 115-120: what a field
writes, in the order of the fields, unless it is annotated with `skip` or `phantom`. -/
def writeFields {E : Type} (fs : List (List Attr × List E)) : List E :=
  fs.flatMap fun f => if f.1.contains .skip || f.1.contains .phantom then [] else f.2

/-- The derived `enforce_consistent`, crates/ragu_macros/src/derive/consistent.rs:61-76, 87-93, 101-104;
a field comes with its own `enforce_consistent`. -/
def consistentFields {F : Type} : List (List Attr × Syn F Unit) → Syn F Unit
  | [] => .ret ()
  | (attrs, p) :: fs =>
    if attrs.contains .gadget ||
        (!attrs.contains .value && !attrs.contains .wire && !attrs.contains .phantom) then do
      p
      consistentFields fs
    else consistentFields fs

end Ragu.Gadget

/-
Model of `ragu_macros`: the types that `Kind!` and the derive macros write. Only the parts of the syntax of
Rust types that the macros treat in different ways are kept apart.
-/
import Mathlib.Data.List.Basic

namespace Ragu.Macros

/-! ### Types as syntax -/

mutual
/-- `syn::Type`. -/
inductive Ty where
  /-- `<q as ..>::segs`, or `segs` if there is no `q`; how many of the segments belong to the trait is left
  out. -/
  | path (q : Option Ty) (segs : List Seg)
  | tuple (ts : List Ty)
  /-- `_` -/
  | infer
  /-- `[t; n]` -/
  | array (t : Ty) (n : String)
  /-- `&'l t` -/
  | reference (l : String) (t : Ty)
  /-- All other types, as text. -/
  | other (text : String)
/-- `syn::PathSegment`. -/
inductive Seg where
  | mk (ident : String) (args : PArgs)
/-- `syn::PathArguments`. -/
inductive PArgs where
  | none
  /-- `<..>` -/
  | angle (as : List Arg)
  /-- `(..) -> ..`, the types in the order they are written -/
  | paren (ts : List Ty)
/-- `syn::GenericArgument`. -/
inductive Arg where
  | type (t : Ty)
  | lifetime (l : String)
  /-- `Name = t` -/
  | assoc (name : String) (t : Ty)
  /-- `Name: bounds` -/
  | constraint (name : String) (bs : List Bound)
  /-- constants, as text -/
  | const (text : String)
/-- `syn::TypeParamBound`. -/
inductive Bound where
  | trait (segs : List Seg)
  | lifetime (l : String)
end

/-- An identifier as a type. -/
def Ty.ident (x : String) : Ty := .path none [.mk x .none]

/-- `::core::marker::PhantomData<t>`. -/
def phantom (t : Ty) : Ty :=
  .path none [.mk "core" .none, .mk "marker" .none, .mk "PhantomData" (.angle [.type t])]

/-! ### Substitution -/

/-- `Strategy`, crates/ragu_macros/src/substitution.rs:6-16: `some` replaces and stops (`true`). -/
structure Strategy where
  tyPath : Option Ty → List Seg → Option Ty := fun _ _ => none
  ty : Ty → Option Ty := fun _ => none
  lt : String → Option String := fun _ => none

mutual
/-- `substitute` of types, crates/ragu_macros/src/substitution.rs:50-84, with that of paths. -/
def substTy (S : Strategy) : Ty → Ty
  | .path q segs => (S.ty (.path q segs)).getD ((S.tyPath q segs).getD (.path q (substSegs S segs)))
  | .tuple ts => (S.ty (.tuple ts)).getD (.tuple (substTys S ts))
  | .infer => (S.ty .infer).getD .infer
  | .array t n => (S.ty (.array t n)).getD (.array t n)
  | .reference l t => (S.ty (.reference l t)).getD (.reference l t)
  | .other x => (S.ty (.other x)).getD (.other x)
/-- The loop over the elements of a tuple, crates/ragu_macros/src/substitution.rs:76-80. -/
def substTys (S : Strategy) : List Ty → List Ty
  | [] => []
  | t :: ts => substTy S t :: substTys S ts
/-- The loop over the segments of a path, crates/ragu_macros/src/substitution.rs:56-62, 88-95. -/
def substSegs (S : Strategy) : List Seg → List Seg
  | [] => []
  | s :: ss => substSeg S s :: substSegs S ss
/-- One segment, crates/ragu_macros/src/substitution.rs:56-62, 88-95. -/
def substSeg (S : Strategy) : Seg → Seg
  | .mk x (.angle as) => .mk x (.angle (substArgs S as))
  | .mk x .none => .mk x .none
  | .mk x (.paren ts) => .mk x (.paren ts)
/-- The loop over arguments, crates/ragu_macros/src/substitution.rs:58-60. -/
def substArgs (S : Strategy) : List Arg → List Arg
  | [] => []
  | a :: as => substArg S a :: substArgs S as
/-- `substitute` of arguments and lifetimes, crates/ragu_macros/src/substitution.rs:22-48. -/
def substArg (S : Strategy) : Arg → Arg
  | .type t => .type (substTy S t)
  | .lifetime l => .lifetime ((S.lt l).getD l)
  | .constraint x bs => .constraint x (substBounds S bs)
  | .assoc x t => .assoc x (substTy S t)
  | .const x => .const x
/-- The loop over bounds, crates/ragu_macros/src/substitution.rs:37-41, 166-168. -/
def substBounds (S : Strategy) : List Bound → List Bound
  | [] => []
  | b :: bs => substBound S b :: substBounds S bs
/-- `substitute` of bounds, crates/ragu_macros/src/substitution.rs:86-98. -/
def substBound (S : Strategy) : Bound → Bound
  | .trait segs => .trait (substSegs S segs)
  | .lifetime l => .lifetime l
end

/-- The strategy of `replace_inferences`, crates/ragu_macros/src/substitution.rs:103-127. -/
def inferences (f : Ty) : Strategy where
  ty := fun t =>
    match t with
    | .infer => some (phantom f)
    | _ => none
  lt := fun l => if l = "_" then some "static" else none

/-- `replace_inferences`, crates/ragu_macros/src/substitution.rs:100-130. -/
def replaceInferences (t f : Ty) : Ty := substTy (inferences f) t

/-- The strategy of `replace_driver_field_in_generic_param`,
crates/ragu_macros/src/substitution.rs:137-155. -/
def driverField (driver field : String) : Strategy where
  tyPath := fun q segs =>
    match q, segs with
    | none, [.mk x _, .mk y _] => if x = driver ∧ y = "F" then some (.ident field) else none
    | _, _ => none

/-- `Kind!`, crates/ragu_macros/src/proc/kind.rs:32-45; `core` is the path of `ragu_core`. -/
def kindMacro (core : List Seg) (f : Ty) (cast : Bool) (path : Ty) : Ty :=
  let subst := replaceInferences path f
  if cast then subst
  else .path (some subst) (core ++ [.mk "gadgets" .none,
    .mk "Gadget" (.angle [.lifetime "static", .type (phantom f)]), .mk "Kind" .none])

/-! ### Generic parameters -/

/-- `syn::GenericParam`; `driver` says that a parameter has the attribute `#[ragu(driver)]`. -/
inductive Param where
  | lifetime (l : String)
  | type (driver : Bool) (x : String) (bounds : List Bound) (default : Option Ty)
  | const (x : String)

/-- `GenericDriver`, crates/ragu_macros/src/helpers.rs:41-44. -/
structure GenericDriver where
  ident : String
  lifetime : String

/-- `GenericDriver::default`, crates/ragu_macros/src/helpers.rs:46-53. -/
def GenericDriver.default : GenericDriver := ⟨"D", "dr"⟩

/-- The lifetimes among arguments, crates/ragu_macros/src/helpers.rs:80-90. -/
def lifetimes (as : List Arg) : List String :=
  as.filterMap fun a => match a with
    | .lifetime l => some l
    | _ => none

/-- `GenericDriver::extract_from_param`, crates/ragu_macros/src/helpers.rs:71-106, the loop over bounds. -/
def extractFromBounds (x : String) : List Bound → Except String GenericDriver
  | [] => .error "expected a Driver<'dr> bound"
  | .lifetime _ :: bs => extractFromBounds x bs
  | .trait segs :: bs =>
    match segs.getLast? with
    | none => extractFromBounds x bs
    | some (.mk y args) =>
      if y ≠ "Driver" then extractFromBounds x bs
      else match args with
        | .angle as =>
          match lifetimes as with
          | [l] => .ok ⟨x, l⟩
          | _ => .error "expected a single lifetime bound"
        | _ => .error "expected a lifetime bound"

/-- `GenericDriver::extract`, crates/ragu_macros/src/helpers.rs:56-69. -/
def extract (ps : List Param) : Except String GenericDriver :=
  (ps.findSome? fun p => match p with
    | .type true x bounds _ => some (extractFromBounds x bounds)
    | _ => none).getD (.ok .default)

/-- `ty_generics` of `split_for_impl`, as used in crates/ragu_macros/src/derive/gadget.rs:72, 90. -/
def Param.arg : Param → Arg
  | .lifetime l => .lifetime l
  | .type _ x _ _ => .type (.ident x)
  | .const x => .type (.ident x)

/-- `is_ty`, crates/ragu_macros/src/derive/mod.rs:11-19. -/
def GenericDriver.isTy (d : GenericDriver) : Ty → Bool
  | .path _ segs =>
    match segs.getLast? with
    | some (.mk x _) => x = d.ident
    | none => false
  | _ => false

/-- The three loops over arguments, which put `lt` for the lifetime of the driver and `ty` for the driver. -/
def GenericDriver.replaceArgs (d : GenericDriver) (lt : String) (ty : Ty) (as : List Arg) : List Arg :=
  as.map fun a => match a with
    | .type t => if d.isTy t then .type ty else .type t
    | .lifetime l => if d.lifetime = l then .lifetime lt else .lifetime l
    | a => a

/-- `kind_subst_arguments`, crates/ragu_macros/src/derive/mod.rs:25-43. -/
def GenericDriver.kindSubstArguments (d : GenericDriver) (as : List Arg) : List Arg :=
  d.replaceArgs "static" (phantom (.ident "DriverField")) as

/-- `<D as Driver<'dr>>::F`; the path of `ragu_core` is `core`. -/
def GenericDriver.field (core : List Seg) (d : GenericDriver) : Ty :=
  .path (some (.ident d.ident)) (core ++ [.mk "drivers" .none,
    .mk "Driver" (.angle [.lifetime d.lifetime]), .mk "F" .none])

/-- `kind_arguments`, crates/ragu_macros/src/derive/gadget.rs:22-36. -/
def GenericDriver.kindArguments (core : List Seg) (d : GenericDriver) (as : List Arg) : List Arg :=
  d.replaceArgs "static" (phantom (d.field core)) as

/-- `rebind_arguments`, crates/ragu_macros/src/derive/gadget.rs:38-57. -/
def GenericDriver.rebindArguments (d : GenericDriver) (as : List Arg) : List Arg :=
  d.replaceArgs d.lifetime (.ident d.ident) as

/-- `replace_driver_field_in_generic_param`, crates/ragu_macros/src/substitution.rs:131-173. -/
def Param.replaceField (driver field : String) : Param → Param
  | .type b x bounds default =>
    .type b x (substBounds (driverField driver field) bounds)
      (default.map (substTy (driverField driver field)))
  | p => p

/-- The filter of crates/ragu_macros/src/derive/gadget.rs:209-215. -/
def GenericDriver.keeps (d : GenericDriver) : Param → Bool
  | .type _ x _ _ => x ≠ d.ident
  | .lifetime l => l ≠ d.lifetime
  | .const _ => true

/-- The parameters of the derived `impl GadgetKind`, crates/ragu_macros/src/derive/gadget.rs:204-223, and of
the derived `impl Write`, crates/ragu_macros/src/derive/gadgetwrite.rs:92-111: without the driver and its
lifetime, with a new one for the field. -/
def GenericDriver.implParams (d : GenericDriver) (ps : List Param) : List Param :=
  (ps.filter d.keeps).map (Param.replaceField d.ident "DriverField") ++
  [.type false "DriverField" [.trait [.mk "ff" .none, .mk "Field" .none]] none]

end Ragu.Macros

/-
Filling in and instantiating types, everywhere in them, and where the macros look.
-/
import Verif.Model.Macros

namespace Ragu.Spec
open Ragu.Macros

/-- What is put in the place of a type or a lifetime, if anything. -/
structure Fill where
  ty : Ty → Option Ty
  lt : String → String

mutual
/-- The type with everything replaced, wherever it is. -/
def fillTy (ρ : Fill) : Ty → Ty
  | .path q segs => (ρ.ty (.path q segs)).getD (.path (fillQ ρ q) (fillSegs ρ segs))
  | .tuple ts => (ρ.ty (.tuple ts)).getD (.tuple (fillTys ρ ts))
  | .infer => (ρ.ty .infer).getD .infer
  | .array t n => (ρ.ty (.array t n)).getD (.array (fillTy ρ t) n)
  | .reference l t => (ρ.ty (.reference l t)).getD (.reference (ρ.lt l) (fillTy ρ t))
  | .other x => (ρ.ty (.other x)).getD (.other x)
def fillQ (ρ : Fill) : Option Ty → Option Ty
  | none => none
  | some t => some (fillTy ρ t)
def fillTys (ρ : Fill) : List Ty → List Ty
  | [] => []
  | t :: ts => fillTy ρ t :: fillTys ρ ts
def fillSegs (ρ : Fill) : List Seg → List Seg
  | [] => []
  | s :: ss => fillSeg ρ s :: fillSegs ρ ss
def fillSeg (ρ : Fill) : Seg → Seg
  | .mk x .none => .mk x .none
  | .mk x (.angle as) => .mk x (.angle (fillArgs ρ as))
  | .mk x (.paren ts) => .mk x (.paren (fillTys ρ ts))
def fillArgs (ρ : Fill) : List Arg → List Arg
  | [] => []
  | a :: as => fillArg ρ a :: fillArgs ρ as
def fillArg (ρ : Fill) : Arg → Arg
  | .type t => .type (fillTy ρ t)
  | .lifetime l => .lifetime (ρ.lt l)
  | .assoc x t => .assoc x (fillTy ρ t)
  | .constraint x bs => .constraint x (fillBounds ρ bs)
  | .const x => .const x
def fillBounds (ρ : Fill) : List Bound → List Bound
  | [] => []
  | b :: bs => fillBound ρ b :: fillBounds ρ bs
def fillBound (ρ : Fill) : Bound → Bound
  | .trait segs => .trait (fillSegs ρ segs)
  | .lifetime l => .lifetime (ρ.lt l)
end

/-- Put `t` for each `_` and `l` for each `'_`. -/
def holes (l : String) (t : Ty) : Fill where
  ty := fun u => match u with
    | .infer => some t
    | _ => none
  lt := fun x => if x = "_" then l else x

/-- Put types for names. -/
def names (ρ : String → Option Ty) (lt : String → String) : Fill where
  ty := fun u => match u with
    | .path none [.mk x .none] => ρ x
    | _ => none
  lt := lt

mutual
/-- There is a type `P` or a lifetime `L` somewhere in the type. -/
def anyTy (P : Ty → Bool) (L : String → Bool) : Ty → Bool
  | .path q segs => P (.path q segs) || anyQ P L q || anySegs P L segs
  | .tuple ts => P (.tuple ts) || anyTys P L ts
  | .infer => P .infer
  | .array t n => P (.array t n) || anyTy P L t
  | .reference l t => P (.reference l t) || L l || anyTy P L t
  | .other x => P (.other x)
def anyQ (P : Ty → Bool) (L : String → Bool) : Option Ty → Bool
  | none => false
  | some t => anyTy P L t
def anyTys (P : Ty → Bool) (L : String → Bool) : List Ty → Bool
  | [] => false
  | t :: ts => anyTy P L t || anyTys P L ts
def anySegs (P : Ty → Bool) (L : String → Bool) : List Seg → Bool
  | [] => false
  | s :: ss => anySeg P L s || anySegs P L ss
def anySeg (P : Ty → Bool) (L : String → Bool) : Seg → Bool
  | .mk _ .none => false
  | .mk _ (.angle as) => anyArgs P L as
  | .mk _ (.paren ts) => anyTys P L ts
def anyArgs (P : Ty → Bool) (L : String → Bool) : List Arg → Bool
  | [] => false
  | a :: as => anyArg P L a || anyArgs P L as
def anyArg (P : Ty → Bool) (L : String → Bool) : Arg → Bool
  | .type t => anyTy P L t
  | .lifetime l => L l
  | .assoc _ t => anyTy P L t
  | .constraint _ bs => anyBounds P L bs
  | .const _ => false
def anyBounds (P : Ty → Bool) (L : String → Bool) : List Bound → Bool
  | [] => false
  | b :: bs => anyBound P L b || anyBounds P L bs
def anyBound (P : Ty → Bool) (L : String → Bool) : Bound → Bool
  | .trait segs => anySegs P L segs
  | .lifetime l => L l
end

def Ty.isInfer : Ty → Bool
  | .infer => true
  | _ => false

/-- There is a `_` or a `'_` in the type. -/
def hasHole (t : Ty) : Bool := anyTy Ty.isInfer (· = "_") t

mutual
/-- The types `P` and lifetimes `L` in a type are where the macros look for them: not in an array, behind a
reference, in `<q as ..>`, in `Fn(..)` or in a lifetime bound. -/
def OpenTy (P : Ty → Bool) (L : String → Bool) : Ty → Prop
  | .path q segs => anyQ P L q = false ∧ OpenSegs P L segs
  | .tuple ts => OpenTys P L ts
  | .infer => True
  | .array t _ => anyTy P L t = false
  | .reference l t => L l = false ∧ anyTy P L t = false
  | .other _ => True
def OpenTys (P : Ty → Bool) (L : String → Bool) : List Ty → Prop
  | [] => True
  | t :: ts => OpenTy P L t ∧ OpenTys P L ts
def OpenSegs (P : Ty → Bool) (L : String → Bool) : List Seg → Prop
  | [] => True
  | s :: ss => OpenSeg P L s ∧ OpenSegs P L ss
def OpenSeg (P : Ty → Bool) (L : String → Bool) : Seg → Prop
  | .mk _ .none => True
  | .mk _ (.angle as) => OpenArgs P L as
  | .mk _ (.paren ts) => anyTys P L ts = false
def OpenArgs (P : Ty → Bool) (L : String → Bool) : List Arg → Prop
  | [] => True
  | a :: as => OpenArg P L a ∧ OpenArgs P L as
def OpenArg (P : Ty → Bool) (L : String → Bool) : Arg → Prop
  | .type t => OpenTy P L t
  | .lifetime _ => True
  | .assoc _ t => OpenTy P L t
  | .constraint _ bs => OpenBounds P L bs
  | .const _ => True
def OpenBounds (P : Ty → Bool) (L : String → Bool) : List Bound → Prop
  | [] => True
  | b :: bs => OpenBound P L b ∧ OpenBounds P L bs
def OpenBound (P : Ty → Bool) (L : String → Bool) : Bound → Prop
  | .trait segs => OpenSegs P L segs
  | .lifetime l => L l = false
end

/-- The holes of the type are where the macro looks for them. -/
def Open (t : Ty) : Prop := OpenTy Ty.isInfer (· = "_") t

/-- `D::F` for the driver `D`. -/
def driverF (driver : String) : Ty := .path none [.mk driver .none, .mk "F" .none]

/-- The type is the name `DriverField`, or `D::F` with arguments, which no Rust program has for a parameter
`D`. -/
def clash (driver : String) : Ty → Bool
  | .path none [.mk x .none] => x = "DriverField"
  | .path none [.mk x a, .mk y b] =>
    match a, b with
    | .none, .none => false
    | _, _ => x = driver && y = "F"
  | _ => false

/-- The type is `D::F`. -/
def isDriverF (driver : String) : Ty → Bool
  | .path none [.mk x _, .mk y _] => x = driver && y = "F"
  | _ => false

/-- Put `DriverField` for each `D::F`. -/
def fieldOut (driver : String) : Fill where
  ty := fun t => if isDriverF driver t then some (.ident "DriverField") else none
  lt := id

/-- Put types for names in the bounds and the default of a parameter. -/
def fillParam (ρ : Fill) : Param → Param
  | .type b x bounds default => .type b x (fillBounds ρ bounds) (fillQ ρ default)
  | p => p

/-- There is a type `P` in the bounds or the default of a parameter. -/
def anyParam (P : Ty → Bool) : Param → Bool
  | .type _ _ bounds default => anyBounds P (fun _ => false) bounds || anyQ P (fun _ => false) default
  | _ => false

/-- Each `D::F` in the bounds and the default of a parameter is where the macros look for it. -/
def OpenParam (driver : String) : Param → Prop
  | .type _ _ bounds default => OpenBounds (isDriverF driver) (fun _ => false) bounds ∧
      ∀ t, default = some t → OpenTy (isDriverF driver) (fun _ => false) t
  | _ => True

/-- The name of a parameter of a type or a constant. -/
def Param.named (x : String) : Param → Prop
  | .type _ y _ _ => y = x
  | .const y => y = x
  | .lifetime _ => False

/-- The parameter is the driver or its lifetime. -/
def isDriver (d : GenericDriver) : Param → Bool
  | .type _ x _ _ => x = d.ident
  | .lifetime l => l = d.lifetime
  | .const _ => false

/-- An argument for a parameter, as the user writes it: `_` for the driver, `'_` for its lifetime, and for the
others a type or a constant `ρ` and a lifetime `lt`. -/
def written (d : GenericDriver) (ρ : String → Ty) (lt : String → String) : Param → Arg
  | .lifetime l => .lifetime (if l = d.lifetime then "_" else lt l)
  | .type _ x _ _ => .type (if x = d.ident then .infer else ρ x)
  | .const x => .type (ρ x)

/-- The parameter carries the attribute `#[ragu(driver)]`. -/
def marked : Param → Bool
  | .type b _ _ _ => b
  | _ => false

/-- `'l` is the only lifetime among the arguments. -/
def OnlyLifetime (l : String) (as : List Arg) : Prop :=
  ∃ pre post, as = pre ++ .lifetime l :: post ∧ ∀ a ∈ pre ++ post, ∀ l', a ≠ .lifetime l'

/-- The bound is `..::Driver` with arguments `a`. -/
def driverBound (a : PArgs) : Bound → Prop
  | .trait segs => segs.getLast? = some (.mk "Driver" a)
  | .lifetime _ => False

end Ragu.Spec

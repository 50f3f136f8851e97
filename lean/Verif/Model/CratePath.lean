/-
The paths that the macros write for `ragu_core` and `ragu_primitives`, crates/ragu_macros/src/path_resolution.rs.
A path `::a::b` is the list of its segments.
-/
namespace Ragu.CratePath

/-- `FoundCrate` of the crate `proc_macro_crate`, path_resolution.rs:8. -/
inductive FoundCrate where
  | itself
  | name (n : String)
  deriving DecidableEq, Repr

/-- What the macros report, path_resolution.rs:52-55 and 73-76. -/
inductive PathError where
  | noCore
  | noPrimitives
  deriving DecidableEq, Repr

/-- The results of `crate_name` for the three crates: `none` is `Err`, whatever the error is. -/
structure Found where
  core : Option FoundCrate
  primitives : Option FoundCrate
  ragu : Option FoundCrate

/-- `ragu_core_path`, crates/ragu_macros/src/path_resolution.rs:43-58, with the results of `crate_name` as
arguments, and the arms in order. `format_ident!` is the name itself. -/
def ragu_core_path (f : Found) : Except PathError (List String) :=
  match f.core, f.ragu with
  | some .itself, _ => .ok ["ragu_core"]
  | _, some .itself => .ok ["ragu"]
  | some (.name n), _ => .ok [n]
  | none, some (.name n) => .ok [n]
  | none, none => .error .noCore

/-- `ragu_primitives_path`, crates/ragu_macros/src/path_resolution.rs:60-79. -/
def ragu_primitives_path (f : Found) : Except PathError (List String) :=
  match f.primitives, f.ragu with
  | some .itself, _ => .ok ["ragu_primitives"]
  | _, some .itself => .ok ["ragu", "primitives"]
  | some (.name n), _ => .ok [n]
  | _, some (.name n) => .ok [n, "primitives"]
  | none, none => .error .noPrimitives

/-- The four macros whose output names the crates, crates/ragu_macros/src/lib.rs:43-96. -/
inductive Macro where
  | kind
  | gadget
  | write
  | consistent
  deriving DecidableEq, Repr

/-- The paths that a macro resolves before it expands, crates/ragu_macros/src/lib.rs:45-48, 60-63, 75-79 and
91-95: the path of `ragu_core`, and for two of them that of `ragu_primitives`. An error of the first is
returned before the second is resolved. -/
def resolve (m : Macro) (f : Found) : Except PathError (List String × Option (List String)) := do
  let core ← ragu_core_path f
  match m with
  | .kind | .gadget => pure (core, none)
  | .write | .consistent =>
    let prim ← ragu_primitives_path f
    pure (core, some prim)

end Ragu.CratePath

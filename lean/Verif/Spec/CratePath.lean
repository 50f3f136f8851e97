/-
Packages, their dependencies, and what an absolute path means in them. This is the environment of the macros:
Cargo's table of dependencies, the crate `proc_macro_crate`, and the name resolution of the compiler.
-/
import Verif.Model.CratePath

namespace Ragu.CratePath

/-- A package that uses a macro: its name, its dependencies with the name under which it sees each (`a = { package
= "p" }` in `Cargo.toml` is `(a, p)`), and the name of an `extern crate self as …`, if there is one. -/
structure Package where
  name : String
  deps : List (String × String)
  selfAs : Option String := none

/-- Cargo has one entry for each name, and the name of `extern crate self` is not one of them. -/
def Package.Wf (p : Package) : Prop :=
  (p.selfAs.toList ++ p.deps.map Prod.fst).Nodup

/-- The documented behaviour of `proc_macro_crate::crate_name`: the package itself, or the name under which
the package sees its first dependency of that name, or an error. -/
def Package.crateName (p : Package) (c : String) : Option FoundCrate :=
  if p.name = c then some .itself
  else (p.deps.find? (fun d => d.2 = c)).map (fun d => .name d.1)

/-- What the macros are told when this package uses them. -/
def Package.found (p : Package) : Found :=
  { core := p.crateName "ragu_core"
    primitives := p.crateName "ragu_primitives"
    ragu := p.crateName "ragu" }

/-- The package that `::n` names: the package itself by its `extern crate self`, or a dependency. -/
def Package.extern (p : Package) (n : String) : Option String :=
  if p.selfAs = some n then some p.name
  else (p.deps.find? (fun d => d.1 = n)).map Prod.snd

/-- What packages re-export: `(q, r)` in `globs` if the root of `q` has the items of the root of `r`, and
`(q, m, r)` in `mods` if the module `m` of `q` has the items of the root of `r`. -/
structure World where
  globs : List (String × String)
  mods : List (String × String × String)

/-- In the package `p` the path names a place that has the items of the root of the package `r`. -/
def Names (w : World) (p : Package) (path : List String) (r : String) : Prop :=
  match path with
  | [n] => p.extern n = some r ∨ ∃ q, p.extern n = some q ∧ (q, r) ∈ w.globs
  | [n, m] => ∃ q, p.extern n = some q ∧ (q, m, r) ∈ w.mods
  | _ => False

/-- The promise in path_resolution.rs:3-6 about the crate `ragu`: its root re-exports `ragu_core`, and its module
`primitives` re-exports `ragu_primitives`. -/
def Facade (w : World) : Prop :=
  ("ragu", "ragu_core") ∈ w.globs ∧ ("ragu", "primitives", "ragu_primitives") ∈ w.mods

/-- Inside one of the crates themselves the path begins with the crate's own name, which exists there by
`extern crate self as …`. -/
def OwnName (p : Package) : Prop :=
  p.name ∈ ["ragu_core", "ragu_primitives", "ragu"] → p.selfAs = some p.name

/-- The package can reach `c`: it is `c`, or has it as a dependency. -/
def Package.Has (p : Package) (c : String) : Prop :=
  p.name = c ∨ ∃ a, (a, c) ∈ p.deps

/-- The pinned commit: the library of `ragu`, src/lib.rs:1-12, has no items at all. -/
def pinned : World := { globs := [], mods := [] }

end Ragu.CratePath

/-
Model of `ragu_primitives/src/vec.rs`, and the errors of the PCD crate.
-/
import Verif.Model.Driver

namespace Ragu.Pcd

/-- The variants of `Error` (crates/ragu_core/src/errors.rs:20-90) met in the PCD crate, without
their messages; `synth` are those the circuit model already names. -/
inductive Err where
  | malformedEncoding
  | lengthMismatch (expected actual : ℕ)
  | initialization
  | circuitBound (limit : ℕ)
  | synth (e : Circuit.Err)
  | panic
deriving DecidableEq

/-- `FixedVec<T, L>`, crates/ragu_primitives/src/vec.rs:75-78; the field is private, `len` is
`L::len()`. -/
structure FixedVec (T : Type) (len : ℕ) where
  v : List T
deriving DecidableEq

namespace FixedVec
variable {T U : Type} {len : ℕ}

/-- `try_from` and `new`, crates/ragu_primitives/src/vec.rs:80-97 and 121-126. -/
def tryFrom (len : ℕ) (v : List T) : Except Err (FixedVec T len) :=
  if v.length ≠ len then .error (.lengthMismatch len v.length) else .ok ⟨v⟩

/-- `collect_fixed`, crates/ragu_primitives/src/vec.rs:103-105; the argument is what the iterator
yields. -/
def collectFixed (len : ℕ) (items : List T) : Except Err (FixedVec T len) := tryFrom len items

/-- `collect::<Result<Vec<_>>>`: stops at the first error. -/
def collectResults : List (Except Err T) → Except Err (List T)
  | [] => .ok []
  | .error e :: _ => .error e
  | .ok t :: r => do
    let ts ← collectResults r
    .ok (t :: ts)

/-- `try_collect_fixed`, crates/ragu_primitives/src/vec.rs:110-116. -/
def tryCollectFixed (len : ℕ) (items : List (Except Err T)) : Except Err (FixedVec T len) := do
  let vec ← collectResults items
  tryFrom len vec

/-- `from_fn`, crates/ragu_primitives/src/vec.rs:131-139. -/
def fromFn (len : ℕ) (f : ℕ → T) : Option (FixedVec T len) :=
  match collectFixed len ((List.range len).map f) with
  | .ok r => some r
  | .error _ => none

/-- `try_from_fn`, crates/ragu_primitives/src/vec.rs:144-149. -/
def tryFromFn (len : ℕ) (f : ℕ → Except Err T) : Except Err (FixedVec T len) :=
  tryCollectFixed len ((List.range len).map f)

/-- `into_inner`, crates/ragu_primitives/src/vec.rs:153-156; `none` is the failed assertion. -/
def intoInner (self : FixedVec T len) : Option (List T) :=
  if self.v.length = len then some self.v else none

/-- `clone`, crates/ragu_primitives/src/vec.rs:159-167. -/
def clone (self : FixedVec T len) : Option (FixedVec T len) :=
  if self.v.length = len then some ⟨self.v⟩ else none

/-- Assignment through `deref_mut`, crates/ragu_primitives/src/vec.rs:190-194: a slice's elements
can be replaced, its length cannot change. -/
def assign (self : FixedVec T len) (i : ℕ) (t : T) : Option (FixedVec T len) :=
  if i < self.v.length then some ⟨self.v.set i t⟩ else none

/-- `map_gadget`, crates/ragu_primitives/src/vec.rs:240-253; `g` is `G::map_gadget`. -/
def mapGadget (self : FixedVec T len) (g : T → Except Err U) : Except Err (FixedVec U len) :=
  if self.v.length = len then tryCollectFixed len (self.v.map g) else .error .panic

end FixedVec
end Ragu.Pcd

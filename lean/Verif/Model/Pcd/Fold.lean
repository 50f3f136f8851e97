/-
Model of `ragu_pcd/src/internal/fold_revdot.rs`.

`m` is `GroupSize::len()`, `g` is `NumGroups::len()`.  A `FixedVec` is a list whose
length the theorems establish; a failed `assert!`/`expect` is `none` (natively) or
`Syn.panic` (in circuit).
-/
import Verif.Model.Sparse
import Verif.Model.Gadget.Horner
import Verif.Model.Pcd.App

namespace Ragu.Pcd
open Ragu Ragu.Circuit Ragu.Gadget
variable {F : Type} [Field F] [DecidableEq F]

/-- `trait Foldable`, crates/ragu_pcd/src/internal/fold_revdot.rs:18-22, as a dictionary:
`Default::default`, `fold_scale` and `fold_add_assign` (`none` = panic). -/
structure Foldable (F T : Type) where
  default : T
  scale : F → T → T
  add : T → T → Option T

/-- `impl Foldable for sparse::Polynomial`,
crates/ragu_pcd/src/internal/fold_revdot.rs:24-31; `N = R::num_coeffs()`. -/
def polyFoldable (N : ℕ) : Foldable F (Sparse.Poly F) :=
  ⟨[], fun by_ p => Sparse.scale p by_, Sparse.addAssign N⟩

namespace Fold

/-- `fold`, crates/ragu_pcd/src/internal/fold_revdot.rs:34-43. -/
def fold {T : Type} (fd : Foldable F T) (items : List T) (scaleFactor : F) : Option T :=
  items.foldlM (fun acc item => fd.add (fd.scale scaleFactor acc) item) fd.default

/-- `off_diagonal_pairs`, crates/ragu_pcd/src/internal/fold_revdot.rs:77-79. -/
def offDiagonalPairs (n : ℕ) : List (ℕ × ℕ) :=
  (List.range n).flatMap fun i => (List.range n).filterMap fun j =>
    if i ≠ j then some (i, j) else none

/-- `fold_inner`, crates/ragu_pcd/src/internal/fold_revdot.rs:91-118
(`chunks(0)` panics). -/
def foldInner {T : Type} (fd : Foldable F T) (m g : ℕ) (source : List T) (scaleFactor : F) :
    Option (List T) :=
  if source.length ≤ m * g ∧ m ≠ 0 then do
    let folded ← (chunks m source).mapM fun chunk =>
      fold fd (chunk ++ List.replicate (m - chunk.length) fd.default) scaleFactor
    return (folded ++ List.replicate g fd.default).take g
  else none

/-- `fold_outer`, crates/ragu_pcd/src/internal/fold_revdot.rs:125-130. -/
def foldOuter {T : Type} (fd : Foldable F T) (source : List T) (scaleFactor : F) : Option T :=
  fold fd source scaleFactor

/-- One group of `compute_errors_impl`, crates/ragu_pcd/src/internal/fold_revdot.rs:152-165. -/
def groupErrors (N inner : ℕ) (aChunk bChunk : List (Sparse.Poly F)) : List F :=
  (offDiagonalPairs inner).map fun ij =>
    match aChunk[ij.1]?, bChunk[ij.2]? with
    | some l, some r => Sparse.revdot N l r
    | _, _ => 0

/-- `compute_errors_impl`, crates/ragu_pcd/src/internal/fold_revdot.rs:136-171. -/
def computeErrors (N outer inner : ℕ) (a b : List (Sparse.Poly F)) : Option (List (List F)) :=
  if a.length = b.length ∧ a.length ≤ outer * inner ∧ inner ≠ 0 then
    some (List.take outer
      ((((chunks inner a).zip (chunks inner b)).map fun ab => groupErrors N inner ab.1 ab.2) ++
        List.replicate outer (List.replicate (numErrorTerms inner) 0)))
  else none

/-- `inner_error_terms`, crates/ragu_pcd/src/internal/fold_revdot.rs:174-179. -/
def innerErrorTerms (N m g : ℕ) (a b : List (Sparse.Poly F)) : Option (List (List F)) :=
  computeErrors N g m a b

/-- `outer_error_terms`, crates/ragu_pcd/src/internal/fold_revdot.rs:182-190. -/
def outerErrorTerms (N g : ℕ) (a b : List (Sparse.Poly F)) : Option (List F) :=
  (computeErrors N 1 g a b).bind (·.head?)

/-- `ClaimFolder`, crates/ragu_pcd/src/internal/fold_revdot.rs:196-199. -/
structure ClaimFolder (F : Type) where
  muNu : Element F
  muInv : Element F

/-- `ClaimFolder::new`, crates/ragu_pcd/src/internal/fold_revdot.rs:203-207. -/
def ClaimFolder.new (mu nu : Element F) : Syn F (ClaimFolder F) := do
  let muNu ← mu.mul nu
  let muInv ← mu.invert
  return ⟨muNu, muInv⟩

/-- The loop over `j` of `fold_products_impl`,
crates/ragu_pcd/src/internal/fold_revdot.rs:245-254: the Horner state and the two
iterators `error_terms`, `ky_values` (`expect` on an exhausted one panics). -/
def foldRow (muNu : Element F) (i : ℕ) : List ℕ → Option (Element F) → List (Element F) →
    List (Element F) → Syn F (Option (Element F) × List (Element F) × List (Element F))
  | [], r, es, ks => return (r, es, ks)
  | j :: js, r, es, ks =>
    if i = j then
      match ks with
      | [] => Syn.panic
      | k :: ks' => do
        let r' ← Horner.write muNu r k
        foldRow muNu i js r' es ks'
    else
      match es with
      | [] => Syn.panic
      | e :: es' => do
        let r' ← Horner.write muNu r e
        foldRow muNu i js r' es' ks

/-- The loop over `i` of `fold_products_impl`,
crates/ragu_pcd/src/internal/fold_revdot.rs:244-256. -/
def foldRows (muNu muInv : Element F) (n : ℕ) : List ℕ → Option (Element F) →
    List (Element F) → List (Element F) → Syn F (Option (Element F))
  | [], r, _, _ => return r
  | i :: is, r, es, ks => do
    let (row, es', ks') ← foldRow muNu i (List.range n) none es ks
    let r' ← Horner.write muInv r (Horner.finish row)
    foldRows muNu muInv n is r' es' ks'

/-- `fold_products_impl`, crates/ragu_pcd/src/internal/fold_revdot.rs:231-259;
`n = S::len()`. -/
def foldProducts (n : ℕ) (muNu muInv : Element F) (errorTerms kyValues : List (Element F)) :
    Syn F (Element F) := do
  let r ← foldRows muNu muInv n (List.range n) none errorTerms kyValues
  return Horner.finish r

/-- `ClaimFolder::fold_inner`, crates/ragu_pcd/src/internal/fold_revdot.rs:210-217. -/
def ClaimFolder.foldInner (cf : ClaimFolder F) (m : ℕ) (errorTerms kyValues : List (Element F)) :
    Syn F (Element F) := foldProducts m cf.muNu cf.muInv errorTerms kyValues

/-- `ClaimFolder::fold_outer`, crates/ragu_pcd/src/internal/fold_revdot.rs:220-227. -/
def ClaimFolder.foldOuter (cf : ClaimFolder F) (g : ℕ) (errorTerms kyValues : List (Element F)) :
    Syn F (Element F) := foldProducts g cf.muNu cf.muInv errorTerms kyValues

/-- The loop over chunks of `fold_two_layer`,
crates/ragu_pcd/src/internal/fold_revdot.rs:271-277. -/
def foldChunks (m : ℕ) (layer1 : Element F) : List (List (Element F)) →
    Syn F (List (Element F))
  | [] => return []
  | chunk :: rest => do
    let r ← Element.fold (chunk ++ List.replicate (m - chunk.length) Element.zero) layer1
    let rs ← foldChunks m layer1 rest
    return r :: rs

/-- `fold_two_layer`, crates/ragu_pcd/src/internal/fold_revdot.rs:261-284. -/
def foldTwoLayer (m g : ℕ) (sources : List (Element F)) (layer1 layer2 : Element F) :
    Syn F (Element F) :=
  if m = 0 then Syn.panic else do
    let results ← foldChunks m layer1 (chunks m sources)
    Element.fold (results ++ List.replicate (g - results.length) Element.zero) layer2

end Fold
end Ragu.Pcd

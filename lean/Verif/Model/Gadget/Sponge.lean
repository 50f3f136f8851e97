/-
Model of `ragu_primitives/src/poseidon.rs`: the sponge's buffering logic and the
Poseidon permutation as a routine.

The buffering logic is written once over any monad `M` (the driver), element type
`E` with an addition, and permutation, exactly as the Rust code is generic over
drivers and permutations.  With `M := Syn F` it is the in-circuit sponge.
-/
import Verif.Model.Gadget.Element

namespace Ragu.Gadget
open Ragu Ragu.Circuit

/-- `Mode`, crates/ragu_primitives/src/poseidon.rs:54-63. -/
inductive Mode (E : Type)
  | squeeze (values state : List E)
  | absorb (values state : List E)
deriving DecidableEq

/-- How a sponge call can fail: the `Initialization` error of `squeeze`
(crates/ragu_primitives/src/poseidon.rs:171-173), or endless recursion, which is what the
code does when the rate is zero. -/
inductive SpongeErr
  | nothingAbsorbed
  | diverges
deriving DecidableEq

/-- `SaveError`, crates/ragu_primitives/src/poseidon.rs:31-38. -/
inductive SaveErr
  | alreadyInSqueezeMode
  | nothingAbsorbed
deriving DecidableEq

namespace Sponge
variable {M : Type → Type} [Monad M] {E : Type}

/-- `SpongeState::get_rate`, crates/ragu_primitives/src/poseidon.rs:304-306. -/
def getRate (rate : ℕ) (state : List E) : List E := (state.take rate).reverse

/-- The loop over `state.values.iter_mut().zip(values)`,
crates/ragu_primitives/src/poseidon.rs:128-130. -/
def addValues (add : E → E → E) : List E → List E → List E
  | s :: ss, v :: vs => add s v :: addValues add ss vs
  | ss, [] => ss
  | [], _ => []

/-- `Sponge::new`, crates/ragu_primitives/src/poseidon.rs:107-119. -/
def new (zero : E) (T : ℕ) : Mode E := .absorb [] (List.replicate T zero)

variable (add : E → E → E) (perm : List E → M (List E)) (rate : ℕ)

/-- `Sponge::permute`, crates/ragu_primitives/src/poseidon.rs:121-137. -/
def permute : Mode E → M (Mode E)
  | .squeeze _ state => do
    let state ← perm state
    return .squeeze (getRate rate state) state
  | .absorb values state => do
    let state := addValues add state values
    let state ← perm state
    return .absorb [] state

/-- `Sponge::state`, crates/ragu_primitives/src/poseidon.rs:150-155. -/
def state : Mode E → List E
  | .squeeze _ s => s
  | .absorb _ s => s

/-- The recursive call at the end of `Sponge::squeeze`,
crates/ragu_primitives/src/poseidon.rs:192; it finds a buffered value unless the rate is zero. -/
def squeezeAgain : Mode E → Except SpongeErr E × Mode E
  | .squeeze values state =>
    match values.getLast? with
    | some v => (.ok v, .squeeze values.dropLast state)
    | none => (.error .diverges, .squeeze values state)
  | .absorb values state => (.error .diverges, .absorb values state)

/-- `Sponge::squeeze`, crates/ragu_primitives/src/poseidon.rs:158-193. -/
def squeeze (m : Mode E) : M (Except SpongeErr E × Mode E) :=
  match m with
  | .squeeze values state =>
    match values.getLast? with
    | some v => return (.ok v, .squeeze values.dropLast state)
    | none => do
      let m ← permute add perm rate m
      return squeezeAgain m
  | .absorb values _ =>
    if values.isEmpty then return (.error .nothingAbsorbed, m)
    else do
      let m ← permute add perm rate m
      return squeezeAgain (.squeeze (getRate rate (state m)) (state m))

/-- The recursive call at the end of `Sponge::absorb`,
crates/ragu_primitives/src/poseidon.rs:218. -/
def absorbAgain (v : E) : Mode E → Except SpongeErr Unit × Mode E
  | .absorb values state =>
    if values.length = rate then (.error .diverges, .absorb values state)
    else (.ok (), .absorb (values ++ [v]) state)
  | .squeeze values state => (.error .diverges, .squeeze values state)

/-- `Sponge::absorb`, crates/ragu_primitives/src/poseidon.rs:196-224. -/
def absorb (v : E) (m : Mode E) : M (Except SpongeErr Unit × Mode E) :=
  match m with
  | .squeeze _ state => return absorbAgain rate v (.absorb [] state)
  | .absorb values state =>
    if values.length = rate then do
      let m ← permute add perm rate m
      return absorbAgain rate v m
    else return (.ok (), .absorb (values ++ [v]) state)

/-- `Sponge::save_state`, crates/ragu_primitives/src/poseidon.rs:239-261. -/
def saveState (m : Mode E) : M (Except SaveErr (List E)) :=
  match m with
  | .squeeze _ _ => return .error .alreadyInSqueezeMode
  | .absorb values _ =>
    if values.isEmpty then return .error .nothingAbsorbed
    else do
      let m ← permute add perm rate m
      return .ok (state m)

/-- `Sponge::resume`, crates/ragu_primitives/src/poseidon.rs:267-275. -/
def resume (s : List E) : Mode E := .squeeze (getRate rate s) s

/-- A call on the sponge. -/
inductive Op (E : Type)
  | absorb (v : E)
  | squeeze

/-- A sequence of calls; returns the result of every `squeeze` in order. A failed call
leaves the sponge as it is and the sequence continues. -/
def run : List (Op E) → Mode E → M (List (Except SpongeErr E) × Mode E)
  | [], m => return ([], m)
  | .absorb v :: ops, m => do
    let (_, m) ← absorb add perm rate v m
    run ops m
  | .squeeze :: ops, m => do
    let (x, m) ← squeeze add perm rate m
    let (xs, m) ← run ops m
    return (x :: xs, m)

end Sponge

variable {F : Type} [Field F] [DecidableEq F]

/-- `PoseidonPermutation`, crates/ragu_arithmetic/src/lib.rs:188-217. -/
structure PoseidonParams (F : Type) where
  T : ℕ
  rate : ℕ
  fullRounds : ℕ
  partialRounds : ℕ
  alpha : ℕ
  roundConstants : List (List F)
  mds : List (List F)

namespace Poseidon

/-- `sbox` on one element, crates/ragu_primitives/src/poseidon.rs:314-317. -/
def sbox1 (alpha : ℕ) (x : Element F) : Syn F (Element F) :=
  if alpha = 5 then do
    let x2 ← x.square
    let x4 ← x2.square
    x4.mul x
  else .panic

/-- `sbox` on the first `elems` elements, crates/ragu_primitives/src/poseidon.rs:309-321; the
slice `[0..elems]` panics when there are fewer. -/
def sbox (alpha : ℕ) : ℕ → List (Element F) → Syn F (List (Element F))
  | 0, xs => return xs
  | k + 1, x :: xs => do
    let x' ← sbox1 alpha x
    let xs' ← sbox alpha k xs
    return x' :: xs'
  | _ + 1, [] => .panic

/-- The rows of `mds`, crates/ragu_primitives/src/poseidon.rs:331-336. -/
def mdsRows (state : List (Element F)) : List (List F) → Syn F (List (Element F))
  | [] => return []
  | row :: rows => do
    let x ← multiadd state row
    let xs ← mdsRows state rows
    return x :: xs

/-- `mds`, crates/ragu_primitives/src/poseidon.rs:323-340. -/
def mds (state : List (Element F)) (matrix : List (List F)) : Syn F (List (Element F)) :=
  if state.length = matrix.length then mdsRows state matrix else .panic

/-- `add_round_constants`, crates/ragu_primitives/src/poseidon.rs:342-351. -/
def addRoundConstants (state : List (Element F)) (rc : List F) : Syn F (List (Element F)) :=
  if state.length = rc.length then
    return List.zipWith (fun x c => x.addCoeff Element.one (.arbitrary c)) state rc
  else .panic

/-- The `round` closure for each entry of the chained iterators,
crates/ragu_primitives/src/poseidon.rs:392-416; `rcs` are the remaining round constants. -/
def rounds (p : PoseidonParams F) :
    List ℕ → List (List F) → List (Element F) → Syn F (List (Element F))
  | [], _, state => return state
  | elems :: es, rc :: rcs, state => do
    let state ← addRoundConstants state rc
    let state ← sbox p.alpha elems state
    let state ← mds state p.mds
    rounds p es rcs state
  | _ :: _, [], _ => .panic

/-- `Permutation::execute`, crates/ragu_primitives/src/poseidon.rs:383-417. -/
def permutation (p : PoseidonParams F) (state : List (Element F)) : Syn F (List (Element F)) :=
  rounds p (List.replicate (p.fullRounds / 2) p.T ++ List.replicate p.partialRounds 1 ++
    List.replicate (p.fullRounds / 2) p.T) p.roundConstants state

end Poseidon
end Ragu.Gadget

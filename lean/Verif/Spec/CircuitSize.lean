/-
What the sizes of the internal circuits are made of.
-/
import Verif.Spec.Size
import Verif.Model.Gadget.Sponge

namespace Ragu.Gadget.Poseidon
variable {F : Type}

/-- How many gates the permutation takes: three for every S-box, of which a full round has `T` and a
partial round one. -/
def permGates (p : PoseidonParams F) : ℕ := 3 * (2 * (p.fullRounds / 2 * p.T) + p.partialRounds)

end Ragu.Gadget.Poseidon

namespace Ragu.Spec

/-- The calls of the first half on its sponge, for a tag of `t` elements. -/
def hashes1Calls (t : ℕ) : List SpongeCall :=
  List.replicate t .absorb ++ [.absorb, .absorb, .squeeze, .absorb, .absorb, .squeeze, .squeeze,
    .absorb, .absorb, .save]

/-- The calls of the second half on its sponge. -/
def hashes2Calls : List SpongeCall :=
  [.squeeze, .squeeze, .absorb, .absorb, .squeeze, .squeeze, .absorb, .absorb, .squeeze,
    .absorb, .absorb, .squeeze, .absorb, .absorb, .squeeze, .absorb, .absorb, .squeeze]

end Ragu.Spec

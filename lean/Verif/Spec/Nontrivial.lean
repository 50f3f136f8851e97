/-
What the example application should prove: hashes of hashes of leaves. And what it means that the values
of gadget code can be found among given ones.
-/
import Verif.Spec.Derivation
import Verif.Spec.Sponge
import Verif.Spec.Sparse
import Verif.Model.Pcd.Proof

namespace Ragu.Spec
open Ragu Ragu.Gadget Ragu.Pcd
variable {F : Type} [Field F]

/-- The Poseidon permutation with the constants of `p`. -/
def poseidonOf (p : PoseidonParams F) (s : List F) : List F :=
  (List.range p.T).map (poseidon p.T (fun i j => (p.mds.getD i []).getD j 0)
    (fun r i => (p.roundConstants.getD r []).getD i 0) (p.fullRounds / 2) p.partialRounds
    fun i => s.getD i 0)

/-- The hash of a message: the first output of the duplex construction that has absorbed it. -/
def hashOf (p : PoseidonParams F) (m : List F) : F :=
  (streamAt (poseidonOf p) p.rate (absorbAll (poseidonOf p) p.rate (List.replicate p.T 0) m) 0).getD 0

variable {G HC : Type}

/-- The element `a` is a coefficient of the application trace of the proof. -/
def InTrace (q : Proof F G HC) (a : F) : Prop := ∃ k, a = coeff (q.nativeRx (.rx .application)) k

/-- The element `x` of a leaf is the hash of an element in the trace of a proof of `S`. -/
def HasLeaf (p : PoseidonParams F) (S : Proof F G HC → Prop) (x : F) : Prop :=
  ∃ q a, S q ∧ InTrace q a ∧ x = hashOf p [a]

/-- The element `x` of a node is the hash of the hashes of two elements in the traces of proofs of `S`. -/
def HasLeaves (p : PoseidonParams F) (S : Proof F G HC → Prop) (x : F) : Prop :=
  ∃ q r a b, S q ∧ S r ∧ InTrace q a ∧ InTrace r b ∧ x = hashOf p [hashOf p [a], hashOf p [b]]

end Ragu.Spec

namespace Ragu.Gadget
variable {F α : Type} [Field F]

/-- The code is satisfied with values of `S` for the wires of all its gates and allocations. -/
def Syn.satBy (S : F → Prop) : Syn F α → α → Prop
  | .ret a, r => r = a
  | .gate _ k, r => ∃ a b c d, S a ∧ S b ∧ S c ∧ S d ∧ a * b = c ∧ c * d = 0 ∧ (k a b c d).satBy S r
  | .alloc _ k, r => ∃ v, S v ∧ (k v).satBy S r
  | .enforce v k, r => v = 0 ∧ k.satBy S r
  | .check _ k, r => k.satBy S r
  | .panic, _ => False

end Ragu.Gadget

namespace Ragu.Spec
open Ragu Ragu.Gadget Ragu.Pcd
variable {F : Type} [Field F] [DecidableEq F]

/-- The constraints of the step hold for values of `S`, with the headers `l` and `r` as inputs and `h` as
output. -/
def StepSatBy (S : F → Prop) (N : ℕ) (s : StepProgram F) (l r h : List F) : Prop :=
  ∃ w gl gr go d, (s.code w).satBy S (gl, gr, go, d) ∧ HeaderWires N s.left gl l ∧
    HeaderWires N s.right gr r ∧ HeaderWires N s.output go h

end Ragu.Spec

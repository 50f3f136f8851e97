/-
Model of `ragu_pcd/src/internal/transcript.rs` and of the way the Fiat-Shamir
transcript is driven by the prover (`fuse`) and by the two hash circuits.
-/
import Verif.Model.Gadget.Sponge

namespace Ragu.Transcript
open Ragu Ragu.Circuit Ragu.Gadget

/-- `u128::from_le_bytes` of a chunk of at most 16 bytes padded with zeros,
crates/ragu_pcd/src/internal/transcript.rs:96-97. -/
def leBytes : List UInt8 → ℕ
  | [] => 0
  | b :: bs => b.toNat + 256 * leBytes bs

/-- The field elements absorbed by `Transcript::new` for a tag,
crates/ragu_pcd/src/internal/transcript.rs:90-99; the native `from`/`from_u128` conversions are
the canonical map from the naturals. -/
def tagElems {F : Type} [NatCast F] (tag : List UInt8) : List F :=
  (tag.length : F) :: (Gadget.chunks 16 tag).map fun c => (leBytes c : F)

/-- The bridge commitments absorbed by the transcript, in coordinates. -/
structure Commitments (E : Type) where
  preamble : E × E
  sPrime : E × E
  innerError : E × E
  outerError : E × E
  ab : E × E
  query : E × E
  f : E × E
  eval : E × E

/-- `Commitments` under a function on elements. -/
def Commitments.map {E E' : Type} (g : E → E') (c : Commitments E) : Commitments E' where
  preamble := (g c.preamble.1, g c.preamble.2)
  sPrime := (g c.sPrime.1, g c.sPrime.2)
  innerError := (g c.innerError.1, g c.innerError.2)
  outerError := (g c.outerError.1, g c.outerError.2)
  ab := (g c.ab.1, g c.ab.2)
  query := (g c.query.1, g c.query.2)
  f := (g c.f.1, g c.f.2)
  eval := (g c.eval.1, g c.eval.2)

section
variable {E : Type}
open Sponge

/-- `Point::write` into the transcript (derived, crates/ragu_primitives/src/point.rs:24-33):
x then y; `Buffer::write` absorbs, crates/ragu_pcd/src/internal/transcript.rs:178-182. -/
def writePoint (p : E × E) : List (Op E) := [.absorb p.1, .absorb p.2]

/-- `Transcript::new`, crates/ragu_pcd/src/internal/transcript.rs:84-102, as calls on the
sponge. -/
def newOps (tag : List E) : List (Op E) := tag.map .absorb

/-- The transcript calls of `fuse`, crates/ragu_pcd/src/fuse/mod.rs:63-167: challenges
w; y, z; μ, ν; μ', ν'; x; α; u; β. -/
def proverOps (tag : List E) (c : Commitments E) : List (Op E) :=
  newOps tag ++
  writePoint c.preamble ++ [.squeeze] ++
  writePoint c.sPrime ++ [.squeeze, .squeeze] ++
  writePoint c.innerError ++ [.squeeze, .squeeze] ++
  writePoint c.outerError ++ [.squeeze, .squeeze] ++
  writePoint c.ab ++ [.squeeze] ++
  writePoint c.query ++ [.squeeze] ++
  writePoint c.f ++ [.squeeze] ++
  writePoint c.eval ++ [.squeeze]

/-- The transcript calls of the first hash circuit before `save_state`,
crates/ragu_pcd/src/internal/native/circuits/hashes_1.rs:231-288: challenges w; y, z. -/
def hashes1Ops (tag : List E) (c : Commitments E) : List (Op E) :=
  newOps tag ++
  writePoint c.preamble ++ [.squeeze] ++
  writePoint c.sPrime ++ [.squeeze, .squeeze] ++
  writePoint c.innerError

/-- The transcript calls of the second hash circuit after `resume_from_state`,
crates/ragu_pcd/src/internal/native/circuits/hashes_2.rs:168-224. `into_transcript` keeps the
sponge (its assertion holds as two challenges were squeezed). -/
def hashes2Ops (c : Commitments E) : List (Op E) :=
  [.squeeze, .squeeze] ++
  writePoint c.outerError ++ [.squeeze, .squeeze] ++
  writePoint c.ab ++ [.squeeze] ++
  writePoint c.query ++ [.squeeze] ++
  writePoint c.f ++ [.squeeze] ++
  writePoint c.eval ++ [.squeeze]

end

variable {F : Type} [Field F] [DecidableEq F]

/-- `Gadget::enforce_equal` on sponge states: wire by wire
(crates/ragu_pcd/src/internal/native/circuits/hashes_1.rs:284-287). Both sides have the same
type-level length. -/
def enforceEqualStates : List (Element F) → List (Element F) → Syn F Unit
  | [], [] => return ()
  | a :: as, b :: bs => do
    enforceEqual a.wire b.wire
    enforceEqualStates as bs
  | _, _ => .panic

/-- The transcript part of the first hash circuit,
crates/ragu_pcd/src/internal/native/circuits/hashes_1.rs:231-290; `staged` is
`outer_error.sponge_state`. Returns the challenges. -/
def hashes1 (p : PoseidonParams F) (tag : List UInt8) (c : Commitments (Element F))
    (staged : List (Element F)) : Syn F (List (Except SpongeErr (Element F))) := do
  let (outs, m) ← Sponge.run Element.add (Poseidon.permutation p) p.rate
    (hashes1Ops ((tagElems tag).map Element.constant) c) (Sponge.new Element.zero p.T)
  let s ← Sponge.saveState Element.add (Poseidon.permutation p) p.rate m
  match s with
  | .error _ => .panic
  | .ok st => do
    enforceEqualStates st staged
    return outs

/-- The transcript part of the second hash circuit,
crates/ragu_pcd/src/internal/native/circuits/hashes_2.rs:165-224. Returns the challenges. -/
def hashes2 (p : PoseidonParams F) (c : Commitments (Element F)) (staged : List (Element F)) :
    Syn F (List (Except SpongeErr (Element F))) := do
  let (outs, _) ← Sponge.run Element.add (Poseidon.permutation p) p.rate (hashes2Ops c)
    (Sponge.resume p.rate staged)
  return outs

end Ragu.Transcript

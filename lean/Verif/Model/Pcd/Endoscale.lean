/-
Model of `ragu_pcd/src/internal/endoscalar.rs`: the endoscaling steps.
-/
import Verif.Model.Pcd.App
import Verif.Model.Gadget.Endoscalar

namespace Ragu.Pcd
open Ragu Ragu.Gadget

/-- `InputsLen::len`, crates/ragu_pcd/src/internal/endoscalar.rs:47-52; `none` is the failed constant
assertion. -/
def inputsLen (numPoints : ℕ) : Option ℕ := if numPoints > 0 then some (numPoints - 1) else none

/-- `PointsWitness`, crates/ragu_pcd/src/internal/endoscalar.rs:101-108. -/
structure PointsWitness (P : Type) where
  initial : P
  inputs : List P
  interstitials : List P

section
variable {R P : Type} [Ring R] [AddCommGroup P] [Module R P]

/-- The inner loop, crates/ragu_pcd/src/internal/endoscalar.rs:140-142. The windowed multiplication
of the `group` crate is modelled as the scalar multiplication it computes. -/
def hornerChunk (scalar : R) (acc : P) : List P → P
  | [] => acc
  | input :: rest => hornerChunk scalar (scalar • acc + input) rest

/-- The outer loop, crates/ragu_pcd/src/internal/endoscalar.rs:139-144. -/
def hornerChunks (scalar : R) (acc : P) : List (List P) → List P
  | [] => []
  | chunk :: rest =>
    let acc := hornerChunk scalar acc chunk
    acc :: hornerChunks scalar acc rest

/-- `PointsWitness::new`, crates/ragu_pcd/src/internal/endoscalar.rs:122-159; `none` is a panic. The
projective coordinates and their normalisation are not modelled. -/
def PointsWitness.new (nbits : ℕ) (zeta : R) (numPoints endoscalar : ℕ) (points : List P) :
    Option (PointsWitness P) :=
  if points.length ≠ numPoints then none
  else match points with
  | [] => none
  | initial :: points =>
    let scalar := liftNative nbits zeta endoscalar
    let interstitials :=
      if points.isEmpty then [initial]
      else hornerChunks scalar initial (Gadget.chunks ENDOSCALINGS_PER_STEP points)
    if some interstitials.length = numSteps numPoints then some ⟨initial, points, interstitials⟩
    else none

end

/-- `EndoscalingStep::new`, crates/ragu_pcd/src/internal/endoscalar.rs:230-242. -/
def EndoscalingStep.new (numPoints step : ℕ) : Option ℕ := do
  let n ← numSteps numPoints
  if step < n then some step else none

/-- `EndoscalingStep::input_range`, crates/ragu_pcd/src/internal/endoscalar.rs:245-249, as the start
and the end of the range. -/
def inputRange (numPoints step : ℕ) : ℕ × ℕ :=
  let start := step * ENDOSCALINGS_PER_STEP
  (start, min (start + ENDOSCALINGS_PER_STEP) (numPoints - 1))

/-- The indices a range iterates over. -/
def rangeList (r : ℕ × ℕ) : List ℕ := (List.range (r.2 - r.1)).map (r.1 + ·)

section
variable {F : Type} [Field F] [DecidableEq F]

/-- `Gadget::enforce_equal` of points: the coordinates in order. -/
def pointEnforceEqual (p q : Gadget.Point F) : Syn F Unit := do
  enforceEqual p.x.wire q.x.wire
  enforceEqual p.y.wire q.y.wire

/-- Indexing, which panics out of bounds. -/
def indexSyn {α : Type} (l : List α) (i : ℕ) : Syn F α :=
  match l[i]? with
  | some a => .ret a
  | none => .panic

/-- The Horner loop, crates/ragu_pcd/src/internal/endoscalar.rs:311-314. -/
def stepLoop (nbits : ℕ) (zeta : F) (e : Endoscalar F) (inputs : List (Gadget.Point F)) :
    List ℕ → Gadget.Point F → Element F → Syn F (Gadget.Point F × Element F)
  | [], acc, nonzero => return (acc, nonzero)
  | idx :: rest, acc, nonzero => do
    let scaled ← e.groupScale nbits zeta acc
    let input ← indexSyn inputs idx
    let (acc, nz) ← scaled.addIncomplete input (some nonzero)
    stepLoop nbits zeta e inputs rest acc (nz.getD nonzero)

/-- `EndoscalingStep::witness`, crates/ragu_pcd/src/internal/endoscalar.rs:277-323, after the stages
are loaded: `e` and `points` are the gadgets on the wires of the two stages, which this circuit does
not constrain by itself. -/
def stepCircuit (nbits : ℕ) (zeta : F) (numPoints step : ℕ) (e : Endoscalar F)
    (points : PointsWitness (Gadget.Point F)) : Syn F Unit := do
  let acc ← (if step = 0 then .ret points.initial else indexSyn points.interstitials (step - 1))
  let range := inputRange numPoints step
  if range.1 < range.2 then do
    let (acc, nonzero) ← stepLoop nbits zeta e points.inputs (rangeList range) acc .one
    let _ ← nonzero.invert
    let out ← indexSyn points.interstitials step
    pointEnforceEqual acc out
  else .panic

end
end Ragu.Pcd

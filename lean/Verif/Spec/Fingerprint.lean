/-
What the code of a routine consists of, independently of the driver that computes fingerprints.
-/
import Verif.Model.Fingerprint
import Mathlib.Algebra.Module.Basic
import Mathlib.Data.Finsupp.SMul

namespace Ragu.Spec
open Ragu Ragu.Circuit
variable {F : Type} [Field F] {M : Type} [AddCommGroup M] [Module F M]

/-- The names of the wires in the body of a routine: the constant, its inputs, the wires of its own gates,
and the outputs of the calls that it makes. -/
inductive Name where
  | one
  | input (i : ℕ)
  | gate (n : ℕ) (k : Kind)
  | output (call i : ℕ)
deriving DecidableEq

/-- Places for the wires: the constant, and the wires of a sequence of gates. -/
inductive Sym where
  | one
  | wire (k : Kind) (gate : ℕ)
deriving DecidableEq

/-- Two wires to a gate: the place of the `i`-th of some new wires that start at a gate. -/
def placeOf (gate i : ℕ) : Sym := .wire (if i % 2 = 0 then .b else .d) (gate + i / 2)

/-- The values of the wires of a reference. -/
def wireVal (one : M) (env : List M) : WRef → M
  | .one => one
  | .idx i => env.getD i 0

/-- The value of a linear combination. -/
def lcSum (one : M) (env : List M) : F → List (LcStep F WRef) → M
  | _, [] => 0
  | g, .term w c :: r => (c.value * g) • wireVal one env w + lcSum one env g r
  | g, .gain c :: r => lcSum one env (g * c.value) r

/-- A body half-way: the number of own gates, the next place, the number of calls, the spare wire, the
wires and the constraints so far. -/
structure Body (M : Type) where
  own : ℕ := 0
  next : ℕ := 0
  calls : ℕ := 0
  spare : Option M := none
  env : List M := []
  rows : List M := []

/-- What code does, for values `α` of its wires by name and place: only the code itself, with the outputs
of calls like inputs. -/
def walk (α : Name → Sym → M) : Code F → Body M → Body M
  | .done, s => s
  | .gate k, s => walk α k { s with
      own := s.own + 1, next := s.next + 1,
      env := s.env ++ [.a, .b, .c, .d].map fun j => α (.gate s.own j) (.wire j s.next) }
  | .mul k, s => walk α k { s with
      own := s.own + 1, next := s.next + 1,
      env := s.env ++ [.a, .b, .c].map fun j => α (.gate s.own j) (.wire j s.next) }
  | .alloc k, s => match s.spare with
    | some w => walk α k { s with spare := none, env := s.env ++ [w] }
    | none => walk α k { s with
        own := s.own + 1, next := s.next + 1, spare := some (α (.gate s.own .d) (.wire .d s.next)),
        env := s.env ++ [α (.gate s.own .b) (.wire .b s.next)] }
  | .add lc k, s => walk α k { s with env := s.env ++ [lcSum (α .one .one) s.env 1 lc] }
  | .enforce lc k, s => walk α k { s with rows := s.rows ++ [lcSum (α .one .one) s.env 1 lc] }
  | .call _ _ _ output k, s => walk α k { s with
      next := s.next + (output.length + 1) / 2, calls := s.calls + 1,
      env := s.env ++ (List.range output.length).map fun i => α (.output s.calls i) (placeOf s.next i) }

/-- The body of a routine with `nin` input wires. -/
def bodyOf (α : Name → Sym → M) (nin : ℕ) (c : Code F) : Body M :=
  walk α c { next := (nin + 1) / 2,
             env := (List.range nin).map fun i => α (.input i) (placeOf 0 i) }

/-- The values of the constraints of a routine's own code for given values of its inputs, of its gates'
wires and of what the calls it makes return. -/
def constraintValues (φ : Name → F) (nin : ℕ) (c : Code F) : List F :=
  (bodyOf (fun name _ => φ name) nin c).rows

/-- The constraints of a routine's own code as linear forms in the places of its wires. -/
noncomputable def constraintForms (nin : ℕ) (c : Code F) : List (Sym →₀ F) :=
  (bodyOf (fun _ place => Finsupp.single place 1) nin c).rows

/-- The value of a place at the points. -/
def atPoints (P : FpPoints F) : Sym → F
  | .one => P.one
  | .wire .a i => P.x0 ^ (i + 1)
  | .wire .b i => P.x1 ^ (i + 1)
  | .wire .c i => P.x2 ^ (i + 1)
  | .wire .d i => P.x3 ^ (i + 1)

/-- A polynomial in `y` with the leading coefficient `h` and these other coefficients. -/
def monicAt (h y : F) (rows : List F) : F := rows.foldl (fun acc r => acc * y + r) h

/-- The scalar of a routine. -/
def scalarOf (P : FpPoints F) (nin : ℕ) (c : Code F) : F :=
  monicAt P.h P.y (bodyOf (fun _ place => atPoints P place) nin c).rows

/-- The number of own gates and of own constraints of a routine. -/
def countsOf (c : Code F) : ℕ × ℕ :=
  let b := bodyOf (M := F) (fun _ _ => 0) 0 c
  (b.own, b.rows.length)

/-- The fingerprint of a routine. -/
def fingerprintOf (P : FpPoints F) (low : F → ℕ) (kinds : ℕ × ℕ) (nin : ℕ) (c : Code F) : Fingerprint :=
  ⟨kinds.1, kinds.2, low (scalarOf P nin c), (countsOf c).1, (countsOf c).2⟩

/-- The records of the calls that code makes, and of those made by them, in the order in which they
start. -/
def recordsOf (P : FpPoints F) (low : F → ℕ) : Code F → List SegmentRecord
  | .done => []
  | .gate k => recordsOf P low k
  | .mul k => recordsOf P low k
  | .alloc k => recordsOf P low k
  | .add _ k => recordsOf P low k
  | .enforce _ k => recordsOf P low k
  | .call kinds input body _ k =>
    ⟨(countsOf body).1, (countsOf body).2, some (fingerprintOf P low kinds input.length body)⟩ ::
      (recordsOf P low body ++ recordsOf P low k)

/-- The number of wires after code that starts with `n`. -/
def wiresAfter : Code F → ℕ → ℕ
  | .done, n => n
  | .gate k, n => wiresAfter k (n + 4)
  | .mul k, n => wiresAfter k (n + 3)
  | .alloc k, n => wiresAfter k (n + 1)
  | .add _ k, n => wiresAfter k (n + 1)
  | .enforce _ k, n => wiresAfter k n
  | .call _ _ _ output k, n => wiresAfter k (n + output.length)

/-- A reference to one of `n` wires. -/
def RefBelow (n : ℕ) : WRef → Prop
  | .one => True
  | .idx i => i < n

/-- A linear combination of some of `n` wires. -/
def LcBelow (n : ℕ) (lc : List (LcStep F WRef)) : Prop :=
  ∀ st ∈ lc, match st with
    | .term w _ => RefBelow n w
    | .gain _ => True

/-- Code that uses only wires it has, starting with `n`: all code that the compiler accepts. -/
def UsesOwn : Code F → ℕ → Prop
  | .done, _ => True
  | .gate k, n => UsesOwn k (n + 4)
  | .mul k, n => UsesOwn k (n + 3)
  | .alloc k, n => UsesOwn k (n + 1)
  | .add lc k, n => LcBelow n lc ∧ UsesOwn k (n + 1)
  | .enforce lc k, n => LcBelow n lc ∧ UsesOwn k n
  | .call _ input body output k, n => (∀ w ∈ input, RefBelow n w) ∧ UsesOwn body input.length ∧
      (∀ w ∈ output, RefBelow (wiresAfter body input.length) w) ∧ UsesOwn k (n + output.length)

/-- A step of a routine that creates wires: a gate or a call with some number of outputs. -/
inductive Step where
  | gate
  | call (outputs : ℕ)
deriving DecidableEq

/-- The gates and calls of code in order; `spare` says whether there is a spare wire from the last
single allocation. -/
def steps (spare : Bool) : Code F → List Step
  | .done => []
  | .gate k => .gate :: steps spare k
  | .mul k => .gate :: steps spare k
  | .alloc k => if spare then steps false k else .gate :: steps true k
  | .add _ k => steps spare k
  | .enforce _ k => steps spare k
  | .call _ _ _ output k => .call output.length :: steps spare k

/-- Code without calls. -/
def NoCalls : Code F → Prop
  | .done => True
  | .gate k => NoCalls k
  | .mul k => NoCalls k
  | .alloc k => NoCalls k
  | .add _ k => NoCalls k
  | .enforce _ k => NoCalls k
  | .call .. => False

/-- Code that differs only in what the calls it makes do, in what they are given, and in their types. -/
def SameOutside : Code F → Code F → Prop
  | .done, .done => True
  | .gate k, .gate k' => SameOutside k k'
  | .mul k, .mul k' => SameOutside k k'
  | .alloc k, .alloc k' => SameOutside k k'
  | .add lc k, .add lc' k' => lc = lc' ∧ SameOutside k k'
  | .enforce lc k, .enforce lc' k' => lc = lc' ∧ SameOutside k k'
  | .call _ _ _ output k, .call _ _ _ output' k' => output.length = output'.length ∧ SameOutside k k'
  | _, _ => False

/-- The number of places and constraints of a routine, plus one: it bounds the degree of the scalar. -/
def spanOf (nin : ℕ) (c : Code F) : ℕ := (bodyOf (M := F) (fun _ _ => 0) nin c).next + (countsOf c).2 + 1

/-- Points from seven field elements. -/
def pointsOf (x : Fin 7 → F) : FpPoints F :=
  { x0 := x 0, x1 := x 1, x2 := x 2, x3 := x 3, y := x 4, h := x 5, one := x 6 }

end Ragu.Spec

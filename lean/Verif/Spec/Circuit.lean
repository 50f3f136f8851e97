/-
Specification of what a circuit program *means*, independent of the evaluators.

A program creates gates.  Each gate of each segment (a segment is one routine
call; segment 0 is the root, numbered in the order calls start) has four base
wires.  `alloc` hands out the `b` wire of a fresh gate and then its spare `d`
wire.  Every other wire is a linear combination.  Each `enforce_zero` is one
linear constraint.  Given an assignment `φ` of values to base wires the program
therefore determines a value for every wire and for every constraint.
-/
import Verif.Model.Driver

namespace Ragu.Circuit

/-- The four wires of a gate. -/
inductive Kind where
  | a | b | c | d
deriving DecidableEq

/-- A base wire: which wire, of which gate (by position) of which segment. -/
structure Base where
  kind : Kind
  seg : ℕ
  loc : ℕ
deriving DecidableEq

/-- Where synthesis stands: the current segment, the number of segments opened so
far, gates and constraints of the current segment so far, and the gate whose
spare `d` wire is still unused. -/
structure Pos where
  seg : ℕ := 0
  nseg : ℕ := 1
  gates : ℕ := 0
  cons : ℕ := 0
  pend : Option ℕ := none
deriving DecidableEq

namespace Pos
def gate (p : Pos) : Pos := { p with gates := p.gates + 1 }
def alloc (p : Pos) : Pos := match p.pend with
  | some _ => { p with pend := none }
  | none => { p with gates := p.gates + 1, pend := some p.gates }
def allocBase (p : Pos) : Base := match p.pend with
  | some i => ⟨.d, p.seg, i⟩
  | none => ⟨.b, p.seg, p.gates⟩
def enforce (p : Pos) : Pos := { p with cons := p.cons + 1 }
def enter (p : Pos) : Pos := { seg := p.nseg, nseg := p.nseg + 1 }
def leave (p e : Pos) : Pos := { p with nseg := e.nseg }
end Pos

/-- One enforced constraint: segment, position within the segment, value. -/
structure Row (F : Type) where
  seg : ℕ
  loc : ℕ
  val : F

/-- State of the meaning function: position and the constraints so far. -/
structure Sem (F : Type) where
  pos : Pos := {}
  log : List (Row F) := []

section
variable {F : Type} [Field F]

/-- The value of a linear combination: terms are summed with their coefficient
times the product of all gains seen before them. -/
def lcVal : F → List (LcStep F F) → F
  | _, [] => 0
  | g, .term w c :: r => c.value * g * w + lcVal g r
  | g, .gain c :: r => lcVal (g * c.value) r

/-- The meaning of each driver call under the assignment `φ`. -/
def semD (φ : Base → F) : Driver F F (Sem F) where
  one := φ ⟨.b, 0, 0⟩
  gate _ _ _ _ s :=
    let p := s.pos
    .ok ({ s with pos := p.gate }, φ ⟨.a, p.seg, p.gates⟩, φ ⟨.b, p.seg, p.gates⟩,
      φ ⟨.c, p.seg, p.gates⟩, φ ⟨.d, p.seg, p.gates⟩)
  mul _ _ _ s :=
    let p := s.pos
    .ok ({ s with pos := p.gate }, φ ⟨.a, p.seg, p.gates⟩, φ ⟨.b, p.seg, p.gates⟩,
      φ ⟨.c, p.seg, p.gates⟩)
  alloc _ s := .ok ({ s with pos := s.pos.alloc }, φ s.pos.allocBase)
  add lc s := .ok (s, lcVal 1 lc)
  enforce lc s := .ok { pos := s.pos.enforce,
                        log := s.log ++ [⟨s.pos.seg, s.pos.cons, lcVal 1 lc⟩] }
  enter _ s := .ok { pos := s.pos.enter, log := [] }
  leave _ s e := .ok { pos := s.pos.leave e.pos, log := s.log ++ e.log }
  clone _ s := .ok s
  drop _ s := .ok s

/-- All constraints of a circuit, valued under `φ`, in the order enforced. -/
def constraints (φ : Base → F) (c : Circ F) : List (Row F) :=
  match orchestrate (semD φ) c {} with
  | .ok (s, _) => s.log
  | .error _ => []

/-- A segment's place: where its gates and constraints start and how many there
are. -/
structure Seg where
  gateStart : ℕ
  consStart : ℕ
  numGates : ℕ
  numCons : ℕ
deriving DecidableEq

/-- The exponent of `X` attached to gate `i`'s wires in a wiring polynomial with
`n` gates of capacity. -/
def wiringExp (n : ℕ) (i : ℕ) : Kind → ℕ
  | .a => 2 * n - 1 - i
  | .b => 2 * n + i
  | .c => 4 * n - 1 - i
  | .d => i

/-- Absolute gate index of a base wire under a floor plan. -/
def absGate (fp : List Seg) (b : Base) : ℕ :=
  (fp[b.seg]?.map Seg.gateStart).getD 0 + b.loc

/-- The exponent of `Y` attached to constraint `k` of segment `s`. -/
def consExp (fp : List Seg) (s k : ℕ) : ℕ :=
  (fp[s]?.map fun sg => sg.consStart + sg.numCons - 1 - k).getD 0

/-- Weighted sum of constraint values. -/
def weigh (fp : List Seg) (y : F) (log : List (Row F)) : F :=
  (log.map fun r => y ^ consExp fp r.seg r.loc * r.val).sum

/-- The wiring polynomial `s(x, y)`: every constraint, with wires replaced by
their monomials in `x`, weighted by its monomial in `y`. -/
def wiringAt (n : ℕ) (fp : List Seg) (c : Circ F) (x y : F) : F :=
  weigh fp y (constraints (fun b => x ^ wiringExp n (absGate fp b) b.kind) c)

end

/-! ### Well-formed use of wires

Safe Rust guarantees that a wire is only used while a handle to it is alive and
that every handle is dropped exactly once.  `handles` tracks live handles. -/

section
variable {F : Type}

/-- A reference that may be used. -/
def usable (h : List ℕ) : WRef → Bool
  | .one => true
  | .idx i => decide (0 < h.getD i 0)

def usableLc (h : List ℕ) (lc : List (LcStep F WRef)) : Bool :=
  lc.all fun st => match st with
    | .term w _ => usable h w
    | .gain _ => true

/-- Live handle counts after running a program, `none` on a use after drop. -/
def handles : Prog F → List ℕ → Option (List ℕ)
  | .done, h => some h
  | .gate _ _ _ _ k, h => handles k (h ++ [1, 1, 1, 1])
  | .mul _ _ _ k, h => handles k (h ++ [1, 1, 1])
  | .alloc _ k, h => handles k (h ++ [1])
  | .add lc k, h => if usableLc h lc then handles k (h ++ [1]) else none
  | .enforce lc k, h => if usableLc h lc then handles k h else none
  | .routine _ b k, h => (handles b h).bind (handles k)
  | .clone w k, h => if 0 < h.getD w 0 then handles k (h.set w (h.getD w 0 + 1)) else none
  | .drop w k, h => if 0 < h.getD w 0 then handles k (h.set w (h.getD w 0 - 1)) else none

/-- Every wire is used only while alive, and every handle is dropped by the end. -/
def Circ.WellUsed (c : Circ F) : Prop :=
  ∃ h, handles c.main [] = some h ∧ ∀ i ∈ h, i = 0

end

/-! ### Static counts -/

section
variable {F : Type}

/-- The position after a program. -/
def posRun : Prog F → Pos → Pos
  | .done, p => p
  | .gate _ _ _ _ k, p => posRun k p.gate
  | .mul _ _ _ k, p => posRun k p.gate
  | .alloc _ k, p => posRun k p.alloc
  | .add _ k, p => posRun k p
  | .enforce _ k, p => posRun k p.enforce
  | .routine _ b k, p => posRun k (p.leave (posRun b p.enter))
  | .clone _ k, p => posRun k p
  | .drop _ k, p => posRun k p

/-- Gate and constraint counts of every routine call inside a program, in the
order the calls start (nested calls follow their parent). -/
def subCounts : Prog F → List (ℕ × ℕ)
  | .done => []
  | .gate _ _ _ _ k => subCounts k
  | .mul _ _ _ k => subCounts k
  | .alloc _ k => subCounts k
  | .add _ k => subCounts k
  | .enforce _ k => subCounts k
  | .routine _ b k =>
    let e := posRun b {}
    (e.gates, e.cons) :: (subCounts b ++ subCounts k)
  | .clone _ k => subCounts k
  | .drop _ k => subCounts k

/-- Gate and constraint counts of every segment of a circuit; the root's count
includes the SYSTEM gate. -/
def Circ.counts (c : Circ F) : List (ℕ × ℕ) :=
  let e := posRun c.main (Pos.gate {})
  (e.gates, e.cons) :: subCounts c.main

def totalGates (rs : List (ℕ × ℕ)) : ℕ := (rs.map Prod.fst).sum
def totalCons (rs : List (ℕ × ℕ)) : ℕ := (rs.map Prod.snd).sum

end
end Ragu.Circuit

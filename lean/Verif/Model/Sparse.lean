/-
Model of `ragu_circuits/src/polynomials/sparse/mod.rs` and `sparse/view.rs`.

A polynomial is its block list; the rank enters through `N = R::num_coeffs()`
(and `n = R::n()` for views).  A panic (`assert!`, slice out of range) is `none`.
-/
import Mathlib.Algebra.Field.Basic
import Verif.Spec.Sparse

namespace Ragu.Sparse

/-- One `(start_index, values)` block, crates/ragu_circuits/src/polynomials/sparse/mod.rs:65. -/
abbrev Block (F : Type*) := ℕ × List F

/-- `Polynomial.blocks`, crates/ragu_circuits/src/polynomials/sparse/mod.rs:63-67. -/
abbrev Poly (F : Type*) := List (Block F)

/-- `GAP_TOLERANCE`, crates/ragu_circuits/src/polynomials/sparse/mod.rs:111. -/
def gapTolerance : ℕ := 4

/-- The loop of `assert_invariants`, crates/ragu_circuits/src/polynomials/sparse/mod.rs:73-89.
`first` is `i == 0`, for which the overlap check is skipped. -/
def assertLoop {F : Type*} (N : ℕ) : Bool → ℕ → Poly F → Bool
  | _, _, [] => true
  | first, prevEnd, (start, data) :: rest =>
      !data.isEmpty && decide (start + data.length ≤ N) &&
        (first || decide (start ≥ prevEnd)) && assertLoop N false (start + data.length) rest

/-- `assert_invariants`, crates/ragu_circuits/src/polynomials/sparse/mod.rs:73-89
(`true` = no panic). -/
def assertInvariants {F : Type*} (N : ℕ) (p : Poly F) : Bool := assertLoop N true 0 p

/-- `from_blocks`, crates/ragu_circuits/src/polynomials/sparse/mod.rs:93-100. -/
def fromBlocks {F : Type*} (N : ℕ) (p : Poly F) : Option (Poly F) :=
  if assertInvariants N p then some p else none

section
variable {F : Type*} [Field F] [DecidableEq F]

/-- The loop of `extend_runs`, crates/ragu_circuits/src/polynomials/sparse/mod.rs:122-148.
Arguments: `pos = base + i`, `run_start`, `run`, `zero_count`, remaining data.
Returns the blocks pushed to `out`. -/
def runsLoop : ℕ → Option ℕ → List F → ℕ → List F → Poly F
  | _, none, _, _, [] => []
  | _, some s, run, _, [] => [(s, run)]
  | pos, none, run, zc, c :: cs =>
      if c = 0 then runsLoop (pos + 1) none run zc cs
      else runsLoop (pos + 1) (some pos) (run ++ [c]) zc cs
  | pos, some s, run, zc, c :: cs =>
      if c = 0 then
        if zc + 1 > gapTolerance then (s, run) :: runsLoop (pos + 1) none [] 0 cs
        else runsLoop (pos + 1) (some s) run (zc + 1) cs
      else runsLoop (pos + 1) (some s) (run ++ List.replicate zc 0 ++ [c]) 0 cs

/-- `extend_runs`, crates/ragu_circuits/src/polynomials/sparse/mod.rs:117-149. -/
def extendRuns (out : Poly F) (base : ℕ) (data : List F) : Poly F :=
  out ++ runsLoop base none [] 0 data

/-- `from_coeffs`, crates/ragu_circuits/src/polynomials/sparse/mod.rs:173-184. -/
def fromCoeffs (N : ℕ) (coeffs : List F) : Option (Poly F) :=
  if coeffs.length ≤ N then fromBlocks N (extendRuns [] 0 coeffs) else none

/-- `random`, crates/ragu_circuits/src/polynomials/sparse/mod.rs:187-191, with the
sampled values as an argument. -/
def random (N : ℕ) (coeffs : List F) : Option (Poly F) :=
  if N > 0 then fromBlocks N [(0, coeffs)] else none

/-- `apply_all`, crates/ragu_circuits/src/polynomials/sparse/mod.rs:196-202. -/
def applyAll (op : F → F) (p : Poly F) : Poly F := p.map fun b => (b.1, b.2.map op)

/-- One inner `while` of the cluster extension,
crates/ragu_circuits/src/polynomials/sparse/mod.rs:259-263 (lhs) and 264-268 (rhs):
consume blocks starting at or before the cluster end.  Returns (consumed,
remaining, new end). -/
def absorb (e : ℕ) : Poly F → Poly F × Poly F × ℕ
  | [] => ([], [], e)
  | b :: bs =>
      if b.1 ≤ e then
        let r := absorb (max e (b.1 + b.2.length)) bs
        (b :: r.1, r.2.1, r.2.2)
      else ([], b :: bs, e)

/-- Result of growing a cluster: the lhs/rhs blocks in it, what remains, its end. -/
structure Cluster (F : Type*) where
  lc : Poly F
  rc : Poly F
  lhs : Poly F
  rhs : Poly F
  fin : ℕ

/-- The cluster `loop`, crates/ragu_circuits/src/polynomials/sparse/mod.rs:257-272.
`fuel` bounds the number of rounds; `none` = out of fuel (never happens, see
the theorems about `combineAssign`). -/
def clusterLoop : ℕ → ℕ → Poly F → Poly F → Poly F → Poly F → Option (Cluster F)
  | 0, _, _, _, _, _ => none
  | fuel + 1, e, lc, rc, lhs, rhs =>
      let l := absorb e lhs
      let r := absorb l.2.2 rhs
      if l.1 = [] ∧ r.1 = [] then some ⟨lc, rc, lhs, rhs, e⟩
      else clusterLoop fuel r.2.2 (lc ++ l.1) (rc ++ r.1) l.2.1 r.2.1

/-- `data[off..off+len].copy_from_slice(ld)`,
crates/ragu_circuits/src/polynomials/sparse/mod.rs:294-297; `none` if out of range. -/
def copyBlocks (cs : ℕ) (data : List F) : Poly F → Option (List F)
  | [] => some data
  | (s, d) :: bs =>
      if cs ≤ s ∧ (s - cs) + d.length ≤ data.length then
        copyBlocks cs (data.take (s - cs) ++ d ++ data.drop (s - cs + d.length)) bs
      else none

/-- Applying the rhs blocks, crates/ragu_circuits/src/polynomials/sparse/mod.rs:302-307. -/
def applyBlocks (op : F → F → F) (cs : ℕ) (data : List F) : Poly F → Option (List F)
  | [] => some data
  | (s, d) :: bs =>
      if cs ≤ s ∧ (s - cs) + d.length ≤ data.length then
        applyBlocks op cs
          (data.take (s - cs) ++
            List.zipWith op ((data.drop (s - cs)).take d.length) d ++
            data.drop (s - cs + d.length)) bs
      else none

/-- `cluster_start`, crates/ragu_circuits/src/polynomials/sparse/mod.rs:246-251
(`none`: both lists exhausted). -/
def clusterStart (lhs rhs : Poly F) : Option ℕ :=
  match lhs, rhs with
  | l :: _, r :: _ => some (min l.1 r.1)
  | l :: _, [] => some l.1
  | [], r :: _ => some r.1
  | [], [] => none

/-- The cluster's initial buffer,
crates/ragu_circuits/src/polynomials/sparse/mod.rs:287-299: reuse a single
covering lhs block, otherwise copy into zeros. -/
def clusterData (cs len : ℕ) (lc : Poly F) : Option (List F) :=
  match lc with
  | [(s, d)] =>
      if s = cs ∧ d.length = len then some d
      else copyBlocks cs (List.replicate len 0) lc
  | _ => copyBlocks cs (List.replicate len 0) lc

/-- The outer `while` of `combine_assign`,
crates/ragu_circuits/src/polynomials/sparse/mod.rs:244-314. -/
def combineLoop (N : ℕ) (op : F → F → F) : ℕ → Poly F → Poly F → Poly F → Option (Poly F)
  | 0, _, _, _ => none
  | fuel + 1, out, lhs, rhs =>
      match clusterStart lhs rhs with
      | none => some out
      | some cs =>
          (clusterLoop (lhs.length + rhs.length + 1) cs [] [] lhs rhs).bind fun c =>
            if c.rc = [] then combineLoop N op fuel (out ++ c.lc) c.lhs c.rhs
            else
              (clusterData cs (c.fin - cs) c.lc).bind fun data =>
                (applyBlocks op cs data c.rc).bind fun data =>
                  let out' :=
                    if cs = 0 ∧ c.fin - cs = N then out ++ [(cs, data)]
                    else extendRuns out cs data
                  combineLoop N op fuel out' c.lhs c.rhs

/-- `combine_assign`, crates/ragu_circuits/src/polynomials/sparse/mod.rs:220-318.
`none` is a panic of `assert_invariants` or of a slice operation. -/
def combineAssign (N : ℕ) (op : F → F → F) (self other : Poly F) : Option (Poly F) :=
  if other = [] then some self
  else if self = [] then
    fromBlocks N
      (other.foldl (fun out b => extendRuns out b.1 (b.2.map fun r => op 0 r)) [])
  else
    (combineLoop N op (self.length + other.length + 1) [] self other).bind (fromBlocks N)

/-- `scale`, crates/ragu_circuits/src/polynomials/sparse/mod.rs:321-327. -/
def scale (p : Poly F) (by_ : F) : Poly F := if by_ = 0 then [] else applyAll (· * by_) p

/-- `add_assign`, crates/ragu_circuits/src/polynomials/sparse/mod.rs:330-332. -/
def addAssign (N : ℕ) (p q : Poly F) : Option (Poly F) := combineAssign N (fun a b => a + b) p q

/-- `sub_assign`, crates/ragu_circuits/src/polynomials/sparse/mod.rs:335-337. -/
def subAssign (N : ℕ) (p q : Poly F) : Option (Poly F) := combineAssign N (fun a b => a - b) p q

/-- `negate`, crates/ragu_circuits/src/polynomials/sparse/mod.rs:340-342. -/
def negate (p : Poly F) : Poly F := applyAll (fun x => -x) p

/-- `fold`, crates/ragu_circuits/src/polynomials/sparse/mod.rs:350-356. -/
def fold (N : ℕ) (polys : List (Poly F)) (s : F) : Option (Poly F) :=
  polys.foldl (fun acc p => acc.bind fun a => addAssign N (scale a s) p) (some [])

/-- The block loop of `eval`, crates/ragu_circuits/src/polynomials/sparse/mod.rs:362-371,
over the reversed blocks; state `(result, prev_start)`. -/
def evalLoop (z : F) : F → ℕ → Poly F → F × ℕ
  | result, prevStart, [] => (result, prevStart)
  | result, prevStart, (start, data) :: rest =>
      let gap := prevStart - (start + data.length)
      let result := if gap > 0 then result * z ^ gap else result
      let result := data.reverse.foldl (fun r c => r * z + c) result
      evalLoop z result start rest

/-- `eval`, crates/ragu_circuits/src/polynomials/sparse/mod.rs:359-376. -/
def eval (N : ℕ) (p : Poly F) (z : F) : F :=
  let r := evalLoop z 0 N p.reverse
  if r.2 > 0 then r.1 * z ^ r.2 else r.1

/-- The inner loop of `dilate`, crates/ragu_circuits/src/polynomials/sparse/mod.rs:388-391:
returns the new data and the final power. -/
def dilateData (z : F) : F → List F → List F × F
  | power, [] => ([], power)
  | power, c :: cs =>
      let r := dilateData z (power * z) cs
      (c * power :: r.1, r.2)

/-- The block loop of `dilate`, crates/ragu_circuits/src/polynomials/sparse/mod.rs:383-393. -/
def dilateLoop (z : F) : F → ℕ → Poly F → Poly F
  | _, _, [] => []
  | power, prevEnd, (start, data) :: rest =>
      let gap := start - prevEnd
      let power := if gap > 0 then power * z ^ gap else power
      let r := dilateData z power data
      (start, r.1) :: dilateLoop z r.2 (start + data.length) rest

/-- `dilate`, crates/ragu_circuits/src/polynomials/sparse/mod.rs:380-394. -/
def dilate (p : Poly F) (z : F) : Poly F := dilateLoop z 1 0 p

/-- One step of the `revdot` merge for a pair of blocks,
crates/ragu_circuits/src/polynomials/sparse/mod.rs:412-445: the amount added to
`result`.  Slices are `drop`/`take`. -/
def revdotStep (N : ℕ) (a b : Block F) : F :=
  let maxDeg := N - 1
  let aEnd := a.1 + a.2.length
  let revLo := maxDeg + 1 - b.1 - b.2.length
  let revHi := maxDeg + 1 - b.1
  let lo := max a.1 revLo
  let hi := min aEnd revHi
  if lo < hi then
    let aSlice := (a.2.drop (lo - a.1)).take (hi - lo)
    let bIdxLo := maxDeg - (hi - 1) - b.1
    let bIdxHi := maxDeg - lo - b.1
    let bSlice := (b.2.drop bIdxLo).take (bIdxHi + 1 - bIdxLo)
    (List.zipWith (fun x y => x * y) aSlice bSlice.reverse).foldl (fun r x => r + x) 0
  else 0

/-- The two-pointer merge of `revdot`,
crates/ragu_circuits/src/polynomials/sparse/mod.rs:411-446; the second list is
already reversed (line 409). -/
def revdotLoop (N : ℕ) : F → Poly F → Poly F → F
  | result, [], _ => result
  | result, _ :: _, [] => result
  | result, a :: as, b :: bs =>
      let result := result + revdotStep N a b
      let aEnd := a.1 + a.2.length
      let revHi := N - 1 + 1 - b.1
      if aEnd ≤ revHi then
        if revHi ≤ aEnd then revdotLoop N result as bs
        else revdotLoop N result as (b :: bs)
      else revdotLoop N result (a :: as) bs
termination_by _ a b => a.length + b.length

/-- `revdot`, crates/ragu_circuits/src/polynomials/sparse/mod.rs:402-449. -/
def revdot (N : ℕ) (p q : Poly F) : F := revdotLoop N 0 p q.reverse

/-- One caller operation on a set of polynomial variables, dispatching to the
methods of crates/ragu_circuits/src/polynomials/sparse/mod.rs:173-394.  `none`
is a panic (or a missing variable, which the type checker rules out). -/
def exec (N : ℕ) (op : Spec.PolyOp F) (regs : List (Poly F)) : Option (List (Poly F)) :=
  match op with
  | .fromCoeffs l => (fromCoeffs N l).map fun p => regs ++ [p]
  | .random l => if l.length = N then (random N l).map fun p => regs ++ [p] else none
  | .add i j => do
      let p ← regs[i]?
      let q ← regs[j]?
      let r ← addAssign N p q
      return regs.set i r
  | .sub i j => do
      let p ← regs[i]?
      let q ← regs[j]?
      let r ← subAssign N p q
      return regs.set i r
  | .scale i s => do
      let p ← regs[i]?
      return regs.set i (scale p s)
  | .negate i => do
      let p ← regs[i]?
      return regs.set i (negate p)
  | .dilate i z => do
      let p ← regs[i]?
      return regs.set i (dilate p z)
  | .fold is s => do
      let ps ← is.mapM fun i => regs[i]?
      let r ← fold N ps s
      return regs ++ [r]

/-- A whole history of caller operations, starting with no polynomials
(crates/ragu_circuits/src/polynomials/sparse/mod.rs:173-394). -/
def runHistory (N : ℕ) (ops : List (Spec.PolyOp F)) : Option (List (Poly F)) :=
  ops.foldlM (fun regs op => exec N op regs) []

end

/-! ### Double-ended coefficient iterator -/

/-- `CoeffIter`, crates/ragu_circuits/src/polynomials/sparse/mod.rs:484-492. -/
structure CoeffIter (F : Type*) where
  blocks : Poly F
  front : ℕ
  back : ℕ
  frontBlock : ℕ
  backBlock : ℕ

/-- `iter_coeffs`, crates/ragu_circuits/src/polynomials/sparse/mod.rs:208-216. -/
def iterCoeffs {F : Type*} (N : ℕ) (p : Poly F) : CoeffIter F := ⟨p, 0, N, 0, p.length⟩

/-- `while front_block < blocks.len()` of `next`,
crates/ragu_circuits/src/polynomials/sparse/mod.rs:502-508. -/
def advanceFront {F : Type*} (blocks : Poly F) (front : ℕ) (fb : ℕ) : ℕ :=
  if h : fb < blocks.length then
    if blocks[fb].1 + blocks[fb].2.length > front then fb
    else advanceFront blocks front (fb + 1)
  else fb
termination_by blocks.length - fb

/-- `Iterator::next`, crates/ragu_circuits/src/polynomials/sparse/mod.rs:497-521.
Outer `Option`: `None` at the end of the iteration.  Indexing `data[..]` uses
`getD`; the index is in range whenever that branch is taken (line 504 and 511). -/
def CoeffIter.next {F : Type*} [Field F] (it : CoeffIter F) : Option F × CoeffIter F :=
  if it.front ≥ it.back then (none, it)
  else
    let fb := advanceFront it.blocks it.front it.frontBlock
    let val :=
      match it.blocks[fb]? with
      | some b => if it.front ≥ b.1 then b.2.getD (it.front - b.1) 0 else 0
      | none => 0
    (some val, { it with front := it.front + 1, frontBlock := fb })

/-- `while back_block > 0` of `next_back`,
crates/ragu_circuits/src/polynomials/sparse/mod.rs:536-542. -/
def retreatBack {F : Type*} (blocks : Poly F) (back : ℕ) : ℕ → ℕ
  | 0 => 0
  | bb + 1 =>
      match blocks[bb]? with
      | some b => if b.1 ≤ back then bb + 1 else retreatBack blocks back bb
      | none => bb + 1

/-- `DoubleEndedIterator::next_back`,
crates/ragu_circuits/src/polynomials/sparse/mod.rs:530-554. -/
def CoeffIter.nextBack {F : Type*} [Field F] (it : CoeffIter F) : Option F × CoeffIter F :=
  if it.front ≥ it.back then (none, it)
  else
    let back := it.back - 1
    let bb := retreatBack it.blocks back it.backBlock
    let val :=
      match bb with
      | 0 => 0
      | k + 1 =>
          match it.blocks[k]? with
          | some b => if back < b.1 + b.2.length then b.2.getD (back - b.1) 0 else 0
          | none => 0
    (some val, { it with back := back, backBlock := bb })

/-- A caller's schedule of `next` (`false`) and `next_back` (`true`) calls on the
iterator of crates/ragu_circuits/src/polynomials/sparse/mod.rs:484-555. -/
def CoeffIter.run {F : Type*} [Field F] : List Bool → CoeffIter F → List (Option F)
  | [], _ => []
  | false :: sched, it => it.next.1 :: CoeffIter.run sched it.next.2
  | true :: sched, it => it.nextBack.1 :: CoeffIter.run sched it.nextBack.2

/-! ### Wire views -/

/-- `View`, crates/ragu_circuits/src/polynomials/sparse/view.rs:138-152. -/
structure View (F : Type*) where
  a : List F
  b : List F
  c : List F
  d : List F

/-- `Trace::map_to_blocks`, crates/ragu_circuits/src/polynomials/sparse/view.rs:79-109. -/
def traceBlocks {F : Type*} (n : ℕ) (v : View F) : Poly F :=
  (if v.c.isEmpty then [] else [(0, v.c)]) ++
  (if v.b.isEmpty then [] else [(2 * n - v.b.length, v.b.reverse)]) ++
  (if v.a.isEmpty then [] else [(2 * n, v.a)]) ++
  (if v.d.isEmpty then [] else [(4 * n - v.d.length, v.d.reverse)])

/-- `Wiring::map_to_blocks`, crates/ragu_circuits/src/polynomials/sparse/view.rs:111-126. -/
def wiringBlocks {F : Type*} (n : ℕ) (v : View F) : Poly F :=
  traceBlocks n ⟨v.b, v.a, v.d, v.c⟩

/-- `View::build`, crates/ragu_circuits/src/polynomials/sparse/view.rs:192-221, for
the perspective given by its block map. -/
def View.build {F : Type*} [Field F] [DecidableEq F] (N n : ℕ)
    (mapToBlocks : ℕ → View F → Poly F) (v : View F) : Option (Poly F) :=
  if v.a.length ≤ n ∧ v.b.length ≤ n ∧ v.c.length ≤ n ∧ v.d.length ≤ n then
    fromBlocks N ((mapToBlocks n v).foldl (fun out b => extendRuns out b.1 b.2) [])
  else none

/-- `View::trace().build()`. -/
def View.buildTrace {F : Type*} [Field F] [DecidableEq F] (n : ℕ) (v : View F) :
    Option (Poly F) := v.build (4 * n) n traceBlocks

/-- `View::wiring().build()`. -/
def View.buildWiring {F : Type*} [Field F] [DecidableEq F] (n : ℕ) (v : View F) :
    Option (Poly F) := v.build (4 * n) n wiringBlocks

end Ragu.Sparse

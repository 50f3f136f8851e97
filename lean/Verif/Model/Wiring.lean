/-
Models of the wiring polynomial evaluators `ragu_circuits/src/s/{common,sx,sxy}.rs`.
-/
import Verif.Model.Metrics
import Verif.Model.Sparse

namespace Ragu.Circuit
open Ragu
variable {F : Type} [Field F] [DecidableEq F]

/-- `WireEval`, crates/ragu_circuits/src/s/common.rs:60-63. -/
inductive WireEval (F : Type) where
  | value (v : F)
  | one

/-- `WireEvalSum` built by a closure, crates/ragu_circuits/src/s/common.rs:73-107:
running sum and gain. -/
def wireEvalSum (one : F) : F → Coeff F → List (LcStep F (WireEval F)) → F
  | acc, _, [] => acc
  | acc, g, .term w c :: r =>
    let v := match w with
      | .value v => v
      | .one => one
    wireEvalSum one (acc + v * (Coeff.mul c g).value) g r
  | acc, g, .gain c :: r => wireEvalSum one acc (Coeff.mul g c) r

/-- The constants every evaluation carries, crates/ragu_circuits/src/s/sx.rs:380-389 and
crates/ragu_circuits/src/s/sxy.rs:364-373. `n` is `R::n()`. -/
structure XParams (F : Type) where
  n : ℕ
  x : F
  xInv : F
  one : F
  baseA : F
  baseB : F
  baseC : F
  bToD : F
  fp : List Seg

/-- crates/ragu_circuits/src/s/sx.rs:380-389. -/
def xParams (n : ℕ) (x : F) (fp : List Seg) : XParams F :=
  let xInv := x⁻¹
  let xn := x ^ n
  let xn2 := xn * xn
  let xn4 := xn2 * xn2
  let xnInv := xInv ^ n
  { n := n, x := x, xInv := xInv, one := xn2, baseA := xn2 * xInv, baseB := xn2,
    baseC := xn4 * xInv, bToD := xnInv * xnInv, fp := fp }

/-- The running monomials and counters of a scope (`SxScope`, sx.rs:108-123;
the same fields occur in `SxyScope`, sxy.rs:79-101). -/
structure XScope (F : Type) where
  availD : Option (WireEval F)
  curA : F
  curB : F
  curC : F
  gates : ℕ
  cons : ℕ

/-- The scope a routine starts in, crates/ragu_circuits/src/s/sx.rs:323-332 and
crates/ragu_circuits/src/s/sxy.rs:301-310. -/
def XParams.jump (P : XParams F) (sg : Seg) : XScope F :=
  { availD := none
    curA := P.baseA * P.xInv ^ sg.gateStart
    curB := P.baseB * P.x ^ sg.gateStart
    curC := P.baseC * P.xInv ^ sg.gateStart
    gates := sg.gateStart
    cons := sg.consStart }

/-- `advance_gate`, crates/ragu_circuits/src/s/sx.rs:189-205 and s/sxy.rs. -/
def XParams.advance (P : XParams F) (s : XScope F) : Except Err (XScope F × F × F × F) :=
  if s.gates = P.n then .error (.gateBound P.n)
  else .ok ({ s with
      gates := s.gates + 1
      curA := s.curA * P.xInv
      curB := s.curB * P.x
      curC := s.curC * P.xInv }, s.curA, s.curB, s.curC)

/-- `gate`, crates/ragu_circuits/src/s/sx.rs:216-231. -/
def XParams.gate (P : XParams F) (s : XScope F) :
    Except Err (XScope F × WireEval F × WireEval F × WireEval F × WireEval F) := do
  let (s', a, b, c) ← P.advance s
  .ok (s', .value a, .value b, .value c, .value (b * P.bToD))

/-- `alloc`, crates/ragu_circuits/src/s/sx.rs:261-269. -/
def XParams.alloc (P : XParams F) (s : XScope F) : Except Err (XScope F × WireEval F) :=
  match s.availD with
  | some w => .ok ({ s with availD := none }, w)
  | none => do
    let (s', _, b, _, d) ← P.gate s
    .ok ({ s' with availD := some d }, b)

/-! ### `s(x, Y)` -/

/-- `Evaluator` of sx.rs:125-174: the scope, the result vector and the number of
the routine entered last. -/
structure SxState (F : Type) where
  scope : XScope F
  result : List F
  routine : ℕ

/-- The driver of crates/ragu_circuits/src/s/sx.rs:208-353 (`num_coeffs = 4n`). -/
def sxDriver (P : XParams F) : Driver F (WireEval F) (SxState F) where
  one := .one
  gate _ _ _ _ t := do
    let (s, a, b, c, d) ← P.gate t.scope
    .ok ({ t with scope := s }, a, b, c, d)
  mul _ _ _ t := do
    let (s, a, b, c) ← P.advance t.scope
    .ok ({ t with scope := s }, .value a, .value b, .value c)
  alloc _ t := do
    let (s, w) ← P.alloc t.scope
    .ok ({ t with scope := s }, w)
  add lc t := .ok (t, .value (wireEvalSum P.one 0 .one lc))
  enforce lc t :=
    let q := t.scope.cons
    if q ≥ 4 * P.n - 1 then .error (.constraintBound (4 * P.n - 1))
    else if q < t.result.length then
      .ok { t with
        scope := { t.scope with cons := q + 1 }
        result := t.result.set q (wireEvalSum P.one 0 .one lc) }
    else .error .panic
  enter _ t :=
    match P.fp[t.routine + 1]? with
    | none => .error .panic
    | some sg => .ok { t with routine := t.routine + 1, scope := P.jump sg }
  leave _ saved t :=
    match P.fp[saved.routine + 1]? with
    | none => .error .panic
    | some sg =>
      if t.scope.gates = sg.gateStart + sg.numGates ∧ t.scope.cons = sg.consStart + sg.numCons then
        .ok { t with scope := saved.scope }
      else .error .panic
  clone _ t := .ok t
  drop _ t := .ok t

/-- `result[start..start+len].reverse()`; `none` if the range is out of bounds. -/
def reverseRange (l : List F) (start len : ℕ) : Option (List F) :=
  if start + len ≤ l.length then
    some (l.take start ++ ((l.drop start).take len).reverse ++ l.drop (start + len))
  else none

/-- The reversal loop, crates/ragu_circuits/src/s/sx.rs:435-438. -/
def reverseAll : List Seg → List F → Option (List F)
  | [], l => some l
  | sg :: r, l => (reverseRange l sg.consStart sg.numCons).bind (reverseAll r)

/-- `eval`, crates/ragu_circuits/src/s/sx.rs:371-442. -/
def sxEval (n : ℕ) (fp : List Seg) (c : Circ F) (x : F) : Except Err (Sparse.Poly F) :=
  if x = 0 then .ok []
  else do
    let P := xParams n x fp
    let t0 : SxState F :=
      { scope := { availD := none, curA := P.baseA, curB := P.baseB, curC := P.baseC,
                   gates := 0, cons := 0 }
        result := List.replicate (4 * n) 0
        routine := 0 }
    let (t, _) ← orchestrate (sxDriver P) c t0
    match fp[0]? with
    | none => .error .panic
    | some root =>
      if t.routine + 1 = fp.length ∧ t.scope.gates = root.numGates ∧
          t.scope.cons = root.numCons then
        match reverseAll fp t.result with
        | none => .error .panic
        | some res =>
          if res[0]? = some P.one then
            match Sparse.fromCoeffs (4 * n) res with
            | some p => .ok p
            | none => .error .panic
          else .error .panic
      else .error .panic

/-! ### `s(x, y)` -/

/-- `Evaluator` of sxy.rs:110-140 with `SxyScope`'s two accumulators. -/
structure SxyState (F : Type) where
  scope : XScope F
  result : F
  sum : F
  routine : ℕ

/-- The driver of crates/ragu_circuits/src/s/sxy.rs:182-340. -/
def sxyDriver (P : XParams F) (y : F) : Driver F (WireEval F) (SxyState F) where
  one := .one
  gate _ _ _ _ t := do
    let (s, a, b, c, d) ← P.gate t.scope
    .ok ({ t with scope := s }, a, b, c, d)
  mul _ _ _ t := do
    let (s, a, b, c) ← P.advance t.scope
    .ok ({ t with scope := s }, .value a, .value b, .value c)
  alloc _ t := do
    let (s, w) ← P.alloc t.scope
    .ok ({ t with scope := s }, w)
  add lc t := .ok (t, .value (wireEvalSum P.one 0 .one lc))
  enforce lc t :=
    let q := t.scope.cons
    if q ≥ 4 * P.n - 1 then .error (.constraintBound (4 * P.n - 1))
    else .ok { t with
        scope := { t.scope with cons := q + 1 }
        result := t.result * y + wireEvalSum P.one 0 .one lc }
  enter _ t :=
    match P.fp[t.routine + 1]? with
    | none => .error .panic
    | some sg => .ok { scope := P.jump sg, result := 0, sum := 0, routine := t.routine + 1 }
  leave _ saved t :=
    match P.fp[saved.routine + 1]? with
    | none => .error .panic
    | some sg =>
      if t.scope.gates = sg.gateStart + sg.numGates ∧ t.scope.cons = sg.consStart + sg.numCons then
        .ok { scope := saved.scope, result := saved.result, routine := t.routine,
              sum := saved.sum + (y ^ sg.consStart * t.result + t.sum) }
      else .error .panic
  clone _ t := .ok t
  drop _ t := .ok t

/-- `eval`, crates/ragu_circuits/src/s/sxy.rs:353-424. -/
def sxyEval (n : ℕ) (fp : List Seg) (c : Circ F) (x y : F) : Except Err F :=
  if x = 0 then .ok 0
  else
    let P := xParams n x fp
    if y = 0 then .ok P.one
    else do
      let t0 : SxyState F :=
        { scope := { availD := none, curA := P.baseA, curB := P.baseB, curC := P.baseC,
                     gates := 0, cons := 0 }
          result := 0, sum := 0, routine := 0 }
      let (t, _) ← orchestrate (sxyDriver P y) c t0
      match fp[0]? with
      | none => .error .panic
      | some root =>
        if t.routine + 1 = fp.length ∧ t.scope.gates = root.numGates ∧
            t.scope.cons = root.numCons then
          .ok (t.result + t.sum)
        else .error .panic

end Ragu.Circuit

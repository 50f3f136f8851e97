/-
Model of `ragu_arithmetic/src/fft.rs`, `ragu_arithmetic/src/domain.rs` and
`poly_with_roots` in `ragu_arithmetic/src/util.rs`.

Slices are lists, a panic is `none`. The elements transformed live in a module over the
scalar field, as the `Ring` trait allows. `multicore::join` runs on disjoint halves, so
the two calls are independent.
-/
import Mathlib.Algebra.Module.Defs
import Mathlib.Algebra.Field.Basic
import Mathlib.Data.Nat.Log

namespace Ragu.Fft

/-- `u32::reverse_bits` restricted to `k` bits: bit `i` moves to bit `k - 1 - i`. -/
def reverseBits : ℕ → ℕ → ℕ
  | 0, _ => 0
  | k + 1, n => (n % 2) * 2 ^ k + reverseBits k (n / 2)

/-- `bitreverse`, crates/ragu_arithmetic/src/fft.rs:42-47; `n as u32` truncates. -/
def bitreverse (n l : ℕ) : ℕ :=
  if l = 0 then 0 else reverseBits 32 (n % 2 ^ 32) >>> (32 - l)

section
variable {F M : Type} [Field F] [AddCommGroup M] [Module F M]

/-- `slice::swap`. -/
def swap (a : List M) (i j : ℕ) : Option (List M) :=
  match a[i]?, a[j]? with
  | some x, some y => some ((a.set i y).set j x)
  | _, _ => none

/-- The bit-reversal loop, crates/ragu_arithmetic/src/fft.rs:58-63, from `k` for `cnt` steps. -/
def swapLoop (logN : ℕ) : ℕ → ℕ → List M → Option (List M)
  | 0, _, a => some a
  | cnt + 1, k, a =>
    let rk := bitreverse k logN
    if k < rk then (swap a rk k).bind (swapLoop logN cnt (k + 1)) else swapLoop logN cnt (k + 1) a

/-- The twiddle factors, crates/ragu_arithmetic/src/fft.rs:66-72 (a `scan`). -/
def twiddleScan (omega : F) : ℕ → F → List F
  | 0, _ => []
  | cnt + 1, w => w :: twiddleScan omega cnt (w * omega)

/-- The butterflies with twiddle factors `twiddles[(i + 1) * twiddle_chunk]`,
crates/ragu_arithmetic/src/fft.rs:89-98 and 135-144, from index `i + 1 = j`. Returns the updated
halves. -/
def butterflies (twiddles : List F) (chunk : ℕ) : ℕ → List M → List M → Option (List M × List M)
  | j, a :: left, b :: right =>
    match twiddles[j * chunk]? with
    | none => none
    | some w => do
      let t := w • b
      let (l, r) ← butterflies twiddles chunk (j + 1) left right
      return ((a + t) :: l, (a - t) :: r)
  | _, left, right => some (left, right)

/-- One butterfly pass over two halves: the first pair without twiddle factor, then the rest;
crates/ragu_arithmetic/src/fft.rs:81-98 and 126-144. `split_at_mut(1)` panics on an empty half. -/
def combine (twiddles : List F) (chunk : ℕ) : List M → List M → Option (List M)
  | a :: left, b :: right => do
    let (l, r) ← butterflies twiddles chunk 1 left right
    return (a + b) :: l ++ (a - b) :: r
  | _, _ => none

/-- `chunks_mut`: consecutive pieces of `k` elements. -/
def chunks (k : ℕ) (l : List M) : List (List M) :=
  if h : l = [] ∨ k = 0 then [] else l.take k :: chunks k (l.drop k)
termination_by l.length
decreasing_by
  have : 0 < l.length := List.length_pos_iff.2 (fun e => h (Or.inl e))
  simp only [List.length_drop]
  omega

/-- One round of the iterative path, crates/ragu_arithmetic/src/fft.rs:78-100. -/
def iterRound (twiddles : List F) (chunk tchunk : ℕ) (a : List M) : Option (List M) :=
  ((chunks chunk a).mapM fun c => combine twiddles tchunk (c.take (chunk / 2)) (c.drop (chunk / 2))).map
    List.flatten

/-- The iterative path, crates/ragu_arithmetic/src/fft.rs:75-103. -/
def iterLoop (twiddles : List F) : ℕ → ℕ → ℕ → List M → Option (List M)
  | 0, _, _, a => some a
  | r + 1, chunk, tchunk, a =>
    (iterRound twiddles chunk tchunk a).bind (iterLoop twiddles r (chunk * 2) (tchunk / 2))

/-- The case `n == 2`, crates/ragu_arithmetic/src/fft.rs:115-120. -/
def butterfly2 : List M → Option (List M)
  | x :: y :: rest => some ((x + y) :: (x - y) :: rest)
  | _ => none

/-- `recursive_butterfly_arithmetic`, crates/ragu_arithmetic/src/fft.rs:109-146. For `n < 2` the
code would recurse for ever; it is not called with such `n`. -/
def recButterfly (twiddles : List F) (n tchunk : ℕ) (a : List M) : Option (List M) :=
  if n < 2 then none
  else if n = 2 then butterfly2 a
  else do
    let left ← recButterfly twiddles (n / 2) (tchunk * 2) (a.take (n / 2))
    let right ← recButterfly twiddles (n / 2) (tchunk * 2) (a.drop (n / 2))
    combine twiddles tchunk left right
termination_by n
decreasing_by all_goals omega

/-- `log2_floor`, crates/ragu_arithmetic/src/fft.rs:148-155. -/
def log2Floor (num : ℕ) : Option ℕ := if num > 0 then some (Nat.log 2 num) else none

/-- `fft`, crates/ragu_arithmetic/src/fft.rs:52-106. `threads` is the number of threads of the
pool. -/
def fft (threads : ℕ) (a : List M) (omega : F) (logN : ℕ) : Option (List M) := do
  let logThreads ← log2Floor threads
  let n := a.length
  if n = 1 <<< logN then
    let a ← swapLoop logN n 0 a
    let twiddles := twiddleScan omega (n / 2) 1
    if logN ≤ logThreads then iterLoop twiddles logN 2 (n / 2) a
    else recButterfly twiddles n 1 a
  else none

end

/-- The constants of a `PrimeField` used by `Domain`. -/
structure FieldConsts (F : Type) where
  /-- `F::S` -/
  S : ℕ
  /-- `F::ROOT_OF_UNITY` -/
  root : F
  /-- `F::ROOT_OF_UNITY_INV` -/
  rootInv : F
  /-- `F::TWO_INV` -/
  twoInv : F

/-- `Domain`, crates/ragu_arithmetic/src/domain.rs:8-20. -/
structure Domain (F : Type) where
  n : ℕ
  log2n : ℕ
  omega : F
  omegaInv : F
  nInv : F

namespace Domain
variable {F : Type} [Field F]

/-- `Domain::default`, crates/ragu_arithmetic/src/domain.rs:22-32. -/
def default (c : FieldConsts F) : Domain F where
  n := 1 <<< c.S
  log2n := c.S
  omega := c.root
  omegaInv := c.rootInv
  nInv := c.twoInv ^ c.S

/-- `Domain::halve`, crates/ragu_arithmetic/src/domain.rs:62-73. -/
def halve (d : Domain F) : Option (Domain F) :=
  if d.log2n ≠ 0 then
    some { n := 1 <<< (d.log2n - 1)
           log2n := d.log2n - 1
           omega := d.omega * d.omega
           omegaInv := d.omegaInv * d.omegaInv
           nInv := d.nInv + d.nInv }
  else none

/-- The halving loop of `Domain::new`, crates/ragu_arithmetic/src/domain.rs:50-52. -/
def halveTimes : ℕ → Domain F → Option (Domain F)
  | 0, d => some d
  | k + 1, d => d.halve.bind (halveTimes k)

/-- `Domain::new`, crates/ragu_arithmetic/src/domain.rs:41-55. -/
def new (c : FieldConsts F) (k : ℕ) : Option (Domain F) :=
  if k ≤ c.S then
    (halveTimes (c.S - k) (default c)).bind fun d => if k = d.log2n then some d else none
  else none

/-- `Domain::contains`, crates/ragu_arithmetic/src/domain.rs:91-93. -/
def contains [DecidableEq F] (d : Domain F) (x : F) : Bool := x ^ d.n = 1

/-- `Domain::ring_fft`, crates/ragu_arithmetic/src/domain.rs:101-103, and `fft`, 124-126. -/
def fft {M : Type} [AddCommGroup M] [Module F M] (threads : ℕ) (d : Domain F) (input : List M) :
    Option (List M) :=
  Fft.fft threads input d.omega d.log2n

/-- `Domain::ring_ifft`, crates/ragu_arithmetic/src/domain.rs:110-116, and `ifft`, 133-135. -/
def ifft {M : Type} [AddCommGroup M] [Module F M] (threads : ℕ) (d : Domain F) (input : List M) :
    Option (List M) :=
  (Fft.fft threads input d.omegaInv d.log2n).map fun l => l.map (d.nInv • ·)

/-- The denominators `x - ω^i`, crates/ragu_arithmetic/src/domain.rs:188-194 (a `scan`). -/
def denominators (omega x : F) : ℕ → F → List F
  | 0, _ => []
  | cnt + 1, acc => (x - acc) :: denominators omega x cnt (acc * omega)

/-- The numerators times inverse denominators, crates/ragu_arithmetic/src/domain.rs:201-209 (a
`scan`). -/
def numerators (omega : F) : F → List F → List F
  | _, [] => []
  | num, den :: rest => num * den :: numerators omega (num * omega) rest

/-- `Domain::ell`, crates/ragu_arithmetic/src/domain.rs:171-211. The outer `none` is the panic;
`BatchInverter` (of the `ff` crate) is modelled by the inverse of each entry. -/
def ell [DecidableEq F] (d : Domain F) (x : F) (amount : ℕ) : Option (Option (List F)) :=
  if amount ≤ d.n then
    let xn := x ^ d.n
    if xn = 1 then some none
    else
      let dens := (denominators d.omega x amount 1).map (·⁻¹)
      some (some (numerators d.omega ((xn - 1) * d.nInv) dens))
  else none

end Domain

section
variable {F : Type} [Field F]

/-- `next_power_of_two`. -/
def nextPow2 (n : ℕ) : ℕ := 2 ^ Nat.clog 2 n

/-- The product of two polynomials by FFT, crates/ragu_arithmetic/src/util.rs:348-371;
`maxSize` is the size of the scratch buffers. -/
def mulPolys (threads : ℕ) (c : FieldConsts F) (maxSize : ℕ) (p q : List F) : Option (List F) := do
  let newDegree := (p.length - 1) + (q.length - 1)
  let domainSize := nextPow2 (newDegree + 1)
  let domain ← Domain.new c (Nat.log 2 domainSize)
  let n := domain.n
  if p.length ≤ n ∧ q.length ≤ n ∧ n ≤ maxSize then
    let s1 ← domain.fft threads (p ++ List.replicate (n - p.length) 0)
    let s2 ← domain.fft threads (q ++ List.replicate (n - q.length) 0)
    let s ← domain.ifft threads (List.zipWith (· * ·) s1 s2)
    if newDegree + 1 ≤ s.length then some (s.take (newDegree + 1)) else none
  else none

/-- The loop over the pairs, in place, crates/ragu_arithmetic/src/util.rs:347-372. -/
def pairLoop (threads : ℕ) (c : FieldConsts F) (maxSize : ℕ) : ℕ → ℕ → List (List F) →
    Option (List (List F))
  | 0, _, polys => some polys
  | cnt + 1, i, polys => do
    let p ← polys[2 * i]?
    let q ← polys[2 * i + 1]?
    let r ← mulPolys threads c maxSize p q
    pairLoop threads c maxSize cnt (i + 1) (polys.set i r)

/-- `slice::swap` on the list of polynomials. -/
def swapPolys (a : List (List F)) (i j : ℕ) : Option (List (List F)) :=
  match a[i]?, a[j]? with
  | some x, some y => some ((a.set i y).set j x)
  | _, _ => none

/-- One iteration of the `while` loop, crates/ragu_arithmetic/src/util.rs:343-382. -/
def rootsRound (threads : ℕ) (c : FieldConsts F) (maxSize : ℕ) (polys : List (List F)) :
    Option (List (List F)) := do
  let pairs := polys.length / 2
  let hasOdd := polys.length % 2 = 1
  let polys ← pairLoop threads c maxSize pairs 0 polys
  let lastIdx := polys.length - 1
  let polys ← if hasOdd ∧ pairs < lastIdx then swapPolys polys pairs lastIdx else some polys
  return polys.take (pairs + if hasOdd then 1 else 0)

/-- The `while polys.len() > 1` loop, with fuel; `fuel = polys.len()` suffices. -/
def rootsLoop (threads : ℕ) (c : FieldConsts F) (maxSize : ℕ) : ℕ → List (List F) →
    Option (List (List F))
  | 0, _ => none
  | fuel + 1, polys =>
    if polys.length > 1 then (rootsRound threads c maxSize polys).bind (rootsLoop threads c maxSize fuel)
    else some polys

/-- `poly_with_roots`, crates/ragu_arithmetic/src/util.rs:332-385. -/
def polyWithRoots (threads : ℕ) (c : FieldConsts F) (roots : List F) : Option (List F) :=
  if roots.isEmpty then some [1]
  else
    (rootsLoop threads c (nextPow2 (roots.length + 1)) roots.length
      (roots.map fun r => [-r, 1])).bind List.head?

end
end Ragu.Fft

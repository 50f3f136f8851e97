/-
The circuit registry: crates/ragu_circuits/src/registry.rs.
-/
import Verif.Model.Object
import Verif.Model.Fft
import Verif.Model.Trace

namespace Ragu.Registry
open Ragu Ragu.Circuit
variable {F : Type}

/-- What the code takes from the field and from the machine: the constants of the prime field,
the number of threads of the pool used by the FFT, `low_u64` (the low 64 bits of the canonical
representative), BLAKE2b with the fixed personalisation as a function from the concatenated
input bytes to the digest bytes, `to_repr` and `from_uniform_bytes`. -/
structure Env (F : Type) where
  consts : Fft.FieldConsts F
  threads : ℕ
  lowU64 : F → ℕ
  blake : List ℕ → List ℕ
  toRepr : F → List ℕ
  fromUniform : List ℕ → F

section
variable [Field F] [DecidableEq F]

/-- `CircuitIndex::omega_j`, crates/ragu_circuits/src/registry.rs:58-61. -/
def omegaJ (E : Env F) (i : ℕ) : F := E.consts.root ^ Fft.bitreverse i E.consts.S

/-- `RegistryBuilder`, crates/ragu_circuits/src/registry.rs:81-103. -/
structure Builder (F : Type) where
  internalCircuits : List (CircuitObject F) := []
  bonding : List (CircuitObject F) := []
  internalSteps : List (CircuitObject F) := []
  applicationSteps : List (CircuitObject F) := []

namespace Builder

/-- `num_internal_circuits`, crates/ragu_circuits/src/registry.rs:106-108. -/
def numInternalCircuits (b : Builder F) : ℕ := b.bonding.length + b.internalCircuits.length

/-- `num_circuits`, crates/ragu_circuits/src/registry.rs:111-113. -/
def numCircuits (b : Builder F) : ℕ :=
  b.numInternalCircuits + b.internalSteps.length + b.applicationSteps.length

/-- `log2_circuits`, crates/ragu_circuits/src/registry.rs:116-118. `trailing_zeros` of a power of
two is its logarithm. -/
def log2Circuits (b : Builder F) : ℕ := Nat.log 2 (Fft.nextPow2 b.numCircuits)

/-- `register_circuit`, crates/ragu_circuits/src/registry.rs:121-128. -/
def registerCircuit (n : ℕ) (b : Builder F) (c : Circ F) : Except Err (Builder F) := do
  let o ← circuitObject n c
  .ok { b with applicationSteps := b.applicationSteps ++ [o] }

/-- `register_internal_circuit`, crates/ragu_circuits/src/registry.rs:131-138. -/
def registerInternalCircuit (n : ℕ) (b : Builder F) (c : Circ F) : Except Err (Builder F) := do
  let o ← circuitObject n c
  .ok { b with internalCircuits := b.internalCircuits ++ [o] }

/-- `register_internal_step`, crates/ragu_circuits/src/registry.rs:141-148. -/
def registerInternalStep (n : ℕ) (b : Builder F) (c : Circ F) : Except Err (Builder F) := do
  let o ← circuitObject n c
  .ok { b with internalSteps := b.internalSteps ++ [o] }

/-- `register_bonding`, crates/ragu_circuits/src/registry.rs:151-154. -/
def registerBonding (b : Builder F) (o : CircuitObject F) : Builder F :=
  { b with bonding := b.bonding ++ [o] }

end Builder

/-- `OmegaKey::from`, crates/ragu_circuits/src/registry.rs:339-348. -/
def omegaKey (E : Env F) (f : F) : ℕ := E.lowU64 ((f + f) + (f + f) + f)

/-- `Registry`, crates/ragu_circuits/src/registry.rs:299-312. The lookup table is an association
list, latest insertion first. -/
structure Registry (F : Type) where
  domain : Fft.Domain F
  circuits : List (CircuitObject F)
  floorPlans : List (List Seg)
  omegaLookup : List (ℕ × ℕ)
  key : F

/-- `LagrangeCache`, crates/ragu_circuits/src/registry.rs:315-322. -/
inductive Cache (F : Type) where
  | interpolate (coeffs : List F)
  | direct (i : ℕ)
  | empty

/-- `at`, crates/ragu_circuits/src/registry.rs:512-527. -/
def Registry.at (E : Env F) (r : Registry F) (w : F) : Option (Cache F) :=
  (r.domain.ell w r.domain.n).map fun
    | some coeffs => .interpolate coeffs
    | none =>
      match r.omegaLookup.lookup (omegaKey E w) with
      | some i => .direct i
      | none => .empty

/-- `add_poly` on the `i`-th circuit, if there is one, in `w_cached`,
crates/ragu_circuits/src/registry.rs:488-490 and 494-496. -/
def Registry.addAt {T : Type} (r : Registry F) (add : CircuitObject F → List Seg → F → T → Option T)
    (i : ℕ) (coeff : F) (t : T) : Option T :=
  match r.circuits[i]? with
  | some o =>
    match r.floorPlans[i]? with
    | some fp => add o fp coeff t
    | none => none
  | none => some t

/-- The interpolation loop of `w_cached`, crates/ragu_circuits/src/registry.rs:486-491. -/
def Registry.wLoop {T : Type} (r : Registry F) (add : CircuitObject F → List Seg → F → T → Option T) :
    ℕ → List F → T → Option T
  | _, [], t => some t
  | j, coeff :: cs, t =>
    (r.addAt add (Fft.bitreverse j r.domain.log2n) coeff t).bind (r.wLoop add (j + 1) cs)

/-- `w_cached`, crates/ragu_circuits/src/registry.rs:473-506. -/
def Registry.wCached {T : Type} (r : Registry F) (cache : Cache F) (init : T)
    (add : CircuitObject F → List Seg → F → T → Option T) : Option T :=
  match cache with
  | .interpolate coeffs => r.wLoop add 0 coeffs init
  | .direct i => r.addAt add i 1 init
  | .empty => some init

/-- `key_sxy`, crates/ragu_circuits/src/registry.rs:403-409. -/
def Registry.keySxy (n : ℕ) (r : Registry F) (x y : F) : F :=
  if x = 0 ∨ y = 0 then 0 else r.key * (x * y) ^ (4 * n - 1)

/-- `RegistryAt::y`, crates/ragu_circuits/src/registry.rs:532-554. -/
def Registry.atY (n : ℕ) (r : Registry F) (cache : Cache F) (y : F) : Option (Sparse.Poly F) := do
  let poly ← r.wCached cache ([] : Sparse.Poly F) fun o fp coeff poly => do
    let tmp ← o.sy y fp
    Sparse.addAssign (4 * n) poly (Sparse.scale tmp coeff)
  if y ≠ 0 then
    let keyPoly ← Sparse.View.buildWiring n ⟨[], [], [r.key * y ^ (4 * n - 1)], []⟩
    Sparse.addAssign (4 * n) poly keyPoly
  else some poly

/-- `RegistryAt::x`, crates/ragu_circuits/src/registry.rs:557-581. -/
def Registry.atX (n : ℕ) (r : Registry F) (cache : Cache F) (x : F) : Option (Sparse.Poly F) := do
  let poly ← r.wCached cache ([] : Sparse.Poly F) fun o fp coeff poly => do
    let tmp ← o.sx x fp
    Sparse.addAssign (4 * n) poly (Sparse.scale tmp coeff)
  if x ≠ 0 then
    let keyPoly ← Sparse.fromCoeffs (4 * n)
      ((List.replicate (4 * n) 0).set (4 * n - 1) (r.key * x ^ (4 * n - 1)))
    Sparse.addAssign (4 * n) poly keyPoly
  else some poly

/-- `RegistryAt::xy`, crates/ragu_circuits/src/registry.rs:584-595. -/
def Registry.atXY (n : ℕ) (r : Registry F) (cache : Cache F) (x y : F) : Option F := do
  let result ← r.wCached cache (0 : F) fun o fp coeff result => do
    let v ← o.sxy x y fp
    some (result + v * coeff)
  some (result + r.keySxy n x y)

/-- `wy`, crates/ragu_circuits/src/registry.rs:457-459. -/
def Registry.wy (E : Env F) (n : ℕ) (r : Registry F) (w y : F) : Option (Sparse.Poly F) :=
  (r.at E w).bind fun cache => r.atY n cache y

/-- `wx`, crates/ragu_circuits/src/registry.rs:462-464. -/
def Registry.wx (E : Env F) (n : ℕ) (r : Registry F) (w x : F) : Option (Sparse.Poly F) :=
  (r.at E w).bind fun cache => r.atX n cache x

/-- `wxy`, crates/ragu_circuits/src/registry.rs:467-469. -/
def Registry.wxy (E : Env F) (n : ℕ) (r : Registry F) (w x y : F) : Option F :=
  (r.at E w).bind fun cache => r.atXY n cache x y

/-- The loop placing the evaluations, crates/ragu_circuits/src/registry.rs:415-418. -/
def Registry.place (r : Registry F) (x y : F) : ℕ → List (CircuitObject F) → List F →
    Option (List F)
  | _, [], coeffs => some coeffs
  | i, o :: os, coeffs =>
    match r.floorPlans[i]? with
    | none => none
    | some fp =>
      (o.sxy x y fp).bind fun v =>
        let j := Fft.bitreverse i r.domain.log2n
        if j < coeffs.length then r.place x y (i + 1) os (coeffs.set j v) else none

/-- `coeffs[0] += v`. -/
def addHead (v : F) : List F → Option (List F)
  | [] => none
  | c :: cs => some ((c + v) :: cs)

/-- `Registry::xy`, crates/ragu_circuits/src/registry.rs:412-429. -/
def Registry.xy (E : Env F) (n : ℕ) (r : Registry F) (x y : F) : Option (Sparse.Poly F) := do
  let coeffs ← r.place x y 0 r.circuits (List.replicate (4 * n) 0)
  if r.domain.n ≤ coeffs.length then
    let front ← r.domain.ifft E.threads (coeffs.take r.domain.n)
    let coeffs ← addHead (r.keySxy n x y) (front ++ coeffs.drop r.domain.n)
    Sparse.fromCoeffs (4 * n) coeffs
  else none

/-- `circuit_y`, crates/ragu_circuits/src/registry.rs:436-439. -/
def Registry.circuitY (E : Env F) (n : ℕ) (r : Registry F) (i : ℕ) (y : F) :
    Option (Sparse.Poly F) := r.wy E n (omegaJ E i) y

/-- `circuit_xy`, crates/ragu_circuits/src/registry.rs:444-446. -/
def Registry.circuitXY (E : Env F) (n : ℕ) (r : Registry F) (i : ℕ) (x y : F) : Option F :=
  r.wxy E n (omegaJ E i) x y

/-- `circuit_in_domain`, crates/ragu_circuits/src/registry.rs:451-454. -/
def Registry.circuitInDomain (E : Env F) (r : Registry F) (i : ℕ) : Bool :=
  r.domain.contains (omegaJ E i)

/-- `digest`, crates/ragu_circuits/src/registry.rs:387-389. -/
def Registry.digest (r : Registry F) : F := r.key

/-- `constraint_counts`, crates/ragu_circuits/src/registry.rs:397-399. -/
def Registry.constraintCounts (r : Registry F) (i : ℕ) : Option (ℕ × ℕ) :=
  r.circuits[i]?.map (·.constraintCounts)

/-- `assemble_with_alpha`, crates/ragu_circuits/src/registry.rs:373-380; `none` is the panic on
an index that is not registered. -/
def Registry.assembleWithAlpha (n : ℕ) (r : Registry F) (trace : List (TSeg F)) (i : ℕ) (alpha : F) :
    Option (Except Err (Sparse.Poly F)) :=
  r.floorPlans[i]?.map fun fp => assemble n fp trace alpha

/-! ### The digest -/

/-- `field_from_hash`, crates/ragu_circuits/src/registry.rs:603-613. -/
def fieldFromHash (E : Env F) (digest : List ℕ) (index : ℕ) : F :=
  E.fromUniform (E.blake (digest ++ [index]))

/-- The loop of `compute_registry_digest`, crates/ragu_circuits/src/registry.rs:624-635; `buf` is
what the hasher has absorbed so far. -/
def Registry.digestLoop (E : Env F) (n : ℕ) (r : Registry F) : ℕ → List ℕ → F → F → F →
    Option (List ℕ)
  | 0, buf, _, _, _ => some buf
  | k + 1, buf, w, x, y =>
    (r.wxy E n w x y).bind fun v =>
      let d := E.blake (buf ++ E.toRepr v)
      r.digestLoop E n k d (fieldFromHash E d 0) (fieldFromHash E d 1) (fieldFromHash E d 2)

/-- `compute_registry_digest`, crates/ragu_circuits/src/registry.rs:600-638. -/
def Registry.computeDigest (E : Env F) (n : ℕ) (r : Registry F) : Option F :=
  (r.digestLoop E n 6 [] 2 3 5).map fun buf => fieldFromHash E (E.blake buf) 0

/-- The loop filling the lookup table, crates/ragu_circuits/src/registry.rs:197-209. -/
def fillLookup (E : Env F) (omega : F) (log2 : ℕ) : ℕ → ℕ → List (ℕ × ℕ) → List (ℕ × ℕ)
  | 0, _, m => m
  | cnt + 1, i, m =>
    fillLookup E omega log2 cnt (i + 1) ((omegaKey E (omega ^ Fft.bitreverse i log2), i) :: m)

/-- How `finalize` fails: `CircuitBoundExceeded`, or a panic. -/
inductive FinalizeErr where
  | circuitBound (limit : ℕ)
  | panic
deriving DecidableEq

/-- The registry before its key is computed, crates/ragu_circuits/src/registry.rs:177-218. -/
def Builder.provisional (E : Env F) (b : Builder F) : Option (Registry F) :=
  (Fft.Domain.new E.consts b.log2Circuits).map fun domain =>
    let circuits := b.internalCircuits ++ b.bonding ++ b.internalSteps ++ b.applicationSteps
    { domain := domain
      circuits := circuits
      floorPlans := circuits.map fun o => floorPlan o.segmentRecords
      omegaLookup := fillLookup E domain.omega b.log2Circuits circuits.length 0 []
      key := 1 }

/-- `finalize`, crates/ragu_circuits/src/registry.rs:166-222. -/
def Builder.finalize (E : Env F) (n : ℕ) (b : Builder F) : Except FinalizeErr (Registry F) :=
  if b.numCircuits > 4 * n then .error (.circuitBound (4 * n))
  else
    match b.provisional E with
    | none => .error .panic
    | some r =>
      match r.computeDigest E n with
      | none => .error .panic
      | some k => .ok { r with key := k }

end
end Ragu.Registry

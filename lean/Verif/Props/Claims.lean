/-
Property C45: the revdot claims and their public values are paired position by position.
-/
import Verif.Lemmas.Supply
import Verif.Lemmas.TestField

set_option linter.unusedSectionVars false
namespace Ragu.Props
open Ragu Ragu.Circuit Ragu.Registry Ragu.Spec Ragu.Pcd Ragu.Sparse

section
variable {M : Type → Type} [Monad M] [LawfulMonad M] {P Rx Id K : Type}

/-- C45: whatever the processor, building the claims of a list of proofs hands it exactly the claims
of the table, in order; and the sequence of public values carries at each position the value of the
claim at that position, then zeros for ever. -/
theorem C45_paired (ps : List (Child Rx Id K)) (zero : K) :
    (∀ (pr : Processor M P Rx Id) (p : P), buildClaims (sourceOf ps) pr p =
      ((claimTable ps zero).map Prod.fst).foldlM pr.handle p) ∧
    (∀ (i : ℕ) c v, (claimTable ps zero)[i]? = some (c, v) → (kySourceOf ps zero).values i = v) ∧
    (∀ i, (claimTable ps zero).length ≤ i → (kySourceOf ps zero).values i = zero) := by
  refine ⟨fun pr p => by rw [buildClaims_eq ps zero, List.foldlM_map], fun i c v h => ?_,
    fun i h => ?_⟩
  · rw [values_eq, List.getD_eq_getElem?_getD, List.getElem?_map, h]; rfl
  · rw [values_eq, List.getD_eq_getElem?_getD, List.getElem?_map, List.getElem?_eq_none h]; rfl

/-- C45: the public values of the two-proof source are those of its two children. -/
theorem C45_two_proofs (l r : Child Rx Id K) (zero : K) :
    twoProofKySource l.c r.c l.app r.app l.bridge r.bridge l.unified r.unified zero =
      kySourceOf [l, r] zero := rfl

/-- C45: the public values of the single-proof source are those of its proof. -/
theorem C45_one_proof (p : Child Rx Id K) (zero : K) :
    singleProofKySource p.c p.app p.bridge p.unified zero = kySourceOf [p] zero := rfl

/-- C45: the claims of one or two proofs fit in the capacity of the folding. -/
theorem C45_capacity (l r : Child Rx Id K) (zero : K) :
    (claimTable [l] zero).length = 15 ∧ (claimTable [l, r] zero).length = 22 ∧
      22 ≤ GROUP_SIZE * NUM_GROUPS := by
  simp only [table_length, List.length_cons, List.length_nil]
  decide

/-- C45: the same for the claims over the scalar field of one proof. -/
theorem C45_nested (rx : NestedRx → Rx) (one zero : K) :
    (∀ (pr : NestedProcessor M P Rx) (p : P), buildNestedClaims (nestedSourceOf rx) pr p =
      ((nestedTable rx one zero).map Prod.fst).foldlM pr.handle p) ∧
    (∀ (i : ℕ) c v, (nestedTable rx one zero)[i]? = some (c, v) →
      nestedKyValues one zero i = v) ∧
    (∀ i, (nestedTable rx one zero).length ≤ i → nestedKyValues one zero i = zero) := by
  refine ⟨fun pr p => by rw [buildNestedClaims_eq rx one zero, List.foldlM_map], fun i c v h => ?_,
    fun i h => ?_⟩
  · rw [nested_values_eq rx, List.getD_eq_getElem?_getD, List.getElem?_map, h]; rfl
  · rw [nested_values_eq rx, List.getD_eq_getElem?_getD, List.getElem?_map,
      List.getElem?_eq_none h]; rfl

/-- C45: every native internal circuit and mask is the subject of a claim of every proof. -/
theorem C45_covers (ps : List (Child Rx Id K)) (zero : K) (id : NativeId) :
    (∀ p ∈ ps, ∃ v, (internalClaim id p, v) ∈ claimTable ps zero) ∨
      (bondingClaim id ps, zero) ∈ claimTable ps zero := by
  cases id <;> first
    | (right; simp [claimTable]; done)
    | (left
       intro p hp
       first
        | exact ⟨p.bridge, by
            simp only [claimTable, List.mem_append, List.mem_map]
            exact .inl (.inl (.inr ⟨p, hp, rfl⟩))⟩
        | exact ⟨p.unified, by
            simp only [claimTable, List.mem_append, List.mem_flatMap, List.mem_map, List.mem_cons]
            exact .inl (.inr ⟨_, by tauto, p, hp, rfl⟩)⟩)

end

section
variable {F : Type} [Field F] [DecidableEq F]

/-- The polynomials of the proofs are well formed. -/
def ChildrenWf {K : Type} (N : ℕ) (ps : List (Child (Poly F) ℕ K)) : Prop :=
  ∀ p ∈ ps, ∀ c, WellFormed N (p.rx c)

theorem claim_wf {K : Type} {N : ℕ} {ps : List (Child (Poly F) ℕ K)} (hw : ChildrenWf N ps)
    (hne : ps ≠ []) {zero : K} {c : Claim (Poly F) ℕ × K} (hc : c ∈ claimTable ps zero) :
    Claim.polys c.1 ≠ [] ∧ ∀ p ∈ Claim.polys c.1, WellFormed N p := by
  simp only [claimTable, List.mem_append, List.mem_map, List.mem_flatMap] at hc
  rcases hc with (((⟨p, hp, rfl⟩ | ⟨p, hp, rfl⟩) | ⟨p, hp, rfl⟩) | ⟨id, hid, p, hp, rfl⟩) |
      ⟨id, hid, rfl⟩
  · refine ⟨by simp [Claim.polys], fun q hq => ?_⟩
    simp only [Claim.polys, List.mem_cons, List.not_mem_nil, or_false] at hq
    rcases hq with rfl | rfl <;> exact hw p hp _
  · refine ⟨by simp [Claim.polys], fun q hq => ?_⟩
    simp only [Claim.polys, List.mem_cons, List.not_mem_nil, or_false] at hq
    subst hq; exact hw p hp _
  · refine ⟨by simp [Claim.polys, internalClaim, traceParts], fun q hq => ?_⟩
    simp only [Claim.polys, internalClaim, List.mem_map] at hq
    obtain ⟨i, -, rfl⟩ := hq; exact hw p hp _
  · refine ⟨?_, fun q hq => ?_⟩
    · simp only [List.mem_cons, List.not_mem_nil, or_false] at hid
      rcases hid with rfl | rfl | rfl | rfl <;> simp [Claim.polys, internalClaim, traceParts]
    · simp only [Claim.polys, internalClaim, List.mem_map] at hq
      obtain ⟨i, -, rfl⟩ := hq; exact hw p hp _
  · refine ⟨?_, fun q hq => ?_⟩
    · simp only [List.mem_cons, List.not_mem_nil, or_false] at hid
      rcases hid with rfl | rfl | rfl | rfl | rfl | rfl | rfl | rfl <;>
        simp [Claim.polys, bondingClaim, bondedParts, hne]
    · simp only [Claim.polys, bondingClaim, List.mem_flatMap, List.mem_map] at hq
      obtain ⟨i, -, p, hp, rfl⟩ := hq; exact hw p hp _

/-- C45: the builder of a verifier produces, for the claims of any non-empty list of proofs, one pair
of polynomials per claim, in the order of the claims, and the pair at each position is the pair of
that claim: the trace (or the sum of its parts, or the combination of the bonded traces by powers of
`z`), and `r(zX) + s(X, y) + t(X, z)` (or `s(X, y)` for a mask). -/
theorem C45_polynomials {K : Type} {E : Env F} {n : ℕ} {r : Registry F} {y z : F} {s : ℕ → Poly F}
    (hs : Supplies E n r y s) (ps : List (Child (Poly F) ℕ K)) (hne : ps ≠ [])
    (hw : ChildrenWf (4 * n) ps) (zero : K) :
    ∃ B0 B tz, ClaimBuilder.new n y z = some B0 ∧ Tpoly.tz n z = some tz ∧
      buildClaims (sourceOf ps) (polyProcessor E n r) B0 = some B ∧
      B.a.length = (claimTable ps zero).length ∧ B.b.length = (claimTable ps zero).length ∧
      ∀ (i : ℕ) c v, (claimTable ps zero)[i]? = some (c, v) → ∃ a b, B.a[i]? = some a ∧
        B.b[i]? = some b ∧ IsClaim (4 * n) s tz z c a b := by
  obtain ⟨tz, h1, h2, -⟩ := C14_tz_coeffs n z
  obtain ⟨as, bs, h3, h4, h5, h6⟩ := fold_push (F := F) (A := Poly F)
    (fun B (c : Claim (Poly F) ℕ × K) => (polyProcessor E n r).handle B c.1)
    (fun c a b => IsClaim (4 * n) s tz z c.1 a b) y z tz (claimTable ps zero)
    (fun c hc as bs => handle_poly hs h2 c.1 (claim_wf hw hne hc).1 (claim_wf hw hne hc).2 as bs)
    [] []
  refine ⟨⟨y, z, tz, [], []⟩, ⟨y, z, tz, as, bs⟩, tz, by rw [ClaimBuilder.new, h1]; rfl, h1, ?_,
    h4, h5, fun i c v h => h6 i _ h⟩
  rw [buildClaims_eq ps zero]
  simpa using h3

/-- C45: the wiring polynomials in those pairs exist for every finalised registry and every `y`, and
the polynomial of a registered circuit or mask has that object's own coefficients plus the term of
the registry's key. -/
theorem C45_wiring {E : Env F} {n q : ℕ} {b : Builder F} {ss : List (F → F → F)}
    (h : Ready E n q b ss) {r : Registry F} (hr : b.finalize E n = .ok r) (y : F) :
    ∃ s, Supplies E n r y s ∧
      ∀ (i : ℕ) o, r.circuits[i]? = some o → WiringCoeffs n o r.key y (coeff (s i)) := by
  obtain ⟨s, h1, -, h3⟩ := supplies_of_ready h hr y
  exact ⟨s, h1, h3⟩

end

/-! ### Examples -/

/-- A proof of the demo registry of C25. -/
def demoPoly : Child (Poly (ZMod 97)) ℕ (ZMod 97) :=
  ⟨fun _ => [(3, [1, 2])], 4, 1, 2, 3, 4⟩

example : ∃ b r s, build 8 demoHist {} = .ok b ∧ b.finalize env97 8 = .ok r ∧
    Supplies env97 8 r 5 s ∧ ChildrenWf (4 * 8) [demoPoly, demoPoly] := by
  obtain ⟨b, hb, hn, hr⟩ := demo_build
  obtain ⟨r, h1, h2⟩ := (C25_capacity hr).2 (by omega)
  obtain ⟨s, h3, -⟩ := C45_wiring hr h1 5
  refine ⟨b, r, s, hb, h1, h3, fun p hp c => ?_⟩
  have : p = demoPoly := by simpa using hp
  subst this
  show WellFormed 32 [(3, [1, 2])]
  simp [WellFormed, WellFormedFrom]

/-- A child whose traces are distinguishable names. -/
def demoChild (k : ℕ) : Child (ℕ × RxComponent) ℕ (ℕ × String) :=
  ⟨fun c => (k, c), k, (k, "c"), (k, "app"), (k, "bridge"), (k, "unified")⟩

example : ((kySourceOf [demoChild 0, demoChild 1] (7, "zero")).values 5) = (1, "bridge") ∧
    ((kySourceOf [demoChild 0, demoChild 1] (7, "zero")).values 13) = (1, "unified") ∧
    ((kySourceOf [demoChild 0, demoChild 1] (7, "zero")).values 14) = (7, "zero") := by decide

example : (claimTable [demoChild 0, demoChild 1] (7, "zero"))[5]? =
    some (.internal .hashes1Circuit [(1, .rx .hashes1), (1, .rx .preamble), (1, .rx .outerError)],
      (1, "bridge")) := rfl

end Ragu.Props

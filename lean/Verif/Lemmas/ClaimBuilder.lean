/-
What the claim builder computes for each claim.
-/
import Verif.Lemmas.Claims
import Verif.Lemmas.Fold
import Verif.Lemmas.Registry
import Verif.Spec.ClaimEq
import Verif.Props.Tpoly

set_option linter.unusedSectionVars false
namespace Ragu.Pcd
open Ragu Ragu.Circuit Ragu.Registry Ragu.Spec Ragu.Sparse Ragu.Gadget
variable {F : Type} [Field F] [DecidableEq F]

theorem circuitIndex_eq (id : NativeId) : id.circuitIndex = some (registryIndex id) := by
  cases id <;> decide

theorem nestedIndex_eq {id : NestedId} (h : id ∈ NestedId.all) :
    id.circuitIndex = some (nestedIndex id) := by
  have : ∀ id ∈ NestedId.all, id.circuitIndex = some (nestedIndex id) := by decide +kernel
  exact this id h

theorem sumPolynomials_spec (N : ℕ) : ∀ (rxs : List (Poly F)), rxs ≠ [] →
    (∀ p ∈ rxs, WellFormed N p) → ∃ r, sumPolynomials N rxs = some r ∧ WellFormed N r ∧
      ∀ k, coeff r k = sumCoeff rxs k := by
  intro rxs h hw
  match rxs, h with
  | first :: rest, _ =>
    rw [sumPolynomials]
    clear h
    have gen : ∀ (rest : List (Poly F)) (acc : Poly F), WellFormed N acc →
        (∀ p ∈ rest, WellFormed N p) → ∃ r, rest.foldlM (addAssign N) acc = some r ∧
          WellFormed N r ∧ ∀ k, coeff r k = coeff acc k + sumCoeff rest k := by
      intro rest
      induction rest with
      | nil => intro acc ha _; exact ⟨acc, rfl, ha, fun k => by simp [sumCoeff]⟩
      | cons p rest ih =>
        intro acc ha hr
        obtain ⟨t, h1, h2, h3⟩ := combineAssign_spec N (fun a b => a + b) (by simp) acc p ha
          (hr p (by simp))
        obtain ⟨r, h4, h5, h6⟩ := ih t h2 fun q hq => hr q (by simp [hq])
        refine ⟨r, ?_, h5, fun k => ?_⟩
        · rw [List.foldlM_cons, show addAssign N acc p = some t from h1]; exact h4
        · rw [h6, h3]; simp only [sumCoeff, List.map_cons, List.sum_cons]; ring
    obtain ⟨r, h1, h2, h3⟩ := gen rest first (hw _ (by simp)) fun q hq => hw q (by simp [hq])
    exact ⟨r, h1, h2, fun k => by rw [h3]; simp [sumCoeff]⟩

theorem hornerVal_foldCoeff (z : F) (rxs : List (Poly F)) (k : ℕ) :
    hornerVal z (rxs.map fun p => coeff p k) = foldCoeff z rxs k := by
  rw [hornerVal_eq_sum, foldCoeff, List.length_map]
  refine Finset.sum_congr rfl fun i hi => ?_
  rw [List.getD_eq_getElem?_getD, List.getD_eq_getElem?_getD, List.getElem?_map]
  rw [List.getElem?_eq_getElem (Finset.mem_range.1 hi)]
  rfl

theorem polyVal_reverse (z : F) (l : List F) : polyVal l.reverse z = hornerVal z l := by
  induction l with
  | nil => simp [polyVal]
  | cons a l ih =>
    rw [List.reverse_cons, polyVal_append, ih, hornerVal_cons]
    simp [polyVal, coeffAt]
    ring

theorem foldBondingPolys_spec (N : ℕ) (z : F) : ∀ (rxs : List (Poly F)), rxs ≠ [] →
    (∀ p ∈ rxs, WellFormed N p) → ∃ r, foldBondingPolys N z rxs = some r ∧ WellFormed N r ∧
      ∀ k, coeff r k = foldCoeff z rxs k
  | [], h, _ => absurd rfl h
  | [p], _, hw => ⟨p, rfl, hw p (by simp), fun k => by simp [foldCoeff]⟩
  | p :: q :: rest, _, hw => by
    obtain ⟨r, h1, h2, h3⟩ := fold_spec N (p :: q :: rest) z hw
    refine ⟨r, h1, h2, fun k => ?_⟩
    rw [h3, ← hornerVal_foldCoeff, List.map_reverse, polyVal_reverse]

/-- The registry supplies a wiring polynomial for every index. -/
def Supplies (E : Env F) (n : ℕ) (r : Registry F) (y : F) (s : ℕ → Poly F) : Prop :=
  ∀ i, r.circuitY E n i y = some (s i) ∧ WellFormed (4 * n) (s i)

section
variable {A : Type} {E : Env F} {n : ℕ} {r : Registry F} {s : ℕ → Poly F}

/-- The builder with one more pair. -/
def ClaimBuilder.push (B : ClaimBuilder F A) (a : A) (b : Poly F) : ClaimBuilder F A :=
  { B with
    a := B.a ++ [a]
    b := B.b ++ [b] }

theorem circuitImpl_spec (B : ClaimBuilder F A) (hs : Supplies E n r B.y s)
    (ht : WellFormed (4 * n) B.tz) (borrow : A → Poly F) (i : ℕ) (a : A)
    (ha : WellFormed (4 * n) (borrow a)) :
    ∃ b, B.circuitImpl E n r borrow i a = some (B.push a b) ∧ WellFormed (4 * n) b ∧
      ∀ k, coeff b k = coeff (borrow a) k * B.z ^ k + coeff (s i) k + coeff B.tz k := by
  obtain ⟨b1, h1, h2, h3⟩ := combineAssign_spec (4 * n) (fun a b => a + b) (by simp)
    (dilate (borrow a) B.z) (s i) (dilate_wf ha B.z) (hs i).2
  obtain ⟨b, h4, h5, h6⟩ := combineAssign_spec (4 * n) (fun a b => a + b) (by simp) b1 B.tz h2 ht
  refine ⟨b, ?_, h5, fun k => by rw [h6, h3, dilate_coeff ha]⟩
  rw [ClaimBuilder.circuitImpl, (hs i).1]
  simp only [Option.bind_eq_bind, Option.bind_some]
  rw [show addAssign (4 * n) (dilate (borrow a) B.z) (s i) = some b1 from h1]
  simp only [Option.bind_some]
  rw [show addAssign (4 * n) b1 B.tz = some b from h4]
  rfl

theorem bondingImpl_spec (B : ClaimBuilder F A) (hs : Supplies E n r B.y s) (i : ℕ) (a : A) :
    B.bondingImpl E n r i a = some (B.push a (s i)) := by
  rw [ClaimBuilder.bondingImpl, (hs i).1]; rfl

/-- A fold that pushes one pair per claim. -/
theorem fold_push {C : Type} (handle : ClaimBuilder F A → C → Option (ClaimBuilder F A))
    (Q : C → A → Poly F → Prop) (y z : F) (tz : Poly F) : ∀ (cs : List C),
    (∀ c ∈ cs, ∀ as bs, ∃ a b, handle ⟨y, z, tz, as, bs⟩ c = some ⟨y, z, tz, as ++ [a], bs ++ [b]⟩ ∧
      Q c a b) → ∀ as bs, ∃ as' bs', cs.foldlM handle ⟨y, z, tz, as, bs⟩ =
        some ⟨y, z, tz, as ++ as', bs ++ bs'⟩ ∧ as'.length = cs.length ∧ bs'.length = cs.length ∧
        ∀ (i : ℕ) c, cs[i]? = some c → ∃ a b, as'[i]? = some a ∧ bs'[i]? = some b ∧ Q c a b := by
  intro cs
  induction cs with
  | nil => intro _ as bs; exact ⟨[], [], by simp, rfl, rfl, fun i c h => by simp at h⟩
  | cons c cs ih =>
    intro h as bs
    obtain ⟨a, b, h1, h2⟩ := h c (by simp) as bs
    obtain ⟨as', bs', h3, h4, h5, h6⟩ := ih (fun c hc => h c (by simp [hc])) (as ++ [a]) (bs ++ [b])
    refine ⟨a :: as', b :: bs', ?_, by simp [h4], by simp [h5], ?_⟩
    · rw [List.foldlM_cons, h1]
      simpa using h3
    · intro i c' hc'
      cases i with
      | zero => simp only [List.getElem?_cons_zero, Option.some.injEq] at hc'; subst hc'
                exact ⟨a, b, rfl, rfl, h2⟩
      | succ i => simpa using h6 i c' (by simpa using hc')

/-- The polynomials of a claim. -/
def Claim.polys {Rx Id : Type} : Claim Rx Id → List Rx
  | .raw a b => [a, b]
  | .circuit _ rx => [rx]
  | .internal _ rxs => rxs
  | .bonding _ rxs => rxs

/-- `Claim.polys` for nested claims. -/
def NestedClaim.polys {Rx : Type} : NestedClaim Rx → List Rx
  | .internal _ rxs => rxs
  | .bonding _ rxs => rxs

/-- Polynomials `a`, `b` are those of the claim. -/
def IsClaim (N : ℕ) (s : ℕ → Poly F) (tz : Poly F) (z : F) (c : Claim (Poly F) ℕ) (a b : Poly F) :
    Prop :=
  WellFormed N a ∧ WellFormed N b ∧ (∀ k, coeff a k = claimLeft z c k) ∧
    ∀ k, coeff b k = claimRight (fun i => coeff (s i)) (coeff tz) z c k

/-- Polynomials `a`, `b` are those of the nested claim. -/
def IsNestedClaim (N : ℕ) (s : ℕ → Poly F) (tz : Poly F) (z : F) (c : NestedClaim (Poly F))
    (a b : Poly F) : Prop :=
  WellFormed N a ∧ WellFormed N b ∧ (∀ k, coeff a k = nestedLeft z c k) ∧
    ∀ k, coeff b k = nestedRight (fun i => coeff (s i)) (coeff tz) z c k

theorem handle_poly {y z : F} {tz : Poly F} (hs : Supplies E n r y s)
    (ht : WellFormed (4 * n) tz) (c : Claim (Poly F) ℕ) (hne : Claim.polys c ≠ [])
    (hw : ∀ p ∈ Claim.polys c, WellFormed (4 * n) p) (as : List (Poly F)) (bs : List (Poly F)) :
    ∃ a b, (polyProcessor E n r).handle ⟨y, z, tz, as, bs⟩ c =
      some ⟨y, z, tz, as ++ [a], bs ++ [b]⟩ ∧ IsClaim (4 * n) s tz z c a b := by
  cases c with
  | raw a b => exact ⟨a, b, rfl, hw a (by simp [Claim.polys]), hw b (by simp [Claim.polys]),
      fun _ => rfl, fun _ => rfl⟩
  | circuit i rx =>
    have hrx := hw rx (by simp [Claim.polys])
    obtain ⟨b, h1, h2, h3⟩ := circuitImpl_spec ⟨y, z, tz, as, bs⟩ hs ht (id : Poly F → Poly F) i rx hrx
    exact ⟨rx, b, h1, hrx, h2, fun _ => rfl, h3⟩
  | internal i rxs =>
    obtain ⟨rx, h1, h2, h3⟩ := sumPolynomials_spec (4 * n) rxs hne hw
    obtain ⟨b, h4, h5, h6⟩ := circuitImpl_spec ⟨y, z, tz, as, bs⟩ hs ht (id : Poly F → Poly F)
      (registryIndex i) rx h2
    refine ⟨rx, b, ?_, h2, h5, h3, fun k => ?_⟩
    · simp only [Processor.handle, polyProcessor, circuitIndex_eq, h1, Option.bind_eq_bind,
        Option.bind_some]
      exact h4
    · rw [h6, id, h3]; rfl
  | bonding i rxs =>
    obtain ⟨rx, h1, h2, h3⟩ := foldBondingPolys_spec (4 * n) z rxs hne hw
    refine ⟨rx, s (registryIndex i), ?_, h2, (hs _).2, h3, fun k => rfl⟩
    simp only [Processor.handle, polyProcessor, circuitIndex_eq, h1, Option.bind_eq_bind,
      Option.bind_some]
    exact bondingImpl_spec ⟨y, z, tz, as, bs⟩ hs _ _

theorem handle_nested {y z : F} {tz : Poly F} (hs : Supplies E n r y s)
    (ht : WellFormed (4 * n) tz) (c : NestedClaim (Poly F)) (hne : NestedClaim.polys c ≠ [])
    (hid : match c with | .internal id _ => id ∈ NestedId.all | .bonding id _ => id ∈ NestedId.all)
    (hw : ∀ p ∈ NestedClaim.polys c, WellFormed (4 * n) p) (as : List (Poly F))
    (bs : List (Poly F)) :
    ∃ a b, (nestedPolyProcessor E n r).handle ⟨y, z, tz, as, bs⟩ c =
      some ⟨y, z, tz, as ++ [a], bs ++ [b]⟩ ∧ IsNestedClaim (4 * n) s tz z c a b := by
  cases c with
  | internal i rxs =>
    obtain ⟨rx, h1, h2, h3⟩ := sumPolynomials_spec (4 * n) rxs hne hw
    obtain ⟨b, h4, h5, h6⟩ := circuitImpl_spec ⟨y, z, tz, as, bs⟩ hs ht (id : Poly F → Poly F)
      (nestedIndex i) rx h2
    refine ⟨rx, b, ?_, h2, h5, h3, fun k => ?_⟩
    · simp only [NestedProcessor.handle, nestedPolyProcessor, nestedIndex_eq hid, h1,
        Option.bind_eq_bind, Option.bind_some]
      exact h4
    · rw [h6, id, h3]; rfl
  | bonding i rxs =>
    obtain ⟨rx, h1, h2, h3⟩ := foldBondingPolys_spec (4 * n) z rxs hne hw
    refine ⟨rx, s (nestedIndex i), ?_, h2, (hs _).2, h3, fun k => rfl⟩
    simp only [NestedProcessor.handle, nestedPolyProcessor, nestedIndex_eq hid, h1,
      Option.bind_eq_bind, Option.bind_some]
    exact bondingImpl_spec ⟨y, z, tz, as, bs⟩ hs _ _

end
end Ragu.Pcd

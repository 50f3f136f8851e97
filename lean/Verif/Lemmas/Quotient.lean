/-
The prover's side of the polynomial queries.
-/
import Verif.Spec.Query
import Verif.Lemmas.Supply
import Verif.Props.Tracked
import Verif.Props.Fold
import Verif.Props.Tpoly
import Verif.Props.Util
import Verif.Lemmas.Endoscale

set_option linter.unusedSectionVars false
namespace Ragu.Pcd
open Ragu Ragu.Circuit Ragu.Registry Ragu.Gadget Ragu.Spec Ragu.Sparse Ragu.Props Finset
variable {F G HC : Type} [Field F] [DecidableEq F]

/-! ### Evaluation of combinations -/

theorem eval_horner {N : ℕ} {s : F} {r : Poly F} {l : List (Poly F)} (hr : WellFormed N r)
    (hl : ∀ p ∈ l, WellFormed N p) (h : ∀ k, coeff r k = hornerVal s (l.map fun p => coeff p k))
    (x : F) : Sparse.eval N r x = hornerVal s (l.map fun p => Sparse.eval N p x) := by
  rw [C11_eval _ _ hr]
  simp only [h]
  rw [Fold.sum_hornerVal]
  congr 1
  exact List.map_congr_left fun p hp => (C11_eval _ _ (hl p hp) x).symm

theorem eval_nil (N : ℕ) (x : F) : Sparse.eval N ([] : Poly F) x = 0 := by
  rw [C11_eval _ _ (by trivial)]
  exact sum_eq_zero fun k _ => by simp [coeff]

theorem eval_fold {N : ℕ} {s : F} {r : Poly F} {l : List (Poly F)}
    (hl : ∀ p ∈ l, WellFormed N p) (h : Fold.fold (polyFoldable N) l s = some r) (x : F) :
    WellFormed N r ∧ Sparse.eval N r x = hornerVal s (l.map fun p => Sparse.eval N p x) := by
  obtain ⟨r', h1, h2, h3⟩ := Fold.fold_poly_spec N s l hl
  rw [h] at h1
  cases h1
  exact ⟨h2, eval_horner h2 hl h3 x⟩

theorem eval_twoLayer {N m g : ℕ} (hm : m ≠ 0) {l gs : List (Poly F)} {r : Poly F} {s₁ s₂ : F}
    (hl : l.length ≤ m * g) (hw : ∀ p ∈ l, WellFormed N p)
    (h1 : Fold.foldInner (polyFoldable N) m g l s₁ = some gs)
    (h2 : Fold.foldOuter (polyFoldable N) gs s₂ = some r) (x : F) :
    Sparse.eval N r x = twoLayer m g s₁ s₂ (l.map fun p => Sparse.eval N p x) := by
  obtain ⟨gs', e1, e2, e3, e4⟩ := Fold.foldInner_spec hm s₁ hl hw
  rw [h1] at e1
  cases e1
  rw [(eval_fold e3 h2 x).2, twoLayer, hornerVal_eq_sum, List.length_map, e2]
  refine sum_congr rfl fun k hk => ?_
  have hk' := mem_range.1 hk
  have h3 := (eval_fold (Fold.paddedGroup_wf hw k) (e4 k hk') x).2
  have h4 : (gs.map fun p => Sparse.eval N p x).getD k 0 = Sparse.eval N (gs.getD k []) x := by
    rw [List.getD_eq_getElem?_getD, List.getD_eq_getElem?_getD, List.getElem?_map,
      List.getElem?_eq_getElem (by omega)]
    rfl
  rw [h4, h3, groupSum, hornerVal_eq_sum, List.length_map, Fold.paddedGroup_length]
  congr 1
  refine sum_congr rfl fun i hi => ?_
  have hi' := mem_range.1 hi
  congr 1
  have h5 : ∀ (q : List (Poly F)) (j : ℕ), (q.map fun p => Sparse.eval N p x).getD j 0 =
      Sparse.eval N (q.getD j []) x := by
    intro q j
    rw [List.getD_eq_getElem?_getD, List.getD_eq_getElem?_getD, List.getElem?_map]
    cases q[j]? with
    | none => simp [eval_nil]
    | some p => rfl
  rw [h5, h5, Fold.paddedGroup_getD _ _ _ _ _ hi']

/-! ### The values of the claims -/

/-- The claim by the values of its polynomials. -/
def claimValue (atXz atX : Poly F → F) (wiring : ℕ → F) : Claim (Poly F) ℕ → Claim F F
  | .raw a b => .raw (atXz a) (atX b)
  | .circuit i rx => .circuit (wiring i) (atXz rx)
  | .internal id rxs => .internal id (rxs.map atXz)
  | .bonding id rxs => .bonding id (rxs.map atXz)

theorem isClaim_values {N : ℕ} {s : ℕ → Poly F} {tz : Poly F} {x z : F} {c : Claim (Poly F) ℕ}
    {a b : Poly F} (h : IsClaim N s tz z c a b) (hs : ∀ i, WellFormed N (s i))
    (ht : WellFormed N tz) (hc : ∀ p ∈ Claim.polys c, WellFormed N p) :
    let v := claimValue (fun p => Sparse.eval N p (x * z)) (fun p => Sparse.eval N p x)
      (fun i => Sparse.eval N (s i) x) c
    Sparse.eval N a (x * z) = leftValue z v ∧
    Sparse.eval N b x = rightValue (fun id => Sparse.eval N (s (registryIndex id)) x)
      (Sparse.eval N tz x) v := by
  obtain ⟨h1, h2, h3, h4⟩ := h
  have hsum : ∀ rxs : List (Poly F), (∀ p ∈ rxs, WellFormed N p) →
      ∑ k ∈ range N, sumCoeff rxs k * (x * z) ^ k =
        (rxs.map fun p => Sparse.eval N p (x * z)).sum := by
    intro rxs
    induction rxs with
    | nil => intro _; simp [sumCoeff]
    | cons p rxs ih =>
      intro hp
      rw [List.map_cons, List.sum_cons, ← ih fun q hq => hp q (List.mem_cons_of_mem _ hq),
        C11_eval _ _ (hp p List.mem_cons_self), ← sum_add_distrib]
      refine sum_congr rfl fun k _ => ?_
      simp only [sumCoeff, List.map_cons, List.sum_cons]
      ring
  have hright : ∀ (f : ℕ → F) (i : ℕ), ∑ k ∈ range N, (f k * z ^ k + coeff (s i) k + coeff tz k) * x ^ k =
      ∑ k ∈ range N, f k * (x * z) ^ k + Sparse.eval N (s i) x + Sparse.eval N tz x := by
    intro f i
    rw [C11_eval _ _ (hs i), C11_eval _ _ ht, ← sum_add_distrib, ← sum_add_distrib]
    refine sum_congr rfl fun k _ => ?_
    rw [mul_pow]
    ring
  rw [C11_eval _ _ h1, C11_eval _ _ h2]
  simp only [h3, h4]
  cases c with
  | raw a b =>
    have ha := hc a (by simp [Claim.polys])
    have hb := hc b (by simp [Claim.polys])
    exact ⟨(C11_eval _ _ ha _).symm, (C11_eval _ _ hb _).symm⟩
  | circuit i rx =>
    have hrx := hc rx (by simp [Claim.polys])
    refine ⟨(C11_eval _ _ hrx _).symm, ?_⟩
    simp only [claimRight, claimValue, rightValue]
    rw [hright, C11_eval _ _ hrx]
  | internal id rxs =>
    have hrx : ∀ p ∈ rxs, WellFormed N p := fun p hp => hc p (by simpa [Claim.polys] using hp)
    refine ⟨hsum rxs hrx, ?_⟩
    simp only [claimRight, claimValue, rightValue]
    rw [hright, hsum rxs hrx]
  | bonding id rxs =>
    have hrx : ∀ p ∈ rxs, WellFormed N p := fun p hp => hc p (by simpa [Claim.polys] using hp)
    refine ⟨?_, (C11_eval _ _ (hs _) _).symm⟩
    simp only [claimLeft, claimValue, leftValue, ← hornerVal_foldCoeff, Fold.sum_hornerVal]
    rw [descending, ← hornerVal_eq_sum]
    congr 1
    exact List.map_congr_left fun p hp => (C11_eval _ _ (hrx p hp) _).symm

theorem valueClaims_witness {E : Env F} {N : ℕ} (s : FuseState F G HC) (w x z : F)
    (l1 l2 l3 r1 r2 r3 : F) :
    valueClaims (queryWitness E N s w x z) =
      (claimTable [childOf s.left l1 l2 l3, childOf s.right r1 r2 r3] (0 : F)).map fun cv =>
        claimValue (fun p => Sparse.eval N p (x * z)) (fun p => Sparse.eval N p x)
          (fun i => Sparse.eval N s.query.registryXyPoly (omegaJ E i)) cv.1 := rfl

/-! ### The quotients -/

theorem deque_back {α : Type} : ∀ (n : ℕ) (l : List α), n = l.length →
    (deque (List.replicate n true) l).reduceOption.reverse = l
  | 0, l, h => by rw [List.eq_nil_of_length_eq_zero h.symm]; rfl
  | n + 1, l, h => by
    have hl : l ≠ [] := by rintro rfl; simp at h
    rw [List.replicate_succ, deque, List.getLast?_eq_some_getLast hl]
    show (l.getLast hl :: (deque (List.replicate n true) l.dropLast).reduceOption).reverse = l
    rw [List.reverse_cons, deque_back n _ (by rw [List.length_dropLast]; omega),
      List.dropLast_append_getLast hl]

theorem dense_getD {N : ℕ} {p : Poly F} (k : ℕ) (hk : k < N) : (dense N p).getD k 0 = coeff p k := by
  rw [List.getD_eq_getElem?_getD, List.getElem?_eq_getElem (by simpa [dense] using hk)]
  simp [dense]

theorem polyVal_dense {N : ℕ} {p : Poly F} (hp : WellFormed N p) (x : F) :
    polyVal (dense N p) x = Sparse.eval N p x := by
  rw [C11_eval _ _ hp, polyVal]
  have hl : (dense N p).length = N := by simp [dense]
  rw [hl]
  exact sum_congr rfl fun k hk => by rw [coeffAt, dense_getD k (mem_range.1 hk)]

theorem factorCoeffs_spec {N : ℕ} (hN : 0 < N) {p : Poly F} (hp : WellFormed N p) (b : F) :
    ∃ q, factorCoeffs N p b = some q ∧ q.length + 1 = N ∧
      ∀ u, Sparse.eval N p u = hornerVal u q * (u - b) + Sparse.eval N p b := by
  have hl : (dense N p).length = N := by simp [dense]
  have hne : dense N p ≠ [] := by intro h; rw [h] at hl; simp at hl; omega
  obtain ⟨q, h1, h2, h3⟩ := C02_factor (dense N p) b hne
  refine ⟨q.reverse, ?_, by rw [List.length_reverse, h2, hl], fun u => ?_⟩
  · rw [factorCoeffs, C09_iter N p hp, deque_back N _ hl.symm, C02_factor_iter, h1]; rfl
  · have := h3 u
    rw [polyVal_dense hp, polyVal_dense hp] at this
    rw [this, ← polyVal_reverse, List.reverse_reverse]

theorem hornerVal_mul_add {α : Type} (s c : F) (f g : α → F) : ∀ l : List α,
    hornerVal s (l.map fun a => f a * c + g a) =
      hornerVal s (l.map f) * c + hornerVal s (l.map g)
  | [] => by simp
  | a :: l => by
    simp only [List.map_cons, hornerVal_cons, List.length_map, hornerVal_mul_add s c f g l]
    ring

theorem heads_foldl (alpha : F) : ∀ (l : List F) (acc : F),
    l.foldl (fun acc v => alpha * acc + v) acc = l.foldl (fun acc v => acc * alpha + v) acc
  | [], _ => rfl
  | v :: l, acc => by rw [List.foldl_cons, List.foldl_cons, heads_foldl alpha l, mul_comm alpha]

theorem combineColumns_spec (alpha : F) : ∀ (first : List F) (rest : List (List F)),
    (∀ l ∈ rest, l.length = first.length) → ∃ cs, combineColumns alpha first rest = some cs ∧
      cs.length = first.length ∧
      ∀ u, hornerVal u cs = hornerVal alpha ((first :: rest).map (hornerVal u))
  | [], rest, h => by
    refine ⟨[], rfl, rfl, fun u => ?_⟩
    have : rest.map (hornerVal u) = List.replicate rest.length 0 := by
      rw [List.eq_replicate_iff]
      refine ⟨by simp, fun b hb => ?_⟩
      obtain ⟨l, hl, rfl⟩ := List.mem_map.1 hb
      rw [List.eq_nil_of_length_eq_zero (h l hl)]; rfl
    rw [List.map_cons, this, hornerVal_cons, hornerVal_replicate_zero]
    simp
  | v :: first, rest, h => by
    obtain ⟨cs, h1, h2, h3⟩ := combineColumns_spec alpha first (rest.map List.tail) (by
      intro l hl
      obtain ⟨l', hl', rfl⟩ := List.mem_map.1 hl
      rw [List.length_tail, h l' hl']; rfl)
    have hheads : rest.mapM List.head? = some (rest.map fun l => l.headD 0) := by
      clear h1 h3
      induction rest with
      | nil => rfl
      | cons l rest ih =>
        rw [List.mapM_cons, ih fun l' hl' => h l' (List.mem_cons_of_mem _ hl')]
        have hl := h l List.mem_cons_self
        cases l with
        | nil => simp at hl
        | cons a l => rfl
    refine ⟨_, by
      rw [combineColumns, hheads]
      simp only [Option.bind_eq_bind, Option.bind_some]
      rw [h1]
      rfl, by simp [h2], fun u => ?_⟩
    rw [heads_foldl, hornerVal_cons, h3, h2]
    have e1 : (rest.map fun l => l.headD 0).foldl (fun acc v => acc * alpha + v) v =
        hornerVal alpha (((v :: first) :: rest).map fun l => l.headD 0) := by
      rw [List.map_cons, hornerVal, List.foldl_cons, zero_mul, zero_add]; rfl
    have e2 : (first :: rest.map List.tail).map (hornerVal u) =
        ((v :: first) :: rest).map fun l => hornerVal u l.tail := by
      simp [Function.comp_def]
    have e3 : ((v :: first) :: rest).map (hornerVal u) =
        ((v :: first) :: rest).map fun l => l.headD 0 * u ^ first.length + hornerVal u l.tail := by
      refine List.map_congr_left fun l hl => ?_
      have hlen : l.length = first.length + 1 := by
        rcases List.mem_cons.1 hl with rfl | hl
        · rfl
        · exact h l hl
      cases l with
      | nil => simp at hlen
      | cons a l =>
        rw [hornerVal_cons]
        simp only [List.length_cons, Nat.add_right_cancel_iff] at hlen
        rw [hlen]; rfl
    rw [e1, e2, e3, hornerVal_mul_add]

/-! ### Batching -/

theorem accumulate_spec {N : ℕ} (beta : F) : ∀ (ps : List (Poly F)) (p : Poly F), WellFormed N p →
    (∀ q ∈ ps, WellFormed N q) → ∃ r, accumulate N beta p ps = some r ∧ WellFormed N r ∧
      ∀ k, coeff r k = hornerVal beta ((p :: ps).map fun q => coeff q k)
  | [], p, hp, _ => ⟨p, rfl, hp, fun k => by simp [hornerVal_cons]⟩
  | q :: ps, p, hp, h => by
    obtain ⟨t, h1, h2, h3⟩ := combineAssign_spec N (fun a b => a + b) (by simp) (scale p beta) q
      (scale_wf hp beta) (h q List.mem_cons_self)
    obtain ⟨r, h4, h5, h6⟩ := accumulate_spec beta ps t h2 fun q' hq' =>
      h q' (List.mem_cons_of_mem _ hq')
    refine ⟨r, ?_, h5, fun k => ?_⟩
    · rw [accumulate, List.foldlM_cons, show addAssign N (scale p beta) q = some t from h1]
      exact h4
    · rw [h6, List.map_cons, List.map_cons, List.map_cons, hornerVal_cons, hornerVal_cons,
        hornerVal_cons, h3, scale_coeff]
      simp only [List.length_map, List.length_cons, pow_succ]
      ring

section
variable [AddCommGroup HC] [Module F HC]

/-- The commitments combine as the polynomials. -/
theorem commit_combination {N numBits : ℕ} {repr : F → List UInt8} (hr : ReprOk numBits repr)
    {gens : List HC} (hg : N ≤ gens.length) (beta : F) {pcs : List (Poly F × HC)} (hne : pcs ≠ [])
    (hw : ∀ pc ∈ pcs, WellFormed N pc.1 ∧ Msm.commit N numBits repr pc.1 gens = some pc.2)
    {r : Poly F} (hrw : WellFormed N r)
    (hc : ∀ k, coeff r k = hornerVal beta (pcs.map fun pc => coeff pc.1 k)) :
    Msm.commit N numBits repr r gens =
      some (pointSum beta (pcs.map (·.2)) (pcs.length - 1)) := by
  rw [C12_commit _ _ _ hr _ _ hrw hg]
  congr 1
  have hpos : 0 < pcs.length := List.length_pos_of_ne_nil hne
  rw [pointSum, show pcs.length - 1 + 1 = pcs.length by omega]
  simp only [hc, hornerVal_eq_sum, List.length_map, sum_smul]
  rw [sum_comm]
  refine sum_congr rfl fun i hi => ?_
  have hi' := mem_range.1 hi
  have e1 : ∀ k, (pcs.map fun pc => coeff pc.1 k).getD i 0 = coeff pcs[i].1 k := fun k => by
    rw [List.getD_eq_getElem?_getD, List.getElem?_map, List.getElem?_eq_getElem hi']; rfl
  have e2 : (pcs.map (·.2)).getD i 0 = pcs[i].2 := by
    rw [List.getD_eq_getElem?_getD, List.getElem?_map, List.getElem?_eq_getElem hi']; rfl
  obtain ⟨h1, h2⟩ := hw pcs[i] (List.getElem_mem hi')
  rw [C12_commit _ _ _ hr _ _ h1 hg, Option.some.injEq] at h2
  rw [e2, ← h2, smul_sum]
  exact sum_congr rfl fun k _ => by rw [e1, mul_smul]

end

end Ragu.Pcd

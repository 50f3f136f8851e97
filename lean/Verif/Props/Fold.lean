/-
C43, C44: folding revdot claims.
-/
import Verif.Lemmas.Fold
import Verif.Lemmas.Revdot
import Verif.Lemmas.TestField

set_option linter.unusedSectionVars false

namespace Ragu.Props
open Ragu Ragu.Circuit Ragu.Gadget Ragu.Spec Ragu.Pcd Ragu.Pcd.Fold Ragu.Sparse Finset
variable {F : Type} [Field F] [DecidableEq F]

/-! ### C43: completeness of the reduction -/

/-- C43: folding `n` left sides with `s` and `n` right sides with `t` never panics, and the
reversed dot product of the two results is the sum of all products `aᵢ·bⱼ`, weighted
`s^(n-1-i) t^(n-1-j)`. -/
theorem C43_native {N n : ℕ} (s t : F) {a b : List (Poly F)} (ha : a.length = n)
    (hb : b.length = n) (hwa : ∀ p ∈ a, WellFormed N p) (hwb : ∀ p ∈ b, WellFormed N p) :
    ∃ A B, Fold.fold (polyFoldable N) a s = some A ∧ Fold.fold (polyFoldable N) b t = some B ∧
      WellFormed N A ∧ WellFormed N B ∧
      revdot N A B = ∑ i ∈ range n, ∑ j ∈ range n,
        s ^ (n - 1 - i) * t ^ (n - 1 - j) * revdot N (a.getD i []) (b.getD j []) :=
  revdot_folds ha hb hwa hwb

/-- The in-circuit folding of `n` claims: the context for `(mu, nu)`, then the products. -/
def circuitFold (n : ℕ) (mu nu : Element F) (es ks : List (Element F)) : Syn F (Element F) := do
  let cf ← ClaimFolder.new mu nu
  cf.foldInner n es ks

/-- C43: with the right number of error terms and claims, the circuit is satisfiable exactly
when `mu ≠ 0`, and then its result is forced: the sum of the matrix with the claimed values
on the diagonal and the error terms elsewhere (row by row), weighted with `mu⁻¹` and
`mu nu`. -/
theorem C43_circuit {n : ℕ} {mu nu : Element F} {es ks : List (Element F)}
    (hes : es.length = n * n - n) (hks : ks.length = n) (c : Element F) :
    (circuitFold n mu nu es ks).sat c ↔ mu.wire ≠ 0 ∧
      c.wire = foldedClaim n mu.wire⁻¹ (mu.wire * nu.wire)
        (claimMatrix n (es.map (·.wire)) (ks.map (·.wire))) ∧
      c.value = foldedClaim n mu.value⁻¹ (mu.value * nu.value)
        (claimMatrix n (es.map (·.value)) (ks.map (·.value))) := by
  rw [circuitFold, ClaimFolder.new]
  simp only [Syn.sat_bind, Element.mul_sat, Element.invert_sat, Syn.sat_pure, exists_eq_left]
  have hf : ∀ muNu muInv : Element F, (foldProducts n muNu muInv es ks).sat c ↔ c =
      ⟨foldedClaim n muInv.wire muNu.wire (claimMatrix n (es.map (·.wire)) (ks.map (·.wire))),
        foldedClaim n muInv.value muNu.value (claimMatrix n (es.map (·.value)) (ks.map (·.value)))⟩ := by
    intro muNu muInv
    rw [← hornerE_matrix]
    exact (foldProducts_computes (h := False) False.elim False.elim hes hks False.elim False.elim).1 c
  constructor
  · rintro ⟨cf, ⟨inv, ⟨h1, h2⟩, rfl⟩, h⟩
    rw [ClaimFolder.foldInner, hf] at h
    have hmu : mu.wire ≠ 0 := fun h0 => by rw [h0, zero_mul] at h1; exact zero_ne_one h1
    subst h
    refine ⟨hmu, ?_, ?_⟩
    · rw [eq_comm, inv_eq_of_mul_eq_one_right h1]
    · simp only [h2]
  · rintro ⟨hmu, h1, h2⟩
    refine ⟨⟨⟨mu.wire * nu.wire, mu.value * nu.value⟩, ⟨mu.wire⁻¹, mu.value⁻¹⟩⟩,
      ⟨⟨mu.wire⁻¹, mu.value⁻¹⟩, ⟨mul_inv_cancel₀ hmu, rfl⟩, rfl⟩, ?_⟩
    rw [ClaimFolder.foldInner, hf, ← h1, ← h2]

/-- C43: on honest inputs with `mu ≠ 0` the simulator accepts, and returns that value. -/
theorem C43_circuit_honest {n : ℕ} {mu nu : Element F} {es ks : List (Element F)}
    (hes : es.length = n * n - n) (hks : ks.length = n) (hm : mu.Honest) (hn : nu.Honest)
    (he : ∀ e ∈ es, e.Honest) (hk : ∀ e ∈ ks, e.Honest) (h0 : mu.wire ≠ 0) :
    ∃ c, (circuitFold n mu nu es ks).sim = .ok c ∧ c.Honest ∧
      c.wire = foldedClaim n mu.wire⁻¹ (mu.wire * nu.wire)
        (claimMatrix n (es.map (·.wire)) (ks.map (·.wire))) := by
  have hmv : mu.value = mu.wire := hm
  have hnv : nu.value = nu.wire := hn
  set muNu : Element F := ⟨mu.wire * nu.wire, mu.wire * nu.wire⟩
  set muInv : Element F := ⟨mu.value⁻¹, mu.value⁻¹⟩
  have h1 : (ClaimFolder.new mu nu).sim = .ok ⟨muNu, muInv⟩ := by
    rw [ClaimFolder.new, Syn.sim_bind_ok (Element.mul_sim hm hn), Syn.sim_bind_ok (a := muInv) (by
      rw [Element.invert_sim_eq, if_pos ⟨by rw [hmv]; exact h0, hmv⟩])]
    rfl
  have h2 := (foldProducts_computes (h := True) (muNu := muNu) (muInv := muInv) (fun _ => rfl)
    (fun _ => rfl) hes hks (fun _ => he) (fun _ => hk)).2 trivial
  refine ⟨_, by rw [circuitFold, Syn.sim_bind_ok h1]; exact h2, ?_, ?_⟩
  · refine hornerE_honest (p := muInv) (show muInv.value = muInv.wire from rfl) fun e hm => ?_
    obtain ⟨i, _, rfl⟩ := List.mem_map.1 hm
    refine hornerE_honest (p := muNu) (show muNu.value = muNu.wire from rfl) fun e hm => ?_
    obtain ⟨j, _, rfl⟩ := List.mem_map.1 hm
    exact entry_honest he hk i j
  · rw [hornerE_matrix]
    show foldedClaim n mu.value⁻¹ (mu.wire * nu.wire) _ = _
    rw [hmv]

/-- C43: the error terms are the products `aᵢ·bⱼ`, `i ≠ j`, within each group, in the order in
which the circuit consumes them; missing polynomials count as zero. -/
theorem C43_errors {N outer inner : ℕ} (hi : inner ≠ 0) {a b : List (Poly F)}
    (hab : a.length = b.length) (hl : a.length ≤ outer * inner) :
    ∃ es, computeErrors N outer inner a b = some es ∧ es.length = outer ∧
      ∀ k < outer, ∃ e, es[k]? = some e ∧ e.length = inner * inner - inner ∧
        ∀ i < inner, ∀ j < inner, i ≠ j → e.getD (errorIndex inner i j) 0 =
          revdot N (a.getD (k * inner + i) []) (b.getD (k * inner + j) []) := by
  obtain ⟨es, h1, h2, h3⟩ := computeErrors_spec (N := N) hi hab hl
  refine ⟨es, h1, h2, fun k hk => ⟨_, h3 k hk, ?_, fun i hi' j hj hij => ?_⟩⟩
  · rw [List.length_map, offDiagonalPairs_length]; rfl
  · rw [errors_get _ hi' hj hij]

/-- C43: too many polynomials, or two sides of different lengths, are refused (a panic), not
truncated. -/
theorem C43_refuses {N m g : ℕ} {a b : List (Poly F)} (s : F) :
    (m * g < a.length → foldInner (polyFoldable N) m g a s = none) ∧
    (m * g < a.length ∨ a.length ≠ b.length → innerErrorTerms N m g a b = none) := by
  constructor
  · intro h
    rw [foldInner, if_neg (fun hc => by omega)]
  · intro h
    rw [innerErrorTerms, computeErrors, if_neg]
    rintro ⟨h1, h2, _⟩
    rcases h with h | h
    · rw [mul_comm] at h2; omega
    · exact h h1

/-- C43: the first layer yields exactly `g` polynomials; the `k`-th is the Horner combination
of the `k`-th group of `m`, missing polynomials being zero. -/
theorem C43_fold_inner {N m g : ℕ} (hm : m ≠ 0) (s : F) {l : List (Poly F)} (hl : l.length ≤ m * g)
    (hw : ∀ p ∈ l, WellFormed N p) :
    ∃ rs, foldInner (polyFoldable N) m g l s = some rs ∧ rs.length = g ∧
      (∀ p ∈ rs, WellFormed N p) ∧ ∀ k < g, ∀ c,
        coeff (rs.getD k []) c =
          ∑ i ∈ range m, s ^ (m - 1 - i) * coeff (l.getD (k * m + i) []) c := by
  obtain ⟨rs, h1, h2, h3, h4⟩ := foldInner_spec (N := N) hm s hl hw
  refine ⟨rs, h1, h2, h3, fun k hk c => ?_⟩
  obtain ⟨r, r1, _, r3⟩ := fold_poly_spec N s (paddedGroup m [] l k) (paddedGroup_wf hw k)
  rw [h4 k hk] at r1
  rw [Option.some.inj r1, r3, paddedGroup, List.map_map, hornerVal_map_range]
  rfl

/-- The `k`-th group of `m` claimed values, padded with zeros. -/
def kyGroup (m : ℕ) (ky : List F) (k : ℕ) : List F := paddedGroup m 0 ky k

theorem claimMatrix_true {N n : ℕ} {A B : List (Poly F)} {errs ky : List F}
    (he : ∀ i < n, ∀ j < n, i ≠ j → errs.getD (errorIndex n i j) 0 = revdot N (A.getD i []) (B.getD j []))
    (hk : ∀ i < n, ky.getD i 0 = revdot N (A.getD i []) (B.getD i [])) (s t : F) :
    foldedClaim n s t (claimMatrix n errs ky) =
      foldedClaim n s t fun i j => revdot N (A.getD i []) (B.getD j []) := by
  rw [foldedClaim, foldedClaim]
  refine sum_congr rfl fun i hi => sum_congr rfl fun j hj => ?_
  rw [claimMatrix]
  by_cases h : i = j
  · subst h; rw [if_pos rfl, hk i (mem_range.1 hi)]
  · rw [if_neg h, he i (mem_range.1 hi) j (mem_range.1 hj) h]

/-- C43, the whole two-layer reduction: for any list of claims `aᵢ·bᵢ = kᵢ` (absent ones being
zero) and any challenges with `mu`, `mu'` nonzero, nothing panics and, whenever the circuits
of the two layers are satisfied with the prover's error terms on their wires, the
collapsed values are the products of the folded polynomials of each group and the
final `c` is the product of the final folded polynomials. -/
theorem C43_two_layer {N m g : ℕ} (hm : m ≠ 0) (hg : g ≠ 0) {a b : List (Poly F)} {ky : List F}
    (hab : a.length = b.length) (hl : a.length ≤ m * g) (hwa : ∀ p ∈ a, WellFormed N p)
    (hwb : ∀ p ∈ b, WellFormed N p)
    (hky : ∀ i, ky.getD i 0 = revdot N (a.getD i []) (b.getD i []))
    (mu nu mu' nu' : Element F) :
    ∃ ie A B oe Ar Br, innerErrorTerms N m g a b = some ie ∧
      foldInner (polyFoldable N) m g a mu.wire⁻¹ = some A ∧
      foldInner (polyFoldable N) m g b (mu.wire * nu.wire) = some B ∧
      outerErrorTerms N g A B = some oe ∧
      foldOuter (polyFoldable N) A mu'.wire⁻¹ = some Ar ∧
      foldOuter (polyFoldable N) B (mu'.wire * nu'.wire) = some Br ∧
      ie.length = g ∧ (∀ e ∈ ie, e.length = m * m - m) ∧ oe.length = g * g - g ∧
      ∀ (ies kys : ℕ → List (Element F)) (col : ℕ → Element F) (oes : List (Element F))
        (c : Element F),
        (∀ k < g, (ies k).map (·.wire) = ie.getD k [] ∧
          (kys k).map (·.wire) = kyGroup m ky k ∧
          (circuitFold m mu nu (ies k) (kys k)).sat (col k)) →
        oes.map (·.wire) = oe →
        (circuitFold g mu' nu' oes ((List.range g).map col)).sat c →
        (∀ k < g, (col k).wire = revdot N (A.getD k []) (B.getD k [])) ∧
        c.wire = revdot N Ar Br := by
  obtain ⟨ie, i1, i2, i3⟩ := computeErrors_spec (N := N) (outer := g) (inner := m) hm hab
    (by rw [mul_comm]; exact hl)
  obtain ⟨A, a1, a2, a3, a4⟩ := foldInner_spec (N := N) hm mu.wire⁻¹ hl hwa
  obtain ⟨B, b1, b2, b3, b4⟩ := foldInner_spec (N := N) hm (mu.wire * nu.wire) (hab ▸ hl) hwb
  obtain ⟨oes, o1, o2, o3⟩ := computeErrors_spec (N := N) (outer := 1) (inner := g) hg
    (a2.trans b2.symm) (by omega)
  obtain ⟨Ar, Br, r1, r2, r3, r4, r5⟩ := revdot_folds (s := mu'.wire⁻¹) (t := mu'.wire * nu'.wire)
    a2 b2 a3 b3
  have ho0 := o3 0 (by omega)
  simp only [zero_mul, zero_add] at ho0
  set oe := (offDiagonalPairs g).map fun ij => revdot N (A.getD ij.1 []) (B.getD ij.2 []) with hoe
  refine ⟨ie, A, B, oe, Ar, Br, i1, a1, b1, ?_, r1, r2, i2, ?_, ?_, ?_⟩
  · rw [outerErrorTerms, o1]
    show oes.head? = _
    rw [List.head?_eq_getElem?, ho0]
  · intro e he
    obtain ⟨k, hk⟩ := List.getElem?_of_mem he
    have hkg : k < g := by rw [← i2]; exact (List.getElem?_eq_some_iff.1 hk).1
    rw [i3 k hkg] at hk
    rw [← Option.some.inj hk, List.length_map, offDiagonalPairs_length]; rfl
  · rw [hoe, List.length_map, offDiagonalPairs_length]; rfl
  · intro ies kys col oes' c hcol ho hc
    have hcol' : ∀ k < g, (col k).wire = revdot N (A.getD k []) (B.getD k []) := by
      intro k hk
      obtain ⟨w1, w2, hs⟩ := hcol k hk
      have hik : ie.getD k [] = (offDiagonalPairs m).map fun ij =>
          revdot N (a.getD (k * m + ij.1) []) (b.getD (k * m + ij.2) []) := by
        rw [List.getD_eq_getElem?_getD, i3 k hk]; rfl
      have hl1 : (ies k).length = m * m - m := by
        rw [← List.length_map (f := fun e : Element F => e.wire), w1, hik, List.length_map,
          offDiagonalPairs_length]; rfl
      have hl2 : (kys k).length = m := by
        rw [← List.length_map (f := fun e : Element F => e.wire), w2]; exact paddedGroup_length _ _ _ _
      rw [C43_circuit hl1 hl2] at hs
      rw [hs.2.1, w1, w2]
      obtain ⟨A', B', f1, f2, _, _, f5⟩ := revdot_folds (N := N) (n := m) (s := mu.wire⁻¹)
        (t := mu.wire * nu.wire) (paddedGroup_length m [] a k) (paddedGroup_length m [] b k)
        (paddedGroup_wf hwa k) (paddedGroup_wf hwb k)
      rw [a4 k hk] at f1
      rw [b4 k hk] at f2
      rw [Option.some.inj f1, Option.some.inj f2, f5]
      refine claimMatrix_true (N := N) (fun i hi j hj hij => ?_) (fun i hi => ?_) _ _
      · rw [hik, errors_get _ hi hj hij, paddedGroup_getD _ _ _ _ _ hi, paddedGroup_getD _ _ _ _ _ hj]
      · rw [kyGroup, paddedGroup_getD _ _ _ _ _ hi, hky, paddedGroup_getD _ _ _ _ _ hi,
          paddedGroup_getD _ _ _ _ _ hi]
    refine ⟨hcol', ?_⟩
    have hl1 : oes'.length = g * g - g := by
      rw [← List.length_map (f := fun e : Element F => e.wire), ho, hoe, List.length_map,
        offDiagonalPairs_length]; rfl
    rw [C43_circuit hl1 (by simp)] at hc
    rw [hc.2.1, r5, ho]
    refine claimMatrix_true (N := N) (fun i hi j hj hij => ?_) (fun i hi => ?_) _ _
    · rw [hoe, errors_get _ hi hj hij]
    · rw [List.getD_eq_getElem?_getD, List.getElem?_map, List.getElem?_map, List.getElem?_range hi]
      exact hcol' i hi

/-- C43: the in-circuit two-layer fold of values determines the same double Horner
combination, with zero padding, and accepts honest inputs. -/
theorem C43_fold_two_layer {m g : ℕ} (hm : m ≠ 0) {src : List (Element F)}
    (hl : src.length ≤ m * g) (l1 l2 : Element F) (r : Element F)
    (hr : (foldTwoLayer m g src l1 l2).sat r) :
    r.wire = ∑ k ∈ range g, l2.wire ^ (g - 1 - k) *
      ∑ i ∈ range m, l1.wire ^ (m - 1 - i) * (src.map (·.wire)).getD (k * m + i) 0 := by
  have := ((foldTwoLayer_computes (h := False) hm hl (l1 := l1) (l2 := l2) False.elim False.elim
    False.elim).1 r).1 hr
  rw [this, hornerE]
  simp only [List.map_map]
  rw [hornerVal_map_range]
  refine sum_congr rfl fun k _ => ?_
  congr 1
  show hornerVal l1.wire ((paddedGroup m Element.zero src k).map (·.wire)) = _
  rw [paddedGroup, List.map_map, hornerVal_map_range]
  refine sum_congr rfl fun i _ => ?_
  congr 1
  simp only [Function.comp, List.getD_eq_getElem?_getD, List.getElem?_map]
  rcases src[k * m + i]? with _ | e
  · exact Element.zero_wire
  · rfl

/-- C43: and it accepts honest inputs. -/
theorem C43_fold_two_layer_honest {m g : ℕ} (hm : m ≠ 0) {src : List (Element F)}
    (hl : src.length ≤ m * g) (l1 l2 : Element F) (h1 : l1.Honest) (h2 : l2.Honest)
    (hs : ∀ e ∈ src, e.Honest) : ∃ r, (foldTwoLayer m g src l1 l2).sim = .ok r ∧ r.Honest :=
  ⟨_, (foldTwoLayer_computes (h := True) hm hl (fun _ => h1) (fun _ => h2) fun _ => hs).2 trivial,
    hornerE_honest h2 fun e he => by
      obtain ⟨k, _, rfl⟩ := List.mem_map.1 he
      refine hornerE_honest h1 fun e he => ?_
      obtain ⟨i, _, rfl⟩ := List.mem_map.1 he
      exact getD_honest hs _⟩

/-! ### C44: soundness of the reduction -/

/-- The folded claim for challenges `(mu, nu)`: the polynomials fold to `A`, `B`, and the circuit,
with these claimed values and error terms on its wires, accepts `A·B`. -/
def FoldedHolds (N n : ℕ) (a b : List (Poly F)) (errs ky : List F) (mu nu : F) : Prop :=
  ∃ A B, Fold.fold (polyFoldable N) a mu⁻¹ = some A ∧
    Fold.fold (polyFoldable N) b (mu * nu) = some B ∧
    ∃ (muE nuE c : Element F) (es ks : List (Element F)), muE.wire = mu ∧ nuE.wire = nu ∧
      es.map (·.wire) = errs ∧ ks.map (·.wire) = ky ∧
      (circuitFold n muE nuE es ks).sat c ∧ c.wire = revdot N A B

theorem foldedClaim_sub (n : ℕ) (s t : F) (M M' : ℕ → ℕ → F) :
    foldedClaim n s t M - foldedClaim n s t M' = foldedClaim n s t fun i j => M i j - M' i j := by
  rw [foldedClaim, foldedClaim, foldedClaim, ← sum_sub_distrib]
  refine sum_congr rfl fun i _ => ?_
  rw [← sum_sub_distrib]
  exact sum_congr rfl fun j _ => by ring

/-- The number of `nu` at which a folded difference vanishes. -/
theorem card_nu {n : ℕ} {D : ℕ → ℕ → F} {mu : F} (hmu : mu ≠ 0) {j0 : ℕ} (hj : j0 < n)
    (hne : ∑ i ∈ range n, D i j0 * mu ^ i ≠ 0) (S : Finset F) :
    (S.filter fun nu => foldedClaim n mu⁻¹ (mu * nu) D = 0).card ≤ n - 1 := by
  by_contra hc
  apply hne
  have h := coeffs_zero (N := n) (fun e => mu ^ e * ∑ i ∈ range n, mu⁻¹ ^ (n - 1 - i) * D i (n - 1 - e))
    (S.filter fun nu => foldedClaim n mu⁻¹ (mu * nu) D = 0) (by omega) (by
      intro nu hnu
      rw [← (mem_filter.1 hnu).2, foldedClaim, sum_comm, ← sum_range_reflect]
      refine sum_congr rfl fun e he => ?_
      have := mem_range.1 he
      rw [mul_sum, sum_mul]
      refine sum_congr rfl fun i _ => ?_
      rw [mul_pow, show n - 1 - (n - 1 - e) = e by omega]
      · ring)
    (n - 1 - j0) (by omega)
  simp only [show n - 1 - (n - 1 - j0) = j0 by omega] at h
  rcases mul_eq_zero.1 h with h | h
  · exact absurd h (pow_ne_zero _ hmu)
  · have h2 : mu ^ (n - 1) * ∑ i ∈ range n, mu⁻¹ ^ (n - 1 - i) * D i j0 = 0 := by rw [h, mul_zero]
    rw [mul_sum] at h2
    rw [← h2]
    refine sum_congr rfl fun i hi => ?_
    have := mem_range.1 hi
    have h3 : mu ^ (n - 1) = mu ^ i * mu ^ (n - 1 - i) := by rw [← pow_add]; congr 1; omega
    rw [h3, inv_pow]
    have : mu ^ (n - 1 - i) ≠ 0 := pow_ne_zero _ hmu
    field_simp

/-- The number of challenge pairs at which a folded difference with a nonzero diagonal (in fact,
any) entry vanishes. -/
theorem card_pairs {n : ℕ} {D : ℕ → ℕ → F} {i0 j0 : ℕ} (hi : i0 < n) (hj : j0 < n)
    (hne : D i0 j0 ≠ 0) (S : Finset F) (h0 : (0 : F) ∉ S) :
    ((S ×ˢ S).filter fun p => foldedClaim n p.1⁻¹ (p.1 * p.2) D = 0).card ≤ 2 * (n - 1) * S.card := by
  set bad := S.filter fun mu => ∑ i ∈ range n, D i j0 * mu ^ i = 0 with hbad
  have hb : bad.card ≤ n - 1 := by
    by_contra hc
    exact hne (coeffs_zero (N := n) (fun i => D i j0) bad (by omega)
      (fun z hz => (mem_filter.1 hz).2) i0 hi)
  rw [card_filter, sum_product]
  have hle : ∀ mu ∈ S, (∑ nu ∈ S, if foldedClaim n mu⁻¹ (mu * nu) D = 0 then 1 else 0) ≤
      (if mu ∈ bad then S.card else 0) + (n - 1) := by
    intro mu hmu
    rw [← card_filter]
    by_cases hm : mu ∈ bad
    · rw [if_pos hm]
      exact (card_filter_le _ _).trans (Nat.le_add_right _ _)
    · rw [if_neg hm, zero_add]
      refine card_nu (fun h => h0 (h ▸ hmu)) hj (fun h => hm ?_) S
      exact mem_filter.2 ⟨hmu, h⟩
  refine (sum_le_sum hle).trans ?_
  rw [sum_add_distrib, sum_const, smul_eq_mul, ← sum_filter, sum_const, smul_eq_mul]
  have h2 : (S.filter fun x => x ∈ bad).card ≤ n - 1 :=
    (card_le_card fun x hx => (mem_filter.1 hx).2).trans hb
  calc _ ≤ (n - 1) * S.card + S.card * (n - 1) := Nat.add_le_add_right (Nat.mul_le_mul_right _ h2) _
    _ = _ := by ring

theorem foldedHolds_iff {N n : ℕ} {a b : List (Poly F)} (ha : a.length = n) (hb : b.length = n)
    (hwa : ∀ p ∈ a, WellFormed N p) (hwb : ∀ p ∈ b, WellFormed N p) {errs ky : List F}
    (he : errs.length = n * n - n) (hk : ky.length = n) {mu nu : F} (hmu : mu ≠ 0) :
    FoldedHolds N n a b errs ky mu nu ↔ foldedClaim n mu⁻¹ (mu * nu) (fun i j =>
      claimMatrix n errs ky i j - revdot N (a.getD i []) (b.getD j [])) = 0 := by
  obtain ⟨A, B, r1, r2, _, _, r5⟩ := revdot_folds (N := N) (s := mu⁻¹) (t := mu * nu) ha hb hwa hwb
  rw [← foldedClaim_sub, ← r5, sub_eq_zero]
  constructor
  · rintro ⟨A', B', f1, f2, muE, nuE, c, es, ks, h1, h2, h3, h4, h5, h6⟩
    rw [r1] at f1
    rw [r2] at f2
    rw [Option.some.inj f1, Option.some.inj f2, ← h6]
    subst h1 h2 h3 h4
    rw [List.length_map] at he hk
    exact ((C43_circuit he hk c).1 h5).2.1.symm
  · intro h
    set el : F → Element F := fun x => ⟨x, x⟩
    have hw : ∀ l : List F, (l.map el).map (·.wire) = l := fun l => by
      rw [List.map_map]; exact List.map_id'' (fun _ => rfl) l
    refine ⟨A, B, r1, r2, el mu, el nu, el (foldedClaim n mu⁻¹ (mu * nu) (claimMatrix n errs ky)),
      errs.map el, ky.map el, rfl, rfl, hw _, hw _, ?_, h⟩
    rw [C43_circuit (by rw [List.length_map]; exact he) (by rw [List.length_map]; exact hk)]
    refine ⟨hmu, by rw [hw, hw], ?_⟩
    have hv : ∀ l : List F, (l.map el).map (·.value) = l := fun l => by
      rw [List.map_map]; exact List.map_id'' (fun _ => rfl) l
    rw [hv, hv]

open Classical in
/-- C44: if some claim `aᵢ·bᵢ = kᵢ` is false then, whatever error terms are fixed beforehand,
among the pairs of nonzero challenges from any set `S` at most `2 (n − 1) |S|` of the
`|S|²` pairs make the folded claim true. -/
theorem C44_soundness {N n : ℕ} {a b : List (Poly F)} (ha : a.length = n) (hb : b.length = n)
    (hwa : ∀ p ∈ a, WellFormed N p) (hwb : ∀ p ∈ b, WellFormed N p) {errs ky : List F}
    (he : errs.length = n * n - n) (hk : ky.length = n)
    (hbad : ∃ i < n, revdot N (a.getD i []) (b.getD i []) ≠ ky.getD i 0)
    (S : Finset F) (h0 : (0 : F) ∉ S) :
    ((S ×ˢ S).filter fun p => FoldedHolds N n a b errs ky p.1 p.2).card ≤ 2 * (n - 1) * S.card := by
  obtain ⟨i, hi, hne⟩ := hbad
  refine le_trans (card_le_card ?_) (card_pairs (D := fun i j => claimMatrix n errs ky i j -
    revdot N (a.getD i []) (b.getD j [])) hi hi ?_ S h0)
  · intro p hp
    obtain ⟨h1, h2⟩ := mem_filter.1 hp
    rw [foldedHolds_iff ha hb hwa hwb he hk
      (fun h => h0 (h ▸ (mem_product.1 h1).1))] at h2
    exact mem_filter.2 ⟨h1, h2⟩
  · simp only [claimMatrix, if_true]
    exact sub_ne_zero.2 fun h => hne h.symm

/-- The two-layer folded claim for challenges `(mu, nu)` and `(mu', nu')`, with inner error
terms `ie` and outer error terms `oe`: there are collapsed values that the circuits of
both layers accept, with a final value equal to the product of the folded polynomials. -/
def TwoLayerHolds (N m g : ℕ) (a b : List (Poly F)) (ie : List (List F)) (oe ky : List F)
    (mu nu mu' nu' : F) : Prop :=
  ∃ A B Ar Br, foldInner (polyFoldable N) m g a mu⁻¹ = some A ∧
    foldInner (polyFoldable N) m g b (mu * nu) = some B ∧
    foldOuter (polyFoldable N) A mu'⁻¹ = some Ar ∧
    foldOuter (polyFoldable N) B (mu' * nu') = some Br ∧
    ∃ (muE nuE muE' nuE' c : Element F) (ies kys : ℕ → List (Element F)) (col : ℕ → Element F)
      (oes : List (Element F)), muE.wire = mu ∧ nuE.wire = nu ∧ muE'.wire = mu' ∧ nuE'.wire = nu' ∧
      (∀ k < g, (ies k).map (·.wire) = ie.getD k [] ∧ (kys k).map (·.wire) = kyGroup m ky k ∧
        (circuitFold m muE nuE (ies k) (kys k)).sat (col k)) ∧
      oes.map (·.wire) = oe ∧
      (circuitFold g muE' nuE' oes ((List.range g).map col)).sat c ∧ c.wire = revdot N Ar Br

open Classical in
/-- C44, both layers: if some claim is false then, for inner error terms fixed before
`(mu, nu)` and outer error terms fixed before `(mu', nu')` (they may depend on `mu` and
`nu`), at most `(2 (m − 1) + 2 (g − 1)) |S|³` of the `|S|⁴` challenge tuples make the final
folded claim true. -/
theorem C44_two_layer {N m g : ℕ} (hm : m ≠ 0) {a b : List (Poly F)} (hab : a.length = b.length)
    (hl : a.length ≤ m * g) (hwa : ∀ p ∈ a, WellFormed N p) (hwb : ∀ p ∈ b, WellFormed N p)
    {ie : List (List F)} (hie : ie.length = g ∧ ∀ e ∈ ie, e.length = m * m - m)
    {oe : F → F → List F} (hoe : ∀ mu nu, (oe mu nu).length = g * g - g) {ky : List F}
    (hbad : ∃ i < m * g, revdot N (a.getD i []) (b.getD i []) ≠ ky.getD i 0)
    (S : Finset F) (h0 : (0 : F) ∉ S) :
    (((S ×ˢ S) ×ˢ (S ×ˢ S)).filter fun p => TwoLayerHolds N m g a b ie (oe p.1.1 p.1.2) ky
      p.1.1 p.1.2 p.2.1 p.2.2).card ≤ (2 * (m - 1) + 2 * (g - 1)) * S.card ^ 3 := by
  obtain ⟨q, hq, hne⟩ := hbad
  set k0 := q / m with hk0
  set i0 := q % m with hi0
  have hi0m : i0 < m := Nat.mod_lt _ (by omega)
  have hk0g : k0 < g := Nat.div_lt_of_lt_mul hq
  have hqe : k0 * m + i0 = q := by rw [mul_comm]; exact Nat.div_add_mod q m
  -- the first layer
  set D1 : ℕ → ℕ → F := fun i j => claimMatrix m (ie.getD k0 []) (kyGroup m ky k0) i j -
    revdot N ((paddedGroup m [] a k0).getD i []) ((paddedGroup m [] b k0).getD j []) with hD1
  set bad1 := (S ×ˢ S).filter fun p => foldedClaim m p.1⁻¹ (p.1 * p.2) D1 = 0 with hbad1
  have hc1 : bad1.card ≤ 2 * (m - 1) * S.card := by
    refine card_pairs hi0m hi0m ?_ S h0
    rw [hD1]
    simp only [claimMatrix, if_true]
    rw [kyGroup, paddedGroup_getD _ _ _ _ _ hi0m, paddedGroup_getD _ _ _ _ _ hi0m,
      paddedGroup_getD _ _ _ _ _ hi0m, hqe]
    exact sub_ne_zero.2 fun h => hne h.symm
  -- the second layer, for a good pair of the first
  have hc2 : ∀ p ∈ S ×ˢ S, p ∉ bad1 → ((S ×ˢ S).filter fun p' => TwoLayerHolds N m g a b ie
      (oe p.1 p.2) ky p.1 p.2 p'.1 p'.2).card ≤ 2 * (g - 1) * S.card := by
    rintro ⟨mu, nu⟩ hp hnb
    have hmu : mu ≠ 0 := fun h => h0 (h ▸ (mem_product.1 hp).1)
    obtain ⟨A, a1, a2, a3, a4⟩ := foldInner_spec (N := N) (g := g) hm mu⁻¹ hl hwa
    obtain ⟨B, b1, b2, b3, b4⟩ := foldInner_spec (N := N) (g := g) hm (mu * nu) (hab ▸ hl) hwb
    set col : ℕ → F := fun k => foldedClaim m mu⁻¹ (mu * nu) (claimMatrix m (ie.getD k []) (kyGroup m ky k))
      with hcol
    refine le_trans (card_le_card ?_) (card_pairs (n := g) (D := fun i j =>
      claimMatrix g (oe mu nu) ((List.range g).map col) i j -
        revdot N (A.getD i []) (B.getD j [])) hk0g hk0g ?_ S h0)
    · rintro ⟨mu', nu'⟩ hp'
      obtain ⟨h1, h2⟩ := mem_filter.1 hp'
      refine mem_filter.2 ⟨h1, ?_⟩
      obtain ⟨A', B', Ar, Br, f1, f2, f3, f4, muE, nuE, muE', nuE', c, ies, kys, colE, oes, w1, w2,
        w3, w4, hk, ho, hc, hr⟩ := h2
      rw [a1] at f1
      rw [b1] at f2
      cases f1; cases f2
      have hoes : oes.length = g * g - g := by
        rw [← List.length_map (f := fun e : Element F => e.wire), ho, hoe]
      have hcw := ((C43_circuit hoes (by simp) c).1 hc).2.1
      obtain ⟨Ar', Br', r1, r2, _, _, r5⟩ := revdot_folds (N := N) (s := mu'⁻¹) (t := mu' * nu')
        a2 b2 a3 b3
      rw [foldOuter, r1] at f3
      rw [foldOuter, r2] at f4
      cases f3; cases f4
      show foldedClaim g mu'⁻¹ (mu' * nu') _ = 0
      rw [← foldedClaim_sub, ← r5, ← hr, hcw, w3, w4, ho, sub_eq_zero]
      congr 2
      rw [List.map_map]
      refine List.map_congr_left fun k hkr => ?_
      obtain ⟨k1, k2, k3⟩ := hk k (List.mem_range.1 hkr)
      have hl1 : (ies k).length = m * m - m := by
        rw [← List.length_map (f := fun e : Element F => e.wire), k1]
        refine hie.2 _ ?_
        rw [List.getD_eq_getElem?_getD, List.getElem?_eq_getElem (by rw [hie.1]; exact List.mem_range.1 hkr)]
        exact List.getElem_mem _
      have hl2 : (kys k).length = m := by
        rw [← List.length_map (f := fun e : Element F => e.wire), k2]; exact paddedGroup_length _ _ _ _
      have := ((C43_circuit hl1 hl2 _).1 k3).2.1
      simp only [Function.comp]
      rw [this, k1, k2, w1, w2]
    · intro h
      apply hnb
      refine mem_filter.2 ⟨hp, ?_⟩
      simp only [claimMatrix, if_true, List.getD_eq_getElem?_getD, List.getElem?_map,
        List.getElem?_range hk0g, Option.map_some, Option.getD_some] at h
      obtain ⟨A', B', f1, f2, _, _, f5⟩ := revdot_folds (N := N) (n := m) (s := mu⁻¹)
        (t := mu * nu) (paddedGroup_length m [] a k0) (paddedGroup_length m [] b k0)
        (paddedGroup_wf hwa k0) (paddedGroup_wf hwb k0)
      rw [a4 k0 hk0g] at f1
      rw [b4 k0 hk0g] at f2
      rw [hD1, ← foldedClaim_sub, ← f5, ← Option.some.inj f1, ← Option.some.inj f2]
      rw [← List.getD_eq_getElem?_getD, ← List.getD_eq_getElem?_getD] at h
      exact h
  rw [card_filter, sum_product]
  have hle : ∀ p ∈ S ×ˢ S, (∑ p' ∈ S ×ˢ S, if TwoLayerHolds N m g a b ie (oe p.1 p.2) ky p.1 p.2
      p'.1 p'.2 then 1 else 0) ≤ (if p ∈ bad1 then S.card * S.card else 0) + 2 * (g - 1) * S.card := by
    intro p hp
    rw [← card_filter]
    by_cases hb : p ∈ bad1
    · rw [if_pos hb]
      exact ((card_filter_le _ _).trans (card_product _ _).le).trans (Nat.le_add_right _ _)
    · rw [if_neg hb, zero_add]
      exact hc2 p hp hb
  refine (sum_le_sum hle).trans ?_
  rw [sum_add_distrib, sum_const, smul_eq_mul, ← sum_filter, sum_const, smul_eq_mul, card_product]
  have h2 : ((S ×ˢ S).filter fun x => x ∈ bad1).card ≤ 2 * (m - 1) * S.card :=
    (card_le_card fun x hx => (mem_filter.1 hx).2).trans hc1
  calc _ ≤ 2 * (m - 1) * S.card * (S.card * S.card) + S.card * S.card * (2 * (g - 1) * S.card) :=
        Nat.add_le_add_right (Nat.mul_le_mul_right _ h2) _
    _ = _ := by ring

/-! ### Concrete cases -/

/-- Three claims over two groups of two, with products 3, 8 and 0. -/
def demoA : List (Poly (ZMod 17)) := [[(0, [1])], [(0, [2])], [(1, [1])]]
def demoB : List (Poly (ZMod 17)) := [[(3, [3])], [(3, [4])], [(3, [5])]]

theorem demo_wf : (∀ p ∈ demoA, WellFormed 4 p) ∧ ∀ p ∈ demoB, WellFormed 4 p := by
  constructor <;> intro p hp <;> simp only [demoA, demoB, List.mem_cons, List.not_mem_nil, or_false] at hp <;>
    rcases hp with rfl | rfl | rfl <;> simp [WellFormed, WellFormedFrom]

example : innerErrorTerms 4 2 2 demoA demoB = some [[4, 6], [0, 0]] := by decide +kernel
example : (foldInner (polyFoldable 4) 2 2 demoA (3 : ZMod 17)).map (·.map fun p => coeff p 0) =
    some [5, 0] := by decide +kernel
example : ∀ i < 3, ([3, 8, 0] : List (ZMod 17)).getD i 0 = revdot 4 (demoA.getD i []) (demoB.getD i []) := by
  decide +kernel

/-- The hypotheses of `C43_two_layer` are met by these claims. -/
example (mu nu mu' nu' : Element (ZMod 17)) := C43_two_layer (N := 4) (m := 2) (g := 2) (by decide)
  (by decide) (a := demoA) (b := demoB) (ky := [3, 8, 0]) rfl (by decide) demo_wf.1 demo_wf.2
  (fun i => by
    rcases i with _ | _ | _ | i
    · decide +kernel
    · decide +kernel
    · decide +kernel
    · rw [show demoA.getD (i + 3) [] = [] from rfl, revdot_nil_left]; rfl) mu nu mu' nu'

/-- The circuit is satisfied by a concrete folded value. -/
example : ∃ c, (circuitFold (F := ZMod 17) 2 ⟨2, 2⟩ ⟨3, 3⟩ [⟨4, 4⟩, ⟨6, 6⟩] [⟨3, 3⟩, ⟨8, 8⟩]).sim =
    .ok c ∧ c.Honest ∧ c.wire = foldedClaim 2 2⁻¹ (2 * 3) (claimMatrix 2 [4, 6] [3, 8]) :=
  C43_circuit_honest (by decide) rfl rfl rfl (by simp [Element.Honest]) (by simp [Element.Honest])
    (by decide)

/-- With a false claim, few challenges pass. -/
example : ((({1, 2, 3, 4, 5} : Finset (ZMod 17)) ×ˢ {1, 2, 3, 4, 5}).filter fun p =>
    foldedClaim 2 p.1⁻¹ (p.1 * p.2) (fun i j => claimMatrix 2 [4, 6] [3, 9] i j -
      revdot 4 (demoA.getD i []) (demoB.getD j [])) = 0).card ≤ 10 :=
  card_pairs (i0 := 1) (j0 := 1) (by decide) (by decide) (by decide +kernel) _ (by decide)

example : ∃ i < 2, revdot 4 ((demoA.take 2).getD i []) ((demoB.take 2).getD i []) ≠
    ([3, 9] : List (ZMod 17)).getD i 0 := ⟨1, by decide, by decide +kernel⟩

end Ragu.Props

/-
C47, C48 and C49: what the prover commits to agrees with what the verification circuit derives.
Cases that meet the hypotheses are in `Verif/Props/History.lean`.
-/
import Verif.Lemmas.Quotient
import Verif.Spec.FusePoints
import Verif.Props.ComputeV
import Verif.Props.Endoscale
import Verif.Props.Endoscalar
import Mathlib.Tactic.Positivity

set_option linter.unusedSectionVars false

namespace Ragu.Props
open Ragu Ragu.Circuit Ragu.Registry Ragu.Gadget Ragu.Spec Ragu.Sparse Ragu.Pcd Finset
variable {F G HC : Type} [Field F] [DecidableEq F] [AddCommGroup HC] [Module F HC]

/-- The value of `p` claimed by a child. -/
def childClaim (s : FuseState F G HC) : Side → F
  | .left => s.left.p.native.v
  | .right => s.right.p.native.v

/-- What a fuse relies on in a child: its commitments open to its polynomials, its claimed value is
the value of its `p` at its `u`, and its registry polynomial is the restriction to its `x` and `y`. -/
structure ChildReady (E : Env F) (n numBits : ℕ) (repr : F → List UInt8) (gens : List HC)
    (r : Registry F) (p : Proof F G HC) : Prop where
  traces : Committed (4 * n) numBits repr gens p
  p_wf : WellFormed (4 * n) p.p.native.poly
  p_commit : Msm.commit (4 * n) numBits repr p.p.native.poly gens = some p.p.native.commitment
  p_value : p.p.native.v = Sparse.eval (4 * n) p.p.native.poly p.challenges.u
  registry : computeRegistryXy E n numBits repr gens r p.challenges.x p.challenges.y =
    some (p.query.native.registryXyPoly, p.query.native.registryXyCommitment)

/-- The steps of a fuse before the quotients, with challenges `ch`. -/
structure FuseSteps (E : Env F) (n numBits : ℕ) (repr : F → List UInt8) (gens : List HC)
    (r : Registry F) (ch : Challenges F) (s : FuseState F G HC) : Prop where
  sPrime : computeNativeSPrime E n numBits repr gens r ch.w s.left s.right = some s.sPrime
  wy : computeRegistryWy E n numBits repr gens r ch.w ch.y =
    some (s.innerError.registryWyPoly, s.innerError.registryWyCommitment)
  ab : ∃ o, fuseAb E n numBits repr gens r ⟨s.left, s.right⟩ ch.y ch.z ch.mu ch.nu ch.muPrime
    ch.nuPrime = some o ∧ s.ab = o.ab
  xy : computeRegistryXy E n numBits repr gens r ch.x ch.y =
    some (s.query.registryXyPoly, s.query.registryXyCommitment)

theorem omega_eq (E : Env F) (id : NativeId) : id.omega E = omegaJ E (registryIndex id) := by
  rw [NativeId.omega, circuitIndex_eq]; rfl

theorem registryXy_some {E : Env F} {n numBits : ℕ} {repr : F → List UInt8} {gens : List HC}
    {r : Registry F} {x y : F} {p : Poly F} {c : HC}
    (h : computeRegistryXy E n numBits repr gens r x y = some (p, c)) :
    r.xy E n x y = some p ∧ Msm.commit (4 * n) numBits repr p gens = some c := by
  simp only [computeRegistryXy, Option.bind_eq_bind, Option.bind_eq_some_iff, Option.pure_def,
    Option.some.injEq, Prod.mk.injEq] at h
  obtain ⟨p', h1, c', h2, rfl, rfl⟩ := h
  exact ⟨h1, h2⟩

theorem registryWy_some {E : Env F} {n numBits : ℕ} {repr : F → List UInt8} {gens : List HC}
    {r : Registry F} {w y : F} {p : Poly F} {c : HC}
    (h : computeRegistryWy E n numBits repr gens r w y = some (p, c)) :
    r.wy E n w y = some p ∧ Msm.commit (4 * n) numBits repr p gens = some c := by
  simp only [computeRegistryWy, Option.bind_eq_bind, Option.bind_eq_some_iff, Option.pure_def,
    Option.some.injEq, Prod.mk.injEq] at h
  obtain ⟨p', h1, c', h2, rfl, rfl⟩ := h
  exact ⟨h1, h2⟩

theorem sPrime_some {E : Env F} {n numBits : ℕ} {repr : F → List UInt8} {gens : List HC}
    {r : Registry F} {w : F} {left right : Proof F G HC} {s : NativeSPrime F HC}
    (h : computeNativeSPrime E n numBits repr gens r w left right = some s) :
    r.wx E n w left.challenges.x = some s.registryWx0Poly ∧
    r.wx E n w right.challenges.x = some s.registryWx1Poly ∧
    Msm.commit (4 * n) numBits repr s.registryWx0Poly gens = some s.registryWx0Commitment ∧
    Msm.commit (4 * n) numBits repr s.registryWx1Poly gens = some s.registryWx1Commitment := by
  simp only [computeNativeSPrime, Option.bind_eq_bind, Option.bind_eq_some_iff, Option.pure_def,
    Option.some.injEq] at h
  obtain ⟨p0, h1, p1, h2, c0, h3, c1, h4, rfl⟩ := h
  exact ⟨h1, h2, h3, h4⟩

section
variable {E : Env F} {n q : ℕ} {b : Builder F} {ss : List (F → F → F)} {r : Registry F}
  {numBits : ℕ} {repr : F → List UInt8} {gens : List HC} {ch : Challenges F} {s : FuseState F G HC}

/-- C49: the values of the folded polynomials derived from the claimed evaluations are the values at
`xz` and `x` of the polynomials the prover folded. -/
theorem C49_agree (hR : Ready E n q b ss) (hf : b.finalize E n = .ok r) (hrp : ReprOk numBits repr)
    (hg : 4 * n ≤ gens.length) (hl : Committed (4 * n) numBits repr gens s.left)
    (hr : Committed (4 * n) numBits repr gens s.right)
    (hs : FuseSteps E n numBits repr gens r ch s) :
    let qw := queryWitness E (4 * n) s ch.w ch.x ch.z
    foldedA qw ch.z ch.mu ch.muPrime = Sparse.eval (4 * n) s.ab.aPoly (ch.x * ch.z) ∧
    foldedB qw (tDef n ch.x ch.z) ch.mu ch.nu ch.muPrime ch.nuPrime =
      Sparse.eval (4 * n) s.ab.bPoly ch.x := by
  obtain ⟨sw, hsw, hval, -⟩ := supplies_of_ready hR hf ch.y
  obtain ⟨o, ho, hab⟩ := hs.ab
  obtain ⟨-, -, -, -, -, tz, as, bs, htz, la, lb, hclaim, -, ha1, hb1, -, ha2, hb2⟩ :=
    (C50_fuse (src := ⟨s.left, s.right⟩) hsw hrp hg hl hr ch.mu ch.nu ch.muPrime ch.nuPrime
      0 0 0 0 0 0).2 o ho
  obtain ⟨tz', t1, t2, -⟩ := C14_tz_coeffs n ch.z
  obtain ⟨tz'', t3, t4⟩ := C14_tz n ch.x ch.z
  rw [htz] at t1 t3
  cases t1
  cases t3
  have hxy : ∀ i, Sparse.eval (4 * n) s.query.registryXyPoly (omegaJ E i) =
      Sparse.eval (4 * n) (sw i) ch.x := by
    intro i
    obtain ⟨-, -, -, p, p1, -, p2⟩ := C23_restrictions hR hf (omegaJ E i) ch.x ch.y
    rw [(registryXy_some hs.xy).1] at p1
    cases p1
    rw [p2, hval]
  set table := claimTable [childOf s.left 0 0 0, childOf s.right 0 0 0] (0 : F) with htable
  have hlen : table.length = 22 := table_length _ _
  have hwf : ∀ c ∈ table, ∀ p ∈ Claim.polys c.1, WellFormed (4 * n) p := by
    intro c hc
    refine (claim_wf (fun p hp k => ?_) (by simp) hc).2
    simp only [List.mem_cons, List.not_mem_nil, or_false] at hp
    rcases hp with rfl | rfl
    · exact (hl k).1
    · exact (hr k).1
  have key : ∀ i (hi : i < 22), ∃ a b, as[i]? = some a ∧ bs[i]? = some b ∧
      WellFormed (4 * n) a ∧ WellFormed (4 * n) b ∧
      Sparse.eval (4 * n) a (ch.x * ch.z) = leftValue ch.z (claimValue
        (fun p => Sparse.eval (4 * n) p (ch.x * ch.z)) (fun p => Sparse.eval (4 * n) p ch.x)
        (fun i => Sparse.eval (4 * n) s.query.registryXyPoly (omegaJ E i)) (table[i]'(by omega)).1) ∧
      Sparse.eval (4 * n) b ch.x = rightValue
        (queryWitness E (4 * n) s ch.w ch.x ch.z).fixedRegistry (tDef n ch.x ch.z) (claimValue
        (fun p => Sparse.eval (4 * n) p (ch.x * ch.z)) (fun p => Sparse.eval (4 * n) p ch.x)
        (fun i => Sparse.eval (4 * n) s.query.registryXyPoly (omegaJ E i))
        (table[i]'(by omega)).1) := by
    intro i hi
    obtain ⟨a, b, h1, h2, h3⟩ := hclaim i _ _ (List.getElem?_eq_getElem (by
      rw [show (claimTable _ _ : List (Claim (Poly F) ℕ × F)).length = 22 from hlen]; exact hi))
    have h4 := isClaim_values (x := ch.x) h3 (fun i => (hsw i).2) t2
      (hwf _ (List.getElem_mem (by omega : i < table.length)))
    have e : (queryWitness E (4 * n) s ch.w ch.x ch.z).fixedRegistry =
        fun id => Sparse.eval (4 * n) (sw (registryIndex id)) ch.x := by
      funext id
      show Sparse.eval _ _ (id.omega E) = _
      rw [omega_eq, hxy]
    rw [e, ← t4]
    simp only [hxy]
    exact ⟨a, b, h1, h2, h3.1, h3.2.1, h4.1, h4.2⟩
  have wfa : ∀ p ∈ as, WellFormed (4 * n) p := by
    intro p hp
    obtain ⟨i, hi, rfl⟩ := List.getElem_of_mem hp
    obtain ⟨a, b, h1, -, h2, -⟩ := key i (by omega)
    rw [List.getElem?_eq_getElem hi] at h1
    cases h1
    exact h2
  have wfb : ∀ p ∈ bs, WellFormed (4 * n) p := by
    intro p hp
    obtain ⟨i, hi, rfl⟩ := List.getElem_of_mem hp
    obtain ⟨a, b, -, h1, -, h2, -⟩ := key i (by omega)
    rw [List.getElem?_eq_getElem hi] at h1
    cases h1
    exact h2
  have hva : (valueClaims (queryWitness E (4 * n) s ch.w ch.x ch.z)).map (leftValue ch.z) =
      as.map fun p => Sparse.eval (4 * n) p (ch.x * ch.z) := by
    rw [valueClaims_witness s ch.w ch.x ch.z 0 0 0 0 0 0]
    apply List.ext_getElem
    · simp only [List.length_map]; rw [la]; exact hlen
    · intro i hi hi'
      obtain ⟨a, b, h1, -, -, -, h2, -⟩ := key i (by simpa [la] using hi')
      simp only [List.getElem_map]
      rw [← (List.getElem?_eq_some_iff.1 h1).2] at h2
      exact h2.symm
  have hvb : (valueClaims (queryWitness E (4 * n) s ch.w ch.x ch.z)).map (rightValue
      (queryWitness E (4 * n) s ch.w ch.x ch.z).fixedRegistry (tDef n ch.x ch.z)) =
      bs.map fun p => Sparse.eval (4 * n) p ch.x := by
    rw [valueClaims_witness s ch.w ch.x ch.z 0 0 0 0 0 0]
    apply List.ext_getElem
    · simp only [List.length_map]; rw [lb]; exact hlen
    · intro i hi hi'
      obtain ⟨a, b, -, h1, -, -, -, h2⟩ := key i (by simpa [lb] using hi')
      simp only [List.getElem_map]
      rw [← (List.getElem?_eq_some_iff.1 h1).2] at h2
      exact h2.symm
  refine ⟨?_, ?_⟩
  · rw [hab, foldedA, hva]
    exact (eval_twoLayer (by decide) (by rw [la]; decide) wfa ha1 ha2 _).symm
  · rw [hab, foldedB, hvb]
    exact (eval_twoLayer (by decide) (by rw [lb]; decide) wfb hb1 hb2 _).symm

/-- C47: for well-formed polynomials the prover computes `f`, its commitment opens to it, and at
every `u` that is none of the query points its value is the combination of the quotients of the
polynomials by their query points, in the order of the queries. -/
theorem C47_prover (E : Env F) {N : ℕ} (hN : 0 < N) (hrp : ReprOk numBits repr)
    (hg : N ≤ gens.length) (s : FuseState F G HC) (hw : ∀ c : Query, WellFormed N (c.poly s))
    (ch : Challenges F) :
    ∃ f, computeNativeF E N numBits repr gens s ch.w ch.y ch.z ch.x ch.alpha = some f ∧
      WellFormed N f.poly ∧ Msm.commit N numBits repr f.poly gens = some f.commitment ∧
      ∀ u, Avoids u (fusePoints E s ch) → Sparse.eval N f.poly u =
        quotientSum ch.alpha u (fusePoints E s ch) (fun c => Sparse.eval N (c.poly s) u)
          (fun c => Sparse.eval N (c.poly s) ((fusePoints E s ch).at c)) := by
  have hlist : factorList E s ch.w ch.y ch.z ch.x =
      Query.all.map fun c => (c.poly s, (fusePoints E s ch).at c) := by
    have : NativeId.all.map (fun id => (s.query.registryXyPoly, id.omega E)) =
        NativeId.all.map fun id => (s.query.registryXyPoly, omegaJ E (registryIndex id)) :=
      List.map_congr_left fun id _ => by rw [omega_eq]
    rw [factorList, this]
    rfl
  obtain ⟨iters, h1, h2⟩ := Fold.mapM_some_spec (fun pt : Poly F × F => factorCoeffs N pt.1 pt.2)
    (fun pt l => l.length + 1 = N ∧
      ∀ u, Sparse.eval N pt.1 u = hornerVal u l * (u - pt.2) + Sparse.eval N pt.1 pt.2)
    (factorList E s ch.w ch.y ch.z ch.x) (by
      intro pt hpt
      rw [hlist] at hpt
      obtain ⟨c, -, rfl⟩ := List.mem_map.1 hpt
      exact factorCoeffs_spec hN (hw c) _)
  have hall : ∀ l ∈ iters, l.length + 1 = N := by
    intro l hl
    obtain ⟨i, hi⟩ := List.getElem?_of_mem hl
    obtain ⟨a, -, h⟩ := Fold.forall₂_getElem? h2.flip i l hi
    exact h.1
  rcases iters with _ | ⟨first, rest⟩
  · have := h2.length_eq
    rw [hlist] at this
    exact absurd this (by simp [Query.all])
  obtain ⟨cs, h3, h4, h5⟩ := combineColumns_spec ch.alpha first rest fun l hl => by
    have h6 := hall first (by simp)
    have h7 := hall l (by simp [hl])
    omega
  have hcl : cs.reverse.length ≤ N := by
    have := hall first (by simp)
    rw [List.length_reverse, h4]; omega
  obtain ⟨p, h6, h7, h8⟩ := C09_from_coeffs N cs.reverse hcl
  refine ⟨⟨p, _⟩, ?_, h7, C12_commit N numBits repr hrp p gens h7 hg, fun u hu => ?_⟩
  · rw [computeNativeF, h1]
    simp only [Option.bind_eq_bind, Option.bind_some, h3, h6]
    rw [C12_commit N numBits repr hrp p gens h7 hg]
    rfl
  · have e1 : Sparse.eval N p u = hornerVal u cs := by
      rw [← List.reverse_reverse cs, ← polyVal_reverse, List.reverse_reverse, C11_eval _ _ h7, polyVal]
      rw [← sum_subset (range_subset_range.2 hcl) fun k _ hk => by
        rw [h8, List.getD_eq_getElem?_getD, List.getElem?_eq_none (by simpa using hk)]; simp]
      exact sum_congr rfl fun k _ => by rw [h8]; rfl
    have e2 : (first :: rest).map (hornerVal u) = Query.all.map fun c =>
        (Sparse.eval N (c.poly s) u - Sparse.eval N (c.poly s) ((fusePoints E s ch).at c)) /
          (u - (fusePoints E s ch).at c) := by
      rw [hlist] at h2
      apply List.ext_getElem
      · have := h2.length_eq
        simp only [List.length_map] at this ⊢
        omega
      · intro i hi hi'
        simp only [List.getElem_map]
        have hi2 : i < (first :: rest).length := by simpa using hi
        obtain ⟨a, ha, -, hb⟩ := Fold.forall₂_getElem? h2.flip i _ (List.getElem?_eq_getElem hi2)
        have hi3 : i < Query.all.length := by simpa using hi'
        rw [List.getElem?_map, List.getElem?_eq_getElem hi3, Option.map_some,
          Option.some.injEq] at ha
        subst ha
        have hne := sub_ne_zero.2 (hu _ (List.getElem_mem hi3))
        rw [hb u]
        dsimp only
        rw [add_sub_cancel_right, mul_div_cancel_right₀ _ hne]
    show Sparse.eval N p u = _
    rw [e1, h5, e2, quotientSum, descending_eq]

theorem steps_ab (hR : Ready E n q b ss) (hf : b.finalize E n = .ok r) (hrp : ReprOk numBits repr)
    (hg : 4 * n ≤ gens.length) (hl : Committed (4 * n) numBits repr gens s.left)
    (hr : Committed (4 * n) numBits repr gens s.right)
    (hs : FuseSteps E n numBits repr gens r ch s) :
    WellFormed (4 * n) s.ab.aPoly ∧ WellFormed (4 * n) s.ab.bPoly ∧
    Msm.commit (4 * n) numBits repr s.ab.aPoly gens = some s.ab.aCommitment ∧
    Msm.commit (4 * n) numBits repr s.ab.bPoly gens = some s.ab.bCommitment ∧
    ch.mu ≠ 0 ∧ ch.muPrime ≠ 0 := by
  obtain ⟨sw, hsw, -⟩ := supplies_of_ready hR hf ch.y
  obtain ⟨o, ho, hab⟩ := hs.ab
  have h := C50_fuse (src := ⟨s.left, s.right⟩) (z := ch.z) hsw hrp hg hl hr ch.mu ch.nu ch.muPrime
    ch.nuPrime 0 0 0 0 0 0
  obtain ⟨h1, h2, h3, h4, -⟩ := h.2 o ho
  have h5 : ¬ (ch.mu = 0 ∨ ch.muPrime = 0) := fun hc => by
    rw [h.1.2 hc] at ho; cases ho
  rw [hab]
  exact ⟨h1, h2, h3, h4, fun hc => h5 (.inl hc), fun hc => h5 (.inr hc)⟩

theorem xy_wf (hR : Ready E n q b ss) (hf : b.finalize E n = .ok r) {x y : F} {p : Poly F} {c : HC}
    (h : computeRegistryXy E n numBits repr gens r x y = some (p, c)) :
    WellFormed (4 * n) p ∧ ∀ w, Sparse.eval (4 * n) p w =
      registryAt n r.domain.n (omegaJ E) ss r.key w x y := by
  have h1 := (registryXy_some h).1
  refine ⟨?_, fun w => ?_⟩
  · obtain ⟨-, -, -, p', e, w1, -⟩ := C23_restrictions hR hf 0 x y
    rw [h1] at e; cases e; exact w1
  · obtain ⟨-, -, -, p', e, -, v⟩ := C23_restrictions hR hf w x y
    rw [h1] at e; cases e; exact v

theorem wy_wf (hR : Ready E n q b ss) (hf : b.finalize E n = .ok r) {w y : F} {p : Poly F}
    (h : r.wy E n w y = some p) :
    WellFormed (4 * n) p ∧ ∀ x, Sparse.eval (4 * n) p x =
      registryAt n r.domain.n (omegaJ E) ss r.key w x y := by
  refine ⟨?_, fun x => ?_⟩
  · obtain ⟨-, ⟨p', e, w1, -⟩, -⟩ := C23_restrictions hR hf w 0 y
    rw [h] at e; cases e; exact w1
  · obtain ⟨-, ⟨p', e, -, v⟩, -⟩ := C23_restrictions hR hf w x y
    rw [h] at e; cases e; exact v

theorem wx_wf (hR : Ready E n q b ss) (hf : b.finalize E n = .ok r) {w x : F} {p : Poly F}
    (h : r.wx E n w x = some p) :
    WellFormed (4 * n) p ∧ ∀ y, Sparse.eval (4 * n) p y =
      registryAt n r.domain.n (omegaJ E) ss r.key w x y := by
  refine ⟨?_, fun y => ?_⟩
  · obtain ⟨-, -, ⟨p', e, w1, -⟩, -⟩ := C23_restrictions hR hf w x 0
    rw [h] at e; cases e; exact w1
  · obtain ⟨-, -, ⟨p', e, -, v⟩, -⟩ := C23_restrictions hR hf w x y
    rw [h] at e; cases e; exact v

/-- Everything that goes into `p` after `f` is well formed and opens its commitment. -/
theorem accList_committed (hR : Ready E n q b ss) (hf : b.finalize E n = .ok r)
    (hrp : ReprOk numBits repr) (hg : 4 * n ≤ gens.length)
    (hl : ChildReady E n numBits repr gens r s.left)
    (hr : ChildReady E n numBits repr gens r s.right)
    (hs : FuseSteps E n numBits repr gens r ch s) :
    ∀ pc ∈ accList s, WellFormed (4 * n) pc.1 ∧
      Msm.commit (4 * n) numBits repr pc.1 gens = some pc.2 := by
  obtain ⟨a1, a2, a3, a4, -⟩ := steps_ab hR hf hrp hg hl.traces hr.traces hs
  obtain ⟨s1, s2, s3, s4⟩ := sPrime_some hs.sPrime
  obtain ⟨w1, w2⟩ := registryWy_some hs.wy
  have child : ∀ p : Proof F G HC, ChildReady E n numBits repr gens r p →
      ∀ pc ∈ (RxIndex.all.map fun id => ((p.triple id).rx, (p.triple id).commitment)) ++
    [(p.ab.native.aPoly, p.ab.native.aCommitment),
      (p.ab.native.bPoly, p.ab.native.bCommitment),
      (p.query.native.registryXyPoly, p.query.native.registryXyCommitment),
      (p.p.native.poly, p.p.native.commitment)], WellFormed (4 * n) pc.1 ∧
      Msm.commit (4 * n) numBits repr pc.1 gens = some pc.2 := by
    intro p hp pc hpc
    rcases List.mem_append.1 hpc with h | h
    · obtain ⟨id, -, rfl⟩ := List.mem_map.1 h
      exact hp.traces (.rx id)
    · simp only [List.mem_cons, List.not_mem_nil, or_false] at h
      rcases h with rfl | rfl | rfl | rfl
      · exact hp.traces .abA
      · exact hp.traces .abB
      · exact ⟨(xy_wf hR hf hp.registry).1, (registryXy_some hp.registry).2⟩
      · exact ⟨hp.p_wf, hp.p_commit⟩
  intro pc hpc
  rcases List.mem_append.1 hpc with h | h
  · simp only [List.flatMap_cons, List.flatMap_nil, List.append_nil] at h
    rcases List.mem_append.1 h with h | h
    · exact child _ hl pc h
    · exact child _ hr pc h
  · simp only [List.mem_cons, List.not_mem_nil, or_false] at h
    rcases h with rfl | rfl | rfl | rfl | rfl | rfl
    · exact ⟨(wx_wf hR hf s1).1, s3⟩
    · exact ⟨(wx_wf hR hf s2).1, s4⟩
    · exact ⟨(wy_wf hR hf w1).1, w2⟩
    · exact ⟨a1, a3⟩
    · exact ⟨a2, a4⟩
    · exact ⟨(xy_wf hR hf hs.xy).1, (registryXy_some hs.xy).2⟩

/-- The polynomial of every query is well formed. -/
theorem query_wf (hR : Ready E n q b ss) (hf : b.finalize E n = .ok r)
    (hrp : ReprOk numBits repr) (hg : 4 * n ≤ gens.length)
    (hl : ChildReady E n numBits repr gens r s.left)
    (hr : ChildReady E n numBits repr gens r s.right)
    (hs : FuseSteps E n numBits repr gens r ch s) (c : Query) : WellFormed (4 * n) (c.poly s) := by
  obtain ⟨a1, a2, -⟩ := steps_ab hR hf hrp hg hl.traces hr.traces hs
  obtain ⟨s1, s2, -⟩ := sPrime_some hs.sPrime
  have w1 := (registryWy_some hs.wy).1
  have x1 := (xy_wf hR hf hs.xy).1
  cases c with
  | childP sd => cases sd; exacts [hl.p_wf, hr.p_wf]
  | childRegistry sd => cases sd; exacts [(xy_wf hR hf hl.registry).1, (xy_wf hR hf hr.registry).1]
  | wxChildY sd => cases sd; exacts [(wx_wf hR hf s1).1, (wx_wf hR hf s2).1]
  | wxY sd => cases sd; exacts [(wx_wf hR hf s1).1, (wx_wf hR hf s2).1]
  | wyChildX sd => exact (wy_wf hR hf w1).1
  | wyX => exact (wy_wf hR hf w1).1
  | xyW => exact x1
  | xyChildCircuit sd => exact x1
  | childA sd => cases sd; exacts [(hl.traces .abA).1, (hr.traces .abA).1]
  | childB sd => cases sd; exacts [(hl.traces .abB).1, (hr.traces .abB).1]
  | a => exact a1
  | b => exact a2
  | rx sd i => cases sd; exacts [(hl.traces (.rx i)).1, (hr.traces (.rx i)).1]
  | xyInternal id => exact x1

/-- C47: every value the verification circuit takes for the answer of a query, whether claimed for
that query, claimed for another one, claimed by a child or derived, is the value of the polynomial of
the query at its point. -/
theorem C47_answers (hR : Ready E n q b ss) (hf : b.finalize E n = .ok r)
    (hrp : ReprOk numBits repr) (hg : 4 * n ≤ gens.length)
    (hl : ChildReady E n numBits repr gens r s.left)
    (hr : ChildReady E n numBits repr gens r s.right)
    (hs : FuseSteps E n numBits repr gens r ch s) (c : Query) :
    let qw := queryWitness E (4 * n) s ch.w ch.x ch.z
    answerOf qw (childClaim s) (foldedA qw ch.z ch.mu ch.muPrime)
        (foldedB qw (tDef n ch.x ch.z) ch.mu ch.nu ch.muPrime ch.nuPrime) c =
      Sparse.eval (4 * n) (c.poly s) ((fusePoints E s ch).at c) := by
  obtain ⟨hA, hB⟩ := C49_agree hR hf hrp hg hl.traces hr.traces hs
  obtain ⟨s1, s2, -⟩ := sPrime_some hs.sPrime
  have w1 := (wy_wf hR hf (registryWy_some hs.wy).1).2
  have x1 := (xy_wf hR hf hs.xy).2
  cases c with
  | childP sd => cases sd; exacts [hl.p_value, hr.p_value]
  | childRegistry sd => cases sd <;> rfl
  | wxChildY sd =>
    cases sd
    · exact ((xy_wf hR hf hl.registry).2 _).trans ((wx_wf hR hf s1).2 _).symm
    · exact ((xy_wf hR hf hr.registry).2 _).trans ((wx_wf hR hf s2).2 _).symm
  | wxY sd =>
    cases sd
    · exact (w1 _).trans ((wx_wf hR hf s1).2 _).symm
    · exact (w1 _).trans ((wx_wf hR hf s2).2 _).symm
  | wyChildX sd => cases sd <;> rfl
  | wyX => exact (x1 _).trans (w1 _).symm
  | xyW => rfl
  | xyChildCircuit sd => cases sd <;> rfl
  | childA sd => cases sd <;> rfl
  | childB sd => cases sd <;> rfl
  | a => exact hA
  | b => exact hB
  | rx sd i => cases sd <;> rfl
  | xyInternal id =>
    show Sparse.eval _ _ (id.omega E) = _
    rw [omega_eq]; rfl

/-- The claimed value at `u` for every query is the value of its polynomial there. -/
theorem evalOf_witness (N : ℕ) (s : FuseState F G HC) (u : F) (c : Query) :
    evalOf (evalWitness N s u) c = Sparse.eval N (c.poly s) u := by
  cases c with
  | childP sd => cases sd <;> rfl
  | childRegistry sd => cases sd <;> rfl
  | wxChildY sd => cases sd <;> rfl
  | wxY sd => cases sd <;> rfl
  | childA sd => cases sd <;> rfl
  | childB sd => cases sd <;> rfl
  | rx sd i => cases sd <;> rfl
  | _ => rfl

/-- C47: the prover computes the quotient polynomial, its commitment opens to it, and at every `u`
that is none of the query points its value is what the verification circuit derives from the claimed
evaluations. -/
theorem C47_agree (hR : Ready E n q b ss) (hf : b.finalize E n = .ok r)
    (hrp : ReprOk numBits repr) (hg : 4 * n ≤ gens.length)
    (hl : ChildReady E n numBits repr gens r s.left)
    (hr : ChildReady E n numBits repr gens r s.right)
    (hs : FuseSteps E n numBits repr gens r ch s) :
    ∃ f, computeNativeF E (4 * n) numBits repr gens s ch.w ch.y ch.z ch.x ch.alpha = some f ∧
      WellFormed (4 * n) f.poly ∧
      Msm.commit (4 * n) numBits repr f.poly gens = some f.commitment ∧
      ∀ u, Avoids u (fusePoints E s ch) → Sparse.eval (4 * n) f.poly u =
        quotientSum ch.alpha u (fusePoints E s ch) (evalOf (evalWitness (4 * n) s u))
          (answerOf (queryWitness E (4 * n) s ch.w ch.x ch.z) (childClaim s)
            (foldedA (queryWitness E (4 * n) s ch.w ch.x ch.z) ch.z ch.mu ch.muPrime)
            (foldedB (queryWitness E (4 * n) s ch.w ch.x ch.z) (tDef n ch.x ch.z) ch.mu ch.nu
              ch.muPrime ch.nuPrime)) := by
  have hN : 0 < 4 * n := by rw [hR.rank]; positivity
  obtain ⟨f, h1, h2, h3, h4⟩ := C47_prover E hN hrp hg s (query_wf hR hf hrp hg hl hr hs) ch
  refine ⟨f, h1, h2, h3, fun u hu => ?_⟩
  rw [h4 u hu]
  congr 1
  · funext c; exact (evalOf_witness _ s u c).symm
  · funext c; exact (C47_answers hR hf hrp hg hl hr hs c).symm

/-- The claimed evaluations, in order, are those of the polynomials that are batched. -/
theorem evalList_witness (N : ℕ) (s : FuseState F G HC) (u : F) :
    evalList (evalWitness N s u) = (accList s).map fun pc => Sparse.eval N pc.1 u := rfl

theorem eval_accumulated {N : ℕ} {beta : F} {f p : Poly F} {l : List (Poly F × HC)}
    (hf : WellFormed N f) (hl : ∀ pc ∈ l, WellFormed N pc.1) (hp : WellFormed N p)
    (h : ∀ k, coeff p k = hornerVal beta ((f :: l.map (·.1)).map fun q => coeff q k)) (u : F) :
    Sparse.eval N p u =
      descending beta (Sparse.eval N f u :: l.map fun pc => Sparse.eval N pc.1 u) := by
  rw [descending_eq, eval_horner hp (l := f :: l.map (·.1)) (by
    intro p hp
    rcases List.mem_cons.1 hp with rfl | h0
    · exact hf
    · obtain ⟨pc, h1, rfl⟩ := List.mem_map.1 h0
      exact hl pc h1) h]
  simp [List.map_map, Function.comp_def]

theorem squareBits_unique {nbits : ℕ} {e : F} (h : ∀ i < nbits, e + (i : F) ≠ 0) {v v' : ℕ}
    (hv : SquareBits nbits e v) (hv' : SquareBits nbits e v') : v = v' := by
  apply Nat.eq_of_testBit_eq
  intro i
  by_cases hi : i < nbits
  · have := (hv.2 i hi (h i hi)).trans (hv'.2 i hi (h i hi)).symm
    exact Bool.eq_iff_iff.2 this
  · have hle : 2 ^ nbits ≤ 2 ^ i := Nat.pow_le_pow_right (by norm_num) (by omega)
    rw [Nat.testBit_lt_two_pow (hv.1.trans_le hle), Nat.testBit_lt_two_pow (hv'.1.trans_le hle)]

/-- C48: the prover computes `p` for all challenges, its commitment opens to it, its claimed value is
its value at `u`, and that is the combination of `f(u)` and the evaluations by powers of the
endoscalar that `preBeta` determines. -/
theorem C48_prover [Finite F] (hR : Ready E n q b ss) (hf : b.finalize E n = .ok r)
    (hrp : ReprOk numBits repr) (hg : 4 * n ≤ gens.length)
    (hl : ChildReady E n numBits repr gens r s.left)
    (hr : ChildReady E n numBits repr gens r s.right)
    (hs : FuseSteps E n numBits repr gens r ch s) {f : NativeF F HC}
    (hfp : WellFormed (4 * n) f.poly)
    (hfc : Msm.commit (4 * n) numBits repr f.poly gens = some f.commitment)
    (nbits : ℕ) {sqrt : F → Option F} (hsq : SqrtSpec sqrt) {gen : F} (hgen : ¬ IsSquare gen)
    (zeta : F) :
    ∃ p w, computeP (4 * n) nbits sqrt gen zeta s f ch.preBeta ch.u = some (p, w) ∧
      WellFormed (4 * n) p.poly ∧
      Msm.commit (4 * n) numBits repr p.poly gens = some p.commitment ∧
      p.v = Sparse.eval (4 * n) p.poly ch.u ∧
      w.initial :: w.inputs = f.commitment :: (accList s).map (·.2) ∧
      ∃ bits, ExtractedBits nbits ch.preBeta bits ∧ p.v = descending (liftNative nbits zeta bits)
        (Sparse.eval (4 * n) f.poly ch.u :: evalList (evalWitness (4 * n) s ch.u)) := by
  have hacc := accList_committed hR hf hrp hg hl hr hs
  obtain ⟨bits, e1, e2, e3, -⟩ := C36_native nbits hsq hgen ⟨ch.preBeta, ch.preBeta⟩ rfl
  have hbits : ExtractedBits nbits ch.preBeta bits := ⟨e2, e3⟩
  obtain ⟨p, p1, p2, p3⟩ := accumulate_spec (liftNative nbits zeta bits) ((accList s).map (·.1))
    f.poly hfp (by
      intro p hp
      obtain ⟨pc, h, rfl⟩ := List.mem_map.1 hp
      exact (hacc pc h).1)
  have hlen : (f.commitment :: (accList s).map (·.2)).length = NUM_ENDOSCALING_POINTS := rfl
  obtain ⟨k, w, -, w1, w2, -, -, w3⟩ := (C51_witness nbits zeta (by decide) bits
    (f.commitment :: (accList s).map (·.2))).2 hlen
  have hcomm := commit_combination hrp hg (liftNative nbits zeta bits)
    (pcs := (f.poly, f.commitment) :: accList s) (by simp) (by
      intro pc hpc
      rcases List.mem_cons.1 hpc with rfl | h
      · exact ⟨hfp, hfc⟩
      · exact hacc pc h) p2 (by
      intro k
      rw [p3 k]
      simp [List.map_map, Function.comp_def])
  have hval : Sparse.eval (4 * n) p ch.u = descending (liftNative nbits zeta bits)
      (Sparse.eval (4 * n) f.poly ch.u :: evalList (evalWitness (4 * n) s ch.u)) := by
    rw [evalList_witness]
    exact eval_accumulated hfp (fun pc h => (hacc pc h).1) p2 p3 ch.u
  have hc36 : ((f.poly, f.commitment) :: accList s).length - 1 = NUM_ENDOSCALING_POINTS - 1 := rfl
  rw [hc36, List.map_cons] at hcomm
  generalize pointSum (liftNative nbits zeta bits) (f.commitment :: (accList s).map (·.2))
    (NUM_ENDOSCALING_POINTS - 1) = c at hcomm w3
  have hp : computeP (4 * n) nbits sqrt gen zeta s f ch.preBeta ch.u =
      some (⟨p, c, Sparse.eval (4 * n) p ch.u⟩, w) := by
    rw [computeP, show extractNative nbits sqrt gen ch.preBeta = some bits from e1]
    simp only [Option.bind_eq_bind, Option.bind_some, p1, w1, w3, Option.pure_def]
  exact ⟨⟨p, c, Sparse.eval (4 * n) p ch.u⟩, w, hp, p2, hcomm, rfl, w2, bits, hbits, hval⟩

/-- C48: the value of the prover's `p` at `u` is what the verification circuit establishes for `v` when
its bits are extracted as by the prover; unless one of the elements tested by the endoscalar is zero, it is the only such value. -/
theorem C48_agree [Finite F] (hR : Ready E n q b ss) (hf : b.finalize E n = .ok r)
    (hrp : ReprOk numBits repr) (hg : 4 * n ≤ gens.length)
    (hl : ChildReady E n numBits repr gens r s.left)
    (hr : ChildReady E n numBits repr gens r s.right)
    (hs : FuseSteps E n numBits repr gens r ch s)
    (hx : ch.x ≠ 0) (hz : ch.z ≠ 0) (hu : Avoids ch.u (fusePoints E s ch))
    (nbits : ℕ) {sqrt : F → Option F} (hsq : SqrtSpec sqrt) {gen : F} (hgen : ¬ IsSquare gen)
    (zeta : F) :
    ∃ f p w, computeNativeF E (4 * n) numBits repr gens s ch.w ch.y ch.z ch.x ch.alpha = some f ∧
      computeP (4 * n) nbits sqrt gen zeta s f ch.preBeta ch.u = some (p, w) ∧
      p.v = Sparse.eval (4 * n) p.poly ch.u ∧
      VerifiedWith (ExtractedBits nbits ch.preBeta) nbits n zeta (fusePoints E s ch) (childClaim s)
        (queryWitness E (4 * n) s ch.w ch.x ch.z) (evalWitness (4 * n) s ch.u)
        ch.mu ch.nu ch.muPrime ch.nuPrime ch.alpha ch.u p.v ∧
      ((∀ i < nbits, ch.preBeta + (i : F) ≠ 0) → ∀ v,
        Verified nbits n zeta (fusePoints E s ch) (childClaim s)
          (queryWitness E (4 * n) s ch.w ch.x ch.z) (evalWitness (4 * n) s ch.u)
          ch.mu ch.nu ch.muPrime ch.nuPrime ch.alpha ch.u ch.preBeta v → v = p.v) := by
  obtain ⟨f, f1, f2, f3, f4⟩ := C47_agree hR hf hrp hg hl hr hs
  obtain ⟨-, -, -, -, m1, m2⟩ := steps_ab hR hf hrp hg hl.traces hr.traces hs
  obtain ⟨p, w, p1, -, -, p2, -, bits, hb, p3⟩ :=
    C48_prover hR hf hrp hg hl hr hs f2 f3 nbits hsq hgen zeta
  rw [f4 _ hu] at p3
  refine ⟨f, p, w, f1, p1, p2, ⟨hx, hz, m1, m2, hu, bits, hb, p3⟩, ?_⟩
  rintro hne v ⟨-, -, -, -, -, bits', hb', hv⟩
  rw [squareBits_unique hne hb' hb.square] at hv
  rw [hv, p3]
  rfl

/-- For two ready children the steps before the quotients succeed, unless `mu` or `mu'` is zero. -/
theorem fuseSteps_exist (hR : Ready E n q b ss) (hf : b.finalize E n = .ok r)
    (hrp : ReprOk numBits repr) (hg : 4 * n ≤ gens.length) {left right : Proof F G HC}
    (hl : Committed (4 * n) numBits repr gens left)
    (hr : Committed (4 * n) numBits repr gens right) (ch : Challenges F) (hmu : ch.mu ≠ 0)
    (hmu' : ch.muPrime ≠ 0) (ie qe : RxTriple F HC) :
    ∃ s : FuseState F G HC, s.left = left ∧ s.right = right ∧ s.innerError.rxTriple = ie ∧
      s.query.rxTriple = qe ∧ FuseSteps E n numBits repr gens r ch s := by
  obtain ⟨-, -, ⟨p0, h0, w0, -⟩, -⟩ := C23_restrictions hR hf ch.w left.challenges.x 0
  obtain ⟨-, -, ⟨p1, h1, w1, -⟩, -⟩ := C23_restrictions hR hf ch.w right.challenges.x 0
  obtain ⟨-, ⟨wy, h2, w2, -⟩, -, xy, h3, w3, -⟩ := C23_restrictions hR hf ch.w ch.x ch.y
  obtain ⟨sw, hsw, -⟩ := supplies_of_ready hR hf ch.y
  have hfuse := (C50_fuse (src := ⟨left, right⟩) (z := ch.z) hsw hrp hg hl hr ch.mu ch.nu ch.muPrime
    ch.nuPrime 0 0 0 0 0 0).1
  have hcm : ∀ p : Poly F, WellFormed (4 * n) p →
      ∃ c, Msm.commit (4 * n) numBits repr p gens = some c := fun p h =>
    ⟨_, C12_commit (4 * n) numBits repr hrp p gens h hg⟩
  obtain ⟨c0, k0⟩ := hcm _ w0
  obtain ⟨c1, k1⟩ := hcm _ w1
  obtain ⟨c2, k2⟩ := hcm _ w2
  obtain ⟨c3, k3⟩ := hcm _ w3
  rcases ho : fuseAb E n numBits repr gens r ⟨left, right⟩ ch.y ch.z ch.mu ch.nu ch.muPrime
    ch.nuPrime with _ | o
  · exact absurd (hfuse.1 ho) (by simp [hmu, hmu'])
  refine ⟨⟨left, right, ⟨p0, c0, p1, c1⟩, ⟨wy, c2, ie⟩, o.ab, ⟨xy, c3, qe⟩⟩, rfl, rfl, rfl, rfl,
    ⟨?_, ?_, ⟨o, ho, rfl⟩, ?_⟩⟩
  · simp only [computeNativeSPrime, h0, h1, k0, k1, Option.bind_eq_bind,
      Option.bind_some, Option.pure_def]
  · simp only [computeRegistryWy, h2, k2, Option.bind_eq_bind, Option.bind_some,
      Option.pure_def]
  · simp only [computeRegistryXy, h3, k3, Option.bind_eq_bind, Option.bind_some,
      Option.pure_def]

end
end Ragu.Props

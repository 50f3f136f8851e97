/-
Property C50: the commitment of a tracked polynomial, resolved from its recorded terms, is the
commitment of the polynomial.
-/
import Verif.Lemmas.Tracked
import Verif.Props.Claims

set_option linter.unusedSectionVars false
namespace Ragu.Props
open Ragu Ragu.Circuit Ragu.Registry Ragu.Spec Ragu.Pcd Ragu.Sparse

section
variable {F : Type} [Field F] [DecidableEq F] {K : Type}

/-- The tracked polynomials that arise from the sources `src` by any sequence of operations. -/
inductive Built (N : ℕ) (src : K → Poly F) : Tracked K F → Prop
  | zero : Built N src Tracked.default
  | single (k : K) : Built N src (Tracked.single (src k) k)
  | sum (ks : List K) (p : Poly F) (h : sumPolynomials N (ks.map src) = some p) :
      Built N src ⟨p, ks.map fun k => (k, 1)⟩
  | scale (c : F) (t : Tracked K F) (h : Built N src t) : Built N src (t.scale c)
  | add (t u v : Tracked K F) (ht : Built N src t) (hu : Built N src u)
      (h : t.addAssign N u = some v) : Built N src v
  | fold (items : List (Tracked K F)) (c : F) (t : Tracked K F) (hi : ∀ i ∈ items, Built N src i)
      (h : Fold.fold (trackedFoldable N) items c = some t) : Built N src t

theorem built_tracks {N : ℕ} {src : K → Poly F} (hw : ∀ k, WellFormed N (src k))
    {t : Tracked K F} (h : Built N src t) : Tracks N src t := by
  induction h with
  | zero => exact tracks_default N src
  | single k => exact tracks_single (hw k)
  | sum ks p h => exact tracks_sum hw h
  | scale c t _ ih => exact tracks_scale ih c
  | add t u v _ _ h iht ihu =>
    obtain ⟨w, h1, h2⟩ := tracks_add iht ihu
    rw [h] at h1; cases h1; exact h2
  | fold items c t _ h ih =>
    obtain ⟨w, h1, h2⟩ := tracks_fold c items ih
    rw [h] at h1; cases h1; exact h2

variable [DecidableEq K] {HC : Type} [AddCommGroup HC] [Module F HC]

/-- C50: after any sequence of sums, scalings and folds of committed source polynomials, the small
sum over the recorded terms (terms of the same key being added up first) is the commitment of the
resulting polynomial. -/
theorem C50_commitment {N numBits : ℕ} {repr : F → List UInt8} (hr : ReprOk numBits repr)
    {gens : List HC} (hg : N ≤ gens.length) {src : K → Poly F} {get : K → HC}
    (hw : ∀ k, WellFormed N (src k))
    (hc : ∀ k, Msm.commit N numBits repr (src k) gens = some (get k)) {t : Tracked K F}
    (h : Built N src t) :
    ∃ C, resolve numBits repr get t.terms = some C ∧
      Msm.commit N numBits repr t.poly gens = some C :=
  resolve_tracks hr hg hw hc (built_tracks hw h)

/-- C50: the operations on well-formed tracked polynomials never panic, and do to the polynomial
what the untracked operations do. -/
theorem C50_operations {N : ℕ} {src : K → Poly F} (hw : ∀ k, WellFormed N (src k)) :
    (∀ t u : Tracked K F, Built N src t → Built N src u → ∃ v, t.addAssign N u = some v ∧
      Sparse.addAssign N t.poly u.poly = some v.poly) ∧
    (∀ (t : Tracked K F) (c : F), (t.scale c).poly = Sparse.scale t.poly c) ∧
    (∀ (items : List (Tracked K F)) (c : F), (∀ i ∈ items, Built N src i) →
      ∃ t, Fold.fold (trackedFoldable N) items c = some t ∧
        Fold.fold (polyFoldable N) (items.map fun i => i.poly) c = some t.poly) := by
  refine ⟨fun t u ht hu => ?_, fun t c => rfl, fun items c hi => ?_⟩
  · obtain ⟨v, h1, h2⟩ := tracks_add (built_tracks hw ht) (built_tracks hw hu)
    refine ⟨v, h1, ?_⟩
    rw [Tracked.addAssign] at h1
    obtain ⟨p, h3, h4⟩ := Option.bind_eq_some_iff.1 h1
    rw [h3]; cases h4; rfl
  · obtain ⟨t, h1, h2⟩ := tracks_fold c items fun i hi' => built_tracks hw (hi i hi')
    exact ⟨t, h1, by rw [← fold_tracked_poly, h1]; rfl⟩

/-- C50: adding up repeated terms keeps one entry per key, with the sum of its coefficients. -/
theorem C50_dedup (terms : List (K × F)) :
    ((dedup terms).map Prod.fst).Nodup ∧
    ∀ k, (((dedup terms).filter fun x => x.1 = k).map Prod.snd).sum =
      ((terms.filter fun x => x.1 = k).map Prod.snd).sum := by
  have keys : ∀ (es : List (K × F)) (kc : K × F) (k : K),
      k ∈ (dedupInsert es kc).map Prod.fst ↔ k ∈ es.map Prod.fst ∨ k = kc.1 := by
    intro es kc k
    induction es with
    | nil => simp [dedupInsert]
    | cons e es ih =>
      rw [dedupInsert]
      split
      · rename_i h; rw [← h]; simp only [List.map_cons, List.mem_cons]; tauto
      · simp only [List.map_cons, List.mem_cons, ih]; tauto
  have nd : ∀ (es : List (K × F)) (kc : K × F), (es.map Prod.fst).Nodup →
      ((dedupInsert es kc).map Prod.fst).Nodup := by
    intro es kc
    induction es with
    | nil => intro _; simp [dedupInsert]
    | cons e es ih =>
      intro h
      rw [dedupInsert]
      rw [List.map_cons, List.nodup_cons] at h
      split
      · rw [List.map_cons, List.nodup_cons]; exact h
      · rename_i hne
        rw [List.map_cons, List.nodup_cons]
        refine ⟨fun hm => ?_, ih h.2⟩
        rcases (keys es kc e.1).1 hm with h' | h'
        · exact h.1 h'
        · exact hne h'
  have sm : ∀ (es : List (K × F)) (kc : K × F) (k : K),
      (((dedupInsert es kc).filter fun x => x.1 = k).map Prod.snd).sum =
        ((es.filter fun x => x.1 = k).map Prod.snd).sum + if kc.1 = k then kc.2 else 0 := by
    intro es kc k
    induction es with
    | nil => by_cases h : kc.1 = k <;> simp [dedupInsert, h]
    | cons e es ih =>
      rw [dedupInsert]
      split
      · rename_i h
        by_cases hk : e.1 = k
        · simp only [List.filter_cons, hk, decide_true, if_true, List.map_cons, List.sum_cons,
            h ▸ hk]; ring
        · have hk' : ¬ kc.1 = k := h ▸ hk
          simp [List.filter_cons, hk, hk']
      · by_cases hk : e.1 = k
        · simp only [List.filter_cons, hk, decide_true, if_true, List.map_cons, List.sum_cons, ih,
            add_assoc]
        · simp only [List.filter_cons, hk, decide_false, Bool.false_eq_true, if_false, ih]
  have gen : ∀ (terms es : List (K × F)), (es.map Prod.fst).Nodup →
      ((terms.foldl dedupInsert es).map Prod.fst).Nodup ∧
      ∀ k, (((terms.foldl dedupInsert es).filter fun x => x.1 = k).map Prod.snd).sum =
        ((es.filter fun x => x.1 = k).map Prod.snd).sum +
          ((terms.filter fun x => x.1 = k).map Prod.snd).sum := by
    intro terms
    induction terms with
    | nil => intro es h; exact ⟨h, fun k => by simp⟩
    | cons t ts ih =>
      intro es h
      obtain ⟨h1, h2⟩ := ih (dedupInsert es t) (nd es t h)
      refine ⟨h1, fun k => ?_⟩
      rw [List.foldl_cons, h2, sm]
      by_cases hk : t.1 = k <;> simp [hk, add_assoc]
  obtain ⟨h1, h2⟩ := gen terms [] (by simp)
  exact ⟨h1, fun k => by rw [dedup, h2]; simp⟩

end

section
variable {F G : Type} [Field F] [DecidableEq F] {HC : Type} [AddCommGroup HC] [Module F HC]

/-- Every committed polynomial of a proof is well formed and opens its commitment. -/
def Committed (N numBits : ℕ) (repr : F → List UInt8) (gens : List HC) (p : Proof F G HC) : Prop :=
  ∀ c, WellFormed N (p.nativeRx c) ∧
    Msm.commit N numBits repr (p.nativeRx c) gens = some (p.nativeCommitment c)

/-- A proof as the claims see it, with given instance values. -/
def childOf (p : Proof F G HC) (app bridge unified : F) : Child (Poly F) ℕ F :=
  ⟨p.nativeRx, p.application.circuitId, p.ab.native.c, app, bridge, unified⟩

/-- C50: fusing two committed proofs panics exactly when `mu` or `mu'` is zero; otherwise the
commitments of the new `a` and `b` open to them, `c` is their product, and the polynomials are the
two-layer folding of the pairs of the claims about the two proofs. -/
theorem C50_fuse {E : Env F} {n numBits : ℕ} {r : Registry F} {y z : F} {s : ℕ → Poly F}
    (hs : Supplies E n r y s) {repr : F → List UInt8} (hr : ReprOk numBits repr) {gens : List HC}
    (hg : 4 * n ≤ gens.length) {src : FuseSource F G HC}
    (hl : Committed (4 * n) numBits repr gens src.left)
    (hrt : Committed (4 * n) numBits repr gens src.right) (mu nu muPrime nuPrime : F)
    (l1 l2 l3 r1 r2 r3 : F) :
    (fuseAb E n numBits repr gens r src y z mu nu muPrime nuPrime = none ↔
      mu = 0 ∨ muPrime = 0) ∧
    ∀ o, fuseAb E n numBits repr gens r src y z mu nu muPrime nuPrime = some o →
      WellFormed (4 * n) o.ab.aPoly ∧ WellFormed (4 * n) o.ab.bPoly ∧
      Msm.commit (4 * n) numBits repr o.ab.aPoly gens = some o.ab.aCommitment ∧
      Msm.commit (4 * n) numBits repr o.ab.bPoly gens = some o.ab.bCommitment ∧
      o.ab.c = Sparse.revdot (4 * n) o.ab.aPoly o.ab.bPoly ∧
      ∃ tz as bs, Tpoly.tz n z = some tz ∧ as.length = 22 ∧ bs.length = 22 ∧
        (∀ (i : ℕ) c v, (claimTable [childOf src.left l1 l2 l3, childOf src.right r1 r2 r3]
            (0 : F))[i]? = some (c, v) →
          ∃ a b, as[i]? = some a ∧ bs[i]? = some b ∧ IsClaim (4 * n) s tz z c a b) ∧
        Fold.innerErrorTerms (4 * n) GROUP_SIZE NUM_GROUPS as bs = some o.innerErrors ∧
        Fold.foldInner (polyFoldable (4 * n)) GROUP_SIZE NUM_GROUPS as mu⁻¹ = some o.aGroups ∧
        Fold.foldInner (polyFoldable (4 * n)) GROUP_SIZE NUM_GROUPS bs (mu * nu) = some o.bGroups ∧
        Fold.outerErrorTerms (4 * n) NUM_GROUPS o.aGroups o.bGroups = some o.outerErrors ∧
        Fold.foldOuter (polyFoldable (4 * n)) o.aGroups muPrime⁻¹ = some o.ab.aPoly ∧
        Fold.foldOuter (polyFoldable (4 * n)) o.bGroups (muPrime * nuPrime) =
          some o.ab.bPoly := by
  set key : FoldKey → Poly F := fun k => match k.1 with
    | .left => src.left.nativeRx k.2
    | .right => src.right.nativeRx k.2 with hkey
  have hkw : ∀ k, WellFormed (4 * n) (key k) := by
    rintro ⟨sd, c⟩; cases sd
    · exact (hl c).1
    · exact (hrt c).1
  have hkc : ∀ k, Msm.commit (4 * n) numBits repr (key k) gens = some (src.get k) := by
    rintro ⟨sd, c⟩; cases sd
    · exact (hl c).2
    · exact (hrt c).2
  -- the claims, over keys
  set kl : Child FoldKey ℕ F := ⟨fun c => (.left, c), src.left.application.circuitId,
    src.left.ab.native.c, l1, l2, l3⟩ with hkl
  set kr : Child FoldKey ℕ F := ⟨fun c => (.right, c), src.right.application.circuitId,
    src.right.ab.native.c, r1, r2, r3⟩ with hkr
  have hpoly : claimTable [childOf src.left l1 l2 l3, childOf src.right r1 r2 r3] (0 : F) =
      (claimTable [kl, kr] (0 : F)).map fun cv => (Claim.map key cv.1, cv.2) :=
    claimTable_map key [kl, kr] 0
  have hatom : src.source = sourceOf ([kl, kr].map
      (Child.map fun k => (⟨k, key k⟩ : Atom FoldKey F))) := rfl
  obtain ⟨tz, t1, t2, -⟩ := C14_tz_coeffs n z
  obtain ⟨as, bs, h3, h4, h5, h6⟩ := fold_push (F := F) (A := Tracked FoldKey F)
    (fun B (c : Claim FoldKey ℕ × F) => (trackedProcessor E n r).handle B
      (Claim.map (fun k => ⟨k, key k⟩) c.1))
    (fun c a b => Tracks (4 * n) key a ∧ IsClaim (4 * n) s tz z (Claim.map key c.1) a.poly b)
    y z tz (claimTable [kl, kr] 0)
    (fun c hc as bs => handle_tracked hs t2 hkw c.1 (by
      have hcw : ChildrenWf (4 * n) [childOf src.left l1 l2 l3, childOf src.right r1 r2 r3] := by
        intro p hp k
        simp only [List.mem_cons, List.not_mem_nil, or_false] at hp
        rcases hp with rfl | rfl
        · exact (hl k).1
        · exact (hrt k).1
      have := (claim_wf (zero := (0 : F)) (c := (Claim.map key c.1, c.2)) hcw (by simp) (by
        rw [hpoly]; exact List.mem_map.2 ⟨c, hc, rfl⟩)).1
      revert this
      cases c.1 <;> simp [Claim.polys, Claim.map]) as bs) [] []
  have hlen : (claimTable [kl, kr] (0 : F)).length = 22 := table_length [kl, kr] 0
  rw [hlen] at h4 h5
  have hB : buildClaims src.source (trackedProcessor E n r) ⟨y, z, tz, [], []⟩ =
      some ⟨y, z, tz, as, bs⟩ := by
    rw [hatom, buildClaims_eq _ (0 : F), claimTable_map, List.foldlM_map]
    simpa using h3
  have hclaim : ∀ (i : ℕ) c v, (claimTable [childOf src.left l1 l2 l3,
      childOf src.right r1 r2 r3] (0 : F))[i]? = some (c, v) → ∃ a b,
      (as.map fun t => t.poly)[i]? = some a ∧ bs[i]? = some b ∧ IsClaim (4 * n) s tz z c a b := by
    intro i c v hi
    rw [hpoly, List.getElem?_map] at hi
    obtain ⟨cv, hcv, he⟩ := Option.map_eq_some_iff.1 hi
    obtain ⟨a, b, q1, q2, q3⟩ := h6 i cv hcv
    cases he
    exact ⟨a.poly, b, by rw [List.getElem?_map, q1]; rfl, q2, q3.2⟩
  have hget : ∀ i < 22, ∃ a b, as[i]? = some a ∧ bs[i]? = some b ∧ Tracks (4 * n) key a ∧
      WellFormed (4 * n) b := by
    intro i hi
    obtain ⟨a, b, q1, q2, q3⟩ := h6 i ((claimTable [kl, kr] (0 : F))[i]'(by rw [hlen]; exact hi))
      (List.getElem?_eq_getElem _)
    exact ⟨a, b, q1, q2, q3.1, q3.2.2.1⟩
  have hta : ∀ t ∈ as, Tracks (4 * n) key t := by
    intro t ht
    obtain ⟨i, hi⟩ := List.getElem?_of_mem ht
    obtain ⟨a, b, q1, -, q3, -⟩ := hget i (by rw [← h4]; exact (List.getElem?_eq_some_iff.1 hi).1)
    rw [hi] at q1; cases q1; exact q3
  have hwb : ∀ p ∈ bs, WellFormed (4 * n) p := by
    intro t ht
    obtain ⟨i, hi⟩ := List.getElem?_of_mem ht
    obtain ⟨a, b, -, q2, -, q4⟩ := hget i (by rw [← h5]; exact (List.getElem?_eq_some_iff.1 hi).1)
    rw [hi] at q2; cases q2; exact q4
  have hcap : 22 ≤ GROUP_SIZE * NUM_GROUPS := by decide
  have hm : GROUP_SIZE ≠ 0 := by decide
  obtain ⟨ie, i1, -⟩ := Fold.computeErrors_spec (N := 4 * n) (outer := NUM_GROUPS)
    (inner := GROUP_SIZE) hm (a := as.map fun t => t.poly) (b := bs) (by rw [List.length_map, h4, h5])
    (by rw [List.length_map, h4, mul_comm]; exact hcap)
  obtain ⟨A, a1, a2, a3⟩ := tracks_foldInner (g := NUM_GROUPS) hm mu⁻¹ (by rw [h4]; exact hcap) hta
  obtain ⟨B, b1, b2, b3, -⟩ := Fold.foldInner_spec (N := 4 * n) (g := NUM_GROUPS) hm (mu * nu)
    (by rw [h5]; exact hcap) hwb
  have a4 : Fold.foldInner (polyFoldable (4 * n)) GROUP_SIZE NUM_GROUPS (as.map fun t => t.poly)
      mu⁻¹ = some (A.map fun t => t.poly) := by
    rw [← foldInner_tracked_poly, a1]; rfl
  obtain ⟨oes, o1, o2, -⟩ := Fold.computeErrors_spec (N := 4 * n) (outer := 1)
    (inner := NUM_GROUPS) (by decide) (a := A.map fun t => t.poly) (b := B)
    (by rw [List.length_map, a2, b2]) (by rw [List.length_map, a2, one_mul])
  obtain ⟨oe, ho⟩ : ∃ oe, oes.head? = some oe := by
    cases oes with
    | nil => simp at o2
    | cons x xs => exact ⟨x, rfl⟩
  have hoe : Fold.outerErrorTerms (4 * n) NUM_GROUPS (A.map fun t => t.poly) B = some oe := by
    rw [Fold.outerErrorTerms, o1]; exact ho
  obtain ⟨ta, f1, f2⟩ := tracks_fold muPrime⁻¹ A a3
  have f3 : Fold.foldOuter (polyFoldable (4 * n)) (A.map fun t => t.poly) muPrime⁻¹ =
      some ta.poly := by
    rw [Fold.foldOuter, ← fold_tracked_poly, f1]; rfl
  obtain ⟨bp, g1, g2, -⟩ := Fold.fold_poly_spec (4 * n) (muPrime * nuPrime) B b3
  obtain ⟨C, c1, c2⟩ := resolve_tracks hr hg hkw hkc f2
  obtain ⟨cB, c3⟩ : ∃ cB, Msm.commit (4 * n) numBits repr bp gens = some cB :=
    ⟨_, C12_commit (4 * n) numBits repr hr bp gens g2 hg⟩
  have hnew : ClaimBuilder.new (A := Tracked FoldKey F) n y z = some ⟨y, z, tz, [], []⟩ := by
    rw [ClaimBuilder.new, t1]; rfl
  have hrun : fuseAb E n numBits repr gens r src y z mu nu muPrime nuPrime =
      if mu = 0 then none else if muPrime = 0 then none else
        some ⟨ie, oe, A.map fun t => t.poly, B, ta.poly, C, bp, cB,
          Sparse.revdot (4 * n) ta.poly bp⟩ := by
    rw [fuseAb, hnew]
    simp only [Option.bind_eq_bind, Option.bind_some, hB]
    rw [show Fold.innerErrorTerms (4 * n) GROUP_SIZE NUM_GROUPS (as.map fun t => t.poly) bs =
      some ie from i1]
    simp only [Option.bind_some]
    split
    · rfl
    · simp only [a1, b1, Option.bind_some, hoe, computeNativeAb]
      split
      · rfl
      · rw [show Fold.foldOuter (trackedFoldable (4 * n)) A muPrime⁻¹ = some ta from f1]
        simp only [Option.bind_eq_bind, Option.bind_some]
        rw [show Fold.foldOuter (polyFoldable (4 * n)) B (muPrime * nuPrime) = some bp from g1]
        simp only [Option.bind_some]
        rw [c1]
        simp only [Option.bind_some]
        rw [c3]
        rfl
  rw [hrun]
  by_cases hmu : mu = 0
  · simp [hmu]
  · by_cases hmp : muPrime = 0
    · simp [hmp]
    · simp only [hmu, hmp, if_false, or_self, reduceCtorEq, true_and]
      intro o ho
      cases ho
      exact ⟨f2.1, g2, c2, c3, rfl, tz, as.map fun t : Tracked FoldKey F => t.poly, bs, t1,
        by rw [List.length_map, h4], h5, hclaim, i1, a4, b1, hoe, f3, g1⟩

end

/-! ### Examples -/

/-- The representation of `ZMod 97` in one byte. -/
def byte97 (a : ZMod 97) : List UInt8 := [UInt8.ofNat a.val]

theorem byte97_ok : ReprOk 7 byte97 := by
  intro a
  have h : a.val < 97 := a.val_lt
  have e : leValue (byte97 a) = a.val := by
    simp [leValue, byte97]; omega
  rw [e]
  exact ⟨ZMod.natCast_zmod_val a, by omega⟩

/-- Two source polynomials, with generators `1, 2, …`. -/
def demoSrc : Bool → Poly (ZMod 97)
  | false => [(0, [1, 2])]
  | true => [(1, [3]), (3, [4])]

example : (∀ k, WellFormed 4 (demoSrc k)) ∧
    (∀ k, Msm.commit 4 7 byte97 (demoSrc k) [1, 2, 3, (4 : ZMod 97)] =
      some (match k with | false => 5 | true => 22)) := by
  refine ⟨fun k => by cases k <;> simp [demoSrc, WellFormed, WellFormedFrom], fun k => ?_⟩
  cases k <;> decide +kernel

example : Fold.fold (trackedFoldable 4) [Tracked.single (demoSrc false) false,
      Tracked.single (demoSrc true) true, Tracked.single (demoSrc false) false] 3 =
    some ⟨[(0, [10, 29]), (3, [12])], [(false, 9), (true, 3), (false, 1)]⟩ ∧
    resolve 7 byte97 (fun | false => 5 | true => 22) [(false, 9), (true, 3), (false, (1 : ZMod 97))] =
      some (19 : ZMod 97) ∧
    Msm.commit 4 7 byte97 [(0, [10, 29]), (3, [12])] [1, 2, 3, (4 : ZMod 97)] = some 19 := by
  decide +kernel

/-- A proof whose traces are all the same polynomial. -/
def constProof {F G HC : Type} [Field F] (q : Poly F) (C : HC) (q' : Poly G) (pt : Option (F × F)) :
    Proof F G HC where
  application := ⟨4, [], [], q, C⟩
  preamble := ⟨⟨q, C⟩, q', pt⟩
  sPrime := ⟨⟨q, C, q, C⟩, q', pt⟩
  innerError := ⟨⟨q, C, q, C⟩, q', pt⟩
  outerError := ⟨⟨q, C⟩, q', pt⟩
  ab := ⟨⟨q, C, q, C, 0⟩, q', pt⟩
  query := ⟨⟨q, C, q, C⟩, q', pt⟩
  f := ⟨⟨q, C⟩, q', pt⟩
  eval := ⟨⟨q, C⟩, q', pt⟩
  p := ⟨⟨q, C, 0⟩, [q'], q', q'⟩
  challenges := Challenges.trivial
  circuits := ⟨⟨q, C⟩, ⟨q, C⟩, ⟨q, C⟩, ⟨q, C⟩, ⟨q, C⟩⟩

example : ∃ b r s, build 8 demoHist {} = .ok b ∧ b.finalize env97 8 = .ok r ∧
    Supplies env97 8 r 5 s ∧
    Committed (4 * 8) 7 byte97 (List.replicate 32 (5 : ZMod 97))
      (constProof (G := ZMod 109) [(3, [1, 2])] 15 [] none) := by
  obtain ⟨b, hb, hn, hr⟩ := demo_build
  obtain ⟨r, h1, h2⟩ := (C25_capacity hr).2 (by omega)
  obtain ⟨s, h3, -⟩ := C45_wiring hr h1 5
  refine ⟨b, r, s, hb, h1, h3, fun c => ?_⟩
  have h : (constProof (F := ZMod 97) (G := ZMod 109) (HC := ZMod 97) [(3, [1, 2])] 15 [] none).nativeRx c
      = [(3, [1, 2])] := by
    cases c with
    | rx i => cases i <;> rfl
    | _ => rfl
  have h' : (constProof (F := ZMod 97) (G := ZMod 109) (HC := ZMod 97) [(3, [1, 2])] 15 []
      none).nativeCommitment c = 15 := by
    cases c with
    | rx i => cases i <;> rfl
    | _ => rfl
  rw [h, h']
  exact ⟨by simp [WellFormed, WellFormedFrom], by decide +kernel⟩

end Ragu.Props

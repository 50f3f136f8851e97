/-
Property C87: a fuse that holds, with what it leaves to the next one, says the same of its children.
-/
import Verif.Lemmas.RecursionRounds
import Verif.Lemmas.RecursionStages

set_option linter.unusedSectionVars false

namespace Ragu.Props
open Ragu Ragu.Circuit Ragu.Registry Ragu.Spec Ragu.Gadget Ragu.Pcd Finset
variable {F G HC : Type} [Field F] [DecidableEq F] [Field G] [DecidableEq G]
  [AddCommGroup HC] [DecidableEq HC] [Module F HC]

/-- What should hold of a child: what its own circuits establish, and what it left to the next fuse. -/
structure ChildSound (C : CycleEnv F G HC) (n : ℕ) (P : StepParams F) (app : Application F G)
    (c : FuseChild F G HC) : Prop where
  /-- The traces satisfy the internal circuits and the application circuit. -/
  traces : TracesSound C n P app c
  /-- The product of the child's folded polynomials is its `c`. -/
  product : ∑ k ∈ range (4 * n), coeff c.proof.ab.native.aPoly k *
    coeff c.proof.ab.native.bPoly (4 * n - 1 - k) = (proofPublic c.proof).c
  /-- The child's batched polynomial has the value `v` at `u`. -/
  value : ∑ k ∈ range (4 * n), coeff c.proof.p.native.poly k * (proofPublic c.proof).u ^ k =
    (proofPublic c.proof).v
  /-- The child's registry polynomial is that of the registry at the child's `x` and `y`. -/
  registry : ∀ w, app.nativeRegistry.wxy C.native n w c.proof.challenges.x c.proof.challenges.y =
    some (∑ k ∈ range (4 * n), coeff c.proof.query.native.registryXyPoly k * w ^ k)

/-- The proof `p` came out of this play: its challenges are those drawn, its stages hold the children
and the messages, its polynomials are the messages, and its batched polynomial is the combination of the
batched ones. For the commitments in place of the polynomials the last is what C83 shows the endoscaling
circuits establish. -/
structure Plays (n : ℕ) (P : StepParams F) (om : ℕ → F) (l r : FuseChild F G HC) (σ : FuseProver F)
    (c : Draw F) (p : Proof F G HC) : Prop where
  challenges : [p.challenges.w, p.challenges.y, p.challenges.z, p.challenges.mu, p.challenges.nu,
    p.challenges.muPrime, p.challenges.nuPrime, p.challenges.x, p.challenges.alpha, p.challenges.u] =
      [c.w, c.y, c.z, c.mu, c.nu, c.muPrime, c.nuPrime, c.x, c.alpha, c.u]
  beta : ∀ bits, SquareBits P.endo.nbits p.challenges.preBeta bits →
    liftNative P.endo.nbits P.endo.zeta bits = c.beta
  stages : ∃ S, StageTypes P.headerSize P.poseidon.T S ∧
    StagesOf n P.headerSize P.poseidon.T (fun i => p.nativeRx (.rx i)) S ∧
    S.preamble.left.public = l.values om ∧ S.preamble.right.public = r.values om ∧
    (S.innerError.map fun l => l.map (·.wire)) = σ.innerErrs (c.upTo 3) ∧
    S.outerError.errorTerms.map (·.wire) = σ.outerErrs (c.upTo 5) ∧
    QueryOutput.map (·.wire) S.query = σ.query (c.upTo 8) ∧
    EvalOutput.map (·.wire) S.eval = σ.eval (c.upTo 10)
  a : ∀ k < 4 * n, coeff p.ab.native.aPoly k = σ.a (c.upTo 7) k
  b : ∀ k < 4 * n, coeff p.ab.native.bPoly k = σ.b (c.upTo 7) k
  xy : ∀ k < 4 * n, coeff p.query.native.registryXyPoly k = σ.xy (c.upTo 8) k
  batch : ∀ k < 4 * n, coeff p.p.native.poly k = descending c.beta (σ.f (c.upTo 9) k ::
    evalList (EvalOutput.map (· k) (batched l r σ c)))

section
variable {C : CycleEnv F G HC} {n : ℕ} {P : StepParams F} {cs : Circuits F G}
  {steps : List (StepDef F)} {app : Application F G} {l r : FuseChild F G HC} {σ : FuseProver F}

theorem polyAt_congr {p q : ℕ → F} (h : ∀ k < 4 * n, p k = q k) (x : F) :
    polyAt n p x = polyAt n q x :=
  sum_congr rfl fun k hk => by rw [h k (mem_range.1 hk)]

theorem productOf_congr {p q p' q' : ℕ → F} (h : ∀ k < 4 * n, p k = p' k)
    (h' : ∀ k < 4 * n, q k = q' k) : productOf n p q = productOf n p' q' :=
  sum_congr rfl fun k hk => by
    have := mem_range.1 hk
    rw [h k this, h' _ (by omega)]

/-- The registry polynomial with its restrictions and wiring polynomials. -/
theorem registry_functions (hA : AppOk C n P cs steps app) :
    ∃ (m : F → F → F → F) (ss : List (F → F → F)) (sup : F → ℕ → ℕ → F) (mwy mwx mxy : F → F → ℕ → F),
      (∀ w x y, app.nativeRegistry.wxy C.native n w x y = some (m w x y)) ∧
      (∀ y, WiringOf C.native n app.nativeRegistry ss y (sup y)) ∧
      (∀ y i x, polyAt n (sup y i) x = m (omegaJ C.native i) x y) ∧
      (∀ w y x, polyAt n (mwy w y) x = m w x y) ∧ (∀ w x y, polyAt n (mwx w x) y = m w x y) ∧
      (∀ x y w, polyAt n (mxy x y) w = m w x y) := by
  obtain ⟨bn, be, ss, ss', h1, h2, -, -⟩ := app_ready hA
  have hr := C23_restrictions h1 h2
  have hs : ∀ y, ∃ s, WiringOf C.native n app.nativeRegistry ss y s := by
    intro y
    obtain ⟨s, g1, g2, g3⟩ := supplies_of_ready h1 h2 y
    refine ⟨fun i => coeff (s i), fun i x => ?_, g3⟩
    rw [← g2, C11_eval _ _ (g1 i).2]
  choose sup hsup using hs
  have hwy : ∀ w y, ∃ p : ℕ → F, ∀ x, polyAt n p x =
      registryAt n app.nativeRegistry.domain.n (omegaJ C.native) ss app.nativeRegistry.key w x y := by
    intro w y
    obtain ⟨-, ⟨p, p1, -, -⟩, -, -⟩ := hr w 0 y
    refine ⟨coeff p, fun x => ?_⟩
    obtain ⟨-, ⟨p', q1, q2, q3⟩, -, -⟩ := hr w x y
    rw [p1] at q1
    cases q1
    rw [← q3, C11_eval _ _ q2]; rfl
  have hwx : ∀ w x, ∃ p : ℕ → F, ∀ y, polyAt n p y =
      registryAt n app.nativeRegistry.domain.n (omegaJ C.native) ss app.nativeRegistry.key w x y := by
    intro w x
    obtain ⟨-, -, ⟨p, p1, -, -⟩, -⟩ := hr w x 0
    refine ⟨coeff p, fun y => ?_⟩
    obtain ⟨-, -, ⟨p', q1, q2, q3⟩, -⟩ := hr w x y
    rw [p1] at q1
    cases q1
    rw [← q3, C11_eval _ _ q2]; rfl
  have hxy : ∀ x y, ∃ p : ℕ → F, ∀ w, polyAt n p w =
      registryAt n app.nativeRegistry.domain.n (omegaJ C.native) ss app.nativeRegistry.key w x y := by
    intro x y
    obtain ⟨-, -, -, p, p1, -, -⟩ := hr 0 x y
    refine ⟨coeff p, fun w => ?_⟩
    obtain ⟨-, -, -, p', q1, q2, q3⟩ := hr w x y
    rw [p1] at q1
    cases q1
    rw [← q3, C11_eval _ _ q2]; rfl
  choose mwy hmwy using hwy
  choose mwx hmwx using hwx
  choose mxy hmxy using hxy
  exact ⟨_, ss, sup, mwy, mwx, mxy, fun w x y => (hr w x y).1, hsup, fun y i x => (hsup y).1 i x,
    hmwy, hmwx, hmxy⟩

/-- The child on a side. -/
def childOn (l r : FuseChild F G HC) : Side → FuseChild F G HC
  | .left => l
  | .right => r

variable {m : F → F → F → F} {sup : F → ℕ → ℕ → F} {mwy mwx mxy : F → F → ℕ → F} {c : Draw F}

/-- Right answers give the folded polynomials their values. -/
theorem answers_fold (hq : ∀ q, polyAt n (qPoly l r σ c q) (qPoint (omegaJ C.native) l r c q) =
      fuseAnswer n l r σ c q)
    (hxy : ∀ i, polyAt n (σ.xy (c.upTo 8)) (omegaJ C.native i) = polyAt n (sup c.y i) c.x) :
    polyAt n (σ.a (c.upTo 7)) (c.x * c.z) = polyAt n (aStar l r c) (c.x * c.z) ∧
    polyAt n (σ.b (c.upTo 7)) c.x = polyAt n (bStar n l r sup c) c.x := by
  set q := σ.query (c.upTo 8) with hqd
  have hv : valueClaims q = (recClaims l r).map (claimValue
      (fun p => polyAt n (coeff p) (c.x * c.z)) (fun p => polyAt n (coeff p) c.x)
      (fun i => polyAt n (sup c.y i) c.x)) := by
    have hchild : ∀ s, childValues (QueryOutput.child q s) =
        { rx := fun
            | .abA => polyAt n (coeff ((childOn l r s).proof.nativeRx .abA)) (c.x * c.z)
            | .abB => polyAt n (coeff ((childOn l r s).proof.nativeRx .abB)) c.x
            | .rx i => polyAt n (coeff ((childOn l r s).proof.nativeRx (.rx i))) (c.x * c.z)
          id := polyAt n (sup c.y (childOn l r s).proof.application.circuitId) c.x
          c := (), app := (), bridge := (), unified := () } := by
      intro s
      have h1 := hq (.childA s)
      have h2 := hq (.childB s)
      have h3 := fun i => hq (.rx s i)
      have h4 := hq (.xyChildCircuit s)
      have h5 := hxy (childOn l r s).proof.application.circuitId
      rw [childValues]
      congr 1
      · funext k
        cases s <;> cases k
        · exact h1.symm
        · exact h2.symm
        · exact (h3 _).symm
        · exact h1.symm
        · exact h2.symm
        · exact (h3 _).symm
      · rw [← h5]
        cases s
        · exact h4.symm
        · exact h4.symm
    rw [valueClaims, show q.left = QueryOutput.child q .left from rfl, hchild,
      show q.right = QueryOutput.child q .right from rfl, hchild, recClaims, recTable, List.map_map]
    rfl
  have hfix : q.fixedRegistry = fun id => polyAt n (sup c.y (registryIndex id)) c.x := by
    funext id
    have h1 := hq (.xyInternal id)
    rw [← hxy]
    exact h1.symm
  constructor
  · have h1 := hq .a
    rw [aStar, polyAt_folded]
    refine Eq.trans h1 ?_
    show foldedA q c.z c.mu c.muPrime = _
    rw [foldedA, hv, List.map_map]
    congr 1
    refine List.map_congr_left fun cl _ => ?_
    exact (claim_values n (sup c.y) c.x c.z cl).1.symm
  · have h1 := hq .b
    rw [bStar, polyAt_folded]
    refine Eq.trans h1 ?_
    show foldedB q (tDef n c.x c.z) c.mu c.nu c.muPrime c.nuPrime = _
    rw [foldedB, hv, hfix, List.map_map]
    congr 1
    refine List.map_congr_left fun cl _ => ?_
    exact (claim_values n (sup c.y) c.x c.z cl).2.symm

/-- Right folded polynomials with the right product give the claims, if the folding hides nothing. -/
theorem fold_claims (hl : none ∉ bridgePoints l.proof) (hr : none ∉ bridgePoints r.proof)
    {om : ℕ → F} (hmu' : c.muPrime ≠ 0) (hmu : c.mu ≠ 0)
    (hprod : productOf n (aStar l r c) (bStar n l r sup c) =
      stepClaim GROUP_SIZE NUM_GROUPS c.mu c.nu c.muPrime c.nuPrime (σ.innerErrs (c.upTo 3))
        (σ.outerErrs (c.upTo 5)) (claimedValues c.y (l.values om) (r.values om)))
    (ho : ¬ BadOuter n om l r σ sup c) (hi : ¬ BadInner n om l r σ sup c) :
    JointClaims n sup l r c.y c.z := by
  have hd := folded_diff hprod
  have hK : ∀ K < NUM_GROUPS, foldedClaim GROUP_SIZE c.mu⁻¹ (c.mu * c.nu)
      (groupDiff n GROUP_SIZE (claimLeft c.z) (claimRight (sup c.y) (tCoeff n c.z) c.z)
        (recClaims l r) (σ.innerErrs (c.upTo 3))
        (claimedValues c.y (l.values om) (r.values om)) K) = 0 := by
    intro K hK
    rw [← outerDiff_diag (oe := σ.outerErrs (c.upTo 5)) hK]
    by_contra hne
    exact ho ⟨⟨hmu', hd⟩, K, hK, hne⟩
  have hdiag : ∀ K < NUM_GROUPS, ∀ i < GROUP_SIZE, groupDiff n GROUP_SIZE (claimLeft c.z)
      (claimRight (sup c.y) (tCoeff n c.z) c.z) (recClaims l r) (σ.innerErrs (c.upTo 3))
      (claimedValues c.y (l.values om) (r.values om)) K i i = 0 := by
    intro K hK' i hi'
    by_contra hne
    exact hi ⟨⟨hmu, hK⟩, K, hK', i, hi', hne⟩
  intro cv hcv
  obtain ⟨j, hj, rfl⟩ := List.getElem_of_mem hcv
  have hlen : (recTable l r c.y).length = 22 := by rw [recTable, table_length]; rfl
  have hj22 : j < 22 := hlen ▸ hj
  have := hdiag (j / 7) (by simp only [NUM_GROUPS]; omega) (j % 7) (Nat.mod_lt _ (by decide))
  rw [groupDiff_diag (show j % 7 < GROUP_SIZE from Nat.mod_lt _ (by decide)), show GROUP_SIZE = 7 from rfl,
    show j / 7 * 7 + j % 7 = j by omega, sub_eq_zero] at this
  have hk : (claimedValues c.y (l.values om) (r.values om)).getD j 0 = ((recTable l r c.y)[j]'hj).2 := by
    have h1 : ((recTable l r c.y).map (·.2)).getD j 0 = ((recTable l r c.y)[j]'hj).2 := by
      rw [getD_map_zero, List.getElem?_eq_getElem hj]; rfl
    rw [← h1, recTable_snd om hl hr]
    have h14 : (claimedValues c.y (l.values om) (r.values om)).length = 14 := rfl
    rcases lt_or_ge j 14 with h | h
    · rw [List.getD_eq_getElem?_getD, List.getD_eq_getElem?_getD,
        List.getElem?_append_left (h14 ▸ h)]
    · rw [List.getD_eq_getElem?_getD, List.getD_eq_getElem?_getD,
        List.getElem?_append_right (h14 ▸ h), List.getElem?_eq_none (h14 ▸ h), h14,
        List.getElem?_replicate, if_pos (by omega)]
      rfl
  have hcl : (recClaims l r)[j]? = some ((recTable l r c.y)[j]'hj).1 := by
    rw [← recTable_fst l r c.y, List.getElem?_map, List.getElem?_eq_getElem hj]; rfl
  rw [ClaimTrue, ← hk, this]
  refine sum_congr rfl fun k _ => ?_
  rw [nth, nth, getD_map_zero, getD_map_zero, hcl]
  rfl

/-- Without bad luck in any round, a prover that wins has sound children. -/
theorem wins_sound (hl : ChildFit C n P.headerSize app l) (hr : ChildFit C n P.headerSize app r)
    (hm : ∀ w x y, app.nativeRegistry.wxy C.native n w x y = some (m w x y))
    (hsup : ∀ y i x, polyAt n (sup y i) x = m (omegaJ C.native i) x y)
    (hwy : ∀ w y x, polyAt n (mwy w y) x = m w x y) (hwx : ∀ w x y, polyAt n (mwx w x) y = m w x y)
    (hxy : ∀ x y w, polyAt n (mxy x y) w = m w x y)
    (hnt : ¬ ((l.values (omegaJ C.native)).Trivial P.headerSize ∧
      (r.values (omegaJ C.native)).Trivial P.headerSize))
    (hwin : FuseWins n P.headerSize (omegaJ C.native) (app.nativeRegistry.wxy C.native n) l r σ c)
    (b1 : ¬ BadBeta n (omegaJ C.native) l r σ c) (b2 : ¬ BadU n (omegaJ C.native) l r σ c)
    (b3 : ¬ BadAlpha n (omegaJ C.native) l r σ c) (b4 : ¬ BadA n l r σ c) (b5 : ¬ BadB n l r σ sup c)
    (b6 : ¬ BadWy n σ mwy c) (b7 : ¬ BadOuter n (omegaJ C.native) l r σ sup c)
    (b8 : ¬ BadInner n (omegaJ C.native) l r σ sup c) (b9 : ¬ BadJoint C n P app sup l r c)
    (b10 : ∀ s, ¬ BadWx n σ mwx s (childOn l r s).proof.challenges.x c)
    (b11 : ∀ s, ¬ BadW n (coeff (childOn l r s).proof.query.native.registryXyPoly)
      (mxy (childOn l r s).proof.challenges.x (childOn l r s).proof.challenges.y) c) :
    ChildSound C n P app l ∧ ChildSound C n P app r := by
  -- the evaluations at `u` are right
  have hlist : trueList n l r σ c = sentList n (omegaJ C.native) l r σ c := by
    by_contra hne
    exact b1 ⟨hwin.value, hne⟩
  obtain ⟨hf, hev⟩ := List.cons.inj hlist
  have hev' : ∀ q, evalOf (σ.eval (c.upTo 10)) q = polyAt n (qPoly l r σ c q) c.u := by
    intro q
    rw [← evalList_inj hev q, evalOf_map]
    rfl
  rw [quotientSum, descending_queries] at hf
  -- the answers are right
  have hres : ∀ ξ, residue n (omegaJ C.native) l r σ c ξ = 0 := by
    intro ξ
    by_contra hne
    refine b2 ⟨⟨fun i _ => hwin.avoids _ (query_mem _), hf.trans ?_⟩, ξ, hne⟩
    refine sum_congr rfl fun i _ => ?_
    rw [hev']
    rfl
  have hq : ∀ q, polyAt n (qPoly l r σ c q) (qPoint (omegaJ C.native) l r c q) =
      fuseAnswer n l r σ c q := by
    intro q
    obtain ⟨i, hi, rfl⟩ := query_index q
    by_contra hne
    exact b3 ⟨hres, i, hi, sub_ne_zero.2 hne⟩
  -- the registry polynomials are right
  have rxy : ∀ w, polyAt n (σ.xy (c.upTo 8)) w = m w c.x c.y := by
    intro w
    have := hwin.registry w
    rw [hm, Option.some.injEq] at this
    exact this.symm
  have q1 : polyAt n (σ.xy (c.upTo 8)) c.w = (σ.query (c.upTo 8)).registryWxy := hq .xyW
  have q2 : polyAt n (σ.wy (c.upTo 3)) c.x = (σ.query (c.upTo 8)).registryWxy := hq .wyX
  have hwyc : ∀ k < 4 * n, σ.wy (c.upTo 3) k = mwy c.w c.y k := by
    by_contra hne
    push Not at hne
    exact b6 ⟨by rw [q2, ← q1, rxy, hwy], hne⟩
  have q3 : ∀ s, polyAt n (σ.wy (c.upTo 3)) (childOn l r s).proof.challenges.x =
      polyAt n (σ.wx s (c.upTo 1)) c.y := by
    intro s
    have h1 := hq (.wyChildX s)
    have h2 := hq (.wxY s)
    cases s
    · exact h1.trans h2.symm
    · exact h1.trans h2.symm
  have hwxc : ∀ s, ∀ k < 4 * n, σ.wx s (c.upTo 1) k = mwx c.w (childOn l r s).proof.challenges.x k := by
    intro s
    by_contra hne
    push Not at hne
    exact b10 s ⟨by rw [← q3, polyAt_congr hwyc, hwy, hwx], hne⟩
  have q4 : ∀ s, polyAt n (σ.wx s (c.upTo 1)) (childOn l r s).proof.challenges.y =
      polyAt n (coeff (childOn l r s).proof.query.native.registryXyPoly) c.w := by
    intro s
    have h1 := hq (.wxChildY s)
    have h2 := hq (.childRegistry s)
    cases s
    · exact h1.trans h2.symm
    · exact h1.trans h2.symm
  have hreg : ∀ s w, polyAt n (coeff (childOn l r s).proof.query.native.registryXyPoly) w =
      m w (childOn l r s).proof.challenges.x (childOn l r s).proof.challenges.y := by
    intro s w
    rw [← hxy]
    refine polyAt_congr ?_ w
    by_contra hne
    push Not at hne
    exact b11 s ⟨by rw [← q4, polyAt_congr (hwxc s), hwx, hxy], hne⟩
  -- the folded polynomials are right
  obtain ⟨ha, hb⟩ := answers_fold (sup := sup) hq fun i => by rw [rxy, hsup]
  have hac : ∀ k < 4 * n, σ.a (c.upTo 7) k = aStar l r c k := by
    by_contra hne
    push Not at hne
    exact b4 ⟨hwin.z_ne, ha, hne⟩
  have hbc : ∀ k < 4 * n, σ.b (c.upTo 7) k = bStar n l r sup c k := by
    by_contra hne
    push Not at hne
    exact b5 ⟨hb, hne⟩
  have hp := hwin.product hnt
  rw [productOf_congr hac hbc] at hp
  have hj := fold_claims hl.points hr.points hwin.muPrime_ne hwin.mu_ne hp b7 b8
  have htr : TracesSound C n P app l ∧ TracesSound C n P app r := by
    by_contra hne
    exact b9 ⟨hj, hne⟩
  have hraw : ∀ s, productOf n (coeff (childOn l r s).proof.ab.native.aPoly)
      (coeff (childOn l r s).proof.ab.native.bPoly) = (proofPublic (childOn l r s).proof).c := by
    intro s
    have : (Claim.raw ((childOn l r s).proof.nativeRx .abA) ((childOn l r s).proof.nativeRx .abB),
        (childOn l r s).proof.ab.native.c) ∈ recTable l r c.y := by
      cases s <;> simp only [recTable, claimTable] <;> simp [childOfProof, childOn]
    exact hj _ this
  have hval : ∀ s, polyAt n (coeff (childOn l r s).proof.p.native.poly)
      (proofPublic (childOn l r s).proof).u = (proofPublic (childOn l r s).proof).v := by
    intro s
    have := hq (.childP s)
    cases s
    · exact this
    · exact this
  refine ⟨⟨htr.1, hraw .left, hval .left, fun w => ?_⟩, ⟨htr.2, hraw .right, hval .right, fun w => ?_⟩⟩
  · rw [hm]; exact congrArg some (hreg .left w).symm
  · rw [hm]; exact congrArg some (hreg .right w).symm

open Classical in
/-- C87: let the challenges of a fuse be drawn one after the other, all but the last from `A` and the
multiplier of the batching from `B`, and let a prover choose each of its messages with the challenges
drawn before, after choosing any two proofs as children, not both trivial. If one of the children is not
what a proof should be, then the prover wins for at most `(40 n + 151) |A|^9 |B| + 36 |A|^10` of the
`|A|^10 |B|` challenges. The prover wins when the equations of the fuse hold and so does what they leave
to the next one. A child is what it should be when its traces satisfy its circuits and what it left to
this fuse holds: the product of its folded polynomials, the value of its batched polynomial, and its
registry polynomial. -/
theorem C87_children [Finite F] (hA : AppOk C n P cs steps app)
    (hl : ChildFit C n P.headerSize app l) (hr : ChildFit C n P.headerSize app r)
    (hnt : ¬ ((l.values (omegaJ C.native)).Trivial P.headerSize ∧
      (r.values (omegaJ C.native)).Trivial P.headerSize))
    (hbad : ¬ (ChildSound C n P app l ∧ ChildSound C n P app r)) (σ : FuseProver F) (A B : Finset F) :
    ((draws A B).filter (FuseWins n P.headerSize (omegaJ C.native)
      (app.nativeRegistry.wxy C.native n) l r σ)).card ≤
        (40 * n + 151) * (A.card ^ 9 * B.card) + 36 * A.card ^ 10 := by
  have hn := app_pos hA
  obtain ⟨m, ss, sup, mwy, mwx, mxy, h1, h2, h3, h4, h5, h6⟩ := registry_functions hA
  set om := omegaJ C.native with hom
  set Q := A.card ^ 9 * B.card with hQ
  let ev : List (Draw F → Prop) := [BadU n om l r σ, BadAlpha n om l r σ, BadA n l r σ,
    BadB n l r σ sup, BadWy n σ mwy, BadOuter n om l r σ sup, BadInner n om l r σ sup,
    BadJoint C n P app sup l r, BadWx n σ mwx .left l.proof.challenges.x,
    BadWx n σ mwx .right r.proof.challenges.x,
    BadW n (coeff l.proof.query.native.registryXyPoly) (mxy l.proof.challenges.x l.proof.challenges.y),
    BadW n (coeff r.proof.query.native.registryXyPoly) (mxy r.proof.challenges.x r.proof.challenges.y)]
  have hunion : ∀ (ev : List (Draw F → Prop)) (ds : List ℕ),
      List.Forall₂ (fun e d => ((draws A B).filter e).card ≤ d * Q) ev ds →
      ((draws A B).filter fun c => ∃ e ∈ ev, e c).card ≤ ds.sum * Q := by
    intro ev ds h
    induction h with
    | nil => simp
    | @cons e d ev ds h1 _ ih =>
      rw [List.sum_cons, Nat.add_mul]
      refine le_trans (card_le_card fun c hc => ?_) ((card_union_le _ _).trans (add_le_add h1 ih))
      simp only [mem_union, mem_filter, List.mem_cons, exists_eq_or_imp] at hc ⊢
      rcases hc with ⟨hc, h | h⟩
      · exact .inl ⟨hc, h⟩
      · exact .inr ⟨hc, h⟩
  have hcount := hunion ev [4 * n - 1 + 55, 54, 4 * n - 1, 4 * n - 1, 4 * n - 1, 37, 13, 8 * n,
    4 * n - 1, 4 * n - 1, 4 * n - 1, 4 * n - 1] (by
      refine .cons (count_u A B) (.cons (count_alpha A B) (.cons (count_a A B) (.cons (count_b A B sup)
        (.cons (count_wy A B mwy) (.cons (count_outer A B sup) (.cons (count_inner A B sup)
        (.cons (count_joint A B hA h2
          (fun y i x => by rw [h1, Option.getD_some]; exact h3 y i x) hl hr) (.cons (count_wx A B mwx _ _) (.cons (count_wx A B mwx _ _)
        (.cons (count_w A B _ _) (.cons (count_w A B _ _) .nil))))))))))))
  have hsum : [4 * n - 1 + 55, 54, 4 * n - 1, 4 * n - 1, 4 * n - 1, 37, 13, 8 * n,
    4 * n - 1, 4 * n - 1, 4 * n - 1, 4 * n - 1].sum = 40 * n + 151 := by
    simp only [List.sum_cons, List.sum_nil]
    omega
  rw [hsum] at hcount
  refine le_trans (card_le_card fun c hc => ?_)
    ((card_union_le _ _).trans (add_le_add hcount (count_beta (n := n) (om := om) (l := l) (r := r)
      (σ := σ) A B)))
  obtain ⟨hc, hwin⟩ := mem_filter.1 hc
  rw [mem_union, mem_filter, mem_filter]
  by_contra hno
  push Not at hno
  obtain ⟨n1, n2⟩ := hno
  have n1 := n1 hc
  simp only [ev, List.forall_mem_cons] at n1
  obtain ⟨e1, e2, e3, e4, e5, e6, e7, e8, e9, e10, e11, e12, -⟩ := n1
  refine hbad (wins_sound hl hr h1 h3 h4 h5 h6 hnt hwin (n2 hc) e1 e2 e3 e4 e5 e6 e7 e8 ?_ ?_)
  · intro s; cases s <;> assumption
  · intro s; cases s <;> assumption

theorem polyAt_descending (β x : F) (ps : List (ℕ → F)) :
    polyAt n (fun k => descending β (ps.map (· k))) x = descending β (ps.map (polyAt n · x)) := by
  have hg : ∀ (f : (ℕ → F) → F) (i : ℕ), i < ps.length →
      (ps.map f).getD i 0 = f (ps.getD i 0) := by
    intro f i hi
    rw [List.getD_eq_getElem?_getD, List.getElem?_map, List.getD_eq_getElem?_getD,
      List.getElem?_eq_getElem hi]
    rfl
  simp only [polyAt, descending, List.length_map, sum_mul]
  rw [sum_comm]
  refine sum_congr rfl fun i hi => ?_
  rw [hg (fun p => ∑ k ∈ range (4 * n), p k * x ^ k) i (mem_range.1 hi), mul_sum]
  refine sum_congr rfl fun k _ => ?_
  rw [hg (· k) i (mem_range.1 hi), mul_assoc]

/-- The polynomials in the order of `evalList`. -/
def polyList {α : Type} (e : EvalOutput α) : List α :=
  [e.left, e.right].flatMap (fun c =>
    RxIndex.all.map c.rx ++ [c.aPoly, c.bPoly, c.registryXyPoly, c.pPoly]) ++
  [e.registryWx0, e.registryWx1, e.registryWy, e.aPoly, e.bPoly, e.registryXy]

theorem evalList_map {α : Type} (f : α → F) (e : EvalOutput α) :
    evalList (EvalOutput.map f e) = (polyList e).map f := by
  simp only [evalList, polyList, EvalOutput.map, EvalChild.map, List.flatMap_cons, List.flatMap_nil,
    List.map_append, List.map_cons, List.map_nil, List.map_map]
  rfl

/-- C87: a proof that came out of a play and is what a proof should be wins: the equations of its fuse
and what they leave to the next one hold. -/
theorem C87_wins (hA : AppOk C n P cs steps app) {p : Proof F G HC} {header : List F}
    (hp : Plays n P (omegaJ C.native) l r σ c p) (hs : ChildSound C n P app ⟨p, header⟩) :
    FuseWins n P.headerSize (omegaJ C.native) (app.nativeRegistry.wxy C.native n) l r σ c := by
  obtain ⟨S, s1, s2, -, -, s5⟩ := hs.traces.stages
  obtain ⟨S', t1, t2, e1, e2, e3, e4, e5, e6⟩ := hp.stages
  obtain ⟨u1, u2, u3, u4, u5, u6⟩ := stages_unique s1 s2 t1 t2
  rw [← u1] at e1
  rw [← u2] at e2
  rw [← u3] at e3
  rw [← u4] at e4
  rw [← u5] at e5
  rw [← u6] at e6
  have hch := hp.challenges
  simp only [List.cons.injEq, and_true] at hch
  obtain ⟨c0, c1, c2, c3, c4, c5, c6, c7, c8, c9⟩ := hch
  have hv := s5.verified
  have hom : (fun id : NativeId => id.omega P.env) = fun id => omegaJ C.native (registryIndex id) := by
    funext id
    rw [hA.sameEnv, omega_eq]
  rw [e1, e2, e5, e6, hom, ← hA.rank] at hv
  have hf := s5.folded
  rw [e1, e2, e3, e4] at hf
  have hpub : (proofPublic p).w = c.w ∧ (proofPublic p).y = c.y ∧ (proofPublic p).z = c.z ∧
      (proofPublic p).mu = c.mu ∧ (proofPublic p).nu = c.nu ∧ (proofPublic p).muPrime = c.muPrime ∧
      (proofPublic p).nuPrime = c.nuPrime ∧ (proofPublic p).x = c.x ∧
      (proofPublic p).alpha = c.alpha ∧ (proofPublic p).u = c.u :=
    ⟨c0, c1, c2, c3, c4, c5, c6, c7, c8, c9⟩
  obtain ⟨c0, c1, c2, c3, c4, c5, c6, c7, c8, c9⟩ := hpub
  rw [c0, c1, c2, c3, c4, c5, c6, c7, c8, c9] at hv
  rw [c1, c3, c4, c5, c6] at hf
  obtain ⟨bits, hb, hval⟩ := hv.value
  rw [hp.beta bits hb] at hval
  refine ⟨hv.x_ne, hv.z_ne, hv.mu_ne, hv.muPrime_ne, hv.avoids, fun hnt => ?_, ?_, fun w => ?_⟩
  · rw [← hf hnt, ← hs.product]
    exact (productOf_congr hp.a hp.b).symm
  · refine Eq.trans ?_ hval
    rw [← hs.value]
    show _ = polyAt n (coeff p.p.native.poly) (proofPublic p).u
    rw [c9, polyAt_congr hp.batch, evalList_map]
    have := polyAt_descending (n := n) c.beta c.u (σ.f (c.upTo 9) :: polyList (batched l r σ c))
    simp only [List.map_cons, ← evalList_map] at this
    rw [this, evalList_map]
  · rw [← polyAt_congr hp.xy, ← c7, ← c1]
    exact hs.registry w

variable {Data Out : Type} {H : Header F Data Out} {data : Data}

open Classical in
/-- The challenges `w`, `y`, `z` from `V` for which a verifier accepts; it draws the others in any way
that depends on them. -/
noncomputable def acceptedTriples (C : CycleEnv F G HC) (n N : ℕ) (app : Application F G)
    (H : Header F Data Out) (p : Proof F G HC) (data : Data) (ch : F → F → F → VerifyChallenges F G)
    (V : Finset F) : Finset (F × F × F) :=
  (V ×ˢ V ×ˢ V).filter fun t => verify C n N app H p data (ch t.1 t.2.1 t.2.2) = .ok true

open Classical in
/-- C87: let a verifier draw `w`, `y` and `z` from a set `V`, and the other challenges in any way that
depends on them. If it accepts a proof with the carried data for more than `8 n |V|²` of the `|V|³`
triples, then the proof with the encoding of the data as header is what a proof should be, and can be
given to a fuse. -/
theorem C87_accepted [Finite F] (hA : AppOk C n P cs steps app) {p : Proof F G HC}
    (hp : ProofTyped C n p) {ch : F → F → F → VerifyChallenges F G}
    (hch : ∀ w y z, (ch w y z).w = w ∧ (ch w y z).y = y ∧ (ch w y z).z = z) {V : Finset F}
    (hmany : 8 * n * V.card ^ 2 < (acceptedTriples C n P.headerSize app H p data ch V).card) :
    ∃ header, EncodedAs P.headerSize H data header ∧ ChildFit C n P.headerSize app ⟨p, header⟩ ∧
      ChildSound C n P app ⟨p, header⟩ := by
  have hn := app_pos hA
  have hcount : (acceptedTriples C n P.headerSize app H p data ch V).card =
      ∑ w ∈ V, (acceptedPairs C n P.headerSize app H p data (ch w) V).card := by
    rw [acceptedTriples, card_filter, sum_product]
    refine sum_congr rfl fun w _ => ?_
    rw [acceptedPairs, card_filter]
  obtain ⟨w, hw, hpairs⟩ : ∃ w ∈ V, 8 * n * V.card <
      (acceptedPairs C n P.headerSize app H p data (ch w) V).card := by
    by_contra hno
    push Not at hno
    refine absurd hmany (not_lt.2 ?_)
    rw [hcount]
    refine (sum_le_card_nsmul _ _ _ hno).trans (le_of_eq ?_)
    rw [smul_eq_mul]; ring
  obtain ⟨header, he, hW⟩ := many_claims hA hp (fun y z => ⟨(hch w y z).2.1, (hch w y z).2.2⟩)
    (lt_of_le_of_lt (Nat.mul_le_mul_right _ (by omega)) hpairs)
  obtain ⟨q, hq⟩ := card_pos.1 (lt_of_le_of_lt (Nat.zero_le _) hpairs)
  have hcl := hW.claims q hq
  have hfit : ChildFit C n P.headerSize app ⟨p, header⟩ :=
    ⟨hp, hcl.inDomain, hcl.left, hcl.right, encodedAs_length hA.params.header he, hcl.points⟩
  have hd := C70_deferred hA hp (mem_filter.1 hq).2
  refine ⟨header, he, hfit, many_traces hA hfit hW
    (lt_of_le_of_lt (Nat.mul_le_mul_right _ (by omega)) hpairs) (fun q hq hnone => ?_), hd.1, hd.2.1,
    fun w' => ?_⟩
  · have := verify_unregistered hA hp (mem_filter.1 hq).2 hnone he
    rwa [(hch _ _ _).2.1, (hch _ _ _).2.2] at this
  refine C70_registry hA hp (V.filter fun w => ∃ t ∈ acceptedTriples C n P.headerSize app H p data ch V,
    t.1 = w) ?_ (H := H) (data := data) (fun w hw => ?_) w'
  · by_contra hlt
    push Not at hlt
    refine absurd hmany (not_lt.2 ?_)
    calc _ ≤ ((V.filter fun w => ∃ t ∈ acceptedTriples C n P.headerSize app H p data ch V, t.1 = w) ×ˢ
          V ×ˢ V).card := card_le_card fun t ht => by
            have := mem_product.1 (mem_filter.1 ht).1
            exact mem_product.2 ⟨mem_filter.2 ⟨this.1, t, ht, rfl⟩, this.2⟩
      _ ≤ 8 * n * V.card ^ 2 := by
        rw [card_product, card_product, sq]
        exact Nat.mul_le_mul_right _ (by omega)
  · obtain ⟨-, t, ht, rfl⟩ := mem_filter.1 hw
    exact ⟨_, (hch _ _ _).1, (mem_filter.1 ht).2⟩

open Classical in
/-- C87, put together: let a prover come out of its play with a proof and data of its choice, and let a
verifier draw `w`, `y` and `z` from `V` after that. If one of the children is not what a proof should be,
then the verifier accepts for at most a fraction `(40 n + 151) / |A| + 36 / |B| + 8 n / |V|` of all
the challenges. -/
theorem C87_verified [Finite F] (hA : AppOk C n P cs steps app)
    (hl : ChildFit C n P.headerSize app l) (hr : ChildFit C n P.headerSize app r)
    (hnt : ¬ ((l.values (omegaJ C.native)).Trivial P.headerSize ∧
      (r.values (omegaJ C.native)).Trivial P.headerSize))
    (hbad : ¬ (ChildSound C n P app l ∧ ChildSound C n P app r)) (σ : FuseProver F) (A B V : Finset F)
    (p : Draw F → Proof F G HC) (data : Draw F → Data)
    (hp : ∀ c, ProofTyped C n (p c))
    {ch : F → F → F → VerifyChallenges F G}
    (hch : ∀ w y z, (ch w y z).w = w ∧ (ch w y z).y = y ∧ (ch w y z).z = z) :
    ∑ c ∈ (draws A B).filter (fun c => Plays n P (omegaJ C.native) l r σ c (p c)),
        (acceptedTriples C n P.headerSize app H (p c) (data c) ch V).card ≤
      ((40 * n + 151) * (A.card ^ 9 * B.card) + 36 * A.card ^ 10) * V.card ^ 3 +
        (A.card ^ 10 * B.card) * (8 * n * V.card ^ 2) := by
  have hone : ∀ c, Plays n P (omegaJ C.native) l r σ c (p c) →
      (acceptedTriples C n P.headerSize app H (p c) (data c) ch V).card ≤
      (if FuseWins n P.headerSize (omegaJ C.native) (app.nativeRegistry.wxy C.native n) l r σ c
        then V.card ^ 3 else 0) + 8 * n * V.card ^ 2 := by
    intro c hc
    by_cases h : (acceptedTriples C n P.headerSize app H (p c) (data c) ch V).card ≤
        8 * n * V.card ^ 2
    · omega
    · obtain ⟨header, -, -, hs⟩ := C87_accepted hA (hp c) hch (not_le.1 h)
      rw [if_pos (C87_wins hA hc hs)]
      refine le_trans (card_filter_le _ _) ?_
      rw [card_product, card_product]
      have : V.card * (V.card * V.card) = V.card ^ 3 := by ring
      omega
  refine (sum_le_sum fun c hc => hone c (mem_filter.1 hc).2).trans
    ((sum_le_sum_of_subset (filter_subset _ _)).trans ?_)
  rw [sum_add_distrib, sum_const, ← sum_filter, sum_const, smul_eq_mul, smul_eq_mul]
  exact add_le_add (Nat.mul_le_mul_right _ (C87_children hA hl hr hnt hbad σ A B))
    (le_of_eq (by rw [draws_card]))

end
end Ragu.Props

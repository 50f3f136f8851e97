/-
C63: proofs built by any history of seeding and fusing stay consistent, and the next fuse goes
through.
-/
import Verif.Model.Pcd.Fuse
import Verif.Props.Quotient
import Verif.Props.Verify

set_option linter.unusedSectionVars false

namespace Ragu.Props
open Ragu Ragu.Circuit Ragu.Registry Ragu.Gadget Ragu.Spec Ragu.Sparse Ragu.Pcd Finset
variable {F G HC : Type} [Field F] [DecidableEq F] [Field G] [DecidableEq G] [AddCommGroup HC]
  [Module F HC]

/-- The proofs that arise from trivial proofs by fusing any number of times, with any challenges and
any trace polynomials that fit the rank. Seeding is fusing two trivial proofs, and rerandomizing is
fusing with a seeded proof. -/
inductive History (C : CycleEnv F G HC) (ec : EndoConsts F) (n N : ℕ)
    (nestedCommit : Poly G → Option (F × F)) (r : Registry F) : Proof F G HC → Prop where
  | trivial {p} : trivialProof C n N nestedCommit r = some p → History C ec n N nestedCommit r p
  | fuse {left right p} {ch : Challenges F} {t : FuseTraces F G} :
      History C ec n N nestedCommit r left → History C ec n N nestedCommit r right →
      (∀ i, WellFormed (4 * n) (t.rx i)) → fuseProof C ec n r left right ch t = some p →
      History C ec n N nestedCommit r p

/-- What is assumed of the application and the cycle. -/
structure FuseEnv (C : CycleEnv F G HC) (ec : EndoConsts F) (n q : ℕ) (b : Builder F)
    (ss : List (F → F → F)) (r : Registry F) : Prop where
  ready : Ready C.native n q b ss
  final : b.finalize C.native n = .ok r
  repr : ReprOk C.numBits C.repr
  gens : 4 * n ≤ C.hostGens.length
  nonresidue : ¬ IsSquare ec.gen
  sqrt : SqrtSpec ec.sqrt

section
variable {C : CycleEnv F G HC} {ec : EndoConsts F} {n q N : ℕ} {b : Builder F}
  {ss : List (F → F → F)} {r : Registry F} {nestedCommit : Poly G → Option (F × F)}

theorem FuseEnv.pos (h : FuseEnv C ec n q b ss r) : 0 < n := by
  have h1 := h.ready.rank
  have h2 : 0 < 2 ^ q := by positivity
  omega

/-- The parts of a fuse, for committed children. -/
theorem fuse_parts [Finite F] (h : FuseEnv C ec n q b ss r) {left right : Proof F G HC}
    (hl : ChildReady C.native n C.numBits C.repr C.hostGens r left)
    (hr : ChildReady C.native n C.numBits C.repr C.hostGens r right) (ch : Challenges F)
    {t : FuseTraces F G} (ht : ∀ i, WellFormed (4 * n) (t.rx i)) (hmu : ch.mu ≠ 0)
    (hmu' : ch.muPrime ≠ 0) :
    ∃ (s : FuseState F G HC) (f : NativeF F HC) (pw : NativeP F HC × PointsWitness HC)
      (P : Proof F G HC),
      s.left = left ∧ s.right = right ∧
      FuseSteps C.native n C.numBits C.repr C.hostGens r ch s ∧
      computeNativeF C.native (4 * n) C.numBits C.repr C.hostGens s ch.w ch.y ch.z ch.x ch.alpha =
        some f ∧
      computeP (4 * n) ec.nbits ec.sqrt ec.gen ec.zeta s f ch.preBeta ch.u = some pw ∧
      fuseProof C ec n r left right ch t = some P ∧ P.challenges = ch ∧ P.ab.native = s.ab ∧
      P.query.native = s.query ∧ P.p.native = pw.1 ∧ P.f.native = f ∧
      (∀ i, (P.triple i).rx = t.rx i ∧ Msm.commit (4 * n) C.numBits C.repr (t.rx i) C.hostGens =
        some (P.triple i).commitment) ∧
      P.application.circuitId = t.circuitId ∧ P.application.leftHeader = t.leftHeader ∧
      P.application.rightHeader = t.rightHeader ∧ P.p.nested = t.nested ∧
      s.sPrime = P.sPrime.native ∧ s.innerError = P.innerError.native := by
  have hcm : ∀ i, ∃ c, Msm.commit (4 * n) C.numBits C.repr (t.rx i) C.hostGens = some c :=
    fun i => ⟨_, C12_commit (4 * n) C.numBits C.repr h.repr (t.rx i) C.hostGens (ht i) h.gens⟩
  choose c hc using hcm
  obtain ⟨s, s1, s2, s3, s4, hs⟩ := fuseSteps_exist h.ready h.final h.repr h.gens hl.traces
    hr.traces ch hmu hmu' ⟨t.rx .innerError, c .innerError⟩ ⟨t.rx .query, c .query⟩
  obtain ⟨f, f1, f2, f3, -⟩ := C47_agree h.ready h.final h.repr h.gens (s1 ▸ hl) (s2 ▸ hr) hs
  obtain ⟨p, w, p1, -⟩ := C48_prover h.ready h.final h.repr h.gens (s1 ▸ hl) (s2 ▸ hr) hs f2 f3
    ec.nbits h.sqrt h.nonresidue ec.zeta
  obtain ⟨sl, sr, sp, ⟨wy, wyc, ie⟩, ab, ⟨xy, xyc, qe⟩⟩ := s
  dsimp only at s1 s2 s3 s4
  subst s1 s2 s3 s4
  obtain ⟨o, ho, hab⟩ := hs.ab
  dsimp only at hab
  subst hab
  have e1 := hs.sPrime
  have e2 := hs.wy
  have e3 := hs.xy
  dsimp only at e1 e2 e3 ho
  obtain ⟨P, hP, k⟩ : ∃ P, fuseProof C ec n r sl sr ch t = some P ∧ P.challenges = ch ∧
      P.ab.native = o.ab ∧ P.query.native = ⟨xy, xyc, ⟨t.rx .query, c .query⟩⟩ ∧
      P.p.native = p ∧ P.f.native = f ∧
      (∀ i, (P.triple i).rx = t.rx i ∧ Msm.commit (4 * n) C.numBits C.repr (t.rx i) C.hostGens =
        some (P.triple i).commitment) ∧
      P.application.circuitId = t.circuitId ∧ P.application.leftHeader = t.leftHeader ∧
      P.application.rightHeader = t.rightHeader ∧ P.p.nested = t.nested ∧
      sp = P.sPrime.native ∧
      ⟨wy, wyc, ⟨t.rx .innerError, c .innerError⟩⟩ = P.innerError.native := by
    unfold fuseProof
    simp only [hc, Option.map_some, Option.bind_eq_bind, Option.bind_some, e1, e2, ho, e3, f1, p1,
      Option.pure_def]
    refine ⟨_, rfl, rfl, rfl, rfl, rfl, rfl, fun i => ?_, rfl, rfl, rfl, rfl, rfl, rfl⟩
    cases i <;> exact ⟨rfl, rfl⟩
  exact ⟨_, f, (p, w), P, rfl, rfl, hs, f1, p1, hP, k⟩

/-- A fuse panics if `mu` or `mu'` is zero. -/
theorem fuse_none (h : FuseEnv C ec n q b ss r) {left right : Proof F G HC}
    (hl : Committed (4 * n) C.numBits C.repr C.hostGens left)
    (hr : Committed (4 * n) C.numBits C.repr C.hostGens right) {ch : Challenges F}
    {t : FuseTraces F G} (hz : ch.mu = 0 ∨ ch.muPrime = 0) :
    fuseProof C ec n r left right ch t = none := by
  obtain ⟨sw, hsw, -⟩ := supplies_of_ready h.ready h.final ch.y
  have hfuse := (C50_fuse (src := ⟨left, right⟩) (z := ch.z) hsw h.repr h.gens hl hr ch.mu ch.nu
    ch.muPrime ch.nuPrime 0 0 0 0 0 0).1.2 hz
  unfold fuseProof
  simp only [hfuse, Option.bind_eq_bind, Option.bind_none, Option.bind_fun_none]

/-- A proof is consistent: it is ready to be fused, and its `c` is the product of its `a` and `b`. -/
structure ConsistentProof (C : CycleEnv F G HC) (n : ℕ) (r : Registry F) (p : Proof F G HC) : Prop
    extends ChildReady C.native n C.numBits C.repr C.hostGens r p where
  product : p.ab.native.c =
    ∑ k ∈ range (4 * n), coeff p.ab.native.aPoly k * coeff p.ab.native.bPoly (4 * n - 1 - k)

/-- A fuse of consistent proofs gives a consistent proof. -/
theorem fuse_consistent [Finite F] (h : FuseEnv C ec n q b ss r) {left right P : Proof F G HC}
    (hl : ChildReady C.native n C.numBits C.repr C.hostGens r left)
    (hr : ChildReady C.native n C.numBits C.repr C.hostGens r right) {ch : Challenges F}
    {t : FuseTraces F G} (ht : ∀ i, WellFormed (4 * n) (t.rx i)) (hmu : ch.mu ≠ 0)
    (hmu' : ch.muPrime ≠ 0) (hP : fuseProof C ec n r left right ch t = some P) :
    ConsistentProof C n r P := by
  obtain ⟨s, f, pw, P', s1, s2, hs, f1, p1, hP', k1, k2, k3, k4, -, k5, -⟩ :=
    fuse_parts h hl hr ch ht hmu hmu'
  rw [hP] at hP'
  cases hP'
  have hl' : ChildReady C.native n C.numBits C.repr C.hostGens r s.left := s1 ▸ hl
  have hr' : ChildReady C.native n C.numBits C.repr C.hostGens r s.right := s2 ▸ hr
  obtain ⟨a1, a2, a3, a4, -⟩ := steps_ab h.ready h.final h.repr h.gens hl'.traces hr'.traces hs
  obtain ⟨f', g1, g2, g3, -⟩ := C47_agree h.ready h.final h.repr h.gens hl' hr' hs
  rw [f1] at g1
  cases g1
  obtain ⟨p, w, q1, q2, q3, q4, -⟩ := C48_prover h.ready h.final h.repr h.gens hl' hr' hs g2 g3
    ec.nbits h.sqrt h.nonresidue ec.zeta
  rw [p1] at q1
  cases q1
  refine ⟨⟨?_, ?_, ?_, ?_, ?_⟩, ?_⟩
  · rintro (_ | _ | i)
    · simp only [Proof.nativeRx, Proof.nativeCommitment, k2]; exact ⟨a1, a3⟩
    · simp only [Proof.nativeRx, Proof.nativeCommitment, k2]; exact ⟨a2, a4⟩
    · simp only [Proof.nativeRx, Proof.nativeCommitment, (k5 i).1]; exact ⟨ht i, (k5 i).2⟩
  · rw [k4]; exact q2
  · rw [k4]; exact q3
  · rw [k4, k1]; exact q4
  · rw [k1, k3]; exact hs.xy
  · obtain ⟨o, ho, hab⟩ := hs.ab
    obtain ⟨sw, hsw, -⟩ := supplies_of_ready h.ready h.final ch.y
    obtain ⟨-, -, -, -, hc, -⟩ := (C50_fuse (src := ⟨s.left, s.right⟩) (z := ch.z) hsw h.repr h.gens
      hl'.traces hr'.traces ch.mu ch.nu ch.muPrime ch.nuPrime 0 0 0 0 0 0).2 o ho
    rw [k2, hab, hc, C11_revdot _ _ _ (hab ▸ a1) (hab ▸ a2)]

/-- C63: the trivial proof exists and is consistent. -/
theorem C63_trivial (h : FuseEnv C ec n q b ss r) (N : ℕ)
    (nestedCommit : Poly G → Option (F × F)) :
    ∃ p, trivialProof C n N nestedCommit r = some p ∧ ConsistentProof C n r p ∧
      p.challenges = Challenges.trivial ∧ p.application.circuitId = 0 ∧
      p.application.leftHeader = List.replicate N 0 ∧
      p.application.rightHeader = List.replicate N 0 ∧ p.ab.native.c = 4 ∧ p.p.native.v = 4 := by
  have hn := h.pos
  obtain ⟨p, p1, p2, p3⟩ := C13_trace_build (F := F) n ⟨[1], [1], [1], [1]⟩ (by simpa) (by simpa)
    (by simpa) (by simpa)
  obtain ⟨p', p1', -⟩ := C13_trace_build (F := G) n ⟨[1], [1], [1], [1]⟩ (by simpa) (by simpa)
    (by simpa) (by simpa)
  obtain ⟨-, -, -, xy, x1, x2, -⟩ := C23_restrictions h.ready h.final 1 1 1
  obtain ⟨c, hc⟩ : ∃ c, Msm.commit (4 * n) C.numBits C.repr p C.hostGens = some c :=
    ⟨_, C12_commit (4 * n) C.numBits C.repr h.repr p C.hostGens p2 h.gens⟩
  obtain ⟨d, hd⟩ : ∃ d, Msm.commit (4 * n) C.numBits C.repr xy C.hostGens = some d :=
    ⟨_, C12_commit (4 * n) C.numBits C.repr h.repr xy C.hostGens x2 h.gens⟩
  have hsum : ∀ g : ℕ → F, ∑ k ∈ range (4 * n), g k = ∑ i ∈ range n, (g (2 * n + i) +
      g (2 * n - 1 - i) + g i + g (4 * n - 1 - i)) := by
    intro g
    rw [show 4 * n = n + n + n + n by ring, sum_range_add, sum_range_add, sum_range_add,
      ← sum_range_reflect (fun i => g (n + i)) n, ← sum_range_reflect (fun i => g (n + n + n + i)) n,
      ← sum_add_distrib, ← sum_add_distrib, ← sum_add_distrib]
    refine sum_congr rfl fun i hi => ?_
    have := mem_range.1 hi
    rw [show n + (n - 1 - i) = 2 * n - 1 - i by omega, show n + n + i = 2 * n + i by omega,
      show n + n + n + (n - 1 - i) = n + n + n + n - 1 - i by omega]
    ring
  have hone : ∀ i, ([1] : List F).getD i 0 = if i = 0 then 1 else 0 := by
    intro i; rcases i with _ | i <;> simp
  have hv : Sparse.eval (4 * n) p 1 = 4 := by
    rw [C11_eval _ _ p2]
    simp only [one_pow, mul_one]
    rw [hsum, sum_congr rfl fun i hi => by
      obtain ⟨q1, q2, q3, q4⟩ := p3 i (mem_range.1 hi)
      rw [q1, q2, q3, q4]]
    simp only [hone]
    rw [sum_eq_single 0 (fun i _ hi => by simp [hi]) (fun h0 => absurd (mem_range.2 hn) h0)]
    norm_num
  have hcv : Sparse.revdot (4 * n) p p = 4 := by
    rw [C11_revdot _ _ _ p2 p2, hsum, sum_congr rfl fun i hi => by
      have hi := mem_range.1 hi
      obtain ⟨q1, q2, q3, q4⟩ := p3 i hi
      rw [show 4 * n - 1 - (2 * n + i) = 2 * n - 1 - i by omega,
        show 4 * n - 1 - (2 * n - 1 - i) = 2 * n + i by omega,
        show 4 * n - 1 - (4 * n - 1 - i) = i by omega, q1, q2, q3, q4]]
    simp only [hone]
    rw [sum_eq_single 0 (fun i _ hi => by simp [hi]) (fun h0 => absurd (mem_range.2 hn) h0)]
    norm_num
  have hp : onesPoly F n = some p := p1
  have hp' : onesPoly G n = some p' := p1'
  unfold trivialProof
  simp only [hp, hp', hc, Challenges.trivial, x1, hd, Option.bind_eq_bind, Option.bind_some,
    Option.pure_def]
  refine ⟨_, rfl, ⟨⟨?_, p2, hc, rfl, ?_⟩, C11_revdot _ _ _ p2 p2⟩, rfl, rfl, rfl, rfl, hcv, hv⟩
  · rintro (_ | _ | i)
    · exact ⟨p2, hc⟩
    · exact ⟨p2, hc⟩
    · cases i <;> exact ⟨p2, hc⟩
  · simp only [computeRegistryXy, x1, hd, Option.bind_eq_bind, Option.bind_some, Option.pure_def]

/-- C63: every proof of every history is consistent: its commitments open to its polynomials, its
claimed value is the value of its `p` at its `u`, its registry polynomial is the restriction of the
registry to its `x` and `y`, and its `c` is the product of its `a` and `b`. -/
theorem C63_consistent [Finite F] (h : FuseEnv C ec n q b ss r) {p : Proof F G HC}
    (hp : History C ec n N nestedCommit r p) : ConsistentProof C n r p := by
  induction hp with
  | trivial hp =>
    obtain ⟨p', h1, h2, -⟩ := C63_trivial h N nestedCommit
    rw [hp] at h1
    cases h1
    exact h2
  | @fuse left right P ch t _ _ ht hP ihl ihr =>
    by_cases hmu : ch.mu ≠ 0 ∧ ch.muPrime ≠ 0
    · exact fuse_consistent h ihl.toChildReady ihr.toChildReady ht hmu.1 hmu.2 hP
    · exact absurd hP (by rw [fuse_none h ihl.traces ihr.traces (by tauto)]; simp)

/-- C63: after every history a fuse goes through for all challenges with `mu` and `mu'` not zero, and
panics if one of them is. -/
theorem C63_progress [Finite F] (h : FuseEnv C ec n q b ss r) {left right : Proof F G HC}
    (hl : History C ec n N nestedCommit r left) (hr : History C ec n N nestedCommit r right)
    (ch : Challenges F) {t : FuseTraces F G} (ht : ∀ i, WellFormed (4 * n) (t.rx i)) :
    fuseProof C ec n r left right ch t = none ↔ ch.mu = 0 ∨ ch.muPrime = 0 := by
  have hl := C63_consistent h hl
  have hr := C63_consistent h hr
  refine ⟨fun hn => ?_, fun hz => fuse_none h hl.traces hr.traces hz⟩
  by_contra hc
  push Not at hc
  obtain ⟨s, f, pw, P, -, -, -, -, -, hP, -⟩ :=
    fuse_parts h hl.toChildReady hr.toChildReady ch ht hc.1 hc.2
  rw [hn] at hP
  cases hP

/-- C63: in a fuse after any history, the claimed value of the new proof is what the verification
circuit for `v` establishes from the evaluations that the prover supplies, if `x` and `z` are not zero
and `u` is none of the query points. -/
theorem C63_verified [Finite F] (h : FuseEnv C ec n q b ss r) {left right P : Proof F G HC}
    (hl : History C ec n N nestedCommit r left) (hr : History C ec n N nestedCommit r right)
    {ch : Challenges F} {t : FuseTraces F G} (ht : ∀ i, WellFormed (4 * n) (t.rx i))
    (hP : fuseProof C ec n r left right ch t = some P) :
    ∃ s : FuseState F G HC, s.left = left ∧ s.right = right ∧ s.sPrime = P.sPrime.native ∧
      s.innerError = P.innerError.native ∧ s.ab = P.ab.native ∧ s.query = P.query.native ∧
      (ch.x ≠ 0 → ch.z ≠ 0 → Avoids ch.u (fusePoints C.native s ch) →
        Verified ec.nbits n ec.zeta (fusePoints C.native s ch) (childClaim s)
          (queryWitness C.native (4 * n) s ch.w ch.x ch.z) (evalWitness (4 * n) s ch.u)
          ch.mu ch.nu ch.muPrime ch.nuPrime ch.alpha ch.u ch.preBeta P.p.native.v) := by
  have hnz : ch.mu ≠ 0 ∧ ch.muPrime ≠ 0 := by
    by_contra hc
    have := (C63_progress h hl hr ch ht).2 (by tauto)
    rw [hP] at this
    cases this
  have hl := (C63_consistent h hl).toChildReady
  have hr := (C63_consistent h hr).toChildReady
  obtain ⟨s, f, pw, P', s1, s2, hs, f1, p1, hP', k1, k2, k3, k4, -, -, -, -, -, -, k5, k6⟩ :=
    fuse_parts h hl hr ch ht hnz.1 hnz.2
  rw [hP] at hP'
  cases hP'
  refine ⟨s, s1, s2, k5, k6, k2.symm, k3.symm, fun hx hz hu => ?_⟩
  obtain ⟨f', p, w, q1, q2, -, q3, -⟩ := C48_agree h.ready h.final h.repr h.gens (s1 ▸ hl) (s2 ▸ hr)
    hs hx hz hu ec.nbits h.sqrt h.nonresidue ec.zeta
  rw [f1] at q1
  cases q1
  rw [p1] at q2
  cases q2
  rw [k4]
  exact q3.mono fun _ h => h.square

/-- C63: verification of a proof from any history depends only on its data, its shape and the claims
about its traces: the product of `a` and `b`, the value and the commitment of `p` and the registry
polynomial always pass. -/
theorem C63_verify [Finite F] [DecidableEq HC] {Data Out : Type} {app : Application F G} {q' : ℕ}
    {ss' : List (G → G → G)} (h : FuseEnv C ec n q b ss app.nativeRegistry)
    (hV : VerifierOk C n N q q' app ss ss') (H : Header F Data Out) (data : Data)
    (ch : VerifyChallenges F G) :
    ∃ s s', WiringOf C.native n app.nativeRegistry ss ch.y s ∧
      WiringOf C.nested n app.nestedRegistry ss' ch.yNested s' ∧
      ∀ p : Proof F G HC, History C ec n N nestedCommit app.nativeRegistry p → ProofTyped C n p →
        (verify C n N app H p data ch = .ok true ↔ ∃ header, EncodedAs N H data header ∧
          p.application.circuitId < app.nativeRegistry.domain.n ∧
          p.application.leftHeader.length = N ∧ p.application.rightHeader.length = N ∧
          none ∉ bridgePoints p ∧
          NUM_ENDOSCALING_STEPS ≤ p.p.nested.stepRxs.length ∧
          (∀ cv ∈ (claimTable [childOfProof p header ch.y] 0).tail,
            ClaimTrue (4 * n) s (tCoeff n ch.z) ch.z cv.1 cv.2) ∧
          ∀ cv ∈ nestedTable (fun c => (p.nestedRx c).getD []) 1 0,
            NestedTrue (4 * n) s' (tCoeff n ch.zNested) ch.zNested cv.1 cv.2) := by
  obtain ⟨s, s', h1, h2, h3⟩ := C46_verify hV H data ch
  refine ⟨s, s', h1, h2, fun p hp ht => ?_⟩
  rw [h3 p ht]
  have hc := C63_consistent h hp
  have htab : ∀ header, claimTable [childOfProof p header ch.y] 0 =
      (.raw p.ab.native.aPoly p.ab.native.bPoly, p.ab.native.c) ::
        (claimTable [childOfProof p header ch.y] 0).tail := fun _ => rfl
  constructor
  · rintro ⟨header, he, ha⟩
    exact ⟨header, he, ha.inDomain, ha.left, ha.right, ha.points, ha.steps,
      fun cv hcv => ha.native cv (List.mem_of_mem_tail hcv), ha.nested⟩
  · rintro ⟨header, he, k1, k2, k3, k4, k5, k6, k7⟩
    refine ⟨header, he, k1, k2, k3, k4, k5, fun cv hcv => ?_, k7, ?_, ?_, ?_⟩
    · rw [htab] at hcv
      rcases List.mem_cons.1 hcv with rfl | hcv
      · exact hc.product.symm
      · exact k6 cv hcv
    · rw [hc.p_value, C11_eval _ _ hc.p_wf]
    · have := hc.p_commit
      rw [C12_commit _ _ _ h.repr _ _ hc.p_wf h.gens] at this
      exact Option.some.inj this
    · obtain ⟨x1, x2⟩ := xy_wf h.ready h.final hc.registry
      rw [← C11_eval _ _ x1, x2]

end

/-! ### Cases -/

/-- Square roots in F₉₇. -/
def endo97 : EndoConsts (ZMod 97) where
  nbits := 4
  sqrt v := (List.range 97).findSome? fun i =>
    if (i : ZMod 97) * i = v then some (i : ZMod 97) else none
  gen := 5
  zeta := 35

/-- Traces for a fuse over `ZMod 97`. -/
def traces97 : FuseTraces (ZMod 97) (ZMod 97) where
  circuitId := 1
  leftHeader := [0, 0, 1]
  rightHeader := [0, 0, 1]
  rx
    | .application => [(2, [3, 4])]
    | .eval => []
    | _ => [(3, [1, 2])]
  preambleBridge := ⟨[], some (0, 1)⟩
  sPrimeBridge := ⟨[], some (0, 1)⟩
  innerErrorBridge := ⟨[], some (0, 1)⟩
  outerErrorBridge := ⟨[], some (0, 1)⟩
  abBridge := ⟨[], some (0, 1)⟩
  queryBridge := ⟨[], some (0, 1)⟩
  fBridge := ⟨[], some (0, 1)⟩
  evalBridge := ⟨[], some (0, 1)⟩
  nested := ⟨List.replicate NUM_ENDOSCALING_STEPS [(15, [1, 49])], [], []⟩

def challenges97 : Challenges (ZMod 97) := ⟨2, 3, 4, 5, 6, 7, 8, 9, 10, 5, 11⟩

theorem traces97_wf (i : RxIndex) : WellFormed (4 * 8) (traces97.rx i) := by
  cases i <;> simp [traces97, WellFormed, WellFormedFrom]

theorem fuseEnv97 : ∃ b ss r, FuseEnv demoCycle endo97 8 5 b ss r ∧ b.numCircuits = 5 := by
  obtain ⟨b, hb, hn, hr⟩ := demo_build
  obtain ⟨r, h1, h2⟩ := (C25_capacity hr).2 (by omega)
  obtain ⟨app, hV⟩ := demo_verifier
  exact ⟨b, _, r, ⟨hr, h1, hV.repr, hV.gens, by decide +kernel,
    ⟨by decide +kernel, by decide +kernel⟩⟩, hn⟩

/-- A history of two fuses. -/
example : ∃ b ss r, FuseEnv demoCycle endo97 8 5 b ss r ∧
    ∃ p1 p2 p3 : Proof (ZMod 97) (ZMod 97) (ZMod 97),
      trivialProof demoCycle 8 3 (fun _ => some (0, 1)) r = some p1 ∧
      fuseProof demoCycle endo97 8 r p1 p1 challenges97 traces97 = some p2 ∧
      fuseProof demoCycle endo97 8 r p2 p1 challenges97 traces97 = some p3 ∧
      ConsistentProof demoCycle 8 r p3 := by
  obtain ⟨b, ss, r, h, -⟩ := fuseEnv97
  have hmu : ¬ (challenges97.mu = 0 ∨ challenges97.muPrime = 0) := by decide
  obtain ⟨p1, h1, -⟩ := C63_trivial h 3 (fun _ => some (0, 1))
  have H1 := History.trivial (ec := endo97) h1
  obtain ⟨p2, h2⟩ := Option.ne_none_iff_exists'.1
    fun hn => hmu ((C63_progress h H1 H1 challenges97 traces97_wf).1 hn)
  have H2 := History.fuse H1 H1 traces97_wf h2
  obtain ⟨p3, h3⟩ := Option.ne_none_iff_exists'.1
    fun hn => hmu ((C63_progress h H2 H1 challenges97 traces97_wf).1 hn)
  exact ⟨b, ss, r, h, p1, p2, p3, h1, h2, h3, C63_consistent h (History.fuse H2 H1 traces97_wf h3)⟩

/-- A fuse of two trivial proofs whose claimed value the circuit establishes. -/
example : ∃ b ss r, FuseEnv demoCycle endo97 8 5 b ss r ∧
    ∃ (s : FuseState (ZMod 97) (ZMod 97) (ZMod 97)) (v : ZMod 97),
      Verified 4 8 35 (fusePoints env97 s challenges97) (childClaim s)
        (queryWitness env97 32 s 2 9 4) (evalWitness 32 s 5) 5 6 7 8 10 5 11 v := by
  obtain ⟨b, ss, r, h, -⟩ := fuseEnv97
  have hmu : ¬ (challenges97.mu = 0 ∨ challenges97.muPrime = 0) := by decide
  obtain ⟨p1, h1, -, hch, hid, -⟩ := C63_trivial h 3 (fun _ => some (0, 1))
  have H1 := History.trivial (ec := endo97) h1
  obtain ⟨p2, h2⟩ := Option.ne_none_iff_exists'.1
    fun hn => hmu ((C63_progress h H1 H1 challenges97 traces97_wf).1 hn)
  obtain ⟨s, s1, s2, -, -, -, -, hv⟩ := C63_verified h H1 H1 traces97_wf h2
  refine ⟨b, ss, r, h, s, p2.p.native.v, hv (by decide) (by decide) ?_⟩
  have e : fusePoints demoCycle.native s challenges97 = ⟨2, 3, 4, 9, fun _ => ⟨1, 1, 1, omegaJ env97 0⟩,
      fun id => omegaJ env97 (registryIndex id)⟩ := by
    simp only [fusePoints, s1, s2, hch, hid]
    congr 1
    funext sd
    cases sd <;> rfl
  rw [e]
  show ∀ c ∈ Query.all, (5 : ZMod 97) ≠ _
  decide +kernel

/-- The hypotheses of `C49_agree`, `C47_answers`, `C47_agree`, `C48_prover` and `C48_agree` are met. -/
example : ∃ b ss r, FuseEnv demoCycle endo97 8 5 b ss r ∧
    ∃ s : FuseState (ZMod 97) (ZMod 97) (ZMod 97),
      ChildReady env97 8 7 demoCycle.repr demoCycle.hostGens r s.left ∧
      ChildReady env97 8 7 demoCycle.repr demoCycle.hostGens r s.right ∧
      FuseSteps env97 8 7 demoCycle.repr demoCycle.hostGens r challenges97 s ∧
      s.left.p.native.v = 4 := by
  obtain ⟨b, ss, r, h, -⟩ := fuseEnv97
  obtain ⟨p1, -, h1, -, -, -, -, -, hv⟩ := C63_trivial h 3 (fun _ => some (0, 1))
  obtain ⟨s, f, pw, P, s1, s2, hs, -⟩ := fuse_parts h h1.toChildReady h1.toChildReady challenges97
    traces97_wf (by decide) (by decide)
  exact ⟨b, ss, r, h, s, s1 ▸ h1.toChildReady, s2 ▸ h1.toChildReady, hs, by rw [s1, hv]⟩

end Ragu.Props

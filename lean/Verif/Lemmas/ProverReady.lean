/-
The stages and values of a run of a fuse are what the internal circuits need.
-/
import Verif.Lemmas.ProverStages

set_option linter.unusedSectionVars false

namespace Ragu.Props
open Ragu Ragu.Circuit Ragu.Registry Ragu.Spec Ragu.Gadget Ragu.Pcd Finset
variable {F G HC : Type} [Field F] [DecidableEq F] [Field G] [DecidableEq G]
  [AddCommGroup HC] [DecidableEq HC] [Module F HC]

/-- What a fuse relies on in a child, apart from the child's claims. -/
structure ChildOk (C : CycleEnv F G HC) (n : ℕ) (R : Registry F) (p : Proof F G HC) : Prop where
  consistent : ConsistentProof C n R p
  curve : ∀ x y, some (x, y) ∈ bridgePoints p → y ^ 2 = x ^ 3 + C.b
  inDomain : p.application.circuitId < R.circuits.length
  points : none ∉ bridgePoints p

theorem Settled.childOk {C : CycleEnv F G HC} {n N : ℕ} {app : Application F G} {p : Proof F G HC}
    {header : List F} (h : Settled C n N app p header) : ChildOk C n app.nativeRegistry p :=
  ⟨h.consistent, h.curve, h.inDomain, h.points⟩

/-- The challenges avoid the values for which a fuse fails. -/
structure ChallengesOk (C : CycleEnv F G HC) (left right p : Proof F G HC) : Prop where
  x_ne : p.challenges.x ≠ 0
  z_ne : p.challenges.z ≠ 0
  avoids : Avoids p.challenges.u (fusePoints C.native ⟨left, right, p.sPrime.native,
    p.innerError.native, p.ab.native, p.query.native⟩ p.challenges)

/-- A header of the unit type. -/
def UnitHeader (N : ℕ) (h : List F) : Prop := h[N - 1]? = some 1

theorem points_curve {b : F} {p : Proof F G HC} (h : none ∉ bridgePoints p)
    (hc : ∀ x y, some (x, y) ∈ bridgePoints p → y ^ 2 = x ^ 3 + b) :
    ∀ q ∈ (proofPublic p).points, q.2 ^ 2 = q.1 ^ 3 + b := by
  have : ∀ c ∈ bridgePoints p, ∀ q, q = c.getD (0, 0) → q.2 ^ 2 = q.1 ^ 3 + b := by
    rintro (_ | ⟨x, y⟩) hm q rfl
    · exact absurd hm h
    · exact hc x y hm
  intro q hq
  have hm : (proofPublic p).points = (bridgePoints p).map fun c => c.getD (0, 0) := rfl
  rw [hm] at hq
  obtain ⟨c, h1, rfl⟩ := List.mem_map.1 hq
  exact this c h1 _ rfl

theorem point_valid {b : F} {p : Proof F G HC} (h : none ∉ bridgePoints p)
    (hc : ∀ x y, some (x, y) ∈ bridgePoints p → y ^ 2 = x ^ 3 + b) :
    ∀ s, ValidNative b s.kind (p.unifiedValue s) := by
  have : ∀ c ∈ bridgePoints p, ValidNative b .point c := by
    rintro (_ | ⟨x, y⟩) hm
    · exact absurd hm h
    · exact ⟨x, y, rfl, hc x y hm⟩
  simp only [bridgePoints, List.forall_mem_cons] at this
  obtain ⟨h1, h2, h3, h4, h5, h6, h7, h8, -⟩ := this
  intro s
  cases s <;> first | assumption | trivial

section
variable {C : CycleEnv F G HC} {n : ℕ} {P : StepParams F} {cs : Circuits F G}
  {steps : List (StepDef F)} {app : Application F G}

theorem app_omega (hA : AppOk C n P cs steps app) {i : ℕ}
    (hi : i < app.nativeRegistry.circuits.length) :
    omegaJ C.native i ^ 2 ^ P.logCircuits = 1 := by
  obtain ⟨bn, be, ss, ss', h1, h2, -, -⟩ := app_ready hA
  obtain ⟨-, hg, hc⟩ := finalize_cases h1 h2
  obtain ⟨b, hb, hf⟩ := hA.built
  have hl := (C42_positions hb hf).2.1
  have hk : Nat.clog 2 bn.numCircuits = P.logCircuits := by
    rw [← allCircuits_length, ← hc, hl, hA.log, registryLog, add_comm]
  rw [hk] at hg
  rw [omegaJ_eq hg.env hg.hk hg.dom (lt_of_lt_of_le hi hg.len), ← pow_mul, mul_comm, pow_mul,
    hg.good.prim.pow_eq_one, one_pow]

theorem app_fuseEnv (hA : AppOk C n P cs steps app) : ∃ bn ss,
    FuseEnv C P.endo n (P.logRank + 2) bn ss app.nativeRegistry := by
  obtain ⟨bn, be, ss, ss', h1, h2, -, -⟩ := app_ready hA
  exact ⟨bn, ss, h1, h2, hA.repr, hA.gens, hA.params.gen, hA.params.sqrt⟩

/-- The bridges of a new proof. -/
theorem fuse_bridges {ec : EndoConsts F} {R : Registry F} {left right p : Proof F G HC}
    {ch : Challenges F} {t : FuseTraces F G} (h : fuseProof C ec n R left right ch t = some p) :
    p.preamble.bridge = t.preambleBridge ∧ p.sPrime.bridge = t.sPrimeBridge ∧
    p.innerError.bridge = t.innerErrorBridge ∧ p.outerError.bridge = t.outerErrorBridge ∧
    p.ab.bridge = t.abBridge ∧ p.query.bridge = t.queryBridge ∧ p.f.bridge = t.fBridge ∧
    p.eval.bridge = t.evalBridge := by
  unfold fuseProof at h
  iterate 17 obtain ⟨_, -, h⟩ := Option.bind_eq_some_iff.1 h
  cases h
  exact ⟨rfl, rfl, rfl, rfl, rfl, rfl, rfl, rfl⟩

theorem bridgePoints_traces {ec : EndoConsts F} {R : Registry F} {left right p : Proof F G HC}
    {ch : Challenges F} {t : FuseTraces F G} (h : fuseProof C ec n R left right ch t = some p) :
    bridgePoints p = t.bridges.map (·.commitment) := by
  obtain ⟨h1, h2, h3, h4, h5, h6, h7, h8⟩ := fuse_bridges h
  simp only [bridgePoints, h1, h2, h3, h4, h5, h6, h7, h8, FuseTraces.bridges, List.map_cons,
    List.map_nil]

/-- The stages and the public values of a run. -/
theorem run_ready [Finite F] (hA : AppOk C n P cs steps app) {left right p : Proof F G HC}
    (hl : ChildOk C n app.nativeRegistry left) (hr : ChildOk C n app.nativeRegistry right)
    {t : FuseTraces F G} (ht : ∀ i, WellFormed (4 * n) (t.rx i))
    (hcl : Settled C n P.headerSize app left t.leftHeader ∧
        Settled C n P.headerSize app right t.rightHeader ∨
      UnitHeader P.headerSize t.leftHeader ∧ UnitHeader P.headerSize t.rightHeader)
    (hcurve : ∀ x y, some (x, y) ∈ bridgePoints p → y ^ 2 = x ^ 3 + C.b)
    (hch : ChallengesOk C left right p)
    (hp : fuseProof C P.endo n app.nativeRegistry left right p.challenges t = some p)
    {state : List F} {fused : FuseAB F HC} {S : StepStages F}
    (htr : Pcd.emulate (proverTranscript P.poseidon P.tag p) = .ok (p.challenges, state))
    (hfu : fuseAb C.native n C.numBits C.repr C.hostGens app.nativeRegistry ⟨left, right⟩
      p.challenges.y p.challenges.z p.challenges.mu p.challenges.nu p.challenges.muPrime
      p.challenges.nuPrime = some fused)
    (hS : StagesRun C n P left right p.challenges fused state
      ⟨left, right, p.sPrime.native, p.innerError.native, p.ab.native, p.query.native⟩ t S) :
    StageTypes P.headerSize P.poseidon.T S ∧ StepReady P S p.unifiedValue ∧
    S.preamble = ⟨childGadget C left t.leftHeader, childGadget C right t.rightHeader⟩ ∧
    t.leftHeader.length = P.headerSize ∧ t.rightHeader.length = P.headerSize ∧
    none ∉ bridgePoints p ∧ ConsistentProof C n app.nativeRegistry p := by
  obtain ⟨bn, ss, hE⟩ := app_fuseEnv hA
  obtain ⟨sw, hsw, hsw'⟩ := supplies_of_ready hE.ready hE.final p.challenges.y
  obtain ⟨m1, m2, le1, le2, le3⟩ := fused_lengths hsw hA.repr hA.gens (src := ⟨left, right⟩)
    hl.consistent.traces hr.consistent.traces hfu
  -- the transcript
  obtain ⟨hpts, hst, hdup, hsave⟩ := transcript_holds hA.params.poseidon hA.params.rate_pos
    hA.params.rate_le htr
  -- the stages
  have e1 := preamble_eq hS.preamble.1
  obtain ⟨-, -, -, hlen⟩ := C69_preamble hS.preamble.1
  simp only [List.forall_mem_cons] at hlen
  obtain ⟨⟨n1, n2, n3, -⟩, ⟨n4, n5, n6, -⟩, -⟩ := hlen
  have e2 := innerError_eq hS.innerError.1
  obtain ⟨kl, kr, collapsed, hov, hst3⟩ := hS.outerError
  have e3 := outerError_eq hst3.1
  have e4 := query_eq hS.query.1
  have e5 := eval_eq hS.eval.1
  -- the staged values
  rw [emulate_bind] at hov
  obtain ⟨pre, hpre, hov⟩ := hov
  have ep := preamble_eq hpre
  obtain ⟨kl', kr', col', hsim, ⟨ho1, ho2⟩, hk1, hk2, hcol⟩ := C65_prover_staged pre
    (by rw [ep]; exact childGadget_honest _ _ _) (by rw [ep]; exact childGadget_honest _ _ _)
    fused.innerErrors GROUP_SIZE le2 p.challenges.y p.challenges.mu p.challenges.nu m1
  rw [emulate_of_sim hsim, Except.ok.injEq] at hov
  simp only [Prod.mk.injEq] at hov
  obtain ⟨⟨rfl, rfl⟩, rfl⟩ := hov
  rw [ep] at hk1 hk2 hcol
  rw [le1] at hcol
  dsimp only at hk1 hk2 hcol
  rw [childGadget_public] at hk1 hk2
  rw [childGadget_public, childGadget_public] at hcol
  -- the parts of the proof
  obtain ⟨s, f, pw, p', s1, s2, hs, f1, p1, hp', k1, k2, k3, k4, -, -, -, -, -, -, k5, k6⟩ :=
    fuse_parts hE hl.consistent.toChildReady hr.consistent.toChildReady p.challenges ht m1 m2
  rw [hp, Option.some.injEq] at hp'
  subst hp'
  obtain ⟨sl, sr, sp, sie, sab, sq⟩ := s
  dsimp only at s1 s2 k2 k3 k5 k6
  subst s1 s2 k5 k6 k2 k3
  have hcons : ConsistentProof C n app.nativeRegistry p :=
    fuse_consistent hE hl.consistent.toChildReady hr.consistent.toChildReady ht m1 m2 hp
  obtain ⟨f', p'', w, g1, g2, g3, g4, -⟩ := C48_agree hE.ready hE.final hE.repr hE.gens
    hl.consistent.toChildReady hr.consistent.toChildReady hs hch.x_ne hch.z_ne hch.avoids
    P.endo.nbits hE.sqrt hE.nonresidue P.endo.zeta
  rw [f1, Option.some.injEq] at g1
  subst g1
  rw [p1, Option.some.injEq] at g2
  subst g2
  dsimp only at k4
  rw [← k4] at g4
  have hT : StageTypes P.headerSize P.poseidon.T S := by
    refine ⟨?_, ?_, ?_, ?_, ?_, ?_, ?_⟩
    · rw [e1]; simp only [childGadget, List.length_map]; exact ⟨n1, n2, n3⟩
    · rw [e1]; simp only [childGadget, List.length_map]; exact ⟨n4, n5, n6⟩
    · rw [e3]; simp only [List.length_map]; exact le3
    · rw [e3, hcol]; simp only [List.length_map, List.length_range]
    · rw [e2]; simp only [List.length_map]; exact le1
    · rw [e2]
      intro e he
      obtain ⟨l, hl, rfl⟩ := List.mem_map.1 he
      rw [List.length_map]
      exact le2 l hl
    · rw [e3]; simp only [List.length_map]; exact hst
  have einn : (S.innerError.map fun l => l.map (·.wire)) = fused.innerErrors := by
    rw [e2, List.map_map]
    conv_rhs => rw [← List.map_id fused.innerErrors]
    exact List.map_congr_left fun l _ => both_wires l
  have eout : S.outerError.errorTerms.map (·.wire) = fused.outerErrors := by
    rw [e3]; exact both_wires _
  have elf : S.preamble.left.public = childPublic C.native sl t.leftHeader := by
    rw [e1]; exact childGadget_public _ _ _
  have erf : S.preamble.right.public = childPublic C.native sr t.rightHeader := by
    rw [e1]; exact childGadget_public _ _ _
  refine ⟨hT, ?_, e1, n3, n6, hpts, hcons⟩
  have hval : valuePublic p.unifiedValue = proofPublic p := rfl
  have hky : ∀ {c : ChildPublic F} {y : F} {k : ChildKyOutputs F}, k.Honest → KyHolds c y k →
      KyHolds c y ⟨both k.application.value, both k.unified.value, both k.unifiedBridge.value⟩ :=
    fun hh hk => ⟨hh.application.trans hk.application, hh.unified.trans hk.unified,
      hh.unifiedBridge.trans hk.unifiedBridge⟩
  have hext : VerifiedWith (ExtractedBits P.endo.nbits p.challenges.preBeta) P.endo.nbits
      (2 ^ P.logRank) P.endo.zeta
      (wirePoints P.env S.preamble p.challenges.w p.challenges.y p.challenges.z p.challenges.x)
      (fun s => (S.preamble.v s).wire) (QueryOutput.map (·.wire) S.query)
      (EvalOutput.map (·.wire) S.eval) p.challenges.mu p.challenges.nu
      p.challenges.muPrime p.challenges.nuPrime p.challenges.alpha
      p.challenges.u p.p.native.v := by
    rw [stage_points, stage_childV, elf, erf]
    rw [e4, e5, hA.sameEnv, ← hA.rank]
    have q1 : ∀ q : QueryOutput F, QueryOutput.map (·.wire) (QueryOutput.map both q) = q := fun _ => rfl
    have q2 : ∀ e : EvalOutput F, EvalOutput.map (·.wire) (EvalOutput.map both e) = e := fun _ => rfl
    rw [q1, q2]
    have hpo : (⟨p.challenges.w, p.challenges.y, p.challenges.z, p.challenges.x,
        bySide (childPublic C.native sl t.leftHeader).points
          (childPublic C.native sr t.rightHeader).points, fun id => id.omega C.native⟩ : Points F) =
        fusePoints C.native ⟨sl, sr, p.sPrime.native, p.innerError.native, p.ab.native,
          p.query.native⟩ p.challenges := by
      simp only [fusePoints, Points.mk.injEq, true_and]
      constructor
      · funext sd
        cases sd <;> rfl
      · funext id
        exact omega_eq _ id
    have hv : bySide (childPublic C.native sl t.leftHeader).unified.v
        (childPublic C.native sr t.rightHeader).unified.v = childClaim (G := G) (HC := HC)
          ⟨sl, sr, p.sPrime.native, p.innerError.native, p.ab.native, p.query.native⟩ := by
      funext sd
      cases sd <;> rfl
    rw [hv]
    rw [hpo]
    exact g4
  refine
    { left := by rw [e1]; exact childGadget_honest _ _ _
      right := by rw [e1]; exact childGadget_honest _ _ _
      kyLeft := by rw [e3]; exact ⟨rfl, rfl, rfl⟩
      kyRight := by rw [e3]; exact ⟨rfl, rfl, rfl⟩
      outerErrors := by rw [e3]; exact both_honest _
      collapsed := by rw [e3]; exact both_honest _
      state := by rw [e3]; exact both_honest _
      innerErrors := by
        rw [e2]
        intro l hl
        obtain ⟨l', -, rfl⟩ := List.mem_map.1 hl
        exact both_honest _
      query := by rw [e4]; rfl
      eval := by rw [e5]; rfl
      valid := by rw [hA.sameCurve]; exact point_valid hpts hcurve
      stagedLeft := by rw [elf, hval, e3]; exact hky ho1 hk1
      stagedRight := by rw [erf, hval, e3]; exact hky ho2 hk2
      stagedCollapsed := by
        rw [einn, elf, erf, hval, e3]
        dsimp only
        rw [both_wires, hcol]
        rfl
      stagedState := by
        rw [hval, e3]
        dsimp only
        rw [both_wires]
        exact hsave
      extracted := by rw [hval]; exact hext
      holds := ?_ }
  rw [StagesHold, hval, elf, erf, einn, eout]
  refine ⟨hdup, ?_, ⟨app_omega hA hl.inDomain, app_omega hA hr.inDomain⟩, ?_, ?_⟩
  · rw [hA.sameCurve]
    intro q hq
    rcases List.mem_append.1 hq with hq | hq
    · rcases List.mem_append.1 hq with hq | hq
      · exact points_curve hpts hcurve q hq
      · exact points_curve hl.points hl.curve q hq
    · exact points_curve hr.points hr.curve q hq
  · intro htriv
    rcases hcl with ⟨c1, c2⟩ | ⟨c1, c2⟩
    · have key := folded_claims (E := C.native) hsw hA.repr hA.gens (src := ⟨sl, sr⟩)
        (lh := t.leftHeader) (rh := t.rightHeader) hl.consistent.traces hr.consistent.traces
        hl.points hr.points
        (settled_table (qs := [(sl, t.leftHeader), (sr, t.rightHeader)]) hA (by
          simp only [List.forall_mem_cons]
          exact ⟨c1, c2, by simp⟩) ?_) hfu
      · obtain ⟨o, ho, hab⟩ := hs.ab
        rw [hfu, Option.some.injEq] at ho
        subst ho
        have hab : p.ab.native = fused.ab := hab
        show p.ab.native.c = _
        rw [hab, key]
        rfl
      · exact hsw'.2
    · exact absurd ⟨c1, c2⟩ htriv
  · rw [stage_points, stage_childV, elf, erf] at hext
    exact hext.mono fun _ h => h.square

end

end Ragu.Props

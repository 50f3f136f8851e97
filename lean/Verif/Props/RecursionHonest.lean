/-
Property C87: an honest fuse is a play, and wins.
-/
import Verif.Spec.Binding
import Verif.Props.Recursion
import Verif.Props.FuseProgram

set_option linter.unusedSectionVars false

namespace Ragu.Props
open Ragu Ragu.Circuit Ragu.Registry Ragu.Spec Ragu.Gadget Ragu.Pcd Finset
variable {F G HC : Type} [Field F] [DecidableEq F] [Field G] [DecidableEq G]
  [AddCommGroup HC] [DecidableEq HC] [Module F HC]

section
variable {C : CycleEnv F G HC} {n : ℕ} {P : StepParams F} {cs : Circuits F G}
  {steps : List (StepDef F)} {app : Application F G} {left right p : Proof F G HC}

theorem computeP_coeff [Finite F] {N nbits : ℕ} {sqrt : F → Option F} {gen zeta : F}
    (hsq : SqrtSpec sqrt) (hgen : ¬ IsSquare gen) {s : FuseState F G HC} {f : NativeF F HC}
    {preBeta u : F} (hf : WellFormed N f.poly) (hacc : ∀ pc ∈ accList s, WellFormed N pc.1)
    {pw : NativeP F HC × PointsWitness HC}
    (h : computeP N nbits sqrt gen zeta s f preBeta u = some pw) :
    ∃ bits, ExtractedBits nbits preBeta bits ∧ ∀ k, coeff pw.1.poly k =
      descending (liftNative nbits zeta bits)
        (coeff f.poly k :: (accList s).map fun pc => coeff pc.1 k) := by
  obtain ⟨bits, e1, e2, e3, -⟩ := C36_native nbits hsq hgen ⟨preBeta, preBeta⟩ rfl
  obtain ⟨q, p1, p2, p3⟩ := accumulate_spec (liftNative nbits zeta bits) ((accList s).map (·.1))
    f.poly hf (by
      intro p hp
      obtain ⟨pc, h, rfl⟩ := List.mem_map.1 hp
      exact hacc pc h)
  rw [computeP, show extractNative nbits sqrt gen preBeta = some bits from e1] at h
  simp only [Option.bind_eq_bind, Option.bind_some, p1] at h
  obtain ⟨w, -, h⟩ := Option.bind_eq_some_iff.1 h
  obtain ⟨c, -, h⟩ := Option.bind_eq_some_iff.1 h
  cases h
  refine ⟨bits, ⟨e2, e3⟩, fun k => ?_⟩
  rw [p3 k, descending_eq]
  simp only [List.map_cons, List.map_map, Function.comp_def]

/-- A run of `fuse` is a play of a prover that always sends the messages of the run, and opens its
commitments. -/
theorem run_plays [Finite F] {D : Type} (hA : AppOk C n P cs steps app)
    (hl : ChildOk C n app.nativeRegistry left) (hr : ChildOk C n app.nativeRegistry right)
    {nestedCommit : Sparse.Poly G → Option (F × F)}
    (hcurve : ∀ q x y, nestedCommit q = some (x, y) → y ^ 2 = x ^ 3 + C.b) {c0 : Circ F} {i : ℕ}
    (hH : Holds C.native n app.nativeRegistry i c0)
    {code : Syn F (Except Pcd.Err (AdapterOut F D))} {out : AdapterOut F D} {t : FuseTraces F G}
    (hrun : FuseRun C n nestedCommit P cs app c0 i code out left right t p)
    (hcl : Settled C n P.headerSize app left out.left ∧
        Settled C n P.headerSize app right out.right ∨
      UnitHeader P.headerSize out.left ∧ UnitHeader P.headerSize out.right)
    (hch : Avoids p.challenges.u (Spec.fusePoints C.native ⟨left, right, p.sPrime.native,
      p.innerError.native, p.ab.native, p.query.native⟩ p.challenges))
    (hpb : ∀ i < P.endo.nbits, p.challenges.preBeta + (i : F) ≠ 0) :
    ∃ σ c, Plays n P (omegaJ C.native) ⟨left, out.left⟩ ⟨right, out.right⟩ σ c p ∧
      (fusePolys ⟨left, out.left⟩ ⟨right, out.right⟩ σ c).map (commitTo n C.hostGens) =
        fuseCommitments ⟨left, out.left⟩ ⟨right, out.right⟩ p ∧
      commitTo n C.hostGens (coeff p.p.native.poly) = p.p.native.commitment := by
  obtain ⟨state, fused, S, insts, htr, hfu, hS, hc⟩ := hrun.stages
  have hap := hrun.application
  obtain ⟨ht, hm⟩ := run_rx hA hH hap.trace hS hc
  have hpc : ∀ x y, some (x, y) ∈ bridgePoints p → y ^ 2 = x ^ 3 + C.b := by
    intro x y hxy
    rw [bridgePoints_traces hrun.assembled] at hxy
    obtain ⟨b, hb, hbe⟩ := List.mem_map.1 hxy
    exact hcurve b.rx x y (by rw [← hrun.bridges b hb, hbe])
  obtain ⟨hT, hready, hpre, hll, hlr, hpts, hcon⟩ := run_ready hA hl hr ht
    (by rw [hap.left, hap.right]; exact hcl) hpc
    ⟨(circuits_nonzero hc).1, (circuits_nonzero hc).2, hch⟩ hrun.assembled htr hfu hS
  obtain ⟨f1, f2, f3, f4, -⟩ := fuse_fields hrun.assembled
  obtain ⟨bn, ss, hE⟩ := app_fuseEnv hA
  obtain ⟨sw, hsw, hsw'⟩ := supplies_of_ready hE.ready hE.final p.challenges.y
  obtain ⟨m1, m2, -⟩ := fused_lengths hsw hA.repr hA.gens (src := ⟨left, right⟩)
    hl.consistent.traces hr.consistent.traces hfu
  obtain ⟨s, f, pw, p', s1, s2, hs, g1, g2, hp', k1, k2, k3, k4, k7, -, -, -, -, -, k5, k6⟩ :=
    fuse_parts hE hl.consistent.toChildReady hr.consistent.toChildReady p.challenges ht m1 m2
  rw [hrun.assembled, Option.some.injEq] at hp'
  subst hp'
  obtain ⟨sl, sr, sp, sie, sab, sq⟩ := s
  dsimp only at s1 s2 k2 k3 k5 k6
  subst s1 s2 k5 k6 k2 k3
  obtain ⟨f', g3, g4, g5, -⟩ := C47_agree hE.ready hE.final hE.repr hE.gens
    hl.consistent.toChildReady hr.consistent.toChildReady hs
  rw [g1, Option.some.injEq] at g3
  subst g3
  have hacc := accList_committed hE.ready hE.final hE.repr hE.gens
    hl.consistent.toChildReady hr.consistent.toChildReady hs
  obtain ⟨bits, hb, hcoeff⟩ := computeP_coeff hE.sqrt hE.nonresidue g4 (fun pc h => (hacc pc h).1) g2
  have hone : ∀ {q : Sparse.Poly F} {g : HC}, WellFormed (4 * n) q →
      Msm.commit (4 * n) C.numBits C.repr q C.hostGens = some g →
      commitTo n C.hostGens (coeff q) = g := by
    intro q g hq hg
    rw [C12_commit (4 * n) C.numBits C.repr hE.repr q C.hostGens hq hE.gens, Option.some.injEq] at hg
    exact hg
  refine ⟨{
    wx := fun side _ => match side with
      | .left => coeff p.sPrime.native.registryWx0Poly
      | .right => coeff p.sPrime.native.registryWx1Poly
    wy := fun _ => coeff p.innerError.native.registryWyPoly
    innerErrs := fun _ => S.innerError.map fun l => l.map (·.wire)
    outerErrs := fun _ => S.outerError.errorTerms.map (·.wire)
    a := fun _ => coeff p.ab.native.aPoly
    b := fun _ => coeff p.ab.native.bPoly
    xy := fun _ => coeff p.query.native.registryXyPoly
    query := fun _ => QueryOutput.map (·.wire) S.query
    f := fun _ => coeff f.poly
    eval := fun _ => EvalOutput.map (·.wire) S.eval },
    ![p.challenges.w, p.challenges.y, p.challenges.z, p.challenges.mu, p.challenges.nu,
      p.challenges.muPrime, p.challenges.nuPrime, p.challenges.x, p.challenges.alpha, p.challenges.u,
      liftNative P.endo.nbits P.endo.zeta bits], ?_, ?_, ?_⟩
  rotate_left
  · have hall := List.map_congr_left (l := accList _) fun pc h => hone (hacc pc h).1 (hacc pc h).2
    refine List.cons_eq_cons.2 ⟨?_, hall⟩
    rw [k7]
    exact hone g4 g5
  · exact hone hcon.p_wf hcon.p_commit
  refine ⟨rfl, fun bits' hb' => ?_, ⟨S, hT, ?_, ?_, ?_, rfl, rfl, rfl, rfl⟩, fun _ _ => rfl, fun _ _ => rfl,
    fun _ _ => rfl, fun k _ => ?_⟩
  · have : SquareBits P.endo.nbits p.challenges.preBeta bits := ⟨hb.1, fun i hi _ => hb.2 i hi⟩
    rw [squareBits_unique hpb hb' this]
    rfl
  · have e := run_stagesOf hS hT
    have : (fun i => p.nativeRx (.rx i)) = t.rx := funext f1
    rw [this]
    exact e
  · rw [hpre, ← hap.left]; exact childGadget_public _ _ _
  · rw [hpre, ← hap.right]; exact childGadget_public _ _ _
  · rw [k4, hcoeff k]
    rfl

variable {K : NestedParams G HC} {nestedCommit : Sparse.Poly G → Option (F × F)}

/-- A proof that was made is what a proof should be. -/
theorem made_sound [Finite F] (hA : AppOk C n P cs steps app) (hK : HostOk K P.endo)
    (hcurve : ∀ q x y, nestedCommit q = some (x, y) → y ^ 2 = x ^ 3 + C.b)
    (hbig : 8 * n < Nat.card F) {D O : Type} {H : Header F D O} {p : Proof F G HC} {data : D}
    (h : Made C K n nestedCommit P cs steps app H p data) :
    ∃ header, EncodedAs P.headerSize H data header ∧ Settled C n P.headerSize app p header ∧
      ChildFit C n P.headerSize app ⟨p, header⟩ ∧ ChildSound C n P app ⟨p, header⟩ := by
  classical
  have := Fintype.ofFinite F
  obtain ⟨hn, h', e', hs⟩ := made_settled hA hK hcurve h
  obtain ⟨header, e, hf, hc⟩ := C87_accepted (H := H) (data := data) hA (settled_typed hA hs hn)
    (ch := fun w y z => ⟨w, y, z, 0, 0⟩) (fun _ _ _ => ⟨rfl, rfl, rfl⟩) (V := univ) (by
      rw [acceptedTriples, filter_true_of_mem fun t _ => C74_accepted hA hK hcurve h _,
        card_product, card_product, card_univ, ← Nat.card_eq_fintype_card]
      have : 0 < Nat.card F := Nat.card_pos
      calc _ < Nat.card F * Nat.card F ^ 2 := Nat.mul_lt_mul_of_pos_right hbig (by positivity)
        _ = _ := by ring)
  cases encodedAs_unique e e'
  exact ⟨_, e, hs, hf, hc⟩

/-- C87: an honest fuse of proofs that were made is a play, its children are what they should be, and it
wins. -/
theorem C87_honest [Finite F] (hA : AppOk C n P cs steps app) (hK : HostOk K P.endo)
    (hcurve : ∀ q x y, nestedCommit q = some (x, y) → y ^ 2 = x ^ 3 + C.b)
    (hbig : 8 * n < Nat.card F) {D1 O1 D2 O2 D3 O3 : Type} {HL : Header F D1 O1}
    {HR : Header F D2 O2} {HO : Header F D3 O3} {dl : D1} {dr : D2} {data : D3}
    (hl : Made C K n nestedCommit P cs steps app HL left dl)
    (hr : Made C K n nestedCommit P cs steps app HR right dr)
    (hf : Fuses C K n nestedCommit P cs steps app HL HR HO left dl right dr p data)
    (hpb : ∀ i < P.endo.nbits, p.challenges.preBeta + (i : F) ≠ 0) :
    ∃ lh rh, EncodedAs P.headerSize HL dl lh ∧ EncodedAs P.headerSize HR dr rh ∧
      ChildFit C n P.headerSize app ⟨left, lh⟩ ∧ ChildFit C n P.headerSize app ⟨right, rh⟩ ∧
      ChildSound C n P app ⟨left, lh⟩ ∧ ChildSound C n P app ⟨right, rh⟩ ∧
      ∃ σ c, Plays n P (omegaJ C.native) ⟨left, lh⟩ ⟨right, rh⟩ σ c p ∧
        FuseWins n P.headerSize (omegaJ C.native) (app.nativeRegistry.wxy C.native n)
          ⟨left, lh⟩ ⟨right, rh⟩ σ c := by
  obtain ⟨lh, el, sl, fl, cl⟩ := made_sound hA hK hcurve hbig hl
  obtain ⟨rh, er, sr, fr, cr⟩ := made_sound hA hK hcurve hbig hr
  obtain ⟨header, -, -, -, hc⟩ := made_sound hA hK hcurve hbig (.fuse hl hr hf)
  obtain ⟨i, j, c0, code, out, t, h1, h2, h3, rfl, h4, hB, hE, h5⟩ := hf
  obtain ⟨j', e, hj, hH⟩ := step_holds hA h1
  rw [h2] at e
  cases e
  cases encodedAs_unique el h3.left
  cases encodedAs_unique er h3.right
  obtain ⟨σ, c, hp, -⟩ := run_plays hA sl.childOk sr.childOk hcurve hH h4 (.inl ⟨sl, sr⟩) h5 hpb
  exact ⟨_, _, el, er, fl, fr, cl, cr, σ, c, hp, C87_wins hA hp hc⟩

/-! ### Examples -/

theorem trivial_nested_wf (hn : 0 < n) {N : ℕ} {R : Registry F} {q : Proof F G HC}
    (h : trivialProof C n N nestedCommit R = some q) (c : NestedRx) {r : Sparse.Poly G}
    (hr : q.nestedRx c = some r) : WellFormed (4 * n) r := by
  obtain ⟨p', p1, p2, -⟩ := C13_trace_build (F := G) n ⟨[1], [1], [1], [1]⟩ (by simpa) (by simpa)
    (by simpa) (by simpa)
  rw [trivialProof] at h
  obtain ⟨a1, -, h⟩ := Option.bind_eq_some_iff.1 h
  obtain ⟨a2, h2, h⟩ := Option.bind_eq_some_iff.1 h
  obtain ⟨a3, -, h⟩ := Option.bind_eq_some_iff.1 h
  obtain ⟨a4, -, h⟩ := Option.bind_eq_some_iff.1 h
  obtain ⟨a5, -, h⟩ := Option.bind_eq_some_iff.1 h
  have e : a2 = p' := Option.some.inj (h2.symm.trans p1)
  subst e
  cases h
  cases c <;> simp only [Proof.nestedRx, Option.some.injEq] at hr <;> try (subst hr; exact p2)
  exact (List.mem_replicate.1 (List.mem_of_getElem? hr)).2 ▸ p2

/-- The trivial proof with a wrong `c`, and a header that does not mark it as trivial. -/
def spoiled (N : ℕ) (q : Proof F G HC) : FuseChild F G HC :=
  ⟨{ q with ab := { q.ab with native := { q.ab.native with c := q.ab.native.c + 1 } } },
    List.replicate N 0⟩

theorem spoiled_child {V : FuseEnvironment F G HC} {steps : List (StepDef F)} [Finite F]
    (hV : Prepared V steps) (hT : TrivialCommits V) {q : Proof F G HC} (hq : IsTrivial V q) :
    ChildFit V.C V.n V.P.headerSize V.app (spoiled V.P.headerSize q) ∧
    ¬ ((spoiled V.P.headerSize q).values (omegaJ V.C.native)).Trivial V.P.headerSize ∧
    ¬ ChildSound V.C V.n V.P V.app (spoiled V.P.headerSize q) := by
  have hA := hV.app
  obtain ⟨bn, ss, hE⟩ := app_fuseEnv hA
  obtain ⟨q', h1, h2, -, hid, hl, hr, -⟩ := C63_trivial hE V.P.headerSize V.nestedCommit
  cases h1.symm.trans hq
  have hc := trivial_child hA hV.curve hq (hT q hq)
  obtain ⟨f1, f2⟩ := app_fits hA
  have hin := hc.inDomain
  refine ⟨⟨⟨fun c => ?_, fun c r h => ?_, h2.p_wf, (xy_wf hE.ready hE.final h2.registry).1, hc.curve, ?_⟩,
    ?_, ?_, ?_, ?_, hc.points⟩, ?_, fun h => ?_⟩
  · cases c with
    | abA => exact (h2.traces .abA).1
    | abB => exact (h2.traces .abB).1
    | rx i =>
      have : (spoiled V.P.headerSize q).proof.nativeRx (.rx i) = q.nativeRx (.rx i) := by
        cases i <;> rfl
      rw [this]
      exact (h2.traces (.rx i)).1
  · exact trivial_nested_wf hE.pos hq c (by cases c <;> exact h)
  · exact lt_of_lt_of_le hin (f1.trans f2)
  · exact lt_of_lt_of_le hin f1
  · show q.application.leftHeader.length = _
    rw [hl, List.length_replicate]
  · show q.application.rightHeader.length = _
    rw [hr, List.length_replicate]
  · exact List.length_replicate ..
  · show ¬ (List.replicate V.P.headerSize (0 : F))[V.P.headerSize - 1]? = some 1
    intro h
    exact zero_ne_one (List.mem_replicate.1 (List.mem_of_getElem? h)).2.symm
  · have := h.product
    rw [show (proofPublic (spoiled V.P.headerSize q).proof).c = q.ab.native.c + 1 from rfl,
      h2.product] at this
    exact one_ne_zero (add_eq_left.1 this.symm)

end

section
open Ragu.Pasta

theorem pasta_case : ∃ (V : FuseEnvironment Fp Fq Vesta) (steps : List (StepDef Fp)),
    Prepared V steps ∧ TrivialCommits V ∧ V.n = 2048 := by
  classical
  obtain ⟨sqrt, hs⟩ : ∃ sqrt : Fp → Option Fp, SqrtSpec sqrt := by
    refine ⟨fun v => if h : IsSquare v then some h.choose else none, fun v s h => ?_, fun v h => ?_⟩
    · split at h
      · next hv =>
        rw [Option.some.injEq] at h
        subst h
        exact hv.choose_spec.symm
      · cases h
    · rw [dif_pos h]
      exact Option.some_ne_none _
  let M : Machine Fp := ⟨1, fun _ => [], fun _ => 0⟩
  let M' : Machine Fq := ⟨1, fun _ => [], fun _ => 0⟩
  have hsteps : StepsInOrder 2048 ([] : List (StepDef Fp)) := by
    refine ⟨?_, ?_, ?_⟩ <;> simp [allHeaders, Consistent]
  obtain ⟨cs, hcs⟩ := C80_exist _ (pasta_ok M hs ([] : List (StepDef Fp)).length
    (headerSize := 4) (by omega)) (zetaQ : Fq)
  obtain ⟨app, hV⟩ := C82_pasta (M := M) (M' := M') Nat.one_pos Nat.one_pos hs
    (gens := List.replicate 8192 (.some (-1) 2 vesta_gen)) (List.length_replicate ..).ge
    (fun _ => (.some (-1) 2 pallas_gen : Pallas)) (headerSize := 4) (by omega) (by omega) hsteps
    (by simp) hcs
  exact ⟨_, [], hV, generator_commits, rfl⟩

theorem pasta_large : 400000 < Ragu.Pasta.p := by
  rw [Ragu.Pasta.p]; norm_num

theorem small_part {k N : ℕ} (h : 400000 < N) (hk : k ≤ 82071 * (N ^ 9 * N) + 36 * N ^ 10) :
    4 * k < N ^ 10 * N := by
  have e : 82071 * (N ^ 9 * N) + 36 * N ^ 10 = 82107 * N ^ 10 := by ring
  have : 328428 * N ^ 10 < N * N ^ 10 := Nat.mul_lt_mul_of_pos_right (by omega) (Nat.pow_pos (by omega))
  rw [mul_comm (N ^ 10)]
  omega

open Classical in
/-- Non-vacuity of C87_children: in an application over the Pasta cycle, with the spoiled trivial proof
as both children, every prover wins for fewer than a quarter of all draws. -/
example : ∃ (V : FuseEnvironment Fp Fq Vesta) (l : FuseChild Fp Fq Vesta), ∀ σ : FuseProver Fp,
    4 * ((draws (univ : Finset Fp) univ).filter fun c => FuseWins V.n V.P.headerSize (omegaJ V.C.native)
      (V.app.nativeRegistry.wxy V.C.native V.n) l l σ c).card < (draws (univ : Finset Fp) univ).card := by
  obtain ⟨V, steps, hV, hT, hn⟩ := pasta_case
  obtain ⟨q, hq, -⟩ := seed_fits hV hT
  obtain ⟨h1, h2, h3⟩ := spoiled_child hV hT hq
  refine ⟨V, spoiled V.P.headerSize q, fun σ => ?_⟩
  have := C87_children hV.app h1 h1 (fun h => h2 h.1) (fun h => h3 h.1) σ univ univ
  rw [draws_card]
  rw [show 40 * V.n + 151 = 82071 by rw [hn]] at this
  have hc : 400000 < (univ : Finset Fp).card := by
    rw [card_univ, ← Nat.card_eq_fintype_card, Nat.card_zmod]
    exact pasta_large
  exact small_part hc this

open Classical in
/-- Non-vacuity of C87_verified: the same children, with any way to choose the resulting proof among
proofs of the right form. -/
example : ∃ (V : FuseEnvironment Fp Fq Vesta) (l : FuseChild Fp Fq Vesta) (p : Proof Fp Fq Vesta),
    ProofTyped V.C V.n p ∧ ∀ (σ : FuseProver Fp) (ps : Draw Fp → Proof Fp Fq Vesta),
      (∀ c, ProofTyped V.C V.n (ps c)) → ∀ A : Finset Fp,
      ∑ c ∈ (draws A A).filter (fun c => Plays V.n V.P (omegaJ V.C.native) l l σ c (ps c)),
        (acceptedTriples V.C V.n V.P.headerSize V.app Header.unit (ps c) ()
          (fun w y z => ⟨w, y, z, 0, 0⟩) A).card ≤
      ((40 * V.n + 151) * (A.card ^ 9 * A.card) + 36 * A.card ^ 10) * A.card ^ 3 +
        (A.card ^ 10 * A.card) * (8 * V.n * A.card ^ 2) := by
  obtain ⟨V, steps, hV, hT, hn⟩ := pasta_case
  obtain ⟨q, hq, -⟩ := seed_fits hV hT
  obtain ⟨h1, h2, h3⟩ := spoiled_child hV hT hq
  exact ⟨V, spoiled V.P.headerSize q, _, h1.typed, fun σ ps hp A =>
    C87_verified hV.app h1 h1 (fun h => h2 h.1) (fun h => h3 h.1) σ A A A ps (fun _ => ()) hp
      (fun _ _ _ => ⟨rfl, rfl, rfl⟩)⟩

/-- Non-vacuity of C87_accepted and C87_honest: over the Pasta cycle every proof obtained from calls is
what a proof should be, and a fuse of two of them wins. -/
example : ∃ (V : FuseEnvironment Fp Fq Vesta) (steps : List (StepDef Fp)), Prepared V steps ∧
    ∀ {D1 O1 D2 O2 D3 O3 : Type} {HL : Header Fp D1 O1} {HR : Header Fp D2 O2} {HO : Header Fp D3 O3}
      {left right p : Proof Fp Fq Vesta} {dl : D1} {dr : D2} {d : D3} {c0 : Circ Fp} {j : ℕ}
      {code : Syn Fp (Except Pcd.Err (AdapterOut Fp D3))},
      Obtained V steps HL left dl → Obtained V steps HR right dr →
      RunsStep V steps HL HR HO dl dr c0 j code →
      V.fuse c0 j code left right (.ok (p, d)) → UsablePoint V left right p →
      (∀ i < V.P.endo.nbits, p.challenges.preBeta + (i : Fp) ≠ 0) →
      ∃ lh rh σ c, Plays V.n V.P (omegaJ V.C.native) ⟨left, lh⟩ ⟨right, rh⟩ σ c p ∧
        FuseWins V.n V.P.headerSize (omegaJ V.C.native) (V.app.nativeRegistry.wxy V.C.native V.n)
          ⟨left, lh⟩ ⟨right, rh⟩ σ c := by
  obtain ⟨V, steps, hV, hT, hn⟩ := pasta_case
  refine ⟨V, steps, hV, fun hl hr hs h hu hpb => ?_⟩
  obtain ⟨lh, rh, -, -, -, -, -, -, σ, c, h⟩ := C87_honest hV.app hV.host hV.curve
    (by rw [hn, Nat.card_zmod]; exact lt_trans (by norm_num) pasta_large) (C82_made hV hl) (C82_made hV hr)
    (runsStep_fuses hs h hu) hpb
  exact ⟨lh, rh, σ, c, h⟩

end
end Ragu.Props

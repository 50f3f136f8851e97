/-
Property C71: an accepted proof names a step.
-/
import Verif.Props.Accept
import Verif.Lemmas.Reject

set_option linter.unusedSectionVars false

namespace Ragu.Props
open Ragu Ragu.Circuit Ragu.Registry Ragu.Spec Ragu.Gadget Ragu.Pcd Finset
variable {F G HC Data Out : Type} [Field F] [DecidableEq F] [Field G] [DecidableEq G]
  [AddCommGroup HC] [DecidableEq HC] [Module F HC]

/-! ### The output of an internal circuit ends with zero -/

theorem always_bind {α β : Type} {Q : α → Prop} {P : β → Prop} {x : Syn F α} {f : α → Syn F β}
    (hx : x.Always Q) (h : ∀ a, Q a → (f a).Always P) : (x >>= f).Always P := by
  induction hx with
  | ret ha => exact h _ ha
  | gate _ ih => exact .gate fun a b c d => ih a b c d
  | alloc _ ih => exact .alloc fun v => ih v
  | enforce _ ih => exact .enforce ih
  | check _ ih => exact .check ih
  | panic => exact .panic

/-- The elements end with the constant zero. -/
def ZeroLast (r : List (Element F) × UnifiedInstance F) : Prop :=
  ∃ l, r.1 = l ++ [Element.zero]

theorem finish_zero (b : F) (B : OutputBuilder F) : (B.finish b).Always ZeroLast := by
  unfold OutputBuilder.finish
  refine Syn.Always.bind _ fun r => ?_
  exact .ret ⟨_, rfl⟩

theorem wires_zero {x : Syn F (List (Element F) × UnifiedInstance F)} (h : x.Always ZeroLast) :
    (x >>= fun r => (pure (r.1.map (·.wire)) : Syn F (List F))).Always
      (fun os => os.getLastD 0 = 0) := by
  refine always_bind h fun r hr => ?_
  obtain ⟨l, hl⟩ := hr
  refine .ret ?_
  rw [hl]
  simp [Element.zero, Coeff.value]

macro "always_last" : tactic => `(tactic| repeat (first
  | exact finish_zero _ _
  | (refine .ret ⟨_, rfl⟩)
  | (refine Syn.Always.bind _ fun _ => ?_)
  | split))

theorem hashes1_zero (P : StepParams F) (S : StepStages F) (inst : UnifiedInstance F) (es : List F) :
    (hashes1Code P S inst es).Always fun os => os.getLastD 0 = 0 := by
  unfold hashes1Code
  refine Syn.Always.bind _ fun _ => ?_
  refine Syn.Always.bind _ fun _ => ?_
  refine wires_zero ?_
  unfold hashes1Circuit
  always_last

theorem hashes2_zero (P : StepParams F) (S : StepStages F) (inst : UnifiedInstance F) (es : List F) :
    (hashes2Code P S inst es).Always fun os => os.getLastD 0 = 0 := by
  unfold hashes2Code
  refine Syn.Always.bind _ fun _ => ?_
  refine wires_zero ?_
  unfold hashes2Circuit
  always_last

theorem innerCollapse_zero (P : StepParams F) (S : StepStages F) (inst : UnifiedInstance F)
    (es : List F) : (innerCollapseCode P S inst es).Always fun os => os.getLastD 0 = 0 := by
  unfold innerCollapseCode
  refine Syn.Always.bind _ fun _ => ?_
  refine Syn.Always.bind _ fun _ => ?_
  refine Syn.Always.bind _ fun _ => ?_
  refine wires_zero ?_
  unfold innerCollapseCircuit
  always_last

theorem outerCollapse_zero (P : StepParams F) (S : StepStages F) (inst : UnifiedInstance F)
    (es : List F) : (outerCollapseCode P S inst es).Always fun os => os.getLastD 0 = 0 := by
  unfold outerCollapseCode
  refine Syn.Always.bind _ fun _ => ?_
  refine Syn.Always.bind _ fun _ => ?_
  refine wires_zero ?_
  unfold outerCollapseCircuit
  always_last

theorem computeV_zero (P : StepParams F) (S : StepStages F) (inst : UnifiedInstance F)
    (es : List F) : (computeVCode P S inst es).Always fun os => os.getLastD 0 = 0 := by
  unfold computeVCode
  refine Syn.Always.bind _ fun _ => ?_
  refine Syn.Always.bind _ fun _ => ?_
  refine Syn.Always.bind _ fun _ => ?_
  refine wires_zero ?_
  unfold computeV
  always_last

/-! ### What the claim about the application says -/

variable {C : CycleEnv F G HC} {n : ℕ} {P : StepParams F} {cs : Circuits F G}
  {steps : List (StepDef F)} {app : Application F G} {H : Header F Data Out} {data : Data}
  {p : Proof F G HC} {A : Finset F}

/-- The wiring part of the claim about a circuit at an index of the domain without a circuit. -/
theorem unregistered_split (hA : AppOk C n P cs steps app) {y z : F} {s : ℕ → ℕ → F}
    (hs : ∀ i x, ∑ k ∈ range (4 * n), s i k * x ^ k =
      (app.nativeRegistry.wxy C.native n (omegaJ C.native i) x y).getD 0) {i : ℕ}
    (hdom : i < app.nativeRegistry.domain.n) (hi : app.nativeRegistry.circuits[i]? = none)
    {r : Sparse.Poly F} {v : F}
    (hcl : ClaimTrue (4 * n) s (tCoeff n z) z (Claim.circuit i r) v) :
    ∑ j ∈ range (4 * n), gateCoeff n r j * z ^ j +
      ∑ e ∈ range (4 * n), (if e = 4 * n - 1 then
        app.nativeRegistry.key * coeff r 0 else 0) * y ^ e = v := by
  have hn := app_pos hA
  rw [ClaimTrue] at hcl
  simp only [claimLeft, claimRight] at hcl
  obtain ⟨bN, bE, ss, ss', hR, hf, -, -⟩ := app_ready hA
  obtain ⟨-, hg, hc⟩ := finalize_cases hR hf
  have hlen : ss.length = app.nativeRegistry.circuits.length := by
    rw [hc]; exact hR.objects.length_eq.symm
  have hnone : ss[i]? = none := by
    rw [List.getElem?_eq_none_iff] at hi ⊢
    omega
  have hdom' : app.nativeRegistry.domain.n = 2 ^ Nat.clog 2 bN.numCircuits := hg.good.size
  have hx : ∀ x, ∑ k ∈ range (4 * n), s i k * x ^ k =
      app.nativeRegistry.key * (x * y) ^ (4 * n - 1) := by
    intro x
    rw [hs, (C23_restrictions hR hf _ x y).1, Option.getD_some, hdom',
      registryAt_node hg (by rw [← hdom']; exact hdom), hnone]
    simp
  have h4 : 4 * n = 2 ^ (P.logRank + 2) := by rw [hA.rank, pow_add]; ring
  have hs0 : ∀ k < 4 * n, s i k =
      if k = 4 * n - 1 then app.nativeRegistry.key * y ^ (4 * n - 1) else 0 := by
    intro k hk
    have := coeffs_zero (N := 4 * n) (fun k => s i k -
      if k = 4 * n - 1 then app.nativeRegistry.key * y ^ (4 * n - 1) else 0)
      ((range (4 * n)).image (omegaJ C.native))
      (by
        rw [card_image_of_injOn, card_range]
        rw [h4]
        exact omegaJ_injOn hA.env hA.room)
      (by
        intro x _
        simp only [sub_mul, sum_sub_distrib, hx, ite_mul, zero_mul]
        rw [sum_ite_eq' (range _), if_pos (mem_range.2 (by omega)), mul_pow]
        ring) k hk
    exact sub_eq_zero.1 this
  refine Eq.trans ?_ (claim_split (r := r) (s := s i) (z := z) (by
      simpa only [sumCoeff, List.map_cons, List.map_nil, List.sum_cons, List.sum_nil, add_zero]
        using hcl))
  congr 1
  rw [sum_eq_single (4 * n - 1), if_pos rfl]
  · rw [sum_eq_single 0]
    · rw [hs0 _ (by omega), if_pos (by omega)]; ring
    · intro k hk hk0
      have := mem_range.1 hk
      rw [hs0 _ (by omega), if_neg (by omega), mul_zero]
    · intro hb
      exact absurd (mem_range.2 (by omega)) hb
  · intro e _ he
    rw [if_neg he, zero_mul]
  · intro hb
    exact absurd (mem_range.2 (by omega)) hb

/-- The same for the application circuit of a proof that is accepted. -/
theorem verify_unregistered (hA : AppOk C n P cs steps app) (hp : ProofTyped C n p)
    {ch : VerifyChallenges F G} (hv : verify C n P.headerSize app H p data ch = .ok true)
    (hi : app.nativeRegistry.circuits[p.application.circuitId]? = none) {header : List F}
    (he : EncodedAs P.headerSize H data header) :
    ∑ j ∈ range (4 * n), gateCoeff n (p.nativeRx (.rx .application)) j * ch.z ^ j +
      ∑ e ∈ range (4 * n), (if e = 4 * n - 1 then
        app.nativeRegistry.key * coeff (p.nativeRx (.rx .application)) 0 else 0) * ch.y ^ e =
      instanceAt (p.application.leftHeader ++ p.application.rightHeader ++ header) ch.y := by
  have hn := app_pos hA
  obtain ⟨ss, ss', hV⟩ := app_verifier hA
  obtain ⟨s, s', hs, -, hiff⟩ := C46_verify hV H data ch
  obtain ⟨header', he', ha⟩ := (hiff p hp).1 hv
  have : header' = header := by
    have h1 := (encodedAs_iff hA.params.header).1 he
    rw [(encodedAs_iff hA.params.header).1 he', Except.ok.injEq] at h1
    exact congrArg FixedVec.v h1
  subst this
  have hmem : (Claim.circuit p.application.circuitId (p.nativeRx (.rx .application)),
      instanceAt (p.application.leftHeader ++ p.application.rightHeader ++ header') ch.y) ∈
      claimTable [childOfProof p header' ch.y] 0 := by
    simp only [claimTable]
    simp [childOfProof]
  have hcl := ha.native _ hmem
  obtain ⟨bN, hR, hf⟩ := hV.native
  exact unregistered_split hA (fun i x => by
    rw [hs.1, (C23_restrictions hR hf _ x ch.y).1, Option.getD_some]) ha.inDomain hi hcl

theorem header_small (hA : AppOk C n P cs steps app) : 3 * P.headerSize < 4 * n := by
  obtain ⟨o, -, h2⟩ := app_entry hA .preambleStage
  obtain ⟨m, hm, -⟩ := h2
  have hm : StageMask.new n (preambleStage P.headerSize).skipGates
    (preambleStage P.headerSize).numGates = .ok m := hm
  rw [(C26_new n _ _).1] at hm
  split_ifs at hm with h1 h2
  simp only [preambleStage, stage, Chain.skipGates, Chain.numGates, Chain.values] at h1 h2
  omega

theorem getLastD_append_one (l : List F) (x : F) : instCoeff (l ++ [x]) 1 = x := by
  simp [instCoeff]

/-- The circuit claim about one polynomial and a circuit of the registry, as a sum. -/
theorem registry_claim_split {i : ℕ} {c : Circ F} (h : Holds C.native n app.nativeRegistry i c)
    {r : Sparse.Poly F} (hr : WellFormed (4 * n) r) {inst : List F} {v : ℕ → F}
    (hn : 0 < n)
    (hw : ∀ y, weigh (floorPlan c.counts) y (constraints (assignment n (floorPlan c.counts) r) c) =
      ∑ e ∈ range (4 * n), v e * y ^ e) {y z : F}
    (hcl : RegistryClaim C.native n app.nativeRegistry i r inst y z) :
    ∑ j ∈ range (4 * n), gateCoeff n r j * z ^ j +
      ∑ e ∈ range (4 * n), (v e + if e = 4 * n - 1 then
        app.nativeRegistry.digest * wireOf n r .c 0 else 0) * y ^ e = instanceAt inst y := by
  rw [registryClaim_iff h hr, hw, gateSum_coeffs, kyEval_instanceAt] at hcl
  simp only [add_mul, sum_add_distrib, ite_mul, zero_mul]
  rw [sum_ite_eq' (range _), if_pos (mem_range.2 (by omega))]
  linear_combination hcl

variable {ch : F → F → VerifyChallenges F G}

open Classical in
/-- Too many accepted pairs for a claim that cannot hold. -/
theorem too_many (hA : AppOk C n P cs steps app) {inst : List F} (hl : inst.length < 4 * n)
    {W : Finset (F × F)} (hsub : W ⊆ A ×ˢ A) (hmany : (8 * n - 2) * A.card < W.card)
    (r : Sparse.Poly F) {v : ℕ → F} (hv : v 0 ≠ 1 ∨ v 1 ≠ instCoeff inst 1)
    (h : ∀ q ∈ W, ∑ j ∈ range (4 * n), gateCoeff n r j * q.2 ^ j +
      ∑ e ∈ range (4 * n), v e * q.1 ^ e = instanceAt inst q.1) : False := by
  refine absurd (hmany.trans_le (le_trans (card_le_card fun q hq => ?_)
    (claim_rejected (app_pos hA) r hl hv A))) (lt_irrefl _)
  exact mem_filter.2 ⟨hsub hq, h q hq⟩

/-- A registered circuit whose output always ends with zero cannot be named. -/
theorem not_zero_circuit (hA : AppOk C n P cs steps app) (hp : ProofTyped C n p) {header : List F}
    {W : Finset (F × F)} (hW : ManyClaims n P.headerSize app.nativeRegistry p header A W)
    (hmany : (8 * n - 2) * A.card < W.card) (hlen : header.length = P.headerSize)
    {l : List F} {x : F} (hx : header = l ++ [x]) (hx0 : x ≠ 0) {c : Circ F} (hc : Compiles n c)
    {o : CircuitObject F} (ho : circuitObject n c = .ok o)
    (hi : app.nativeRegistry.circuits[p.application.circuitId]? = some o) (hne : c.outs ≠ [])
    {d : Chain} {code : List F → Syn F (List F)} (hr : Realizes d c code)
    (hz : ∀ es, (code es).Always fun os => os.getLastD 0 = 0) : False := by
  have hH := app_holds hA hc.1 ho hi
  have hn := app_pos hA
  have hN := (circuitY_coeff hH (0 : F)).2.1
  obtain ⟨q0, hq0⟩ : W.Nonempty := card_pos.1 (lt_of_le_of_lt (Nat.zero_le _) hW.many)
  have hcl := hW.claims q0 hq0
  obtain ⟨s, es, os, v, e1, e2, e3, e4, e5⟩ := weigh_low hc.1
    (assignment n (floorPlan c.counts) (p.nativeRx (.rx .application))) (N := 4 * n) hN.le hne
  refine too_many hA (inst := p.application.leftHeader ++ p.application.rightHeader ++ header)
    (by
      have := header_small hA
      rw [List.length_append, List.length_append, hcl.left, hcl.right, hlen]; omega)
    hW.sub hmany (p.nativeRx (.rx .application)) (v := fun e => v e + if e = 4 * n - 1 then
        app.nativeRegistry.digest * wireOf n (p.nativeRx (.rx .application)) .c 0 else 0) ?_
    fun q hq => registry_claim_split hH (hp.native _) hn e3
      ((circuit_claim hH hi (rxs := [p.nativeRx (.rx .application)]) (hp.native _)
        (by simp [sumCoeff])).1 ((hW.claims q hq).application o hi))
  rw [if_neg (by omega), if_neg (by omega), add_zero, add_zero, e4, e5, hx, ← List.append_assoc,
    getLastD_append_one]
  by_cases h1 : assignment n (floorPlan c.counts) (p.nativeRx (.rx .application)) ⟨.b, 0, 0⟩ = 1
  · right
    rw [h1] at e2
    rw [realizes_last hr hz h1 e1 e2]
    exact hx0.symm
  · exact .inl h1

/-- A mask cannot be named. -/
theorem not_mask (hA : AppOk C n P cs steps app) (hp : ProofTyped C n p) {header : List F}
    {W : Finset (F × F)} (hW : ManyClaims n P.headerSize app.nativeRegistry p header A W)
    (hmany : (8 * n - 2) * A.card < W.card) (hlen : header.length = P.headerSize)
    {skip num : ℕ} {m : StageMask} (hm : StageMask.new n skip num = .ok m)
    (hi : app.nativeRegistry.circuits[p.application.circuitId]? = some (m.object n)) : False := by
  have hn := app_pos hA
  obtain ⟨q0, hq0⟩ : W.Nonempty := card_pos.1 (lt_of_le_of_lt (Nat.zero_le _) hW.many)
  have hcl := hW.claims q0 hq0
  refine too_many hA (inst := p.application.leftHeader ++ p.application.rightHeader ++ header)
    (by
      have := header_small hA
      rw [List.length_append, List.length_append, hcl.left, hcl.right, hlen]; omega)
    hW.sub hmany (p.nativeRx (.rx .application))
    (v := maskTerm n skip num app.nativeRegistry.key (p.nativeRx (.rx .application)))
    (.inl (by rw [maskTerm_const hn]; exact zero_ne_one)) fun q hq => ?_
  obtain ⟨s, hs, hc⟩ := (hW.claims q hq).application _ hi
  rw [← mask_claim hm hn hs (hp.native _)]
  exact claim_split hc

/-- A proof with many valid claims names a step, if the header ends with an element other than zero. -/
theorem many_named (hA : AppOk C n P cs steps app) (hp : ProofTyped C n p) {header : List F}
    {W : Finset (F × F)} (hW : ManyClaims n P.headerSize app.nativeRegistry p header A W)
    (hmany : (8 * n - 2) * A.card < W.card) (hlen : header.length = P.headerSize)
    {l : List F} {x : F} (hx : header = l ++ [x]) (hsuf : x ≠ 0)
    (hun : app.nativeRegistry.circuits[p.application.circuitId]? = none → ∀ q ∈ W,
      ∑ j ∈ range (4 * n), gateCoeff n (p.nativeRx (.rx .application)) j * q.2 ^ j +
      ∑ e ∈ range (4 * n), (if e = 4 * n - 1 then
        app.nativeRegistry.key * coeff (p.nativeRx (.rx .application)) 0 else 0) * q.1 ^ e =
      instanceAt (p.application.leftHeader ++ p.application.rightHeader ++ header) q.1) :
    ∃ i : Index, i.circuitIndex steps.length = .ok p.application.circuitId := by
  classical
  have hn := app_pos hA
  by_contra hno
  have hcirc : app.nativeRegistry.circuits.length = 15 + steps.length := by
    obtain ⟨b, hb, hf⟩ := hA.built
    exact (C42_positions hb hf).2.1
  rcases lt_or_ge p.application.circuitId 13 with hid | hid
  · obtain ⟨id, hid⟩ : ∃ id, registryIndex id = p.application.circuitId := by
      have : ∀ k < 13, ∃ id : NativeId, registryIndex id = k := by
        intro k hk
        interval_cases k
        exacts [⟨.hashes1Circuit, rfl⟩, ⟨.hashes2Circuit, rfl⟩, ⟨.innerCollapseCircuit, rfl⟩,
          ⟨.outerCollapseCircuit, rfl⟩, ⟨.computeVCircuit, rfl⟩, ⟨.preambleStage, rfl⟩,
          ⟨.innerErrorStage, rfl⟩, ⟨.outerErrorStage, rfl⟩, ⟨.queryStage, rfl⟩, ⟨.evalStage, rfl⟩,
          ⟨.innerErrorFinalStaged, rfl⟩, ⟨.outerErrorFinalStaged, rfl⟩, ⟨.evalFinalStaged, rfl⟩]
      exact this _ hid
    obtain ⟨o, h1, h2⟩ := app_entry hA id
    rw [hid] at h1
    obtain ⟨S, hS, -⟩ := stages_exist n P.headerSize P.poseidon.T
      fun _ => (p.nativeRx (.rx .application))
    have inst : UnifiedInstance F := ⟨p.unifiedValue, fun _ => false⟩
    have ne : ∀ {c : Circ F} {k : ℕ}, c.outs.length = k + 1 → c.outs ≠ [] := by
      intro c k h hc
      rw [hc] at h
      cases h
    cases id with
    | hashes1Circuit =>
      exact not_zero_circuit hA hp hW hmany hlen hx hsuf (by rw [hA.log]; exact hA.circuits.hashes1) h2
        h1 (ne hA.fuse.hashes1.1) (hA.fuse.hashes1.2 S hS inst) (hashes1_zero P S inst)
    | hashes2Circuit =>
      exact not_zero_circuit hA hp hW hmany hlen hx hsuf hA.circuits.hashes2 h2 h1
        (ne hA.fuse.hashes2.1) (hA.fuse.hashes2.2 S hS inst) (hashes2_zero P S inst)
    | innerCollapseCircuit =>
      exact not_zero_circuit hA hp hW hmany hlen hx hsuf hA.circuits.inner h2 h1
        (ne hA.fuse.innerCollapse.1) (hA.fuse.innerCollapse.2 S hS inst) (innerCollapse_zero P S inst)
    | outerCollapseCircuit =>
      exact not_zero_circuit hA hp hW hmany hlen hx hsuf hA.circuits.outer h2 h1
        (ne hA.fuse.outerCollapse.1) (hA.fuse.outerCollapse.2 S hS inst) (outerCollapse_zero P S inst)
    | computeVCircuit =>
      exact not_zero_circuit hA hp hW hmany hlen hx hsuf hA.circuits.computeV h2 h1
        (ne hA.fuse.computeV.1) (hA.fuse.computeV.2 S hS inst) (computeV_zero P S inst)
    | preambleStage | innerErrorStage | outerErrorStage | queryStage | evalStage =>
      obtain ⟨m, hm, rfl⟩ := h2
      exact not_mask hA hp hW hmany hlen hm h1
    | innerErrorFinalStaged | outerErrorFinalStaged | evalFinalStaged =>
      obtain ⟨m, hm, rfl⟩ := h2
      exact not_mask hA hp hW hmany hlen (C26_final hm) h1
  rcases lt_or_ge p.application.circuitId (15 + steps.length) with hlt | hge
  · apply hno
    rcases Nat.lt_or_ge p.application.circuitId 15 with h15 | h15
    · obtain h | h : p.application.circuitId = 13 ∨ p.application.circuitId = 14 := by omega
      · exact ⟨.internal .rerandomize, by rw [h]; rfl⟩
      · exact ⟨.internal .trivial, by rw [h]; rfl⟩
    · refine ⟨.application (p.application.circuitId - 15), ?_⟩
      rw [Index.circuitIndex, if_neg (by omega)]
      show Except.ok (15 + (p.application.circuitId - 15)) = _
      rw [show 15 + (p.application.circuitId - 15) = p.application.circuitId by omega]
  · have hnone : app.nativeRegistry.circuits[p.application.circuitId]? = none := by
      rw [List.getElem?_eq_none_iff]; omega
    obtain ⟨q0, hq0⟩ := card_pos.1 (lt_of_le_of_lt (Nat.zero_le _) hmany)
    have hcl := hW.claims q0 hq0
    refine too_many hA (inst := p.application.leftHeader ++ p.application.rightHeader ++ header)
      (by
        have := header_small hA
        rw [List.length_append, List.length_append, hcl.left, hcl.right, hlen]; omega)
      hW.sub hmany (p.nativeRx (.rx .application))
      (v := fun e => if e = 4 * n - 1 then
        app.nativeRegistry.key * coeff (p.nativeRx (.rx .application)) 0 else 0)
      (.inl (by rw [if_neg (by omega)]; exact zero_ne_one)) fun q hq => ?_
    exact hun hnone q hq

/-- C71: a proof that is accepted for more than `(8 n - 2) |A|` of the pairs of challenges from `A`
names a step of the application: an internal step or a registered one. The verifier itself accepts every
index in the domain of the registry. -/
theorem C71_step (hA : AppOk C n P cs steps app) (hp : ProofTyped C n p)
    (hch : ∀ y z, (ch y z).y = y ∧ (ch y z).z = z) (hsuf : (H.suffix.get : F) ≠ 0)
    (hmany : (8 * n - 2) * A.card < (acceptedPairs C n P.headerSize app H p data ch A).card) :
    ∃ i : Index, i.circuitIndex steps.length = .ok p.application.circuitId := by
  classical
  have hn := app_pos hA
  have hmany' : (4 * n + 1) * A.card < (acceptedPairs C n P.headerSize app H p data ch A).card :=
    lt_of_le_of_lt (Nat.mul_le_mul_right _ (by omega)) hmany
  obtain ⟨header, he, hW⟩ := many_claims hA hp hch hmany'
  have hlen := encodedAs_length hA.params.header he
  obtain ⟨g, -, -, hx⟩ := id he
  refine many_named hA hp hW hmany hlen hx hsuf fun hnone q hq => ?_
  have := verify_unregistered hA hp (mem_filter.1 hq).2 hnone he
  rwa [(hch _ _).1, (hch _ _).2] at this

/-- The circuit of a step of the application. -/
def stepCircuit (cs : Circuits F G) (steps : List (StepDef F)) : Index → Option (Circ F)
  | .internal i => some (internalStepCircuit cs i)
  | .application k => steps[k]?.map (·.circ)

/-- C71: so the polynomial of the application circuit satisfies the circuit of the step that the proof
names, with the two input headers and the encoding of the carried data as public output. The circuits of
steps have three headers of output. -/
theorem C71_satisfied (hA : AppOk C n P cs steps app) (hp : ProofTyped C n p)
    (hch : ∀ y z, (ch y z).y = y ∧ (ch y z).z = z) (hsuf : (H.suffix.get : F) ≠ 0)
    (houts : ∀ i c, stepCircuit cs steps i = some c → c.outs.length = 3 * P.headerSize)
    (hmany : (8 * n - 2) * A.card < (acceptedPairs C n P.headerSize app H p data ch A).card) :
    ∃ i c header, i.circuitIndex steps.length = .ok p.application.circuitId ∧
      stepCircuit cs steps i = some c ∧ EncodedAs P.headerSize H data header ∧
      GatesHold n (p.nativeRx (.rx .application)) ∧
      Satisfies (assignment n (floorPlan c.counts) (p.nativeRx (.rx .application))) c
        (p.application.leftHeader ++ p.application.rightHeader ++ header) := by
  obtain ⟨i, hi⟩ := C71_step hA hp hch hsuf hmany
  have hn := app_pos hA
  have hmany' : (4 * n + 1) * A.card < (acceptedPairs C n P.headerSize app H p data ch A).card :=
    lt_of_le_of_lt (Nat.mul_le_mul_right _ (by omega)) hmany
  obtain ⟨b, hb, hf⟩ := hA.built
  obtain ⟨hnum, -, -, hint, happ, -⟩ := C42_positions hb hf
  have key : ∃ c, c.WellUsed ∧ stepCircuit cs steps i = some c ∧ ∃ o, circuitObject n c = .ok o ∧
      app.nativeRegistry.circuits[p.application.circuitId]? = some o := by
    cases i with
    | internal s =>
      obtain ⟨j, o, h1, h2, h3⟩ := hint s
      rw [hnum, hi, Except.ok.injEq] at h1
      subst h1
      refine ⟨_, ?_, rfl, o, h3, h2⟩
      cases s
      · exact hA.circuits.rerandomize.1
      · exact hA.circuits.trivial.1
    | application k =>
      have hk : k < steps.length := by
        by_contra hc
        rw [Index.circuitIndex, if_pos (by omega)] at hi
        cases hi
      obtain ⟨j, o, h1, h2, h3⟩ := happ k steps[k] (List.getElem?_eq_getElem hk)
      rw [hnum, hi, Except.ok.injEq] at h1
      subst h1
      exact ⟨_, hA.used _ (List.getElem_mem hk), by
        rw [stepCircuit, List.getElem?_eq_getElem hk]; rfl, o, h3, h2⟩
  obtain ⟨c, hu, hc, o, ho, hio⟩ := key
  obtain ⟨header, he, h1, h2⟩ := C70_application hA hp hch hmany' hu (houts i c hc) ho hio
  exact ⟨i, c, header, hi, hc, he, h1, h2⟩

end Ragu.Props

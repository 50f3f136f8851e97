/-
Proofs whose claims hold for all challenges, and why they are accepted.
-/
import Verif.Props.Accept
import Verif.Props.History

set_option linter.unusedSectionVars false

namespace Ragu.Props
open Ragu Ragu.Circuit Ragu.Registry Ragu.Spec Ragu.Gadget Ragu.Pcd Finset

section
variable {F : Type} [Field F] [DecidableEq F]

/-! ### Masks -/

/-- The polynomial passes the check of a mask at every point. -/
def MaskOk (n : ℕ) (o : CircuitObject F) (key : F) (r : Sparse.Poly F) : Prop :=
  ∀ y s, WiringCoeffs n o key y s → ∑ k ∈ range (4 * n), coeff r k * s (4 * n - 1 - k) = 0

theorem mask_ok {n skip num : ℕ} {m : StageMask} (h : StageMask.new n skip num = .ok m) (hn : 0 < n)
    {r : Sparse.Poly F} (hr : WellFormed (4 * n) r) (ho : OnlyIn n skip num r) (h0 : coeff r 0 = 0)
    (key : F) : MaskOk n (m.object n) key r := by
  intro y s hs
  rw [mask_claim h hn hs hr]
  refine sum_eq_zero fun e he => ?_
  rw [maskTerm, onlyIn_iff.1 ho e (mem_range.1 he), h0, mul_zero, ite_self, add_zero, zero_mul]

theorem rx_only {n : ℕ} {c : Chain} {alpha : F} {vs : List F} {p : Sparse.Poly F}
    (hp : c.rx n alpha vs = .ok p) :
    WellFormed (4 * n) p ∧ OnlyIn n c.skipGates c.numGates p ∧ coeff p 0 = 0 := by
  have hv : vs.length ≤ c.values := by
    by_contra hc
    rw [Chain.rx, if_pos (by omega)] at hp; cases hp
  have hn : c.skipGates + c.numGates ≤ n := by
    by_contra hc
    rw [rx_panics c alpha vs hv (by omega)] at hp; cases hp
  obtain ⟨q, q1, q2, q3⟩ := rx_spec (n := n) c alpha vs hv hn
  rw [hp, Except.ok.injEq] at q1; subst q1
  have hs := skip_pos c
  refine ⟨q2, fun j hj hmask k => ?_, (q3 0 (by omega)).2.1⟩
  obtain ⟨-, -, h3⟩ := C28_rx c alpha vs hp
  obtain ⟨hj0, hout⟩ := hmask
  have hval : c.values ≤ 2 * c.numGates := by rw [Chain.numGates]; omega
  refine h3 k j hj (fun e => hj0 (Prod.mk.inj e).2) fun i hi e => ?_
  have := (Prod.mk.inj e).2
  omega

/-- What a stage's polynomial passes. -/
theorem stage_mask_ok {n : ℕ} {c : Chain} {m : StageMask} (hm : c.mask n = .ok m) (hn : 0 < n)
    {alpha : F} {vs : List F} {p : Sparse.Poly F} (hp : c.rx n alpha vs = .ok p) (key : F) :
    MaskOk n (m.object n) key p := by
  obtain ⟨h1, h2, h3⟩ := rx_only hp
  exact mask_ok hm hn h1 h2 h3 key

/-- The final trace of a multi-stage circuit is zero on all gates of its stages. -/
theorem final_trace_only {n : ℕ} {c : Circ F} (hu : c.WellUsed) (hn : totalGates c.counts ≤ n)
    {ch : Chain} {k : Prog F} (hb : multiStage ch k = .ok c.body) {t : List (ASeg F)}
    (ht : TraceEval c t) {alpha : F} {r : Sparse.Poly F}
    (hr : assemble n (floorPlan c.counts) (t.map Prod.snd) alpha = .ok r) :
    WellFormed (4 * n) r ∧
    OnlyIn n (ch.skipGates + ch.numGates) (n - (ch.skipGates + ch.numGates)) r ∧ coeff r 0 = 0 := by
  have hf : StagesFit ch := ((C28_exact ch k).2.1).1 ⟨_, hb⟩
  rw [multiStage_eq ch k hf, Except.ok.injEq] at hb
  obtain ⟨r', hr', hwf, hval, -, -, hc0, -⟩ := C18_assemble hu hn ht alpha
  rw [hr, Except.ok.injEq] at hr'; subst hr'
  refine ⟨hwf, fun j hj hmask κ => ?_, hc0⟩
  obtain ⟨hj0, hout⟩ := hmask
  have hsk := skip_chain ch
  have hjs : j < 1 + chainGates ch := by omega
  have hseg := traceEval_segs hu ht
  have hroot := root_get c
  rw [← hseg, List.getElem?_map] at hroot
  obtain ⟨⟨path, g⟩, hg1, hg2⟩ := Option.map_eq_some_iff.1 hroot
  obtain ⟨g', e1, e2, e3, e4⟩ := own_allocs k (chainGates ch) ⟨[0], [0], [0], [(0 : F)]⟩
    ⟨rfl, rfl, rfl, by simp⟩
  have hgo : g = (own k g' none).1 := by
    simp only at hg2
    rw [hg2, ← hb, e1]
  have hlen : j < g.a.length := by
    rw [hgo]
    refine lt_of_lt_of_le ?_ (own_mono k g' none)
    rw [e3]; simpa using hjs
  have hz : ∀ κ, (g.col κ).getD j 0 = 0 := by
    intro κ
    rw [hgo, own_get k g' none e2 κ j (by rw [e3]; simpa using hjs) (by simp), e4]
    cases κ <;> simp [TSeg.col, List.getD_eq_getElem?_getD, hj0]
  obtain ⟨q1, q2, q3, q4⟩ := hval 0 path g hg1 j hlen (fun _ => by omega)
  simp only [assignment, absGate_root] at q1 q2 q3 q4
  cases κ
  · exact q1.trans (hz .a)
  · exact q2.trans (hz .b)
  · exact q3.trans (hz .c)
  · exact q4.trans (hz .d)

/-- The same for a trace that a registry assembles, for the circuit it holds. -/
theorem registry_trace_only {E : Env F} {n : ℕ} {R : Registry F} {i : ℕ} {c c0 : Circ F}
    (h : Holds E n R i c0) (hs : c.SameShape c0) {ch : Chain} {k : Prog F}
    (hb : multiStage ch k = .ok c.body) {t : List (ASeg F)} (ht : TraceEval c t) {alpha : F}
    {rf : Sparse.Poly F} (hrf : R.assembleWithAlpha n (t.map Prod.snd) i alpha = some (.ok rf)) :
    WellFormed (4 * n) rf ∧
    OnlyIn n (ch.skipGates + ch.numGates) (n - (ch.skipGates + ch.numGates)) rf ∧
    coeff rf 0 = 0 := by
  have hu : c.WellUsed := hs.wellUsed.2 h.used
  obtain ⟨hn, -, -⟩ := circuitY_coeff h (0 : F)
  rw [← hs.counts] at hn
  obtain ⟨q, b, ss, hrd, hf⟩ := h.registry
  obtain ⟨o, ho, hi⟩ := h.here
  obtain ⟨_, hg, hc⟩ := finalize_cases hrd hf
  obtain ⟨m, hm, ho'⟩ := circuitObject_ok ho
  have hseg := (registered h.used hm).2.2
  have hasm : assemble n (floorPlan c.counts) (t.map Prod.snd) alpha = .ok rf := by
    rw [Registry.assembleWithAlpha, hg.plans, List.getElem?_map, hi, Option.map_some,
      Option.map_some, ho', intoRawCircuitObject] at hrf
    simp only [hseg, Option.some.injEq] at hrf
    rw [hs.counts]; exact hrf
  exact final_trace_only hu hn hb ht hasm

/-- Polynomials that each pass a mask's check pass it together. -/
theorem fold_mask {n : ℕ} {o : CircuitObject F} {key : F} {rxs : List (Sparse.Poly F)}
    (h : ∀ r ∈ rxs, MaskOk n o key r) {y z : F} {s : ℕ → F} (hs : WiringCoeffs n o key y s) :
    ∑ k ∈ range (4 * n), foldCoeff z rxs k * s (4 * n - 1 - k) = 0 := by
  rw [fold_sum]
  refine sum_eq_zero fun i hi => ?_
  have hi := mem_range.1 hi
  rw [List.getD_eq_getElem?_getD, List.getElem?_eq_getElem hi, Option.getD_some,
    h _ (List.getElem_mem hi) y s hs, mul_zero]

theorem wiringCoeffs_unique {n : ℕ} {o : CircuitObject F} {key y : F} {s s' : ℕ → F}
    (h : WiringCoeffs n o key y s) (h' : WiringCoeffs n o key y s') : s = s' := by
  obtain ⟨p, p1, p2⟩ := h
  obtain ⟨p', p1', p2'⟩ := h'
  rw [p1, Option.some.injEq] at p1'
  subst p1'
  funext a
  rw [p2, p2']

end

variable {F G HC Data Out : Type} [Field F] [DecidableEq F] [Field G] [DecidableEq G]
  [AddCommGroup HC] [DecidableEq HC] [Module F HC]

/-! ### Proofs whose claims always hold -/

/-- The polynomials that a mask over the scalar field applies to. -/
def nestedBonded : NestedId → List NestedRx
  | .endoscalingStep _ => []
  | .endoscalarStage => [.endoscalarStage]
  | .pointsStage => [.pointsStage]
  | .pointsFinalStaged => (List.range NUM_ENDOSCALING_STEPS).map .endoscalingStep
  | .bridgePreamble => [.bridgePreamble]
  | .bridgeSPrime => [.bridgeSPrime]
  | .bridgeInnerError => [.bridgeInnerError]
  | .bridgeOuterError => [.bridgeOuterError]
  | .bridgeAB => [.bridgeAB]
  | .bridgeQuery => [.bridgeQuery]
  | .bridgeF => [.bridgeF]
  | .bridgeEval => [.bridgeEval]

/-- The claims over the scalar field hold whatever the challenges are: every polynomial passes its
mask, and every step of the endoscaling is satisfied. -/
structure NestedSettled (n : ℕ) (R : Registry G) (p : Proof F G HC) : Prop where
  steps : NUM_ENDOSCALING_STEPS ≤ p.p.nested.stepRxs.length
  typed : ∀ c r, p.nestedRx c = some r → WellFormed (4 * n) r
  masks : ∀ id ∈ NestedId.all, ∀ o, R.circuits[nestedIndex id]? = some o → ∀ c ∈ nestedBonded id,
    MaskOk n o R.key ((p.nestedRx c).getD [])
  circuits : ∀ i < NUM_ENDOSCALING_STEPS, ∀ o,
    R.circuits[nestedIndex (.endoscalingStep i)]? = some o → ∀ y z, CircuitClaim n o R.key
      [(p.nestedRx (.endoscalingStep i)).getD [], p.p.nested.endoscalarRx, p.p.nested.pointsRx] [] y z

/-- The claims of a proof that carries `header` hold whatever the challenges are. -/
structure Settled (C : CycleEnv F G HC) (n N : ℕ) (app : Application F G) (p : Proof F G HC)
    (header : List F) : Prop where
  consistent : ConsistentProof C n app.nativeRegistry p
  curve : ∀ x y, some (x, y) ∈ bridgePoints p → y ^ 2 = x ^ 3 + C.b
  inDomain : p.application.circuitId < app.nativeRegistry.circuits.length
  left : p.application.leftHeader.length = N
  right : p.application.rightHeader.length = N
  points : none ∉ bridgePoints p
  masks : ∀ id ∈ maskIds, ∀ o, app.nativeRegistry.circuits[registryIndex id]? = some o →
    ∀ i ∈ bondedParts id, MaskOk n o app.nativeRegistry.key (p.nativeRx (.rx i))
  circuits : ∀ id ∉ maskIds, ∀ o, app.nativeRegistry.circuits[registryIndex id]? = some o →
    ∀ y z, CircuitClaim n o app.nativeRegistry.key (rxsOf p (traceParts id)) (instanceOf p id) y z
  application : ∀ o, app.nativeRegistry.circuits[p.application.circuitId]? = some o →
    ∀ y z, CircuitClaim n o app.nativeRegistry.key [p.nativeRx (.rx .application)]
      (p.application.leftHeader ++ p.application.rightHeader ++ header) y z

section
variable {C : CycleEnv F G HC} {n : ℕ} {P : StepParams F} {cs : Circuits F G}
  {steps : List (StepDef F)} {app : Application F G}

theorem app_fits (hA : AppOk C n P cs steps app) :
    app.nativeRegistry.circuits.length ≤ app.nativeRegistry.domain.n ∧
    app.nativeRegistry.domain.n ≤ 2 ^ C.native.consts.S := by
  obtain ⟨bn, be, ss, ss', h1, h2, -, -⟩ := app_ready hA
  obtain ⟨-, hg, -⟩ := finalize_cases h1 h2
  have := hg.good.size
  exact ⟨by rw [this]; exact hg.len, by rw [this]; exact Nat.pow_le_pow_right (by norm_num) hg.hk⟩

theorem app_nested (hA : AppOk C n P cs steps app) {id : NestedId} (hid : id ∈ NestedId.all) : ∃ o,
    app.nestedRegistry.circuits[nestedIndex id]? = some o ∧ EntryObj n (nestedEntry n cs id) o := by
  obtain ⟨b, hb, hf⟩ := hA.built
  obtain ⟨i, o, h1, h2, h3⟩ := (C42_nested hb hf).2 id (nested_exists hid)
  rw [nestedIndex_eq hid, Option.some.injEq] at h1
  subst h1
  exact ⟨o, h2, (nested_entry id).2 h3⟩

/-- A proof whose claims always hold is typed. -/
theorem settled_typed (hA : AppOk C n P cs steps app) {N : ℕ} {p : Proof F G HC} {header : List F}
    (h : Settled C n N app p header) (hn : NestedSettled n app.nestedRegistry p) :
    ProofTyped C n p := by
  obtain ⟨bn, be, ss, ss', h1, h2, -, -⟩ := app_ready hA
  obtain ⟨f1, f2⟩ := app_fits hA
  have := h.inDomain
  exact ⟨fun c => (h.consistent.traces c).1, hn.typed, h.consistent.p_wf,
    (xy_wf h1 h2 h.consistent.registry).1, h.curve, by omega⟩

/-- The native claims of proofs whose claims always hold, at any challenges. -/
theorem settled_table {qs : List (Proof F G HC × List F)} {N : ℕ} (hA : AppOk C n P cs steps app)
    (h : ∀ q ∈ qs, Settled C n N app q.1 q.2) {y z : F} {s : ℕ → ℕ → F}
    (hs : ∀ (i : ℕ) o, app.nativeRegistry.circuits[i]? = some o →
      WiringCoeffs n o app.nativeRegistry.key y (s i)) :
    ∀ cv ∈ claimTable (qs.map fun q => childOfProof q.1 q.2 y) 0,
      ClaimTrue (4 * n) s (tCoeff n z) z cv.1 cv.2 := by
  intro cv hcv
  have circ : ∀ id ∉ maskIds, ∀ q ∈ qs, ClaimTrue (4 * n) s (tCoeff n z) z
      (internalClaim id (childOfProof q.1 q.2 y)) (instanceAt (instanceOf q.1 id) y) := by
    intro id hid q hq
    obtain ⟨o, ho, -⟩ := app_entry hA id
    obtain ⟨s', w1, w2⟩ := (h q hq).circuits id hid o ho y z
    rw [wiringCoeffs_unique w1 (hs _ _ ho)] at w2
    exact w2
  rw [claimTable] at hcv
  simp only [List.mem_append] at hcv
  rcases hcv with (((hcv | hcv) | hcv) | hcv) | hcv
  · rw [List.map_map] at hcv
    obtain ⟨q, hq, rfl⟩ := List.mem_map.1 hcv
    exact (h q hq).consistent.product.symm
  · rw [List.map_map] at hcv
    obtain ⟨q, hq, rfl⟩ := List.mem_map.1 hcv
    have hi := (h q hq).inDomain
    have ho := List.getElem?_eq_getElem hi
    obtain ⟨s', w1, w2⟩ := (h q hq).application _ ho y z
    rw [wiringCoeffs_unique w1 (hs _ _ ho)] at w2
    simpa only [ClaimTrue, claimLeft, claimRight, sumCoeff, List.map_cons, List.map_nil, List.sum_cons,
      List.sum_nil, add_zero, childOfProof, Function.comp_def] using w2
  · rw [List.map_map] at hcv
    obtain ⟨q, hq, rfl⟩ := List.mem_map.1 hcv
    exact circ .hashes1Circuit (by decide) q hq
  · simp only [List.mem_flatMap, List.mem_cons, List.not_mem_nil, or_false, List.mem_map,
      List.map_map] at hcv
    obtain ⟨id, hid, q', hq, rfl⟩ := hcv
    rcases hid with rfl | rfl | rfl | rfl
    · exact circ .hashes2Circuit (by decide) q' hq
    · exact circ .innerCollapseCircuit (by decide) q' hq
    · exact circ .outerCollapseCircuit (by decide) q' hq
    · exact circ .computeVCircuit (by decide) q' hq
  · obtain ⟨id, hid, rfl⟩ := List.mem_map.1 hcv
    obtain ⟨o, ho, -⟩ := app_entry hA id
    refine fold_mask (fun r hr => ?_) (hs _ _ ho)
    simp only [List.mem_flatMap, List.map_map, List.mem_map] at hr
    obtain ⟨i, hi, q, hq, rfl⟩ := hr
    exact (h q hq).masks id hid o ho i hi

theorem settled_nested (hA : AppOk C n P cs steps app) {p : Proof F G HC}
    (h : NestedSettled n app.nestedRegistry p) {y z : G} {s : ℕ → ℕ → G}
    (hs : ∀ (i : ℕ) o, app.nestedRegistry.circuits[i]? = some o →
      WiringCoeffs n o app.nestedRegistry.key y (s i)) :
    ∀ cv ∈ nestedTable (fun c => (p.nestedRx c).getD []) 1 0,
      NestedTrue (4 * n) s (tCoeff n z) z cv.1 cv.2 := by
  intro cv hcv
  rw [nestedTable, List.mem_append] at hcv
  rcases hcv with hcv | hcv
  · obtain ⟨i, hi, rfl⟩ := List.mem_map.1 hcv
    have hi := List.mem_range.1 hi
    obtain ⟨o, ho, -⟩ := app_nested hA (id := .endoscalingStep i)
      (List.mem_append_left _ (List.mem_map_of_mem (List.mem_range.2 hi)))
    obtain ⟨s', w1, w2⟩ := h.circuits i hi o ho y z
    rw [wiringCoeffs_unique w1 (hs _ _ ho)] at w2
    rw [show instanceAt ([] : List G) y = 1 by simp [instanceAt]] at w2
    exact w2
  · have : ∃ id ∈ NestedId.all, cv = (.bonding id ((nestedBonded id).map fun c =>
        (p.nestedRx c).getD []), 0) := by
      simp only [List.mem_cons, List.not_mem_nil, or_false] at hcv
      rcases hcv with rfl | rfl | rfl | rfl | rfl | rfl | rfl | rfl | rfl | rfl | rfl
      · exact ⟨.endoscalarStage, by decide, rfl⟩
      · exact ⟨.pointsStage, by decide, rfl⟩
      · exact ⟨.pointsFinalStaged, by decide, by rw [nestedBonded, List.map_map]; rfl⟩
      · exact ⟨.bridgePreamble, by decide, rfl⟩
      · exact ⟨.bridgeSPrime, by decide, rfl⟩
      · exact ⟨.bridgeInnerError, by decide, rfl⟩
      · exact ⟨.bridgeOuterError, by decide, rfl⟩
      · exact ⟨.bridgeAB, by decide, rfl⟩
      · exact ⟨.bridgeQuery, by decide, rfl⟩
      · exact ⟨.bridgeF, by decide, rfl⟩
      · exact ⟨.bridgeEval, by decide, rfl⟩
    obtain ⟨id, hid, rfl⟩ := this
    obtain ⟨o, ho, -⟩ := app_nested hA hid
    refine fold_mask (fun r hr => ?_) (hs _ _ ho)
    obtain ⟨c, hc, rfl⟩ := List.mem_map.1 hr
    exact h.masks id hid o ho c hc

/-- A proof whose claims always hold is accepted, whatever the verifier's challenges are. -/
theorem settled_accepted (hA : AppOk C n P cs steps app) {p : Proof F G HC} {header : List F}
    (h : Settled C n P.headerSize app p header) (hn : NestedSettled n app.nestedRegistry p)
    {H : Header F Data Out} {data : Data} (he : EncodedAs P.headerSize H data header)
    (ch : VerifyChallenges F G) : verify C n P.headerSize app H p data ch = .ok true := by
  obtain ⟨ss, ss', hV⟩ := app_verifier hA
  obtain ⟨s, s', hs, hs', hiff⟩ := C46_verify hV H data ch
  refine (hiff p (settled_typed hA h hn)).2 ⟨header, he, ?_⟩
  obtain ⟨f1, f2⟩ := app_fits hA
  have hd := h.inDomain
  refine ⟨by omega, h.left, h.right, h.points, hn.steps, settled_table (qs := [(p, header)]) hA
    (fun q hq => by rw [List.mem_singleton.1 hq]; exact h) hs.2,
    settled_nested hA hn hs'.2, ?_, ?_, ?_⟩
  · rw [h.consistent.p_value, C11_eval _ _ h.consistent.p_wf]
  · have := h.consistent.p_commit
    rw [C12_commit _ _ _ hA.repr _ _ h.consistent.p_wf hA.gens] at this
    exact Option.some.inj this
  · obtain ⟨b, hR, hf⟩ := hV.native
    obtain ⟨x1, x2⟩ := xy_wf hR hf h.consistent.registry
    rw [← C11_eval _ _ x1, x2]

/-- A proof as the internal circuits of the next fuse see it. -/
def childPublic (E : Env F) (p : Proof F G HC) (header : List F) : ChildPublic F :=
  ⟨p.application.leftHeader, p.application.rightHeader, header, omegaJ E p.application.circuitId,
    proofPublic p⟩

theorem values_table {E : Env F} {l r : Proof F G HC} {lh rh : List F} (hl : none ∉ bridgePoints l)
    (hr : none ∉ bridgePoints r) (y : F) :
    (claimTable [childOfProof l lh y, childOfProof r rh y] (0 : F)).map Prod.snd =
      claimedValues y (childPublic E l lh) (childPublic E r rh) ++ List.replicate 8 0 := by
  have e : ∀ (p : Proof F G HC) (h : List F), none ∉ bridgePoints p →
      (childOfProof p h y).app = (childPublic E p h).applicationInput y ∧
      (childOfProof p h y).bridge = (childPublic E p h).bridgeInput y ∧
      (childOfProof p h y).unified = (childPublic E p h).unifiedInput y := by
    intro p h hp
    refine ⟨rfl, ?_, ?_⟩
    · simp only [childOfProof, ChildPublic.bridgeInput, childPublic, proofPublic_list hp,
        ← List.append_assoc]
      rfl
    · simp only [childOfProof, ChildPublic.unifiedInput, childPublic, proofPublic_list hp]
      rfl
  obtain ⟨a1, a2, a3⟩ := e l lh hl
  obtain ⟨b1, b2, b3⟩ := e r rh hr
  rw [claimedValues, ← a1, ← a2, ← a3, ← b1, ← b2, ← b3]
  rfl

/-- If the claims about the children hold, the folded product is what the circuits want. -/
theorem folded_claims {E : Env F} {n numBits : ℕ} {r : Registry F} {y z : F} {s : ℕ → Sparse.Poly F}
    (hs : Pcd.Supplies E n r y s) {repr : F → List UInt8} (hr : ReprOk numBits repr) {gens : List HC}
    (hg : 4 * n ≤ gens.length) {src : FuseSource F G HC} {lh rh : List F}
    (hl : Committed (4 * n) numBits repr gens src.left)
    (hrt : Committed (4 * n) numBits repr gens src.right)
    (hlp : none ∉ bridgePoints src.left) (hrp : none ∉ bridgePoints src.right)
    (htab : ∀ cv ∈ claimTable [childOfProof src.left lh y, childOfProof src.right rh y] 0,
      ClaimTrue (4 * n) (fun i => coeff (s i)) (tCoeff n z) z cv.1 cv.2)
    {mu nu muPrime nuPrime : F} {o : FuseAB F HC}
    (ho : fuseAb E n numBits repr gens r src y z mu nu muPrime nuPrime = some o) :
    o.ab.c = stepClaim GROUP_SIZE NUM_GROUPS mu nu muPrime nuPrime o.innerErrors o.outerErrors
      (claimedValues y (childPublic E src.left lh) (childPublic E src.right rh)) := by
  set L := childOfProof src.left lh y with hL
  set R := childOfProof src.right rh y with hR
  obtain ⟨h0, h1⟩ := C50_fuse hs hr hg hl hrt (z := z) mu nu muPrime nuPrime L.app L.bridge L.unified
    R.app R.bridge R.unified
  obtain ⟨-, -, -, -, hc, tz, as, bs, ht, ha, hb, hcl, e1, e2, e3, e4, e5, e6⟩ := h1 o ho
  have hne : mu ≠ 0 ∧ muPrime ≠ 0 := by
    have := mt h0.2 (by rw [ho]; simp)
    tauto
  have hT : claimTable [childOf src.left L.app L.bridge L.unified,
      childOf src.right R.app R.bridge R.unified] (0 : F) = claimTable [L, R] 0 := rfl
  rw [hT] at hcl
  have ht' : coeff tz = tCoeff n z := funext fun k => tz_coeffs ht k
  have hlen : (claimTable [L, R] (0 : F)).length = 22 := rfl
  set ky := claimedValues y (childPublic E src.left lh) (childPublic E src.right rh) with hky
  have hv := values_table (E := E) (lh := lh) (rh := rh) hlp hrp y
  have hwf : (∀ p ∈ as, WellFormed (4 * n) p) ∧ ∀ p ∈ bs, WellFormed (4 * n) p := by
    constructor
    · intro p hp
      obtain ⟨i, hi, rfl⟩ := List.mem_iff_getElem.1 hp
      obtain ⟨a, b, q1, q2, q3⟩ := hcl i _ _ (List.getElem?_eq_getElem (by omega))
      rw [List.getElem?_eq_getElem hi] at q1
      cases q1
      exact q3.1
    · intro p hp
      obtain ⟨i, hi, rfl⟩ := List.mem_iff_getElem.1 hp
      obtain ⟨a, b, q1, q2, q3⟩ := hcl i _ _ (List.getElem?_eq_getElem (by omega))
      rw [List.getElem?_eq_getElem hi] at q2
      cases q2
      exact q3.2.1
  have hval : ∀ i, ky.getD i 0 = Sparse.revdot (4 * n) (as.getD i []) (bs.getD i []) := by
    intro i
    by_cases hi : i < 22
    · have hg := List.getElem?_eq_getElem (show i < (claimTable [L, R] (0 : F)).length by omega)
      obtain ⟨a, b, q1, q2, q3⟩ := hcl i _ _ hg
      rw [List.getD_eq_getElem?_getD, List.getD_eq_getElem?_getD (l := as),
        List.getD_eq_getElem?_getD (l := bs), q1, q2]
      have hm := htab _ (List.mem_of_getElem? hg)
      rw [← ht'] at hm
      have hm := (revdot_claim q3 _).2 hm
      show _ = Sparse.revdot (4 * n) a b
      rw [hm]
      have := congrArg (fun l => l[i]?) hv
      simp only [List.getElem?_map] at this
      rw [hg, Option.map_some, ← hky] at this
      by_cases h14 : i < 14
      · rw [List.getElem?_append_left (by exact h14)] at this
        rw [← this]; rfl
      · have hk14 : ky.length = 14 := rfl
        rw [List.getElem?_eq_none (by omega)]
        rw [List.getElem?_append_right (by omega), List.getElem?_replicate] at this
        rw [if_pos (by omega)] at this
        exact (Option.some.inj this).symm
    · have hk14 : ky.length = 14 := rfl
      rw [List.getD_eq_getElem?_getD, List.getElem?_eq_none (by omega),
        List.getD_eq_getElem?_getD (l := as), List.getElem?_eq_none (by omega)]
      have hw : WellFormed (4 * n) ([] : Sparse.Poly F) := trivial
      have hb' : bs.getD i [] = [] := by
        rw [List.getD_eq_getElem?_getD, List.getElem?_eq_none (by omega)]; rfl
      rw [hb', show (none : Option (Sparse.Poly F)).getD [] = [] from rfl, C11_revdot _ _ _ hw hw]
      symm
      simp
  obtain ⟨ie, A, B, oe, Ar, Br, k1, k2, k3, k4, k5, k6, l1, l2, l3, key⟩ := C43_two_layer
    (N := 4 * n) (m := GROUP_SIZE) (g := NUM_GROUPS) (by decide) (by decide) (ha.trans hb.symm)
    (by rw [ha]; decide) hwf.1 hwf.2 hval ⟨mu, mu⟩ ⟨nu, nu⟩ ⟨muPrime, muPrime⟩ ⟨nuPrime, nuPrime⟩
  rw [e1] at k1; cases k1
  rw [e2] at k2; cases k2
  rw [e3] at k3; cases k3
  rw [e4] at k4; cases k4
  rw [e5] at k5; cases k5
  rw [e6] at k6; cases k6
  have wm : ∀ l : List F, (l.map fun x => (⟨x, x⟩ : Element F)).map (·.wire) = l := fun l => by
    rw [List.map_map]; exact List.map_id l
  have vm : ∀ l : List F, (l.map fun x => (⟨x, x⟩ : Element F)).map (·.value) = l := fun l => by
    rw [List.map_map]; exact List.map_id l
  have := (key (fun k => (o.innerErrors.getD k []).map fun x => ⟨x, x⟩)
    (fun k => (kyGroup GROUP_SIZE ky k).map fun x => ⟨x, x⟩)
    (fun k => ⟨groupClaim GROUP_SIZE mu nu o.innerErrors ky k,
      groupClaim GROUP_SIZE mu nu o.innerErrors ky k⟩)
    (o.outerErrors.map fun x => ⟨x, x⟩)
    ⟨stepClaim GROUP_SIZE NUM_GROUPS mu nu muPrime nuPrime o.innerErrors o.outerErrors ky,
      stepClaim GROUP_SIZE NUM_GROUPS mu nu muPrime nuPrime o.innerErrors o.outerErrors ky⟩
    (fun k hk => ⟨wm _, wm _, by
      rw [C43_circuit (by
        rw [List.length_map]
        rw [List.getD_eq_getElem?_getD, List.getElem?_eq_getElem (by omega)]
        exact l2 _ (List.getElem_mem _)) (by rw [List.length_map]; simp [kyGroup, Fold.paddedGroup])]
      exact ⟨hne.1, by rw [wm, wm]; rfl, by rw [vm, vm]; rfl⟩⟩)
    (wm _) (by
      rw [C43_circuit (by rw [List.length_map]; exact l3) (by simp)]
      exact ⟨hne.2, by rw [wm]; simp only [List.map_map]; rfl,
        by rw [vm]; simp only [List.map_map]; rfl⟩)).2
  rw [hc]
  exact this.symm

end

end Ragu.Props

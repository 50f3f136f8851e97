/-
Property C70: what an accepted proof establishes.
-/
import Verif.Lemmas.Accept
import Verif.Lemmas.AcceptStages

set_option linter.unusedSectionVars false

namespace Ragu.Props
open Ragu Ragu.Circuit Ragu.Registry Ragu.Spec Ragu.Gadget Ragu.Pcd Finset
variable {F G HC Data Out : Type} [Field F] [DecidableEq F] [Field G] [DecidableEq G]
  [AddCommGroup HC] [DecidableEq HC] [Module F HC]

/-- The five internal circuits of a fuse are the ones their gadget code describes. -/
structure FuseCircuits (P : StepParams F) (cs : Circuits F G) : Prop where
  hashes1 : (cs.hashes1 P.logCircuits).outs.length = 29 + 2 * P.headerSize + 1 ∧
    ∀ S, StageTypes P.headerSize P.poseidon.T S → ∀ inst, Realizes
      (outerErrorStage P.headerSize P.poseidon.T) (cs.hashes1 P.logCircuits) (hashes1Code P S inst)
  hashes2 : cs.hashes2.outs.length = 30 ∧ ∀ S, StageTypes P.headerSize P.poseidon.T S → ∀ inst,
    Realizes (outerErrorStage P.headerSize P.poseidon.T) cs.hashes2 (hashes2Code P S inst)
  innerCollapse : cs.innerCollapse.outs.length = 30 ∧
    ∀ S, StageTypes P.headerSize P.poseidon.T S → ∀ inst, Realizes
      (innerErrorStage P.headerSize P.poseidon.T) cs.innerCollapse (innerCollapseCode P S inst)
  outerCollapse : cs.outerCollapse.outs.length = 30 ∧
    ∀ S, StageTypes P.headerSize P.poseidon.T S → ∀ inst, Realizes
      (outerErrorStage P.headerSize P.poseidon.T) cs.outerCollapse (outerCollapseCode P S inst)
  computeV : cs.computeV.outs.length = 30 ∧ ∀ S, StageTypes P.headerSize P.poseidon.T S → ∀ inst,
    Realizes (evalStage P.headerSize) cs.computeV (computeVCode P S inst)

/-- An application in order: it comes from registering `steps` and finalizing at a rank of `n` gates
with internal circuits `cs` that are those of the fuse, and the parameters `P` of the circuits are those
of the application. -/
structure AppOk (C : CycleEnv F G HC) (n : ℕ) (P : StepParams F) (cs : Circuits F G)
    (steps : List (StepDef F)) (app : Application F G) : Prop where
  env : EnvOk C.native
  env' : EnvOk C.nested
  rank : n = 2 ^ P.logRank
  room : P.logRank + 2 ≤ C.native.consts.S
  room' : P.logRank + 2 ≤ C.nested.consts.S
  keys : KeysDistinct C.native (P.logRank + 2)
  keys' : KeysDistinct C.nested (P.logRank + 2)
  built : ∃ b, registerSteps n steps {} = .ok b ∧
    b.finalize C.native C.nested n P.headerSize P.poseidon.T cs = .ok app
  used : ∀ s ∈ steps, s.circ.WellUsed
  circuits : CircuitsOk n steps.length cs
  repr : ReprOk C.numBits C.repr
  gens : 4 * n ≤ C.hostGens.length
  params : StepParamsOk P
  log : P.logCircuits = registryLog steps.length
  sameEnv : P.env = C.native
  sameCurve : P.b = C.b
  fuse : FuseCircuits P cs

section
variable {C : CycleEnv F G HC} {n : ℕ} {P : StepParams F} {cs : Circuits F G}
  {steps : List (StepDef F)} {app : Application F G}

theorem app_pos (hA : AppOk C n P cs steps app) : 0 < n := by rw [hA.rank]; positivity

theorem app_ready (hA : AppOk C n P cs steps app) : ∃ bn be ss ss',
    Ready C.native n (P.logRank + 2) bn ss ∧ bn.finalize C.native n = .ok app.nativeRegistry ∧
    Ready C.nested n (P.logRank + 2) be ss' ∧ be.finalize C.nested n = .ok app.nestedRegistry := by
  obtain ⟨b, hb, hf⟩ := hA.built
  have hq : 4 * n = 2 ^ (P.logRank + 2) := by rw [hA.rank, pow_add]; ring
  have hh := registerSteps_holds steps [] {} b (holds_empty n) hb
  rw [List.nil_append] at hh
  rw [AppBuilder.finalize] at hf
  rcases hr : b.registries n P.headerSize P.poseidon.T cs with e | ⟨bn, be⟩
  · rw [hr] at hf; cases hf
  · rw [hr] at hf
    obtain ⟨in1, in2⟩ := registries_implement hh hA.used hA.circuits hr
    obtain ⟨s1, hs1⟩ := allImplement_exists _ in1
    obtain ⟨s2, hs2⟩ := allImplement_exists _ in2
    simp only [bind, Except.bind] at hf
    rcases hn : bn.finalize C.native n with e | r
    · rw [hn] at hf; cases e <;> cases hf
    · rw [hn] at hf
      simp only [liftFinalize] at hf
      rcases he : be.finalize C.nested n with e | r'
      · rw [he] at hf; cases e <;> cases hf
      · rw [he] at hf
        cases hf
        exact ⟨bn, be, s1, s2, ⟨hA.env, hq, hA.room, hA.keys, hs1⟩, hn,
          ⟨hA.env', hq, hA.room', hA.keys', hs2⟩, he⟩

theorem app_verifier (hA : AppOk C n P cs steps app) : ∃ ss ss',
    VerifierOk C n P.headerSize (P.logRank + 2) (P.logRank + 2) app ss ss' := by
  obtain ⟨bn, be, ss, ss', h1, h2, h3, h4⟩ := app_ready hA
  exact ⟨ss, ss', ⟨bn, h1, h2⟩, ⟨be, h3, h4⟩, hA.params.header, hA.repr, hA.gens⟩

theorem app_holds (hA : AppOk C n P cs steps app) {i : ℕ} {c : Circ F} (hu : c.WellUsed)
    {o : CircuitObject F} (ho : circuitObject n c = .ok o)
    (hi : app.nativeRegistry.circuits[i]? = some o) : Holds C.native n app.nativeRegistry i c := by
  obtain ⟨bn, be, ss, ss', h1, h2, -, -⟩ := app_ready hA
  exact ⟨hu, ⟨_, bn, ss, h1, h2⟩, o, ho, hi⟩

theorem registryIndex_eq (id : NativeId) : id.circuitIndex = some (registryIndex id) := by
  cases id <;> rfl

/-- What the registry holds for an internal circuit or mask. -/
theorem app_entry (hA : AppOk C n P cs steps app) (id : NativeId) : ∃ o,
    app.nativeRegistry.circuits[registryIndex id]? = some o ∧
    EntryObj n (nativeEntry n P.headerSize P.poseidon.T P.logCircuits cs id) o := by
  obtain ⟨b, hb, hf⟩ := hA.built
  obtain ⟨i, o, h1, h2, h3⟩ := (C42_positions hb hf).2.2.1 id
  rw [registryIndex_eq, Option.some.injEq] at h1
  subst h1
  exact ⟨o, h2, by rw [native_entry, hA.log]; exact h3⟩

/-- The polynomials that a mask applies to, or that a circuit's trace is split into. -/
def rxsOf (p : Proof F G HC) (l : List RxIndex) : List (Sparse.Poly F) :=
  l.map fun i => p.nativeRx (.rx i)

/-- The identifiers of the masks. -/
def maskIds : List NativeId :=
  [.preambleStage, .innerErrorStage, .outerErrorStage, .queryStage, .evalStage,
    .innerErrorFinalStaged, .outerErrorFinalStaged, .evalFinalStaged]

/-- The public input of an internal circuit. -/
def instanceOf (p : Proof F G HC) : NativeId → List F
  | .hashes1Circuit => unifiedInstance p ++
      (p.application.leftHeader ++ p.application.rightHeader) ++ [0]
  | _ => unifiedInstance p ++ [0]

/-- What acceptance says, claim by claim. -/
structure ClaimsHold (n N : ℕ) (R : Registry F) (p : Proof F G HC) (header : List F) (y z : F) :
    Prop where
  inDomain : p.application.circuitId < R.domain.n
  left : p.application.leftHeader.length = N
  right : p.application.rightHeader.length = N
  points : none ∉ bridgePoints p
  masks : ∀ id ∈ maskIds, ∀ o, R.circuits[registryIndex id]? = some o →
    BondingClaim n o R.key (rxsOf p (bondedParts id)) y z
  circuits : ∀ id ∉ maskIds, ∀ o, R.circuits[registryIndex id]? = some o →
    CircuitClaim n o R.key (rxsOf p (traceParts id)) (instanceOf p id) y z
  application : ∀ o, R.circuits[p.application.circuitId]? = some o →
    CircuitClaim n o R.key [p.nativeRx (.rx .application)]
      (p.application.leftHeader ++ p.application.rightHeader ++ header) y z

theorem verify_claims (hA : AppOk C n P cs steps app) {H : Header F Data Out} {data : Data}
    {p : Proof F G HC} (hp : ProofTyped C n p) {ch : VerifyChallenges F G}
    (hv : verify C n P.headerSize app H p data ch = .ok true) :
    ∃ header, EncodedAs P.headerSize H data header ∧
      ClaimsHold n P.headerSize app.nativeRegistry p header ch.y ch.z := by
  obtain ⟨ss, ss', hV⟩ := app_verifier hA
  obtain ⟨s, s', hs, -, hiff⟩ := C46_verify hV H data ch
  obtain ⟨header, he, ha⟩ := (hiff p hp).1 hv
  refine ⟨header, he, ha.inDomain, ha.left, ha.right, ha.points, ?_, ?_, ?_⟩
  · intro id hid o ho
    refine ⟨_, hs.2 _ _ ho, ?_⟩
    have : (bondingClaim id [childOfProof p header ch.y], (0 : F)) ∈
        claimTable [childOfProof p header ch.y] 0 := by
      rw [claimTable, List.mem_append]
      exact .inr (List.mem_map.2 ⟨id, hid, rfl⟩)
    have := ha.native _ this
    rw [ClaimTrue] at this
    simp only [bondingClaim, claimLeft, claimRight, List.map_cons, List.map_nil] at this
    rw [show rxsOf p (bondedParts id) = (bondedParts id).flatMap fun i =>
      [(childOfProof p header ch.y).rx (.rx i)] by rw [rxsOf, List.map_eq_flatMap]; rfl]
    exact this
  · intro id hid o ho
    refine ⟨_, hs.2 _ _ ho, ?_⟩
    have : (internalClaim id (childOfProof p header ch.y), instanceAt (instanceOf p id) ch.y) ∈
        claimTable [childOfProof p header ch.y] 0 := by
      revert hid
      cases id <;> intro hid <;>
        first
        | (exact absurd (by decide) hid)
        | (simp only [claimTable, instanceOf]; simp [childOfProof, internalClaim, bondingClaim])
    exact ha.native _ this
  · intro o ho
    refine ⟨_, hs.2 _ _ ho, ?_⟩
    have : (Claim.circuit p.application.circuitId (p.nativeRx (.rx .application)),
        instanceAt (p.application.leftHeader ++ p.application.rightHeader ++ header) ch.y) ∈
        claimTable [childOfProof p header ch.y] 0 := by
      simp only [claimTable]
      simp [childOfProof]
    have := ha.native _ this
    rw [ClaimTrue] at this
    simp only [claimLeft, claimRight] at this
    simpa only [sumCoeff, List.map_cons, List.map_nil, List.sum_cons, List.sum_nil, add_zero] using this

/-! ### From many accepted challenges to the stages -/

theorem unifiedInstance_length {p : Proof F G HC} (h : none ∉ bridgePoints p) :
    (unifiedInstance p).length = 29 := by
  have hx : ∀ c ∈ bridgePoints p, (xy c).length = 2 := by
    intro c hc
    cases c with
    | none => exact absurd hc h
    | some q => rfl
  simp only [bridgePoints, List.forall_mem_cons] at hx
  obtain ⟨h1, h2, h3, h4, h5, h6, h7, h8, -⟩ := hx
  simp only [unifiedInstance, List.length_append, h1, h2, h3, h4, h5, h6, h7, h8, List.length_cons,
    List.length_nil]

theorem proofPublic_list {p : Proof F G HC} (h : none ∉ bridgePoints p) :
    (proofPublic p).toList = unifiedInstance p := by
  have hx : ∀ c ∈ bridgePoints p, xy c = [(c.getD (0, 0)).1, (c.getD (0, 0)).2] := by
    intro c hc
    cases c with
    | none => exact absurd hc h
    | some q => rfl
  simp only [bridgePoints, List.forall_mem_cons] at hx
  obtain ⟨h1, h2, h3, h4, h5, h6, h7, h8, -⟩ := hx
  simp only [unifiedInstance, h1, h2, h3, h4, h5, h6, h7, h8]
  rfl

theorem rxs_wf {p : Proof F G HC} (hp : ProofTyped C n p) (l : List RxIndex) :
    ∀ r ∈ rxsOf p l, WellFormed (4 * n) r := by
  intro r hr
  obtain ⟨i, -, rfl⟩ := List.mem_map.1 hr
  exact hp.native _

/-- Many pairs of challenges from `A` for which the claims of the proof hold. -/
structure ManyClaims (n N : ℕ) (R : Registry F) (p : Proof F G HC) (header : List F) (A : Finset F)
    (W : Finset (F × F)) : Prop where
  sub : W ⊆ A ×ˢ A
  many : (4 * n + 1) * A.card < W.card
  claims : ∀ q ∈ W, ClaimsHold n N R p header q.1 q.2

section
variable {p : Proof F G HC} {header : List F} {A : Finset F} {W : Finset (F × F)}

open Classical in
theorem mask_only (hA : AppOk C n P cs steps app) (hp : ProofTyped C n p)
    (hW : ManyClaims n P.headerSize app.nativeRegistry p header A W) {id : NativeId}
    (hid : id ∈ maskIds) {skip num : ℕ} {m : StageMask} (hm : StageMask.new n skip num = .ok m)
    (ho : app.nativeRegistry.circuits[registryIndex id]? = some (m.object n)) :
    ∀ i ∈ bondedParts id, OnlyIn n skip num (p.nativeRx (.rx i)) := by
  have hl : (rxsOf p (bondedParts id)).length ≤ 3 := by
    rw [rxsOf, List.length_map]
    cases id <;> decide
  have hn := app_pos hA
  intro i hi
  refine bonding_sound hm hn app.nativeRegistry.key (rxs_wf hp _) A ?_ _ (List.mem_map_of_mem hi)
  calc (4 * n - 1 + ((rxsOf p (bondedParts id)).length - 1)) * A.card
      ≤ (4 * n + 1) * A.card := Nat.mul_le_mul_right _ (by omega)
    _ < W.card := hW.many
    _ ≤ _ := card_le_card fun q hq => mem_filter.2
        ⟨hW.sub hq, (hW.claims q hq).masks id hid _ ho⟩

theorem stage_only (hA : AppOk C n P cs steps app) (hp : ProofTyped C n p)
    (hW : ManyClaims n P.headerSize app.nativeRegistry p header A W) {id : NativeId}
    (hid : id ∈ maskIds) {d : Chain}
    (hd : nativeEntry n P.headerSize P.poseidon.T P.logCircuits cs id = .mask (d.mask n)) :
    ∀ i ∈ bondedParts id, OnlyIn n d.skipGates d.numGates (p.nativeRx (.rx i)) := by
  obtain ⟨o, h1, h2⟩ := app_entry hA id
  rw [hd] at h2
  obtain ⟨m, hm, rfl⟩ := h2
  exact mask_only hA hp hW hid hm h1

theorem final_only (hA : AppOk C n P cs steps app) (hp : ProofTyped C n p)
    (hW : ManyClaims n P.headerSize app.nativeRegistry p header A W) {id : NativeId}
    (hid : id ∈ maskIds) {d : Chain}
    (hd : nativeEntry n P.headerSize P.poseidon.T P.logCircuits cs id = .mask (d.finalMask n)) :
    ∀ i ∈ bondedParts id, OnlyIn n (d.skipGates + d.numGates) (n - (d.skipGates + d.numGates))
      (p.nativeRx (.rx i)) := by
  obtain ⟨o, h1, h2⟩ := app_entry hA id
  rw [hd] at h2
  obtain ⟨m, hm, rfl⟩ := h2
  exact mask_only hA hp hW hid (C26_final hm) h1

open Classical in
/-- The code of an internal circuit is satisfiable on the values that the stages' polynomials hold. -/
theorem code_sat (hA : AppOk C n P cs steps app) (hp : ProofTyped C n p)
    (hW : ManyClaims n P.headerSize app.nativeRegistry p header A W) {id : NativeId}
    (hid : id ∉ maskIds) {c : Circ F} (hc : Compiles n c)
    (he : nativeEntry n P.headerSize P.poseidon.T P.logCircuits cs id = .circuit c)
    (hl : (instanceOf p id).length = c.outs.length) {d : Chain} {x : List F → Syn F (List F)}
    (hx : Realizes d c x) {own : RxIndex} {parts : List (Chain × RxIndex)}
    (htr : traceParts id = own :: parts.map Prod.snd) (hnd : (parts.map Prod.fst).Nodup)
    (hin : ∀ q ∈ parts, InChain q.1 d ∧ 0 < q.1.values ∧
      OnlyIn n q.1.skipGates q.1.numGates (p.nativeRx (.rx q.2)))
    (hown : OnlyIn n (d.skipGates + d.numGates) (n - (d.skipGates + d.numGates))
      (p.nativeRx (.rx own))) :
    ∃ es, (∀ q ∈ parts, WiresOf n q.1 (p.nativeRx (.rx q.2)) es) ∧ (x es).sat (instanceOf p id) := by
  obtain ⟨o, h1, h2⟩ := app_entry hA id
  rw [he] at h2
  have hH := app_holds hA hc.1 h2 h1
  obtain ⟨r, -, hr, hrc⟩ := sumPolynomials_spec (4 * n) (rxsOf p (traceParts id))
    (by rw [htr]; simp [rxsOf]) (rxs_wf hp _)
  have hn := app_pos hA
  obtain ⟨es, -, e2, -, e4⟩ := C67_sound hH hx
    (parts := parts.map fun q => (q.1, p.nativeRx (.rx q.2)))
    (by rw [List.map_map]; exact hnd)
    (by
      intro q hq
      obtain ⟨q', hq', rfl⟩ := List.mem_map.1 hq
      exact (hin q' hq').1)
    (by
      intro q hq
      obtain ⟨q', hq', rfl⟩ := List.mem_map.1 hq
      exact (hin q' hq').2.2) hown hr
    (by
      intro a
      rw [hrc, htr]
      simp only [rxsOf, sumCoeff, List.map_cons, List.map_map, List.sum_cons, Function.comp_def]) hl A
    (calc (4 * n - 1) * A.card ≤ (4 * n + 1) * A.card := Nat.mul_le_mul_right _ (by omega)
      _ < W.card := hW.many
      _ ≤ _ := card_le_card fun q hq => mem_filter.2 ⟨hW.sub hq,
          (circuit_claim hH h1 hr hrc).1 ((hW.claims q hq).circuits id hid _ h1)⟩)
  refine ⟨es, fun q hq => ?_, e4⟩
  exact wires_stageValues (hin q hq).2.1 (e2 _ (List.mem_map_of_mem hq))

theorem sat_ret_bind {α β : Type} (a : α) (f : α → Syn F β) (r : β) :
    ((Syn.ret a : Syn F α) >>= f).sat r ↔ (f a).sat r := Iff.rfl

theorem sat_wires {α : Type} {x : Syn F (List (Element F) × α)} {l : List F}
    (h : (x >>= fun r => (pure (r.1.map (·.wire)) : Syn F (List F))).sat l) :
    ∃ r, x.sat r ∧ r.1.map (·.wire) = l := by
  rw [Syn.sat_bind] at h
  obtain ⟨r, h1, h2⟩ := h
  exact ⟨r, h1, h2.symm⟩

theorem stages_nodup (N T : ℕ) :
    preambleStage N ≠ outerErrorStage N T ∧ preambleStage N ≠ innerErrorStage N T ∧
    outerErrorStage N T ≠ innerErrorStage N T ∧ preambleStage N ≠ queryStage N ∧
    preambleStage N ≠ evalStage N ∧ queryStage N ≠ evalStage N := by
  refine ⟨?_, ?_, ?_, ?_, ?_, ?_⟩ <;>
    simp [preambleStage, outerErrorStage, innerErrorStage, queryStage, evalStage, stage]

/-- The stages of the proof satisfy the five circuits. -/
theorem stages_hold [Finite F] (hA : AppOk C n P cs steps app) (hp : ProofTyped C n p)
    (hW : ManyClaims n P.headerSize app.nativeRegistry p header A W) :
    ∃ S, StageTypes P.headerSize P.poseidon.T S ∧
      StagesOf n P.headerSize P.poseidon.T (fun i => p.nativeRx (.rx i)) S ∧
      p.application.leftHeader = S.preamble.left.public.outputHeader ∧
      p.application.rightHeader = S.preamble.right.public.outputHeader ∧
      StagesHold P S (proofPublic p) := by
  obtain ⟨q, hq⟩ : W.Nonempty := card_pos.1 (lt_of_le_of_lt (Nat.zero_le _) hW.many)
  have hcl := hW.claims q hq
  obtain ⟨S, hS, hO⟩ := stages_exist n P.headerSize P.poseidon.T fun i => p.nativeRx (.rx i)
  have hpub := proofPublic_list hcl.points
  let inst : UnifiedInstance F := ⟨p.unifiedValue, fun _ => false⟩
  have l30 : ∀ id, id ≠ .hashes1Circuit → (instanceOf p id).length = 30 := by
    intro id hid
    have : instanceOf p id = unifiedInstance p ++ [0] := by
      cases id <;> first | exact absurd rfl hid | rfl
    rw [this, List.length_append, unifiedInstance_length hcl.points]
    rfl
  -- the polynomials are confined to their stages
  have o1 := stage_only hA hp hW (id := .preambleStage) (by decide) rfl .preamble (by decide)
  have o2 := stage_only hA hp hW (id := .outerErrorStage) (by decide) rfl .outerError (by decide)
  have o3 := stage_only hA hp hW (id := .innerErrorStage) (by decide) rfl .innerError (by decide)
  have o4 := stage_only hA hp hW (id := .queryStage) (by decide) rfl .query (by decide)
  have o5 := stage_only hA hp hW (id := .evalStage) (by decide) rfl .eval (by decide)
  have f1 := final_only hA hp hW (id := .outerErrorFinalStaged) (by decide) rfl
  have f2 := final_only hA hp hW (id := .innerErrorFinalStaged) (by decide) rfl .innerCollapse
    (by decide)
  have f3 := final_only hA hp hW (id := .evalFinalStaged) (by decide) rfl .computeV (by decide)
  obtain ⟨d1, d2, d3, d4, d5, d6⟩ := stages_nodup P.headerSize P.poseidon.T
  have v1 : 0 < (preambleStage P.headerSize).values := by simp [preambleStage, stage, Chain.values]
  have v2 : 0 < (outerErrorStage P.headerSize P.poseidon.T).values := by
    simp [outerErrorStage, stage, Chain.values]
  have v3 : 0 < (innerErrorStage P.headerSize P.poseidon.T).values := by
    show 0 < NUM_GROUPS * numErrorTerms GROUP_SIZE
    decide
  have v4 : 0 < (queryStage P.headerSize).values := by simp [queryStage, stage, Chain.values]
  have v5 : 0 < (evalStage P.headerSize).values := by simp [evalStage, stage, Chain.values]
  have hcs := hA.circuits
  have a1 : InChain (preambleStage P.headerSize) (outerErrorStage P.headerSize P.poseidon.T) :=
    .inr (.parent _ _)
  have a2 : InChain (preambleStage P.headerSize) (innerErrorStage P.headerSize P.poseidon.T) :=
    .inr (.step _ (.parent _ _))
  have a3 : InChain (outerErrorStage P.headerSize P.poseidon.T)
    (innerErrorStage P.headerSize P.poseidon.T) := .inr (.parent _ _)
  have a4 : InChain (preambleStage P.headerSize) (evalStage P.headerSize) :=
    .inr (.step _ (.parent _ _))
  have a5 : InChain (queryStage P.headerSize) (evalStage P.headerSize) := .inr (.parent _ _)
  -- the codes are satisfiable
  obtain ⟨es1, w1, x1⟩ := code_sat hA hp hW (id := .hashes1Circuit) (by decide)
    (by rw [hA.log]; exact hcs.hashes1) rfl
    (by
      rw [hA.fuse.hashes1.1]
      simp only [instanceOf, List.length_append, unifiedInstance_length hcl.points, hcl.left,
        hcl.right, List.length_singleton]
      omega) (hA.fuse.hashes1.2 S hS inst) (own := .hashes1)
    (parts := [(preambleStage P.headerSize, .preamble),
      (outerErrorStage P.headerSize P.poseidon.T, .outerError)]) rfl (by simp [d1])
    (by
      simp only [List.forall_mem_cons]
      exact ⟨⟨a1, v1, o1⟩, ⟨.inl rfl, v2, o2⟩, by simp⟩) (f1 _ (by decide))
  obtain ⟨es2, w2, x2⟩ := code_sat hA hp hW (id := .hashes2Circuit) (by decide) hcs.hashes2 rfl
    (by rw [hA.fuse.hashes2.1]; exact l30 _ (by decide)) (hA.fuse.hashes2.2 S hS inst)
    (own := .hashes2) (parts := [(outerErrorStage P.headerSize P.poseidon.T, .outerError)]) rfl
    (by simp)
    (by
      simp only [List.forall_mem_cons]
      exact ⟨⟨.inl rfl, v2, o2⟩, by simp⟩) (f1 _ (by decide))
  obtain ⟨es3, w3, x3⟩ := code_sat hA hp hW (id := .innerCollapseCircuit) (by decide) hcs.inner rfl
    (by rw [hA.fuse.innerCollapse.1]; exact l30 _ (by decide)) (hA.fuse.innerCollapse.2 S hS inst)
    (own := .innerCollapse) (parts := [(preambleStage P.headerSize, .preamble),
      (innerErrorStage P.headerSize P.poseidon.T, .innerError),
      (outerErrorStage P.headerSize P.poseidon.T, .outerError)]) rfl
    (by simp [d1, d2, d3.symm])
    (by
      simp only [List.forall_mem_cons]
      exact ⟨⟨a2, v1, o1⟩, ⟨.inl rfl, v3, o3⟩, ⟨a3, v2, o2⟩, by simp⟩) f2
  obtain ⟨es4, w4, x4⟩ := code_sat hA hp hW (id := .outerCollapseCircuit) (by decide) hcs.outer rfl
    (by rw [hA.fuse.outerCollapse.1]; exact l30 _ (by decide)) (hA.fuse.outerCollapse.2 S hS inst)
    (own := .outerCollapse) (parts := [(preambleStage P.headerSize, .preamble),
      (outerErrorStage P.headerSize P.poseidon.T, .outerError)]) rfl (by simp [d1])
    (by
      simp only [List.forall_mem_cons]
      exact ⟨⟨a1, v1, o1⟩, ⟨.inl rfl, v2, o2⟩, by simp⟩) (f1 _ (by decide))
  obtain ⟨es5, w5, x5⟩ := code_sat hA hp hW (id := .computeVCircuit) (by decide) hcs.computeV rfl
    (by rw [hA.fuse.computeV.1]; exact l30 _ (by decide)) (hA.fuse.computeV.2 S hS inst)
    (own := .computeV) (parts := [(preambleStage P.headerSize, .preamble),
      (queryStage P.headerSize, .query), (evalStage P.headerSize, .eval)]) rfl
    (by simp [d4, d5, d6])
    (by
      simp only [List.forall_mem_cons]
      exact ⟨⟨a4, v1, o1⟩, ⟨a5, v4, o4⟩, ⟨.inl rfl, v5, o5⟩, by simp⟩) f3
  simp only [List.forall_mem_cons] at w1 w2 w3 w4 w5
  -- their stages are the gadgets `S`
  rw [hashes1Code, preambleGuard_own hS hO w1.1, sat_ret_bind, outerErrorGuard_own hS hO w1.2.1,
    sat_ret_bind] at x1
  rw [hashes2Code, outerErrorGuard_own hS hO w2.1, sat_ret_bind] at x2
  rw [innerCollapseCode, preambleGuard_own hS hO w3.1, sat_ret_bind,
    outerErrorGuard_own hS hO w3.2.2.1, sat_ret_bind, innerErrorGuard_own hS hO w3.2.1,
    sat_ret_bind] at x3
  rw [outerCollapseCode, preambleGuard_own hS hO w4.1, sat_ret_bind,
    outerErrorGuard_own hS hO w4.2.1, sat_ret_bind] at x4
  rw [computeVCode, preambleGuard_own hS hO w5.1, sat_ret_bind, queryGuard_own hO w5.2.1,
    sat_ret_bind, evalGuard_own hO w5.2.2.1, sat_ret_bind] at x5
  obtain ⟨r1, y1, z1⟩ := sat_wires x1
  obtain ⟨r2, y2, z2⟩ := sat_wires x2
  obtain ⟨r3, y3, z3⟩ := sat_wires x3
  obtain ⟨r4, y4, z4⟩ := sat_wires x4
  obtain ⟨r5, y5, z5⟩ := sat_wires x5
  obtain ⟨⟨k1, k2⟩, k3⟩ := C64_circuits_sound P hA.params S
    ⟨hS.left.2.2, hS.right.2.2, hS.outerErrors, hS.collapsed, hS.innerErrors, hS.innerError, hS.state⟩
    inst inst inst inst inst r1 r2 r3 r4 r5 y1 y2 y3 y4 y5 (proofPublic p) p.application.leftHeader
    p.application.rightHeader hcl.left
    (by rw [z1, instanceOf, hpub]; simp only [List.append_assoc])
    (by rw [z2, hpub]; rfl) (by rw [z3, hpub]; rfl) (by rw [z4, hpub]; rfl) (by rw [z5, hpub]; rfl)
  exact ⟨S, hS, hO, k1, k2, k3⟩
end

variable {H : Header F Data Out} {data : Data} {p : Proof F G HC} {ch : F → F → VerifyChallenges F G}
  {A : Finset F}

open Classical in
/-- The pairs of challenges from `A` for which the proof is accepted. -/
noncomputable def acceptedPairs (C : CycleEnv F G HC) (n N : ℕ) (app : Application F G)
    (H : Header F Data Out) (p : Proof F G HC) (data : Data) (ch : F → F → VerifyChallenges F G)
    (A : Finset F) : Finset (F × F) :=
  (A ×ˢ A).filter fun q => verify C n N app H p data (ch q.1 q.2) = .ok true

theorem many_claims (hA : AppOk C n P cs steps app) (hp : ProofTyped C n p)
    (hch : ∀ y z, (ch y z).y = y ∧ (ch y z).z = z)
    (hmany : (4 * n + 1) * A.card < (acceptedPairs C n P.headerSize app H p data ch A).card) :
    ∃ header, EncodedAs P.headerSize H data header ∧
      ManyClaims n P.headerSize app.nativeRegistry p header A
        (acceptedPairs C n P.headerSize app H p data ch A) := by
  classical
  obtain ⟨q, hq⟩ := card_pos.1 (lt_of_le_of_lt (Nat.zero_le _) hmany)
  obtain ⟨header, he, -⟩ := verify_claims hA hp (mem_filter.1 hq).2
  refine ⟨header, he, filter_subset _ _, hmany, fun q hq => ?_⟩
  obtain ⟨header', he', hc⟩ := verify_claims hA hp (mem_filter.1 hq).2
  have : header' = header := by
    have h1 := (encodedAs_iff hA.params.header).1 he
    rw [(encodedAs_iff hA.params.header).1 he', Except.ok.injEq] at h1
    exact congrArg FixedVec.v h1
  subst this
  rwa [(hch _ _).1, (hch _ _).2] at hc

/-- C70: let `p` be any proof and let the verifier draw `y` and `z` from a set `A`, and the other
challenges in any way that depends on them. If it accepts `p` with the carried data for more than
`(4 n + 1) |A|` of the `|A|²` pairs, then the polynomials of the stages hold gadgets `S` that satisfy the
equations of a fuse (`StagesHold`) with the public values of `p`: the challenges are those of the
transcript over the commitments, all commitments are on the curve, the circuit identifiers of the
children are in the domain, `c` is the folding of the claims about the children and `v` the value that
the claimed evaluations lead to. The output headers of the children are the input headers of the
application circuit. -/
theorem C70_sound [Finite F] (hA : AppOk C n P cs steps app) (hp : ProofTyped C n p)
    (hch : ∀ y z, (ch y z).y = y ∧ (ch y z).z = z)
    (hmany : (4 * n + 1) * A.card < (acceptedPairs C n P.headerSize app H p data ch A).card) :
    none ∉ bridgePoints p ∧ ∃ S, StageTypes P.headerSize P.poseidon.T S ∧
      StagesOf n P.headerSize P.poseidon.T (fun i => p.nativeRx (.rx i)) S ∧
      p.application.leftHeader = S.preamble.left.public.outputHeader ∧
      p.application.rightHeader = S.preamble.right.public.outputHeader ∧
      StagesHold P S (proofPublic p) := by
  obtain ⟨header, -, hW⟩ := many_claims hA hp hch hmany
  obtain ⟨q, hq⟩ := card_pos.1 (lt_of_le_of_lt (Nat.zero_le _) hmany)
  exact ⟨(hW.claims q hq).points, stages_hold hA hp hW⟩

/-- C70: what is left to the next fuse or the decider does hold of a proof that is accepted even once:
the folded product `c` is that of the two folded polynomials, the batched polynomial has the value `v`
at `u`, and its commitment is the one in the proof. -/
theorem C70_deferred (hA : AppOk C n P cs steps app) (hp : ProofTyped C n p)
    {ch : VerifyChallenges F G} (hv : verify C n P.headerSize app H p data ch = .ok true) :
    ∑ k ∈ range (4 * n), coeff p.ab.native.aPoly k * coeff p.ab.native.bPoly (4 * n - 1 - k) =
        (proofPublic p).c ∧
      ∑ k ∈ range (4 * n), coeff p.p.native.poly k * (proofPublic p).u ^ k = (proofPublic p).v ∧
      ∑ k ∈ range (4 * n), coeff p.p.native.poly k • C.hostGens.getD k 0 =
        p.p.native.commitment := by
  obtain ⟨ss, ss', hV⟩ := app_verifier hA
  obtain ⟨s, s', hs, -, hiff⟩ := C46_verify hV H data ch
  obtain ⟨header, he, ha⟩ := (hiff p hp).1 hv
  refine ⟨?_, ha.eval, ha.commitment⟩
  have : (Claim.raw (p.nativeRx .abA) (p.nativeRx .abB), p.ab.native.c) ∈
      claimTable [childOfProof p header ch.y] 0 := by
    simp only [claimTable]
    simp [childOfProof]
  have := ha.native _ this
  rw [ClaimTrue] at this
  exact this

/-- C70: if the proof is accepted with as many different `w` as the registry polynomial has
coefficients, then the proof's `registry_xy` is the registry polynomial at the proof's `x` and `y`. -/
theorem C70_registry (hA : AppOk C n P cs steps app) (hp : ProofTyped C n p) (B : Finset F)
    (hB : 4 * n ≤ B.card)
    (hv : ∀ w ∈ B, ∃ ch : VerifyChallenges F G, ch.w = w ∧
      verify C n P.headerSize app H p data ch = .ok true) (w : F) :
    app.nativeRegistry.wxy C.native n w p.challenges.x p.challenges.y =
      some (∑ k ∈ range (4 * n), coeff p.query.native.registryXyPoly k * w ^ k) := by
  obtain ⟨bn, be, ss, ss', h1, h2, -, -⟩ := app_ready hA
  obtain ⟨ss1, ss1', hV⟩ := app_verifier hA
  obtain ⟨e0, -, -, t, ht, htw, hte⟩ := C23_restrictions h1 h2 w p.challenges.x p.challenges.y
  have hval : ∀ w', app.nativeRegistry.wxy C.native n w' p.challenges.x p.challenges.y =
      some (∑ k ∈ range (4 * n), coeff t k * w' ^ k) := by
    intro w'
    obtain ⟨e0', -, -, t', ht', -, hte'⟩ := C23_restrictions h1 h2 w' p.challenges.x p.challenges.y
    rw [ht, Option.some.injEq] at ht'
    subst ht'
    rw [e0', ← hte', C11_eval _ _ htw]
  have hz := coeffs_zero (N := 4 * n)
    (fun k => coeff p.query.native.registryXyPoly k - coeff t k) B hB (by
      intro w' hw'
      obtain ⟨ch, rfl, hv⟩ := hv w' hw'
      obtain ⟨s, s', hs, -, hiff⟩ := C46_verify hV H data ch
      obtain ⟨header, he, ha⟩ := (hiff p hp).1 hv
      obtain ⟨bN, hRN, hfN⟩ := hV.native
      have := (C23_restrictions hRN hfN ch.w p.challenges.x p.challenges.y).1
      rw [hval, Option.some.injEq] at this
      simp only [sub_mul, sum_sub_distrib]
      rw [ha.registry, this, sub_self])
  rw [hval]
  congr 1
  refine sum_congr rfl fun k hk => ?_
  have := hz k (mem_range.1 hk)
  rw [sub_eq_zero] at this
  rw [this]

open Classical in
/-- C70: under the same assumption the data has an encoding, and if the proof names the circuit `c`,
which has three headers of public output, then the application's polynomial is a satisfying assignment of
`c` whose output is the two input headers and the encoding of the carried data. -/
theorem C70_application (hA : AppOk C n P cs steps app) (hp : ProofTyped C n p)
    (hch : ∀ y z, (ch y z).y = y ∧ (ch y z).z = z)
    (hmany : (4 * n + 1) * A.card < (acceptedPairs C n P.headerSize app H p data ch A).card)
    {c : Circ F} (hu : c.WellUsed) (hl : c.outs.length = 3 * P.headerSize) {o : CircuitObject F}
    (ho : circuitObject n c = .ok o)
    (hi : app.nativeRegistry.circuits[p.application.circuitId]? = some o) :
    ∃ header, EncodedAs P.headerSize H data header ∧
      GatesHold n (p.nativeRx (.rx .application)) ∧
      Satisfies (assignment n (floorPlan c.counts) (p.nativeRx (.rx .application))) c
        (p.application.leftHeader ++ p.application.rightHeader ++ header) := by
  obtain ⟨header, he, hW⟩ := many_claims hA hp hch hmany
  obtain ⟨q, hq⟩ := card_pos.1 (lt_of_le_of_lt (Nat.zero_le _) hmany)
  have hcl := hW.claims q hq
  have hH := app_holds hA hu ho hi
  have hn := app_pos hA
  refine ⟨header, he, ?_⟩
  by_contra hbad
  have := C61_soundness hH (hp.native (.rx .application)) (by
    rw [hl, List.length_append, List.length_append, hcl.left, hcl.right,
      encodedAs_length hA.params.header he]; omega) hbad A
  refine absurd (calc (4 * n + 1) * A.card < _ := hmany
      _ ≤ _ := card_le_card fun q hq => mem_filter.2 ⟨hW.sub hq, ?_⟩
      _ ≤ (4 * n - 1) * A.card := this
      _ ≤ (4 * n + 1) * A.card := Nat.mul_le_mul_right _ (by omega)) (lt_irrefl _)
  exact (circuit_claim hH hi (rxs := [p.nativeRx (.rx .application)]) (hp.native _)
    (by simp [sumCoeff])).1 ((hW.claims q hq).application o hi)

/-- The internal circuits of a fuse exist for all parameters. -/
theorem fuse_exists (P : StepParams F) (hP : StepParamsOk P) (cs : Circuits F G) :
    ∃ cs' : Circuits F G, FuseCircuits P cs' := by
  obtain ⟨c1, -, -, a1, b1⟩ := C68_hashes1 P hP
  obtain ⟨c2, -, -, a2, b2⟩ := C68_hashes2 P hP
  obtain ⟨c3, -, -, a3, b3⟩ := C68_innerCollapse P
  obtain ⟨c4, -, -, a4, b4⟩ := C68_outerCollapse P hP.header
  obtain ⟨c5, -, -, a5, b5⟩ := C68_computeV P
  exact ⟨{ cs with
    hashes1 := fun _ => c1
    hashes2 := c2
    innerCollapse := c3
    outerCollapse := c4
    computeV := c5 }, ⟨a1, b1⟩, ⟨a2, b2⟩, ⟨a3, b3⟩, ⟨a4, b4⟩, ⟨a5, b5⟩⟩

end
end Ragu.Props

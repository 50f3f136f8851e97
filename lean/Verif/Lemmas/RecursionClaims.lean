/-
What the claims about two children say about each of them.
-/
import Verif.Lemmas.Recursion
import Verif.Props.Reject

set_option linter.unusedSectionVars false

namespace Ragu.Props
open Ragu Ragu.Circuit Ragu.Registry Ragu.Spec Ragu.Gadget Ragu.Pcd Finset
variable {F G HC : Type} [Field F] [DecidableEq F] [Field G] [DecidableEq G]
  [AddCommGroup HC] [DecidableEq HC] [Module F HC]

/-- The claims of a fuse about its children, with their values. -/
def recTable (l r : FuseChild F G HC) (y : F) : List (Claim (Sparse.Poly F) ℕ × F) :=
  claimTable [childOfProof l.proof l.header y, childOfProof r.proof r.header y] 0

/-- The claims alone. -/
def recClaims (l r : FuseChild F G HC) : List (Claim (Sparse.Poly F) ℕ) := (recTable l r 0).map (·.1)

theorem recTable_fst (l r : FuseChild F G HC) (y : F) : (recTable l r y).map (·.1) = recClaims l r := by
  simp only [recClaims, recTable, claimTable, List.map_append, List.map_cons, List.map_nil,
    List.flatMap_cons, List.flatMap_nil, childOfProof, internalClaim, bondingClaim]

theorem recClaims_length (l r : FuseChild F G HC) : (recClaims l r).length = 22 := by
  rw [recClaims, List.length_map, recTable, table_length]
  rfl

theorem recTable_snd (om : ℕ → F) {l r : FuseChild F G HC} (hl : none ∉ bridgePoints l.proof)
    (hr : none ∉ bridgePoints r.proof) (y : F) :
    (recTable l r y).map (·.2) =
      claimedValues y (l.values om) (r.values om) ++ List.replicate 8 0 := by
  have e1 : ∀ (c : FuseChild F G HC), none ∉ bridgePoints c.proof →
      (childOfProof c.proof c.header y).bridge = (c.values om).bridgeInput y := by
    intro c hc
    show instanceAt _ y = publicInput _ y
    rw [instanceAt, publicInput]
    have : unifiedInstance c.proof ++ (c.proof.application.leftHeader ++
        c.proof.application.rightHeader) ++ [0] = (proofPublic c.proof).toList ++
        c.proof.application.leftHeader ++ c.proof.application.rightHeader ++ [0] := by
      rw [proofPublic_list hc]; simp only [List.append_assoc]
    rw [this]
    rfl
  have e2 : ∀ (c : FuseChild F G HC), none ∉ bridgePoints c.proof →
      (childOfProof c.proof c.header y).unified = (c.values om).unifiedInput y := by
    intro c hc
    show instanceAt _ y = publicInput _ y
    rw [instanceAt, publicInput, ← proofPublic_list hc]
    rfl
  rw [recTable, claimedValues, ← e1 l hl, ← e1 r hr, ← e2 l hl, ← e2 r hr]
  rfl

/-- A child that a fuse can be given: its polynomials have the degrees of the rank, its headers the
header size, its commitments coordinates, and it names a circuit in the registry's domain. -/
structure ChildFit (C : CycleEnv F G HC) (n N : ℕ) (app : Application F G) (c : FuseChild F G HC) :
    Prop where
  typed : ProofTyped C n c.proof
  inDomain : c.proof.application.circuitId < app.nativeRegistry.domain.n
  left : c.proof.application.leftHeader.length = N
  right : c.proof.application.rightHeader.length = N
  header : c.header.length = N
  points : none ∉ bridgePoints c.proof

/-! ### Masks -/

open Classical in
/-- `bonding_sound` with the terms that the check combines. -/
theorem bonding_terms {n skip num : ℕ} {m : StageMask} (h : StageMask.new n skip num = .ok m)
    (hn : 0 < n) (key : F) {rxs : List (Sparse.Poly F)} (hr : ∀ r ∈ rxs, WellFormed (4 * n) r)
    (A : Finset F) (hmany : (4 * n - 1 + (rxs.length - 1)) * A.card <
      ((A ×ˢ A).filter fun p => BondingClaim n (m.object n) key rxs p.1 p.2).card) :
    ∀ r ∈ rxs, ∀ e < 4 * n, maskTerm n skip num key r e = 0 := by
  intro r hrm e he
  by_contra hne
  obtain ⟨i, hi, rfl⟩ := List.getElem_of_mem hrm
  have hget : ∀ j < rxs.length, WellFormed (4 * n) (rxs.getD j []) := by
    intro j hj
    rw [List.getD_eq_getElem?_getD, List.getElem?_eq_getElem hj]
    exact hr _ (List.getElem_mem hj)
  have hgi : rxs.getD i [] = rxs[i] := by
    rw [List.getD_eq_getElem?_getD, List.getElem?_eq_getElem hi]; rfl
  rw [← hgi] at hne
  have := pairs_card (k := rxs.length) (fun j y => ∑ e ∈ range (4 * n),
    maskTerm n skip num key (rxs.getD j []) e * y ^ e) hi A (roots_le _ he hne A)
  refine absurd (hmany.trans_le (le_trans (card_le_card fun p hp => ?_) this)) (lt_irrefl _)
  rw [mem_filter] at hp ⊢
  obtain ⟨hp, s, h1, h2⟩ := hp
  refine ⟨hp, ?_⟩
  rw [fold_sum] at h2
  rw [← h2]
  refine sum_congr rfl fun j hj => ?_
  rw [mask_claim h hn h1 (hget j (mem_range.1 hj))]

/-- Polynomials without terms pass the check. -/
theorem bonding_of_terms {n skip num : ℕ} {m : StageMask} (h : StageMask.new n skip num = .ok m)
    (hn : 0 < n) {key y z : F} {s : ℕ → F} (hs : WiringCoeffs n (m.object n) key y s)
    {rxs : List (Sparse.Poly F)} (hr : ∀ r ∈ rxs, WellFormed (4 * n) r)
    (ht : ∀ r ∈ rxs, ∀ e < 4 * n, maskTerm n skip num key r e = 0) :
    BondingClaim n (m.object n) key rxs y z := by
  refine ⟨s, hs, ?_⟩
  rw [fold_sum]
  refine sum_eq_zero fun i hi => ?_
  have hi := mem_range.1 hi
  have hg : rxs.getD i [] ∈ rxs := by
    rw [List.getD_eq_getElem?_getD, List.getElem?_eq_getElem hi]; exact List.getElem_mem hi
  rw [mask_claim h hn hs (hr _ hg), sum_eq_zero, mul_zero]
  intro e he
  rw [ht _ hg e (mem_range.1 he), zero_mul]

section
variable {C : CycleEnv F G HC} {n : ℕ} {P : StepParams F} {cs : Circuits F G}
  {steps : List (StepDef F)} {app : Application F G} {l r : FuseChild F G HC}

theorem mask_entry (hA : AppOk C n P cs steps app) {id : NativeId} (hid : id ∈ maskIds)
    {o : CircuitObject F} (ho : app.nativeRegistry.circuits[registryIndex id]? = some o) :
    ∃ skip num m, StageMask.new n skip num = .ok m ∧ o = m.object n := by
  obtain ⟨o', h1, h2⟩ := app_entry hA id
  rw [h1, Option.some.injEq] at ho
  subst ho
  have hs : ∀ d : Chain, EntryObj n (.mask (d.mask n) : Entry F) o' →
      ∃ skip num m, StageMask.new n skip num = .ok m ∧ o' = m.object n := by
    rintro d ⟨m, h3, h4⟩
    exact ⟨_, _, m, h3, h4⟩
  have hf : ∀ d : Chain, EntryObj n (.mask (d.finalMask n) : Entry F) o' →
      ∃ skip num m, StageMask.new n skip num = .ok m ∧ o' = m.object n := by
    rintro d ⟨m, h3, h4⟩
    exact ⟨_, _, m, C26_final h3, h4⟩
  revert hid
  cases id <;> intro hid <;> first | exact absurd hid (by decide) | exact hs _ h2 | exact hf _ h2

/-- The claims about both children hold for these challenges. -/
def JointClaims (n : ℕ) (sup : F → ℕ → ℕ → F) (l r : FuseChild F G HC) (y z : F) : Prop :=
  ∀ cv ∈ recTable l r y, ClaimTrue (4 * n) (sup y) (tCoeff n z) z cv.1 cv.2

open Classical in
/-- Many challenges for which the claims about both children hold are many for which the claims of each
hold. -/
theorem joint_many (hA : AppOk C n P cs steps app) {ss : List (F → F → F)} {sup : F → ℕ → ℕ → F}
    (hsup : ∀ y, WiringOf C.native n app.nativeRegistry ss y (sup y))
    (hl : ChildFit C n P.headerSize app l) (hr : ChildFit C n P.headerSize app r) {A : Finset F}
    {W : Finset (F × F)} (hsub : W ⊆ A ×ˢ A) (hmany : (4 * n + 4) * A.card < W.card)
    (hW : ∀ q ∈ W, JointClaims n sup l r q.1 q.2) {c : FuseChild F G HC} (hc : c = l ∨ c = r) :
    ManyClaims n P.headerSize app.nativeRegistry c.proof c.header A W := by
  have hn := app_pos hA
  have hfit : ChildFit C n P.headerSize app c := by rcases hc with rfl | rfl <;> assumption
  -- the masks
  have hterms : ∀ id ∈ maskIds, ∀ o, app.nativeRegistry.circuits[registryIndex id]? = some o →
      ∀ y z, BondingClaim n o app.nativeRegistry.key (rxsOf c.proof (bondedParts id)) y z := by
    intro id hid o ho y z
    obtain ⟨skip, num, m, hm, rfl⟩ := mask_entry hA hid ho
    set rxs := (bondedParts id).flatMap fun i => [childOfProof l.proof l.header (0 : F),
      childOfProof r.proof r.header 0].map fun p => p.rx (.rx i) with hrxs
    have hlen : rxs.length ≤ 6 := by
      rw [hrxs]
      cases id <;> simp [bondedParts]
    have hmem : ∀ i ∈ bondedParts id, c.proof.nativeRx (.rx i) ∈ rxs := by
      intro i hi
      rw [hrxs, List.mem_flatMap]
      refine ⟨i, hi, ?_⟩
      rcases hc with rfl | rfl <;> simp [childOfProof]
    have hwf : ∀ p ∈ rxs, WellFormed (4 * n) p := by
      intro p hp
      rw [hrxs, List.mem_flatMap] at hp
      obtain ⟨i, -, hp⟩ := hp
      simp only [List.map_cons, List.map_nil, List.mem_cons, List.not_mem_nil, or_false] at hp
      rcases hp with rfl | rfl
      · exact hl.typed.native (.rx i)
      · exact hr.typed.native (.rx i)
    have hall := bonding_terms hm hn app.nativeRegistry.key hwf A (by
      calc (4 * n - 1 + (rxs.length - 1)) * A.card ≤ (4 * n + 4) * A.card :=
            Nat.mul_le_mul_right _ (by omega)
        _ < W.card := hmany
        _ ≤ _ := card_le_card fun q hq => mem_filter.2 ⟨hsub hq, _, (hsup q.1).2 _ _ ho, by
            have : (bondingClaim id [childOfProof l.proof l.header q.1,
                childOfProof r.proof r.header q.1], (0 : F)) ∈ recTable l r q.1 := by
              rw [recTable, claimTable, List.mem_append]
              exact .inr (List.mem_map.2 ⟨id, hid, rfl⟩)
            exact hW q hq _ this⟩)
    refine bonding_of_terms hm hn ((hsup y).2 _ _ ho) (rxs_wf hfit.typed _) ?_
    intro p hp
    obtain ⟨i, hi, rfl⟩ := List.mem_map.1 hp
    exact hall _ (hmem i hi)
  refine ⟨hsub, lt_of_le_of_lt (Nat.mul_le_mul_right _ (by omega)) hmany, fun q hq => ?_⟩
  refine ⟨hfit.inDomain, hfit.left, hfit.right, hfit.points,
    fun id hid o ho => hterms id hid o ho _ _, ?_, ?_⟩
  · intro id hid o ho
    refine ⟨_, (hsup q.1).2 _ _ ho, ?_⟩
    have : (internalClaim id (childOfProof c.proof c.header q.1),
        instanceAt (instanceOf c.proof id) q.1) ∈ recTable l r q.1 := by
      revert hid
      rcases hc with rfl | rfl <;>
      cases id <;> intro hid <;>
        first
        | (exact absurd (by decide) hid)
        | (simp only [recTable, claimTable, instanceOf]; simp [childOfProof, internalClaim, bondingClaim])
    exact hW q hq _ this
  · intro o ho
    refine ⟨_, (hsup q.1).2 _ _ ho, ?_⟩
    have : (Claim.circuit c.proof.application.circuitId (c.proof.nativeRx (.rx .application)),
        instanceAt (c.proof.application.leftHeader ++ c.proof.application.rightHeader ++ c.header) q.1) ∈
        recTable l r q.1 := by
      rcases hc with rfl | rfl <;> simp only [recTable, claimTable] <;> simp [childOfProof]
    have := hW q hq _ this
    rw [ClaimTrue] at this
    simp only [claimLeft, claimRight] at this
    simpa only [sumCoeff, List.map_cons, List.map_nil, List.sum_cons, List.sum_nil, add_zero] using this

/-- The polynomials of a child hold a fuse and its application circuit. -/
structure TracesSound (C : CycleEnv F G HC) (n : ℕ) (P : StepParams F) (app : Application F G)
    (c : FuseChild F G HC) : Prop where
  /-- The stages satisfy the five internal circuits with the child's public values. -/
  stages : ∃ S, StageTypes P.headerSize P.poseidon.T S ∧
    StagesOf n P.headerSize P.poseidon.T (fun i => c.proof.nativeRx (.rx i)) S ∧
    c.proof.application.leftHeader = S.preamble.left.public.outputHeader ∧
    c.proof.application.rightHeader = S.preamble.right.public.outputHeader ∧
    StagesHold P S (proofPublic c.proof)
  /-- The application's trace satisfies the circuit that the child names, with the child's headers. -/
  application : ∀ (circ : Circ F) (o : CircuitObject F), circ.WellUsed →
    circ.outs.length = 3 * P.headerSize → circuitObject n circ = .ok o →
    app.nativeRegistry.circuits[c.proof.application.circuitId]? = some o →
    GatesHold n (c.proof.nativeRx (.rx .application)) ∧
    Satisfies (assignment n (floorPlan circ.counts) (c.proof.nativeRx (.rx .application))) circ
      (c.proof.application.leftHeader ++ c.proof.application.rightHeader ++ c.header)
  /-- The child names a step, unless its header ends with zero, as no header does that encodes data. -/
  named : c.header.getLastD 0 ≠ 0 → NUM_INTERNAL_CIRCUITS ≤ c.proof.application.circuitId ∧
    c.proof.application.circuitId < app.nativeRegistry.circuits.length

/-- The equation for the application circuit at an index without a circuit. -/
def UnregisteredClaim (n : ℕ) (R : Registry F) (p : Proof F G HC) (header : List F) (y z : F) : Prop :=
  R.circuits[p.application.circuitId]? = none →
    ∑ j ∈ range (4 * n), gateCoeff n (p.nativeRx (.rx .application)) j * z ^ j +
      ∑ e ∈ range (4 * n), (if e = 4 * n - 1 then
        R.key * coeff (p.nativeRx (.rx .application)) 0 else 0) * y ^ e =
      instanceAt (p.application.leftHeader ++ p.application.rightHeader ++ header) y

theorem many_traces [Finite F] (hA : AppOk C n P cs steps app) {c : FuseChild F G HC}
    (hfit : ChildFit C n P.headerSize app c) {A : Finset F} {W : Finset (F × F)}
    (hW : ManyClaims n P.headerSize app.nativeRegistry c.proof c.header A W)
    (hmany : (8 * n - 2) * A.card < W.card)
    (hun : ∀ q ∈ W, UnregisteredClaim n app.nativeRegistry c.proof c.header q.1 q.2) :
    TracesSound C n P app c := by
  classical
  refine ⟨stages_hold hA hfit.typed hW, fun circ o hu hlen ho hi => ?_, fun hlast => ?_⟩
  rotate_left
  · have hne : c.header ≠ [] := by
      intro h
      rw [h] at hlast
      exact hlast rfl
    rw [List.getLastD_eq_getLast?, List.getLast?_eq_some_getLast hne, Option.getD_some] at hlast
    obtain ⟨i, hi⟩ := many_named hA hfit.typed hW hmany hfit.header
      (List.dropLast_append_getLast hne).symm hlast fun hnone q hq => hun q hq hnone
    have hcirc : app.nativeRegistry.circuits.length = 15 + steps.length := by
      obtain ⟨b, hb, hf⟩ := hA.built
      exact (C42_positions hb hf).2.1
    rw [hcirc]
    cases i with
    | internal s =>
      have e := Except.ok.inj hi
      rw [← e]
      cases s <;> simp only [NUM_INTERNAL_CIRCUITS, InternalStep.discr] <;> omega
    | application k =>
      rw [Index.circuitIndex] at hi
      split at hi
      · cases hi
      · next hk =>
        have e := Except.ok.inj hi
        rw [← e]
        simp only [NUM_INTERNAL_CIRCUITS, NUM_INTERNAL_STEPS]
        omega
  have hH := app_holds hA hu ho hi
  have hn := app_pos hA
  by_contra hbad
  have := C61_soundness hH (hfit.typed.native (.rx .application)) (by
    rw [hlen, List.length_append, List.length_append, hfit.left, hfit.right, hfit.header]; omega) hbad A
  refine absurd (calc (4 * n + 1) * A.card < _ := hW.many
      _ ≤ _ := card_le_card fun q hq => mem_filter.2 ⟨hW.sub hq, ?_⟩
      _ ≤ (4 * n - 1) * A.card := this
      _ ≤ (4 * n + 1) * A.card := Nat.mul_le_mul_right _ (by omega)) (lt_irrefl _)
  exact (circuit_claim hH hi (rxs := [c.proof.nativeRx (.rx .application)]) (hfit.typed.native _)
    (by simp [sumCoeff])).1 ((hW.claims q hq).application o hi)

theorem joint_unregistered (hA : AppOk C n P cs steps app) {sup : F → ℕ → ℕ → F}
    (hsup : ∀ y i x, ∑ k ∈ range (4 * n), sup y i k * x ^ k =
      (app.nativeRegistry.wxy C.native n (omegaJ C.native i) x y).getD 0)
    {c : FuseChild F G HC} (hfit : ChildFit C n P.headerSize app c) {y z : F}
    (hW : JointClaims n sup l r y z) (hc : c = l ∨ c = r) :
    UnregisteredClaim n app.nativeRegistry c.proof c.header y z := by
  intro hnone
  have : (Claim.circuit c.proof.application.circuitId (c.proof.nativeRx (.rx .application)),
      instanceAt (c.proof.application.leftHeader ++ c.proof.application.rightHeader ++ c.header) y) ∈
      recTable l r y := by
    rcases hc with rfl | rfl <;> simp only [recTable, claimTable] <;> simp [childOfProof]
  exact unregistered_split hA (hsup y) hfit.inDomain hnone (hW _ this)

open Classical in
/-- If the traces of a child are not sound then the claims hold for few challenges. -/
theorem joint_le [Finite F] (hA : AppOk C n P cs steps app) {ss : List (F → F → F)}
    {sup : F → ℕ → ℕ → F} (hsup : ∀ y, WiringOf C.native n app.nativeRegistry ss y (sup y))
    (hsup' : ∀ y i x, ∑ k ∈ range (4 * n), sup y i k * x ^ k =
      (app.nativeRegistry.wxy C.native n (omegaJ C.native i) x y).getD 0)
    (hl : ChildFit C n P.headerSize app l) (hr : ChildFit C n P.headerSize app r) (A : Finset F)
    (hbad : ¬ (TracesSound C n P app l ∧ TracesSound C n P app r)) :
    ((A ×ˢ A).filter fun q => JointClaims n sup l r q.1 q.2).card ≤ 8 * n * A.card := by
  by_contra hc
  push Not at hc
  have hn := app_pos hA
  have h := fun c hc' => joint_many hA hsup hl hr (filter_subset _ _)
    (lt_of_le_of_lt (Nat.mul_le_mul_right _ (by omega)) hc)
    (fun q hq => (mem_filter.1 hq).2) (c := c) hc'
  have hc' : (8 * n - 2) * A.card < _ := lt_of_le_of_lt (Nat.mul_le_mul_right _ (by omega)) hc
  exact hbad ⟨many_traces hA hl (h l (.inl rfl)) hc' fun q hq =>
      joint_unregistered hA hsup' hl (mem_filter.1 hq).2 (.inl rfl),
    many_traces hA hr (h r (.inr rfl)) hc' fun q hq =>
      joint_unregistered hA hsup' hr (mem_filter.1 hq).2 (.inr rfl)⟩

end
end Ragu.Props

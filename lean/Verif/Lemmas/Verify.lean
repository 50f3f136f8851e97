/-
The parts of verification.
-/
import Verif.Spec.Verify
import Verif.Lemmas.Unified
import Verif.Props.Step
import Verif.Props.Claims
import Verif.Props.Revdot
import Verif.Props.Msm

set_option linter.unusedSectionVars false

namespace Ragu.Pcd
open Ragu Ragu.Circuit Ragu.Registry Ragu.Gadget Ragu.Spec Ragu.Props Ragu.Sparse Finset
variable {F G HC Data Out : Type} [Field F] [DecidableEq F] [Field G] [DecidableEq G]

/-! ### Emulation -/

theorem emulate_bind {α β : Type} (f : α → Syn F β) : ∀ x : Syn F α, ∀ r,
    emulate (x >>= f) = .ok r ↔ ∃ a, emulate x = .ok a ∧ emulate (f a) = .ok r := by
  intro x
  show ∀ r, emulate (x.bind f) = .ok r ↔ _
  induction x with
  | ret a => intro r; simp [Syn.bind, emulate]
  | gate w k ih => intro r; exact ih _ _ _ _ r
  | alloc w k ih => intro r; exact ih _ r
  | enforce v k ih => intro r; exact ih r
  | check e k ih =>
    intro r
    cases e with
    | some e => simp [Syn.bind, emulate]
    | none => exact ih r
  | panic => intro r; simp [Syn.bind, emulate]

theorem emulate_forEachSlot {β : SlotId → Type} {f : (s : SlotId) → Syn F (β s)}
    {r : (s : SlotId) → β s} (h : emulate (forEachSlot f) = .ok r) (s : SlotId) :
    ∃ v, emulate (f s) = .ok v := by
  simp only [forEachSlot, emulate_bind] at h
  obtain ⟨r0, h0, r1, h1, r2, h2, r3, h3, r4, h4, r5, h5, r6, h6, r7, h7, r8, h8, r9, h9, r10, h10,
      r11, h11, r12, h12, r13, h13, r14, h14, r15, h15, r16, h16, r17, h17, r18, h18, r19, h19,
      r20, h20, -⟩ := h
  cases s <;> exact ⟨_, ‹_›⟩

theorem emulate_alloc_none {b : F} {k : Kind} {n : k.Native F} {v : k.Gadget F}
    (h : emulate (k.alloc b n) = .ok v) : NotIdentity k n := by
  cases k with
  | element => trivial
  | point =>
    intro hn
    subst hn
    cases h

/-! ### Public inputs -/

theorem allocAll_sim : ∀ xs : List F, (allocAll xs).sim = .ok (xs.map fun x => ⟨x, x⟩)
  | [] => rfl
  | x :: xs => by
    rw [allocAll, Syn.sim_bind_ok (Element.alloc_sim x), Syn.sim_bind_ok (allocAll_sim xs)]
    rfl

theorem map_getD_range (l : List F) : (List.range l.length).map (fun i => l.getD i 0) = l := by
  refine List.ext_getElem? fun i => ?_
  rw [List.getElem?_map]
  by_cases h : i < l.length
  · rw [List.getElem?_range h, Option.map_some, List.getD_eq_getElem?_getD, List.getElem?_eq_getElem h]
    rfl
  · rw [List.getElem?_eq_none (by simpa using h), List.getElem?_eq_none (by omega)]
    rfl

theorem allocHeader_sim {N : ℕ} {data : List F} (h : data.length = N) :
    (allocHeader N data).sim = .ok (data.map fun x => ⟨x, x⟩) := by
  subst h
  rw [allocHeader, if_neg (by simp), map_getD_range]
  exact allocAll_sim data

theorem allocFromProof_sim {b : F} {p : Proof F G HC}
    (hv : ∀ s, ValidNative b s.kind (p.unifiedValue s)) :
    (allocFromProof b p).sim = .ok fun s => honestGadget s.kind (p.unifiedValue s) :=
  forEachSlot_sim fun s => kind_alloc_sim (hv s)

theorem honest_write {b : F} {k : Kind} {n : k.Native F} (hv : ValidNative b k n) :
    k.write (honestGadget k n) = (coords k n).map fun x => ⟨x, x⟩ := by
  cases k with
  | element => rfl
  | point => obtain ⟨x, y, rfl, -⟩ := hv; rfl

/-- The public values slot by slot. -/
theorem unifiedInstance_slots (p : Proof F G HC) :
    unifiedInstance p = SlotId.all.flatMap fun s => coords s.kind (p.unifiedValue s) := by
  have h : ∀ c : Option (F × F), xy c = coords .point c := by
    intro c; cases c <;> rfl
  simp only [unifiedInstance, h, SlotId.all, List.flatMap_cons, List.flatMap_nil, List.append_assoc,
    List.cons_append, List.nil_append]
  rfl

theorem points_slots (p : Proof F G HC) :
    none ∉ bridgePoints p ↔ ∀ s, NotIdentity s.kind (p.unifiedValue s) := by
  constructor
  · intro h s
    simp only [bridgePoints, List.mem_cons, List.not_mem_nil, or_false, not_or] at h
    obtain ⟨h1, h2, h3, h4, h5, h6, h7, h8⟩ := h
    cases s <;> first | trivial | exact fun hc => absurd hc.symm (by assumption)
  · intro h hm
    simp only [bridgePoints, List.mem_cons, List.not_mem_nil, or_false] at hm
    rcases hm with e | e | e | e | e | e | e | e
    exacts [h .bridgePreamble e.symm, h .bridgeSPrime e.symm, h .bridgeInnerError e.symm,
      h .bridgeOuterError e.symm, h .bridgeAb e.symm, h .bridgeQuery e.symm, h .bridgeF e.symm,
      h .bridgeEval e.symm]

theorem curve_slots {b : F} {p : Proof F G HC}
    (h : ∀ x y, some (x, y) ∈ bridgePoints p → y ^ 2 = x ^ 3 + b) (s : SlotId) :
    OnCurve b s.kind (p.unifiedValue s) := by
  have key : ∀ c : Option (F × F), c ∈ bridgePoints p → OnCurve b .point c := by
    intro c hc
    rcases c with - | ⟨x, y⟩
    · trivial
    · exact h x y hc
  cases s
  case bridgePreamble => exact key p.preamble.bridge.commitment (by simp [bridgePoints])
  case bridgeSPrime => exact key p.sPrime.bridge.commitment (by simp [bridgePoints])
  case bridgeInnerError => exact key p.innerError.bridge.commitment (by simp [bridgePoints])
  case bridgeOuterError => exact key p.outerError.bridge.commitment (by simp [bridgePoints])
  case bridgeAb => exact key p.ab.bridge.commitment (by simp [bridgePoints])
  case bridgeQuery => exact key p.query.bridge.commitment (by simp [bridgePoints])
  case bridgeF => exact key p.f.bridge.commitment (by simp [bridgePoints])
  case bridgeEval => exact key p.eval.bridge.commitment (by simp [bridgePoints])
  all_goals trivial

theorem unified_write {b : F} {p : Proof F G HC}
    (hv : ∀ s, ValidNative b s.kind (p.unifiedValue s)) :
    UnifiedOutput.write (fun s => honestGadget s.kind (p.unifiedValue s)) =
      (unifiedInstance p).map fun x => (⟨x, x⟩ : Element F) := by
  rw [UnifiedOutput.write, unifiedInstance_slots, List.map_flatMap]
  exact List.flatMap_congr fun s _ => honest_write (hv s)

/-- The honest inputs of a proof. -/
def honestInputs (C : CycleEnv F G HC) (p : Proof F G HC) (header : List F) : ProofInputs F :=
  ⟨p.application.leftHeader.map fun x => ⟨x, x⟩, p.application.rightHeader.map fun x => ⟨x, x⟩,
    header.map fun x => ⟨x, x⟩, ⟨omegaJ C.native p.application.circuitId,
      omegaJ C.native p.application.circuitId⟩, (unifiedInstance p).map fun x => ⟨x, x⟩⟩

theorem alloc_sim {C : CycleEnv F G HC} {N : ℕ} {p : Proof F G HC} {header : List F}
    (hl : p.application.leftHeader.length = N) (hr : p.application.rightHeader.length = N)
    (hh : header.length = N) (hv : ∀ s, ValidNative C.b s.kind (p.unifiedValue s)) :
    (ProofInputs.alloc C N p header).sim = .ok (honestInputs C p header) := by
  rw [ProofInputs.alloc, Syn.sim_bind_ok (allocHeader_sim hl), Syn.sim_bind_ok (allocHeader_sim hr),
    Syn.sim_bind_ok (allocHeader_sim hh), Syn.sim_bind_ok (Element.alloc_sim _),
    Syn.sim_bind_ok (allocFromProof_sim hv), unified_write hv]
  rfl

theorem mem_honest {xs : List F} {e : Element F} (h : e ∈ xs.map fun x => (⟨x, x⟩ : Element F)) :
    e.Honest := by
  obtain ⟨x, -, rfl⟩ := List.mem_map.1 h
  rfl

theorem map_wire (xs : List F) : (xs.map fun x => (⟨x, x⟩ : Element F)).map (·.wire) = xs := by
  rw [List.map_map]
  exact List.map_id xs

attribute [local irreducible] unifiedInstance in
theorem ky_emulate {C : CycleEnv F G HC} {N : ℕ} {p : Proof F G HC} {header : List F}
    (hl : p.application.leftHeader.length = N) (hr : p.application.rightHeader.length = N)
    (hh : header.length = N) (hv : ∀ s, ValidNative C.b s.kind (p.unifiedValue s)) (y : F) :
    emulate (kyForVerify C N p header y) = .ok
      ((childOfProof p header y).unified, (childOfProof p header y).bridge,
        (childOfProof p header y).app) := by
  apply emulate_of_sim
  have hy : (⟨y, y⟩ : Element F).Honest := rfl
  obtain ⟨⟨r, h1, h2, h3⟩, ⟨r', h4, h5⟩⟩ := C53_in_circuit_complete (honestInputs C p header) hy
    (fun e => mem_honest) (fun e => mem_honest) (fun e => mem_honest) (fun e => mem_honest)
  obtain ⟨c1, c2⟩ := C53_in_circuit (honestInputs C p header) ⟨y, y⟩
  have e1 := c1 r (Syn.sim_sat h1)
  have e2 := c2 r' (Syn.sim_sat h4)
  rw [kyForVerify, Syn.sim_bind_ok (Element.alloc_sim y), Syn.sim_bind_ok (alloc_sim hl hr hh hv),
    Syn.sim_bind_ok h1]
  simp only
  rw [Syn.sim_bind_ok h4]
  have v1 : r.1.value = r.1.wire := h2
  have v2 : r.2.value = r.2.wire := h3
  have v3 : r'.value = r'.wire := h5
  rw [v1, v2, v3, e1.1, e1.2, e2]
  simp only [honestInputs, map_wire, C21_ky, childOfProof]
  generalize unifiedInstance p = u
  rfl

/-! ### The revdot checks -/

theorem allRevdot_iff {K C : Type} [Field K] [DecidableEq K] {N : ℕ} {B : ClaimBuilder K (Poly K)}
    {ky : ℕ → K} {table : List (C × K)} (hky : ∀ (i : ℕ) c v, table[i]? = some (c, v) → ky i = v)
    {True' : C → K → Prop} (hla : B.a.length = table.length) (hlb : B.b.length = table.length)
    (h : ∀ (i : ℕ) c v, table[i]? = some (c, v) → ∃ a b, B.a[i]? = some a ∧ B.b[i]? = some b ∧
      (revdot N a b = v ↔ True' c v)) :
    allRevdot N ky B = true ↔ ∀ cv ∈ table, True' cv.1 cv.2 := by
  rw [allRevdot, List.all_eq_true]
  have hz : ∀ (i : ℕ) a b, B.a[i]? = some a → B.b[i]? = some b →
      (B.a.zip B.b)[i]? = some (a, b) := by
    intro i a b ha hb
    rw [List.getElem?_zip_eq_some]
    exact ⟨ha, hb⟩
  constructor
  · intro hall cv hcv
    obtain ⟨i, hi⟩ := List.getElem?_of_mem hcv
    obtain ⟨a, b, ha, hb, hiff⟩ := h i cv.1 cv.2 hi
    have := hall ((a, b), i) (List.mem_iff_getElem?.2 ⟨i, by
      rw [List.getElem?_zipIdx, hz i a b ha hb]; simp⟩)
    rw [decide_eq_true_eq] at this
    rw [hky i _ _ hi] at this
    exact hiff.1 this
  · rintro hall ⟨⟨a, b⟩, i⟩ hm
    obtain ⟨j, hj⟩ := List.getElem?_of_mem hm
    rw [List.getElem?_zipIdx, Option.map_eq_some_iff] at hj
    obtain ⟨⟨a', b'⟩, hj1, hj2⟩ := hj
    simp only [Prod.mk.injEq, Nat.zero_add] at hj2
    obtain ⟨⟨rfl, rfl⟩, rfl⟩ := hj2
    rw [List.getElem?_zip_eq_some] at hj1
    have hlt : j < table.length := by
      rw [← hla]; exact (List.getElem?_eq_some_iff.1 hj1.1).1
    obtain ⟨cv, hcv⟩ : ∃ cv, table[j]? = some cv := ⟨_, List.getElem?_eq_getElem hlt⟩
    obtain ⟨a₂, b₂, ha, hb, hiff⟩ := h j cv.1 cv.2 hcv
    rw [hj1.1] at ha; rw [hj1.2] at hb
    cases ha; cases hb
    rw [decide_eq_true_eq, hky j _ _ hcv]
    exact hiff.2 (hall cv (List.mem_of_getElem? hcv))

theorem tz_coeffs {n : ℕ} {z : F} {tz : Poly F} (h : Tpoly.tz n z = some tz) (k : ℕ) :
    coeff tz k = tCoeff n z k := by
  obtain ⟨p, h1, h2, h3⟩ := C14_tz_coeffs n z
  rw [h1] at h
  cases h
  rw [tCoeff]
  by_cases hk : k < 4 * n
  · by_cases h3n : 3 * n ≤ k
    · rw [if_pos ⟨h3n, hk⟩]
      have := (h3 (4 * n - 1 - k) (by omega)).1
      rwa [show 4 * n - 1 - (4 * n - 1 - k) = k by omega] at this
    · rw [if_neg (by omega)]
      by_cases h2n : 2 * n ≤ k
      · have := (h3 (k - 2 * n) (by omega)).2.2.1
        rwa [show 2 * n + (k - 2 * n) = k by omega] at this
      · by_cases hn : n ≤ k
        · have := (h3 (2 * n - 1 - k) (by omega)).2.1
          rwa [show 2 * n - 1 - (2 * n - 1 - k) = k by omega] at this
        · exact (h3 k (by omega)).2.2.2
  · rw [if_neg (by omega)]
    exact coeff_ge_of_wf h2 (by omega)

theorem revdot_claim {N : ℕ} {s : ℕ → Poly F} {tz : Poly F} {z : F} {c : Claim (Poly F) ℕ}
    {a b : Poly F} (h : IsClaim N s tz z c a b) (v : F) :
    revdot N a b = v ↔ ClaimTrue N (fun i => coeff (s i)) (coeff tz) z c v := by
  rw [C11_revdot N a b h.1 h.2.1, ClaimTrue]
  simp only [h.2.2.1, h.2.2.2]

theorem revdot_nested {N : ℕ} {s : ℕ → Poly F} {tz : Poly F} {z : F} {c : NestedClaim (Poly F)}
    {a b : Poly F} (h : IsNestedClaim N s tz z c a b) (v : F) :
    revdot N a b = v ↔ NestedTrue N (fun i => coeff (s i)) (coeff tz) z c v := by
  rw [C11_revdot N a b h.1 h.2.1, NestedTrue]
  simp only [h.2.2.1, h.2.2.2]

/-- The native claims of a verifier. -/
theorem native_check {E : Env F} {n : ℕ} {r : Registry F} {y z : F} {s : ℕ → Poly F}
    (hs : Supplies E n r y s) {p : Proof F G HC} (hw : ∀ c, WellFormed (4 * n) (p.nativeRx c))
    (header : List F) : ∃ B0 B, ClaimBuilder.new n y z = some B0 ∧
      buildClaims (singleSource p) (polyProcessor E n r) B0 = some B ∧
      (allRevdot (4 * n) (singleProofKySource p.ab.native.c (childOfProof p header y).app
          (childOfProof p header y).bridge (childOfProof p header y).unified 0).values B = true ↔
        ∀ cv ∈ claimTable [childOfProof p header y] 0,
          ClaimTrue (4 * n) (fun i => coeff (s i)) (tCoeff n z) z cv.1 cv.2) := by
  obtain ⟨B0, B, tz, h1, h2, h3, h4, h5, h6⟩ := C45_polynomials hs (z := z)
    [childOfProof p header y] (by simp) (fun q hq c => by
      have : q = childOfProof p header y := by simpa using hq
      subst this; exact hw c) (0 : F)
  refine ⟨B0, B, h1, h3, ?_⟩
  have ht : coeff tz = tCoeff n z := funext fun k => tz_coeffs h2 k
  refine allRevdot_iff (ky := (kySourceOf [childOfProof p header y] (0 : F)).values)
    (C45_paired (M := Id) (P := Unit) [childOfProof p header y] (0 : F)).2.1 h4 h5 ?_
  intro i c v hi
  obtain ⟨a, b, ha, hb, hc⟩ := h6 i c v hi
  refine ⟨a, b, ha, hb, ?_⟩
  rw [← ht]
  exact revdot_claim hc v

theorem nested_claim_ok {N : ℕ} {rx : NestedRx → Poly F} (hw : ∀ c, WellFormed N (rx c))
    {cv : NestedClaim (Poly F) × F} (h : cv ∈ nestedTable rx (1 : F) 0) :
    NestedClaim.polys cv.1 ≠ [] ∧
    (match cv.1 with | .internal id _ => id ∈ NestedId.all | .bonding id _ => id ∈ NestedId.all) ∧
    ∀ p ∈ NestedClaim.polys cv.1, WellFormed N p := by
  simp only [nestedTable, List.mem_append, List.mem_map, List.mem_cons, List.not_mem_nil, or_false] at h
  rcases h with ⟨i, hi, rfl⟩ | rfl | rfl | rfl | rfl | rfl | rfl | rfl | rfl | rfl | rfl | rfl
  · refine ⟨by simp [NestedClaim.polys], ?_, ?_⟩
    · simp only [NestedId.all, List.mem_append, List.mem_map]
      exact .inl ⟨i, hi, rfl⟩
    · simp only [NestedClaim.polys, List.mem_cons, List.not_mem_nil, or_false]
      rintro p (rfl | rfl | rfl) <;> exact hw _
  all_goals refine ⟨?_, by simp [NestedId.all], ?_⟩
  case' inr.inr.inr.inl.refine_1 => simp [NestedClaim.polys, NUM_ENDOSCALING_STEPS, numSteps,
    NUM_ENDOSCALING_POINTS, ENDOSCALINGS_PER_STEP]
  case' inr.inr.inr.inl.refine_2 =>
    intro p hp
    simp only [NestedClaim.polys, List.mem_map] at hp
    obtain ⟨i, -, rfl⟩ := hp
    exact hw _
  all_goals first
    | (simp [NestedClaim.polys]; done)
    | (intro p hp
       simp only [NestedClaim.polys, List.mem_cons, List.not_mem_nil, or_false] at hp
       subst hp
       exact hw _)

/-- The nested claims of a verifier. -/
theorem nested_check {E : Env F} {n : ℕ} {r : Registry F} {y z : F} {s : ℕ → Poly F}
    (hs : Supplies E n r y s) {rx : NestedRx → Poly F} (hw : ∀ c, WellFormed (4 * n) (rx c)) :
    ∃ B0 B, ClaimBuilder.new n y z = some B0 ∧
      buildNestedClaims (nestedSourceOf rx) (nestedPolyProcessor E n r) B0 = some B ∧
      (allRevdot (4 * n) (nestedKyValues 1 0) B = true ↔
        ∀ cv ∈ nestedTable rx 1 0,
          NestedTrue (4 * n) (fun i => coeff (s i)) (tCoeff n z) z cv.1 cv.2) := by
  obtain ⟨tz, h1, h2, -⟩ := C14_tz_coeffs n z
  obtain ⟨as, bs, h3, h4, h5, h6⟩ := fold_push (F := F) (A := Poly F)
    (fun B (c : NestedClaim (Poly F) × F) => (nestedPolyProcessor E n r).handle B c.1)
    (fun c a b => IsNestedClaim (4 * n) s tz z c.1 a b) y z tz (nestedTable rx 1 0)
    (fun c hc as bs => by
      have hok := nested_claim_ok hw hc
      obtain ⟨c, v⟩ := c
      refine handle_nested hs h2 c hok.1 ?_ hok.2.2 as bs
      cases c <;> exact hok.2.1) [] []
  refine ⟨⟨y, z, tz, [], []⟩, ⟨y, z, tz, as, bs⟩, by rw [ClaimBuilder.new, h1]; rfl, ?_, ?_⟩
  · rw [buildNestedClaims_eq rx (1 : F) 0]
    simpa using h3
  · have ht : coeff tz = tCoeff n z := funext fun k => tz_coeffs h1 k
    refine allRevdot_iff (C45_nested (M := Id) (P := Unit) rx (1 : F) 0).2.1 h4 h5 ?_
    intro i c v hi
    obtain ⟨a, b, ha, hb, hc⟩ := h6 i _ hi
    refine ⟨a, b, ha, hb, ?_⟩
    rw [← ht]
    exact revdot_nested hc v

theorem nested_source_iff (p : Proof F G HC) :
    (NUM_ENDOSCALING_STEPS ≤ p.p.nested.stepRxs.length →
      singleNestedSource p = some (nestedSourceOf fun c => (p.nestedRx c).getD [])) ∧
    (¬ NUM_ENDOSCALING_STEPS ≤ p.p.nested.stepRxs.length → singleNestedSource p = none) := by
  have key : (NestedRx.all.all fun c => (p.nestedRx c).isSome) = true ↔
      NUM_ENDOSCALING_STEPS ≤ p.p.nested.stepRxs.length := by
    rw [List.all_eq_true]
    constructor
    · intro h
      by_contra hlt
      have := h (.endoscalingStep p.p.nested.stepRxs.length) (by
        simp only [NestedRx.all, List.mem_append, List.mem_map, List.mem_range]
        exact .inl ⟨_, by omega, rfl⟩)
      simp [Proof.nestedRx] at this
    · intro h c hc
      simp only [NestedRx.all, List.mem_append, List.mem_map, List.mem_range] at hc
      rcases hc with ⟨i, hi, rfl⟩ | hc
      · rw [Proof.nestedRx, List.getElem?_eq_getElem (by omega)]
        rfl
      · simp only [List.mem_cons, List.not_mem_nil, or_false] at hc
        rcases hc with rfl | rfl | rfl | rfl | rfl | rfl | rfl | rfl | rfl | rfl <;> rfl
  constructor
  · intro h
    rw [singleNestedSource, if_pos (key.2 h)]
    rfl
  · intro h
    rw [singleNestedSource, if_neg (mt key.1 h)]

/-! ### The carried header -/

theorem encode_ok {N : ℕ} (hN : 0 < N) {H : Header F Data Out} {data : Data} {g : Out}
    (hg : emulate (H.encode data) = .ok g) (hfit : (H.write g).length ≤ N - 1) :
    encodeForVerify N H data =
      .ok ⟨headerEncoding N 0 (H.suffix.get : F) ((H.write g).map (·.value))⟩ := by
  rw [encodeForVerify, hg]
  simp only [bind, Except.bind]
  rw [padded_eq hN, if_pos hfit]
  simp only
  rw [headerEncoding_map, FixedVec.collectFixed, FixedVec.tryFrom, if_neg, Element.zero_value,
    Element.constant_value]
  rw [headerEncoding_length hN _ _ _ (by simpa using hfit)]
  simp

theorem encode_inv {N : ℕ} (hN : 0 < N) {H : Header F Data Out} {data : Data} {v : FixedVec F N}
    (h : encodeForVerify N H data = .ok v) : ∃ g, emulate (H.encode data) = .ok g ∧
      (H.write g).length ≤ N - 1 ∧
      v.v = headerEncoding N 0 (H.suffix.get : F) ((H.write g).map (·.value)) := by
  cases hg : emulate (H.encode data) with
  | error e => rw [encodeForVerify, hg] at h; cases h
  | ok g =>
    by_cases hfit : (H.write g).length ≤ N - 1
    · rw [encode_ok hN hg hfit] at h
      cases h
      exact ⟨g, rfl, hfit, rfl⟩
    · rw [encodeForVerify, hg] at h
      simp only [bind, Except.bind] at h
      rw [padded_eq hN, if_neg hfit] at h
      cases h

end Ragu.Pcd

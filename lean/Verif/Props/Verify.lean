/-
Property C46: what verification accepts.
-/
import Verif.Lemmas.Verify
import Verif.Lemmas.Supply
import Verif.Lemmas.TestField

set_option linter.unusedSectionVars false

namespace Ragu.Props
open Ragu Ragu.Pcd Ragu.Spec Ragu.Circuit Ragu.Registry Ragu.Gadget Ragu.Sparse Finset
variable {F G HC Data Out : Type} [Field F] [DecidableEq F] [Field G] [DecidableEq G]
  [AddCommGroup HC] [DecidableEq HC] [Module F HC]

/-- A verifier in order: both registries were built by a builder, the header size is not zero, and
there is a host generator for every coefficient. -/
structure VerifierOk (C : CycleEnv F G HC) (n N q q' : ℕ) (app : Application F G)
    (ss : List (F → F → F)) (ss' : List (G → G → G)) : Prop where
  native : ∃ b, Ready C.native n q b ss ∧ b.finalize C.native n = .ok app.nativeRegistry
  nested : ∃ b, Ready C.nested n q' b ss' ∧ b.finalize C.nested n = .ok app.nestedRegistry
  header : 0 < N
  repr : ReprOk C.numBits C.repr
  gens : 4 * n ≤ C.hostGens.length

/-- What the types of a proof guarantee: every polynomial fits the rank, every commitment of a
bridge is on the curve, and the circuit identifier is in the range of its integer type. No claim of
the proof has to hold. -/
structure ProofTyped (C : CycleEnv F G HC) (n : ℕ) (p : Proof F G HC) : Prop where
  native : ∀ c, WellFormed (4 * n) (p.nativeRx c)
  nested : ∀ c r, p.nestedRx c = some r → WellFormed (4 * n) r
  batched : WellFormed (4 * n) p.p.native.poly
  registryXy : WellFormed (4 * n) p.query.native.registryXyPoly
  curve : ∀ x y, some (x, y) ∈ bridgePoints p → y ^ 2 = x ^ 3 + C.b
  circuitId : p.application.circuitId < 2 ^ C.native.consts.S

/-- `header` is the encoding of the data: the written data, zeros, and the suffix, `N` elements in
all. -/
def EncodedAs (N : ℕ) (H : Header F Data Out) (data : Data) (header : List F) : Prop :=
  ∃ g, emulate (H.encode data) = .ok g ∧ (H.write g).length ≤ N - 1 ∧
    header = (H.write g).map (·.value) ++ List.replicate (N - 1 - (H.write g).length) 0 ++
      [(H.suffix.get : F)]

theorem encodedAs_iff {N : ℕ} (hN : 0 < N) {H : Header F Data Out} {data : Data} {header : List F} :
    EncodedAs N H data header ↔ encodeForVerify N H data = .ok ⟨header⟩ := by
  have key : ∀ g : Out, headerEncoding N 0 (H.suffix.get : F) ((H.write g).map (·.value)) =
      (H.write g).map (·.value) ++ List.replicate (N - 1 - (H.write g).length) 0 ++
        [(H.suffix.get : F)] := by
    intro g
    rw [headerEncoding, List.length_map]
  constructor
  · rintro ⟨g, h1, h2, rfl⟩
    rw [encode_ok hN h1 h2, key]
  · intro h
    obtain ⟨g, h1, h2, h3⟩ := encode_inv hN h
    exact ⟨g, h1, h2, by rw [← key]; exact h3⟩

theorem encodedAs_length {N : ℕ} (hN : 0 < N) {H : Header F Data Out} {data : Data}
    {header : List F} (h : EncodedAs N H data header) : header.length = N := by
  obtain ⟨g, -, h2, rfl⟩ := h
  simp
  omega

theorem typed_valid {C : CycleEnv F G HC} {n : ℕ} {p : Proof F G HC} (hp : ProofTyped C n p)
    (hi : none ∉ bridgePoints p) (s : SlotId) :
    ValidNative C.b s.kind (p.unifiedValue s) := by
  have h1 := (points_slots p).1 hi s
  have h2 := curve_slots hp.curve s
  revert h1 h2
  generalize p.unifiedValue s = v
  revert v
  generalize s.kind = k
  intro v h1 h2
  cases k with
  | element => trivial
  | point =>
    cases v with
    | none => exact absurd rfl h1
    | some xy => exact ⟨xy.1, xy.2, rfl, h2⟩

theorem ky_emulate_points {C : CycleEnv F G HC} {N : ℕ} {p : Proof F G HC} {header : List F} {y : F}
    {r : F × F × F} (h : emulate (kyForVerify C N p header y) = .ok r) : none ∉ bridgePoints p := by
  rw [points_slots]
  intro s
  rw [kyForVerify, emulate_bind] at h
  obtain ⟨_, -, h⟩ := h
  rw [emulate_bind] at h
  obtain ⟨_, h, -⟩ := h
  rw [ProofInputs.alloc, emulate_bind] at h
  obtain ⟨_, -, h⟩ := h
  rw [emulate_bind] at h
  obtain ⟨_, -, h⟩ := h
  rw [emulate_bind] at h
  obtain ⟨_, -, h⟩ := h
  rw [emulate_bind] at h
  obtain ⟨_, -, h⟩ := h
  rw [emulate_bind] at h
  obtain ⟨u, h, -⟩ := h
  obtain ⟨v, hv⟩ := emulate_forEachSlot h s
  exact emulate_alloc_none hv

/-- The wiring polynomials a verifier uses: at every circuit of the registry's domain the
evaluation is the value of the registry polynomial at that circuit. -/
def WiringOf (E : Env F) (n : ℕ) (r : Registry F) (ss : List (F → F → F)) (y : F)
    (s : ℕ → ℕ → F) : Prop :=
  (∀ i x, ∑ k ∈ range (4 * n), s i k * x ^ k =
    registryAt n r.domain.n (omegaJ E) ss r.key (omegaJ E i) x y) ∧
  ∀ (i : ℕ) o, r.circuits[i]? = some o → WiringCoeffs n o r.key y (s i)

theorem verify_body {C : CycleEnv F G HC} {n N q q' : ℕ} {app : Application F G}
    {ss : List (F → F → F)} {ss' : List (G → G → G)} (hV : VerifierOk C n N q q' app ss ss')
    (H : Header F Data Out) (data : Data) (ch : VerifyChallenges F G) :
    ∃ s s', WiringOf C.native n app.nativeRegistry ss ch.y s ∧
      WiringOf C.nested n app.nestedRegistry ss' ch.yNested s' ∧
      ∀ p : Proof F G HC, ProofTyped C n p → ∀ header, EncodedAs N H data header →
        p.application.circuitId < app.nativeRegistry.domain.n →
        p.application.leftHeader.length = N → p.application.rightHeader.length = N →
        none ∉ bridgePoints p →
        (NUM_ENDOSCALING_STEPS ≤ p.p.nested.stepRxs.length → ∃ b,
          verify C n N app H p data ch = .ok b ∧
          (b = true ↔ Accepted n N app.nativeRegistry.domain.n s s' C.hostGens ch
            (registryAt n app.nativeRegistry.domain.n (omegaJ C.native) ss app.nativeRegistry.key
              ch.w p.challenges.x p.challenges.y) p header)) ∧
        (¬ NUM_ENDOSCALING_STEPS ≤ p.p.nested.stepRxs.length →
          verify C n N app H p data ch = .error .panic) := by
  obtain ⟨bN, hRN, hfN⟩ := hV.native
  obtain ⟨bG, hRG, hfG⟩ := hV.nested
  obtain ⟨s, hs, hse, hsw⟩ := supplies_of_ready hRN hfN ch.y
  obtain ⟨s', hs', hse', hsw'⟩ := supplies_of_ready hRG hfG ch.yNested
  have hev : ∀ (K : Type) [Field K] [DecidableEq K] (p : Poly K) (x : K),
      WellFormed (4 * n) p → Sparse.eval (4 * n) p x = ∑ k ∈ range (4 * n), coeff p k * x ^ k :=
    fun K _ _ p x h => C11_eval (4 * n) p h x
  refine ⟨fun i => coeff (s i), fun i => coeff (s' i), ⟨fun i x => ?_, hsw⟩,
    ⟨fun i x => ?_, hsw'⟩, ?_⟩
  · rw [← hse i x, hev F _ _ (hs i).2]
  · rw [← hse' i x, hev G _ _ (hs' i).2]
  intro p hp header hh hid hl hr hpt
  have hdom : app.nativeRegistry.circuitInDomain C.native p.application.circuitId = true :=
    (C24_in_domain hRN hfN hp.circuitId).2 hid
  have hv := typed_valid hp hpt
  obtain ⟨B0, B, n1, n2, n3⟩ := native_check (z := ch.z) hs hp.native header
  have hwn : ∀ c, WellFormed (4 * n) ((fun c => (p.nestedRx c).getD []) c) := by
    intro c
    rcases hc : p.nestedRx c with _ | r
    · simp only [hc, Option.getD_none]
      trivial
    · simp only [hc, Option.getD_some]
      exact hp.nested c r hc
  obtain ⟨D0, D, m1, m2, m3⟩ := nested_check (z := ch.zNested) hs' hwn
  have hcm := C12_commit (4 * n) C.numBits C.repr hV.repr p.p.native.poly C.hostGens hp.batched
    hV.gens
  have hreg := (C23_restrictions hRN hfN ch.w p.challenges.x p.challenges.y).1
  constructor
  · intro hst
    refine ⟨(allRevdot (4 * n) (singleProofKySource p.ab.native.c (childOfProof p header ch.y).app
        (childOfProof p header ch.y).bridge (childOfProof p header ch.y).unified 0).values B &&
      allRevdot (4 * n) (nestedKyValues 1 0) D &&
      decide (Sparse.eval (4 * n) p.p.native.poly p.challenges.u = p.p.native.v) &&
      decide (∑ k ∈ range (4 * n), coeff p.p.native.poly k • C.hostGens.getD k 0 =
        p.p.native.commitment) &&
      decide (Sparse.eval (4 * n) p.query.native.registryXyPoly ch.w = registryAt n
        app.nativeRegistry.domain.n (omegaJ C.native) ss app.nativeRegistry.key
              ch.w p.challenges.x p.challenges.y)), ?_, ?_⟩
    · rw [verify, if_neg (by simp [hdom]), if_neg (by simp [hl, hr])]
      rw [(encodedAs_iff hV.header).1 hh]
      simp only [bind, Except.bind]
      rw [ky_emulate hl hr (encodedAs_length hV.header hh) hv ch.y]
      simp only [n1, n2, (nested_source_iff p).1 hst, m1, m2, orPanic, hcm, hreg]
      rfl
    · simp only [Bool.and_eq_true, decide_eq_true_eq]
      rw [n3, m3, hev F _ _ hp.batched, hev F _ _ hp.registryXy]
      constructor
      · rintro ⟨⟨⟨⟨a1, a2⟩, a3⟩, a4⟩, a5⟩
        exact ⟨hid, hl, hr, hpt, hst, a1, a2, a3, a4, a5⟩
      · intro h
        exact ⟨⟨⟨⟨h.native, h.nested⟩, h.eval⟩, h.commitment⟩, h.registry⟩
  · intro hst
    rw [verify, if_neg (by simp [hdom]), if_neg (by simp [hl, hr])]
    rw [(encodedAs_iff hV.header).1 hh]
    simp only [bind, Except.bind]
    rw [ky_emulate hl hr (encodedAs_length hV.header hh) hv ch.y]
    simp only [n1, n2, (nested_source_iff p).2 hst, orPanic]

/-- C46: verification returns `true` exactly when the carried data encodes as a header and the proof
meets every condition of `Accepted` with it: the circuit is in the domain, the headers have the
right length, every native and every nested revdot claim equals its public value, `p(u) = v`, the
commitment of `p` opens, and `registry_xy` agrees with the registry polynomial at `w`. -/
theorem C46_verify {C : CycleEnv F G HC} {n N q q' : ℕ} {app : Application F G}
    {ss : List (F → F → F)} {ss' : List (G → G → G)} (hV : VerifierOk C n N q q' app ss ss')
    (H : Header F Data Out) (data : Data) (ch : VerifyChallenges F G) :
    ∃ s s', WiringOf C.native n app.nativeRegistry ss ch.y s ∧
      WiringOf C.nested n app.nestedRegistry ss' ch.yNested s' ∧
      ∀ p : Proof F G HC, ProofTyped C n p →
        (verify C n N app H p data ch = .ok true ↔ ∃ header, EncodedAs N H data header ∧
          Accepted n N app.nativeRegistry.domain.n s s' C.hostGens ch
            (registryAt n app.nativeRegistry.domain.n (omegaJ C.native) ss app.nativeRegistry.key
              ch.w p.challenges.x p.challenges.y) p header) := by
  obtain ⟨s, s', h1, h2, hb⟩ := verify_body hV H data ch
  refine ⟨s, s', h1, h2, fun p hp => ?_⟩
  constructor
  · intro h
    obtain ⟨bN, hRN, hfN⟩ := hV.native
    by_cases hid : p.application.circuitId < app.nativeRegistry.domain.n
    swap
    · have : ¬ app.nativeRegistry.circuitInDomain C.native p.application.circuitId = true :=
        fun hc => hid ((C24_in_domain hRN hfN hp.circuitId).1 hc)
      rw [verify, if_pos this] at h
      cases h
    by_cases hlr : p.application.leftHeader.length ≠ N ∨ p.application.rightHeader.length ≠ N
    · rw [verify, if_neg (by simp [(C24_in_domain hRN hfN hp.circuitId).2 hid]), if_pos hlr] at h
      cases h
    push Not at hlr
    have h' := h
    rw [verify, if_neg (by simp [(C24_in_domain hRN hfN hp.circuitId).2 hid]),
      if_neg (by simp [hlr])] at h
    rcases he : encodeForVerify N H data with e | v
    · rw [he] at h
      cases h
    rw [he] at h
    simp only [bind, Except.bind] at h
    have hh : EncodedAs N H data v.v := (encodedAs_iff hV.header).2 he
    have hpt : none ∉ bridgePoints p := by
      rcases hk : emulate (kyForVerify C N p v.v ch.y) with e | r
      · rw [hk] at h
        cases h
      · exact ky_emulate_points hk
    obtain ⟨hb1, hb2⟩ := hb p hp v.v hh hid hlr.1 hlr.2 hpt
    by_cases hst : NUM_ENDOSCALING_STEPS ≤ p.p.nested.stepRxs.length
    · obtain ⟨b, e1, e2⟩ := hb1 hst
      rw [h'] at e1
      cases e1
      exact ⟨v.v, hh, e2.1 rfl⟩
    · rw [hb2 hst] at h'
      cases h'
  · rintro ⟨header, hh, ha⟩
    obtain ⟨hb1, -⟩ := hb p hp header hh ha.inDomain ha.left ha.right ha.points
    obtain ⟨b, e1, e2⟩ := hb1 ha.steps
    rw [e1, e2.2 ha]

/-- C46: a single failing check makes verification return `false`: whenever the data encodes, no
bridge commitment is the identity and the proof has all its endoscaling steps, verification returns
a verdict, and the verdict is `false` if any one condition fails. -/
theorem C46_rejects {C : CycleEnv F G HC} {n N q q' : ℕ} {app : Application F G}
    {ss : List (F → F → F)} {ss' : List (G → G → G)} (hV : VerifierOk C n N q q' app ss ss')
    (H : Header F Data Out) (data : Data) (ch : VerifyChallenges F G) :
    ∃ s s', WiringOf C.native n app.nativeRegistry ss ch.y s ∧
      WiringOf C.nested n app.nestedRegistry ss' ch.yNested s' ∧
      ∀ p : Proof F G HC, ProofTyped C n p → ∀ header, EncodedAs N H data header →
        none ∉ bridgePoints p →
        NUM_ENDOSCALING_STEPS ≤ p.p.nested.stepRxs.length →
        (¬ p.application.circuitId < app.nativeRegistry.domain.n ∨
          p.application.leftHeader.length ≠ N ∨ p.application.rightHeader.length ≠ N ∨
          (∃ cv ∈ claimTable [childOfProof p header ch.y] 0,
            ¬ ClaimTrue (4 * n) s (tCoeff n ch.z) ch.z cv.1 cv.2) ∨
          (∃ cv ∈ nestedTable (fun c => (p.nestedRx c).getD []) 1 0,
            ¬ NestedTrue (4 * n) s' (tCoeff n ch.zNested) ch.zNested cv.1 cv.2) ∨
          ∑ k ∈ range (4 * n), coeff p.p.native.poly k * p.challenges.u ^ k ≠ p.p.native.v ∨
          ∑ k ∈ range (4 * n), coeff p.p.native.poly k • C.hostGens.getD k 0 ≠
            p.p.native.commitment ∨
          ∑ k ∈ range (4 * n), coeff p.query.native.registryXyPoly k * ch.w ^ k ≠
            registryAt n app.nativeRegistry.domain.n (omegaJ C.native) ss app.nativeRegistry.key
              ch.w p.challenges.x p.challenges.y) →
        verify C n N app H p data ch = .ok false := by
  obtain ⟨s, s', h1, h2, hb⟩ := verify_body hV H data ch
  refine ⟨s, s', h1, h2, fun p hp header hh hpt hst hbad => ?_⟩
  obtain ⟨bN, hRN, hfN⟩ := hV.native
  by_cases hid : p.application.circuitId < app.nativeRegistry.domain.n
  swap
  · have : ¬ app.nativeRegistry.circuitInDomain C.native p.application.circuitId = true :=
      fun hc => hid ((C24_in_domain hRN hfN hp.circuitId).1 hc)
    rw [verify, if_pos this]
  by_cases hlr : p.application.leftHeader.length ≠ N ∨ p.application.rightHeader.length ≠ N
  · rw [verify, if_neg (by simp [(C24_in_domain hRN hfN hp.circuitId).2 hid]), if_pos hlr]
  push Not at hlr
  obtain ⟨hb1, -⟩ := hb p hp header hh hid hlr.1 hlr.2 hpt
  obtain ⟨b, e1, e2⟩ := hb1 hst
  cases b with
  | false => exact e1
  | true =>
    exfalso
    have ha := e2.1 rfl
    rcases hbad with h | h | h | ⟨cv, hm, h⟩ | ⟨cv, hm, h⟩ | h | h | h
    · exact h hid
    · exact h hlr.1
    · exact h hlr.2
    · exact h (ha.native cv hm)
    · exact h (ha.nested cv hm)
    · exact h ha.eval
    · exact h ha.commitment
    · exact h ha.registry

/-- C46: a circuit outside the domain or a header of the wrong length is rejected first, whatever
the rest of the proof and the data are. -/
theorem C46_rejects_early {C : CycleEnv F G HC} {n N q q' : ℕ} {app : Application F G}
    {ss : List (F → F → F)} {ss' : List (G → G → G)} (hV : VerifierOk C n N q q' app ss ss')
    (H : Header F Data Out) (data : Data) (ch : VerifyChallenges F G) (p : Proof F G HC)
    (hi : p.application.circuitId < 2 ^ C.native.consts.S)
    (hbad : ¬ p.application.circuitId < app.nativeRegistry.domain.n ∨
      p.application.leftHeader.length ≠ N ∨ p.application.rightHeader.length ≠ N) :
    verify C n N app H p data ch = .ok false := by
  obtain ⟨bN, hRN, hfN⟩ := hV.native
  by_cases h1 : app.nativeRegistry.circuitInDomain C.native p.application.circuitId = true
  · rw [verify, if_neg (by simp [h1]), if_pos]
    exact hbad.resolve_left fun h => h ((C24_in_domain hRN hfN hi).1 h1)
  · rw [verify, if_pos h1]

/-- C46: the data decides nothing beyond its encoding: two headers and data with the same encoding
are accepted with the same proofs. -/
theorem C46_data {Data' Out' : Type} {C : CycleEnv F G HC} {n N q q' : ℕ} {app : Application F G}
    {ss : List (F → F → F)} {ss' : List (G → G → G)} (hV : VerifierOk C n N q q' app ss ss')
    (H : Header F Data Out) (H' : Header F Data' Out') (data : Data) (data' : Data')
    (ch : VerifyChallenges F G) {header : List F} (h : EncodedAs N H data header)
    (h' : EncodedAs N H' data' header) (p : Proof F G HC) :
    verify C n N app H p data ch = verify C n N app H' p data' ch := by
  rw [verify, verify, (encodedAs_iff hV.header).1 h, (encodedAs_iff hV.header).1 h']

/-- C46: outside the two early rejections, data that does not encode is an error, a bridge
commitment that is the identity is an error, and a proof with too few endoscaling steps panics: none
of these is accepted, and none is reported as `false`. -/
theorem C46_errors {C : CycleEnv F G HC} {n N q q' : ℕ} {app : Application F G}
    {ss : List (F → F → F)} {ss' : List (G → G → G)} (hV : VerifierOk C n N q q' app ss ss')
    (H : Header F Data Out) (data : Data) (ch : VerifyChallenges F G) (p : Proof F G HC)
    (hp : ProofTyped C n p) (hid : p.application.circuitId < app.nativeRegistry.domain.n)
    (hl : p.application.leftHeader.length = N) (hr : p.application.rightHeader.length = N) :
    ((¬ ∃ header, EncodedAs N H data header) → ∃ e, verify C n N app H p data ch = .error e) ∧
    (none ∈ bridgePoints p →
      ∃ e, verify C n N app H p data ch = .error e) ∧
    ((∃ header, EncodedAs N H data header) → none ∉ bridgePoints p →
      ¬ NUM_ENDOSCALING_STEPS ≤ p.p.nested.stepRxs.length →
      verify C n N app H p data ch = .error .panic) := by
  have hN := hV.header
  obtain ⟨s, s', h1, h2, hb⟩ := verify_body hV H data ch
  obtain ⟨bN, hRN, hfN⟩ := hV.native
  have hdom := (C24_in_domain hRN hfN hp.circuitId).2 hid
  refine ⟨fun hno => ?_, fun hsl => ?_, fun ⟨header, hh⟩ hpt hst => ?_⟩
  · rw [verify, if_neg (by simp [hdom]), if_neg (by simp [hl, hr])]
    rcases he : encodeForVerify N H data with e | v
    · exact ⟨e, rfl⟩
    · exact absurd ⟨v.v, (encodedAs_iff hN).2 he⟩ hno
  · rw [verify, if_neg (by simp [hdom]), if_neg (by simp [hl, hr])]
    rcases he : encodeForVerify N H data with e | v
    · exact ⟨e, rfl⟩
    · simp only [bind, Except.bind]
      rcases hk : emulate (kyForVerify C N p v.v ch.y) with e | r
      · exact ⟨e, rfl⟩
      · exact absurd hsl (ky_emulate_points hk)
  · exact (hb p hp header hh hid hl hr hpt).2 hst


/-! ### Examples -/

/-- A polynomial that is its own satisfying assignment: `2 · 1 · 49 = 1`. -/
def demoTrace : Poly (ZMod 97) := [(15, [1, 49])]

/-- A proof over `ZMod 97`, with the curve `y² = x³ + 1`. -/
def demoProof : Proof (ZMod 97) (ZMod 97) (ZMod 97) where
  application := ⟨0, [1, 2, 3], [4, 5, 6], ⟨demoTrace, 0⟩⟩
  preamble := ⟨⟨[], 0⟩, ⟨[], some (0, 1)⟩⟩
  sPrime := ⟨⟨[], 0, [], 0⟩, ⟨[], some (0, 1)⟩⟩
  innerError := ⟨⟨[], 0, ⟨[], 0⟩⟩, ⟨[], some (0, 1)⟩⟩
  outerError := ⟨⟨[], 0⟩, ⟨[], some (0, 1)⟩⟩
  ab := ⟨⟨[(3, [2])], 0, [(28, [5])], 0, 10⟩, ⟨[], some (0, 1)⟩⟩
  query := ⟨⟨[], 0, ⟨[], 0⟩⟩, ⟨[], some (0, 1)⟩⟩
  f := ⟨⟨[], 0⟩, ⟨[], some (0, 1)⟩⟩
  eval := ⟨⟨[], 0⟩, ⟨[], some (0, 1)⟩⟩
  p := ⟨⟨[(1, [3])], 6, 15⟩, ⟨List.replicate NUM_ENDOSCALING_STEPS demoTrace, [], []⟩⟩
  challenges := ⟨2, 0, 3, 4, 5, 6, 7, 8, 9, 5, 11⟩
  circuits := ⟨⟨demoTrace, 0⟩, ⟨demoTrace, 0⟩, ⟨demoTrace, 0⟩, ⟨demoTrace, 0⟩, ⟨demoTrace, 0⟩⟩

def demoCycle : CycleEnv (ZMod 97) (ZMod 97) (ZMod 97) where
  native := env97
  nested := env97
  b := 1
  numBits := 7
  repr := fun a => [UInt8.ofNat a.val]
  hostGens := (List.range 32).map fun i => ((2 ^ i : ℕ) : ZMod 97)

/-- Challenges at which the wiring polynomials of an empty registry vanish. -/
def demoChallenges : VerifyChallenges (ZMod 97) (ZMod 97) := ⟨7, 0, 1, 0, 1⟩

theorem empty_ready : Ready env97 8 5 ({} : Builder (ZMod 97)) [] :=
  ⟨env97_ok, by norm_num, by decide, env97_keys, List.Forall₂.nil⟩

theorem demo_verifier : ∃ app, VerifierOk demoCycle 8 3 5 5 app [] [] := by
  obtain ⟨r, h1, h2⟩ := (C25_capacity empty_ready).2 (by decide)
  refine ⟨⟨r, r, 0⟩, ⟨_, empty_ready, h1⟩, ⟨_, empty_ready, h1⟩, by decide, ?_, by decide⟩
  intro a
  have h : a.val < 97 := a.val_lt
  have e : leValue (demoCycle.repr a) = a.val := by
    simp [leValue, demoCycle]; omega
  rw [e]
  exact ⟨ZMod.natCast_zmod_val a, by show a.val < 128; omega⟩

theorem demo_typed : ProofTyped demoCycle 8 demoProof := by
  have h1 : WellFormed 32 demoTrace := by simp [WellFormed, WellFormedFrom, demoTrace]
  have h0 : WellFormed 32 ([] : Poly (ZMod 97)) := trivial
  refine ⟨fun c => ?_, fun c r hr => ?_, ?_, h0, fun x y hxy => ?_, by decide⟩
  · cases c with
    | abA => simp [Proof.nativeRx, demoProof, WellFormed, WellFormedFrom]
    | abB => simp [Proof.nativeRx, demoProof, WellFormed, WellFormedFrom]
    | rx i => cases i <;> first | exact h1 | exact h0
  · cases c with
    | endoscalingStep i =>
      have : r = demoTrace := List.eq_of_mem_replicate (List.mem_of_getElem? hr)
      rw [this]; exact h1
    | _ => cases hr; exact h0
  · simp [demoProof, WellFormed, WellFormedFrom]
  · have : (x, y) = (0, 1) := by
      simpa [bridgePoints, demoProof] using hxy
    obtain ⟨rfl, rfl⟩ := Prod.mk.inj this
    decide

theorem demo_points : none ∉ bridgePoints demoProof := by
  simp [bridgePoints, demoProof]

theorem demo_encoded : EncodedAs 3 (Header.unit : Header (ZMod 97) Unit Unit) () [0, 0, 1] :=
  ⟨(), rfl, by decide, by decide⟩

/-- Wiring polynomials that vanish everywhere have no coefficients. -/
theorem wiring_zero {s : ℕ → ZMod 97}
    (h : ∀ x, ∑ k ∈ range 32, s k * x ^ k = 0) (k : ℕ) (hk : k < 32) : s k = 0 := by
  let P : Polynomial (ZMod 97) := ∑ k ∈ range 32, Polynomial.monomial k (s k)
  have hP : P = 0 := by
    refine Polynomial.eq_zero_of_natDegree_lt_card_of_eval_eq_zero' P Finset.univ (fun x _ => ?_) ?_
    · simp only [P, Polynomial.eval_finsetSum, Polynomial.eval_monomial]
      exact h x
    · rw [Finset.card_univ, ZMod.card]
      refine lt_of_le_of_lt (Polynomial.natDegree_sum_le_of_forall_le (n := 31) _ _ ?_) (by decide)
      intro i hi
      exact le_trans (Polynomial.natDegree_monomial_le _) (by have := mem_range.1 hi; omega)
  have := congrArg (fun Q => Polynomial.coeff Q k) hP
  simpa [P, Polynomial.finsetSum_coeff, Polynomial.coeff_monomial, hk] using this

instance (N : ℕ) (s : ℕ → ℕ → ZMod 97) (t : ℕ → ZMod 97) (z : ZMod 97)
    (c : Claim (Poly (ZMod 97)) ℕ) (v : ZMod 97) : Decidable (ClaimTrue N s t z c v) :=
  inferInstanceAs (Decidable (_ = _))

instance (N : ℕ) (s : ℕ → ℕ → ZMod 97) (t : ℕ → ZMod 97) (z : ZMod 97)
    (c : NestedClaim (Poly (ZMod 97))) (v : ZMod 97) : Decidable (NestedTrue N s t z c v) :=
  inferInstanceAs (Decidable (_ = _))

theorem claimTrue_zero {s : ℕ → ℕ → ZMod 97} (hs : ∀ i k, k < 32 → s i k = 0) {t : ℕ → ZMod 97}
    {z : ZMod 97} {c : Claim (Poly (ZMod 97)) ℕ} {v : ZMod 97}
    (h : ClaimTrue 32 (fun _ _ => 0) t z c v) : ClaimTrue 32 s t z c v := by
  rw [← h]
  refine sum_congr rfl fun k hk => ?_
  have hk' : 32 - 1 - k < 32 := by have := mem_range.1 hk; omega
  cases c <;> simp only [claimLeft, claimRight, hs _ _ hk']

theorem nestedTrue_zero {s : ℕ → ℕ → ZMod 97} (hs : ∀ i k, k < 32 → s i k = 0) {t : ℕ → ZMod 97}
    {z : ZMod 97} {c : NestedClaim (Poly (ZMod 97))} {v : ZMod 97}
    (h : NestedTrue 32 (fun _ _ => 0) t z c v) : NestedTrue 32 s t z c v := by
  rw [← h]
  refine sum_congr rfl fun k hk => ?_
  have hk' : 32 - 1 - k < 32 := by have := mem_range.1 hk; omega
  cases c <;> simp only [nestedLeft, nestedRight, hs _ _ hk']

/-- The demo proof is accepted. -/
example : ∃ app, VerifierOk demoCycle 8 3 5 5 app [] [] ∧
    verify demoCycle 8 3 app Header.unit demoProof () demoChallenges = .ok true := by
  obtain ⟨app, hV⟩ := demo_verifier
  refine ⟨app, hV, ?_⟩
  obtain ⟨s, s', h1, h2, h3⟩ := C46_verify hV Header.unit () demoChallenges
  rw [h3 demoProof demo_typed]
  have z1 : ∀ i k, k < 32 → s i k = 0 := fun i k hk => by
    refine wiring_zero (fun x => ?_) k hk
    have := h1.1 i x
    simpa [registryAt, demoChallenges] using this
  have z2 : ∀ i k, k < 32 → s' i k = 0 := fun i k hk => by
    refine wiring_zero (fun x => ?_) k hk
    have := h2.1 i x
    simpa [registryAt, demoChallenges] using this
  refine ⟨_, demo_encoded, ⟨?_, rfl, rfl, demo_points, by decide, ?_, ?_, ?_, ?_, ?_⟩⟩
  · obtain ⟨b, hb, hf⟩ := hV.native
    obtain ⟨_, hg, -⟩ := finalize_cases hb hf
    rw [hg.good.size]
    exact Nat.two_pow_pos _
  · refine fun cv hcv => claimTrue_zero z1 ?_
    revert cv
    decide +kernel
  · refine fun cv hcv => nestedTrue_zero z2 ?_
    revert cv
    decide +kernel
  · decide +kernel
  · decide +kernel
  · simp [registryAt, demoProof, coeff]

/-- A proof with a wrong value is rejected by the same verifier. -/
example : ∃ app, VerifierOk demoCycle 8 3 5 5 app [] [] ∧
    verify demoCycle 8 3 app Header.unit
      { demoProof with p := { demoProof.p with native := { demoProof.p.native with v := 16 } } } ()
      demoChallenges = .ok false := by
  obtain ⟨app, hV⟩ := demo_verifier
  refine ⟨app, hV, ?_⟩
  obtain ⟨s, s', h1, h2, h3⟩ := C46_rejects hV Header.unit () demoChallenges
  refine h3 _ ⟨demo_typed.native, demo_typed.nested, demo_typed.batched, demo_typed.registryXy,
    demo_typed.curve, demo_typed.circuitId⟩ _ demo_encoded demo_points (by decide)
    (.inr (.inr (.inr (.inr (.inr (.inl ?_))))))
  decide +kernel

end Ragu.Props

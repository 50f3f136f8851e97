/-
Properties C75 to C79: the Pasta cycle that the proof system is used with.

The specification is Mathlib's: primality of natural numbers, the group of points of a Weierstrass curve
and its number of elements.
-/
import Verif.Model.Pasta.Cycle
import Verif.Lemmas.Pasta.KeysP
import Verif.Lemmas.Pasta.KeysQ
import Verif.Lemmas.Pasta.Poseidon
import Verif.Lemmas.Pasta.Baked
import Verif.Props.Complete
import Mathlib.Data.Set.Finite.List
import Mathlib.Data.Set.Finite.Basic

set_option linter.unusedSectionVars false
set_option maxRecDepth 20000
namespace Ragu.Props
open Ragu Ragu.Circuit Ragu.Registry Ragu.Gadget Ragu.Spec Ragu.Pcd Ragu.Pasta WeierstrassCurve.Affine

/-- The points of Pallas, over the circuit field. -/
abbrev Pallas := (curve (5 : Fp)).Point
/-- The points of Vesta, over the scalar field. -/
abbrev Vesta := (curve (5 : Fq)).Point

/-! ### C75: fields and curves -/

/-- C75: the moduli are prime numbers of 255 bits, and the generator is not a square in either field. -/
theorem C75_fields : Nat.Prime p ∧ Nat.Prime q ∧ 2 ^ 254 < p ∧ p < 2 ^ 255 ∧ 2 ^ 254 < q ∧ q < 2 ^ 255 ∧
    p ≠ q ∧ ¬ IsSquare ((gen : ℕ) : Fp) ∧ ¬ IsSquare ((gen : ℕ) : Fq) := by
  refine ⟨prime_p, prime_q, by decide +kernel, by decide +kernel, by decide +kernel, by decide +kernel,
    by decide +kernel, ?_, ?_⟩
  · rintro ⟨r, hr⟩
    exact not_pow_of (m := p) (a := gen) (e := 2) (by decide +kernel) (by decide +kernel)
      (cast_ne_zero (by decide +kernel) (by decide +kernel)) (by decide +kernel) r (by rw [hr, sq])
  · rintro ⟨r, hr⟩
    exact not_pow_of (m := q) (a := gen) (e := 2) (by decide +kernel) (by decide +kernel)
      (cast_ne_zero (by decide +kernel) (by decide +kernel)) (by decide +kernel) r (by rw [hr, sq])

/-- C75: the two curves form a cycle: each has as many points as the field of the other has elements. -/
theorem C75_curves : Nat.card Pallas = Nat.card Fq ∧ Nat.card Vesta = Nat.card Fp := by
  rw [pallas_card, vesta_card, Nat.card_zmod, Nat.card_zmod]
  exact ⟨rfl, rfl⟩

/-- C75: on each curve `(x, y) ↦ (ζx, y)`, with `ζ` of the field of the coordinates, is multiplication by the `ζ`
of the other field. -/
theorem C75_endo :
    (∀ (x y : Fp) (h : (curve (5 : Fp)).Nonsingular x y), ∃ h' : (curve (5 : Fp)).Nonsingular (zetaP * x) y,
      (.some _ _ h' : Pallas) = zetaQ • (.some x y h : Pallas)) ∧
    (∀ (x y : Fq) (h : (curve (5 : Fq)).Nonsingular x y), ∃ h' : (curve (5 : Fq)).Nonsingular (zetaQ * x) y,
      (.some _ _ h' : Vesta) = zetaP • (.some x y h : Vesta)) := by
  constructor
  · intro x y h
    obtain ⟨h', e⟩ := pallas_group.endo ⟨⟨x, x⟩, ⟨y, y⟩⟩ _ (Represents.of_coords h rfl rfl)
    rw [natCast_zsmul] at e
    refine ⟨by simpa [Gadget.Point.endo, Coeff.value, mul_comm] using h', ?_⟩
    rw [e]
    congr 1
    simp [Gadget.Point.endo, Coeff.value, mul_comm]
  · intro x y h
    obtain ⟨h', e⟩ := vesta_group.endo ⟨⟨x, x⟩, ⟨y, y⟩⟩ _ (Represents.of_coords h rfl rfl)
    rw [natCast_zsmul] at e
    refine ⟨by simpa [Gadget.Point.endo, Coeff.value, mul_comm] using h', ?_⟩
    rw [e]
    congr 1
    simp [Gadget.Point.endo, Coeff.value, mul_comm]

/-- C75: the constants for the FFT domains are right. -/
theorem C75_env {M : Machine Fp} {M' : Machine Fq} (h : 0 < M.threads) (h' : 0 < M'.threads) :
    EnvOk (envP M) ∧ EnvOk (envQ M') := by
  refine ⟨⟨⟨primitiveP, ?_, ?_⟩, le_refl 32, h⟩, ⟨⟨primitiveQ, ?_, ?_⟩, le_refl 32, h'⟩⟩
  · exact_mod_cast cast_eq_one_of (m := p) (a := rootP * rootInvP) (by decide +kernel)
  · exact_mod_cast cast_eq_one_of (m := p) (a := 2 * twoInvP) (by decide +kernel)
  · exact_mod_cast cast_eq_one_of (m := q) (a := rootQ * rootInvQ) (by decide +kernel)
  · exact_mod_cast cast_eq_one_of (m := q) (a := 2 * twoInvQ) (by decide +kernel)

/-! ### C76: the lookup keys -/

/-- C76: the lookup keys of the `2^k`-th roots of unity are distinct in both fields, for every size that a
registry of a supported rank can have. -/
theorem C76_keys {M : Machine Fp} {M' : Machine Fq} {k : ℕ} (hk : k ≤ 13) :
    KeysDistinct (envP M) k ∧ KeysDistinct (envQ M') k :=
  ⟨fun a b ha hb he => keysDistinctP hk a b ha hb he, fun a b ha hb he => keysDistinctQ hk a b ha hb he⟩

/-! ### C75: what the proof system assumes of the cycle -/

instance : Module Fp Vesta :=
  AddCommGroup.zmodModule fun P => vesta_group.order P

/-- The cycle, with the given generators. -/
def pastaCycle (M : Machine Fp) (M' : Machine Fq) (gens : List Vesta) : CycleEnv Fp Fq Vesta :=
  ⟨envP M, envQ M', curveB, numBits, reprP, gens⟩

/-- The host curve, as seen by the circuits over the scalar field. -/
def pastaHost : NestedParams Fq Vesta := ⟨5, zetaQ, coordinates⟩

/-- The parameters of the internal circuits. -/
def pastaStep (M : Machine Fp) (sqrt : Fp → Option Fp) (tag : List UInt8)
    (logCircuits logRank headerSize : ℕ) : StepParams Fp :=
  ⟨poseidonFp, tag, curveB, envP M, endoP sqrt, logCircuits, logRank, headerSize⟩

theorem bytesValue_eq : ∀ l : List UInt8, bytesValue l = leValue l
  | [] => rfl
  | b :: l => by
    have := bytesValue_eq l
    rw [bytesValue] at this
    rw [bytesValue, List.foldr_cons, this]
    simp only [leValue, List.length_cons]
    rw [Finset.sum_range_succ', Finset.mul_sum, add_comm]
    congr 1
    · refine Finset.sum_congr rfl fun i _ => ?_
      simp only [List.getD_cons_succ]
      ring
    · simp

/-- C75: `to_repr` is the little-endian representation, in at most 255 bits. -/
theorem C75_repr : ReprOk numBits reprP := by
  intro a
  have hlt : a.val < p := ZMod.val_lt a
  have hp : p < 2 ^ 255 := by decide +kernel
  rw [← bytesValue_eq, reprP, reprBytes_value (by omega), ZMod.natCast_zmod_val]
  exact ⟨rfl, lt_trans hlt hp⟩

/-- C75: the host curve has everything that endoscaling needs. -/
theorem C75_host (sqrt : Fp → Option Fp) : HostOk pastaHost (endoP sqrt) where
  good := goodCurve_q
  nbits := rfl
  group := ⟨p, (zetaP : ℕ), vesta_group, by
    have : 27 * 2 ^ 128 < p := by decide +kernel
    exact this, by simp [endoP]⟩
  points := ⟨AddMonoidHom.id _, fun P x y h => by
    rcases P with _ | ⟨x', y', h'⟩
    · cases h
    · cases h
      exact ⟨h', rfl⟩⟩

/-- C75: an application over the Pasta cycle meets the assumptions under which what an accepted proof
establishes, and that honest proofs are accepted, are proved. -/
theorem C75_app {M : Machine Fp} {M' : Machine Fq} (hM : 0 < M.threads) (hM' : 0 < M'.threads)
    {sqrt : Fp → Option Fp} (hs : SqrtSpec sqrt) {gens : List Vesta} {tag : List UInt8}
    {logRank headerSize : ℕ} (hr : logRank ≤ 11) (hg : 4 * 2 ^ logRank ≤ gens.length)
    (hh : 1 ≤ headerSize) {cs : Circuits Fp Fq} {steps : List (StepDef Fp)} {app : Application Fp Fq}
    (hb : ∃ b, registerSteps (2 ^ logRank) steps {} = .ok b ∧
      b.finalize (envP M) (envQ M') (2 ^ logRank) headerSize 5 cs = .ok app)
    (hu : ∀ s ∈ steps, s.circ.WellUsed) (hc : CircuitsOk (2 ^ logRank) steps.length cs)
    (hf : FuseCircuits (pastaStep M sqrt tag (registryLog steps.length) logRank headerSize) cs) :
    AppOk (pastaCycle M M' gens) (2 ^ logRank)
      (pastaStep M sqrt tag (registryLog steps.length) logRank headerSize) cs steps app where
  env := (C75_env hM hM').1
  env' := (C75_env hM hM').2
  rank := rfl
  room := by change logRank + 2 ≤ 32; omega
  room' := by change logRank + 2 ≤ 32; omega
  keys := (C76_keys (M := M) (M' := M') (k := logRank + 2) (by omega)).1
  keys' := (C76_keys (M := M) (M' := M') (k := logRank + 2) (by omega)).2
  built := hb
  used := hu
  circuits := hc
  repr := C75_repr
  gens := hg
  params := ⟨wf_p, by change 1 ≤ 4; omega, by change 4 ≤ 5; omega,
    by simpa [pastaStep, endoP] using C75_fields.2.2.2.2.2.2.2.1, hs, hh⟩
  log := rfl
  sameEnv := rfl
  sameCurve := rfl
  fuse := hf

/-! ### C77: Poseidon -/

/-- C77: over both fields the Poseidon permutation has the parameters it needs to run: as many rows and
columns as elements, as many round constants as rounds. -/
theorem C77_shape : Poseidon.WF poseidonFp ∧ Poseidon.WF poseidonFq ∧
    poseidonFp.roundConstants.length = poseidonFp.fullRounds + poseidonFp.partialRounds ∧
    poseidonFq.roundConstants.length = poseidonFq.fullRounds + poseidonFq.partialRounds ∧
    poseidonFp.rate < poseidonFp.T ∧ poseidonFq.rate < poseidonFq.T := by
  refine ⟨wf_p, wf_q, ?_, ?_, by decide, by decide⟩
  · have : roundConstantsFp.length = 64 := by decide +kernel
    simpa [poseidonFp] using this
  · have : roundConstantsFq.length = 64 := by decide +kernel
    simpa [poseidonFq] using this

theorem native_bijOn {m : ℕ} [Fact m.Prime] {P : PoseidonParams (ZMod m)}
    (hM : LeftInverse P.T (Poseidon.matrix P)) (h5 : Function.Injective fun a : ZMod m => a ^ 5) :
    Set.BijOn (Poseidon.native P) {l | l.length = P.T} {l | l.length = P.T} := by
  refine (Set.Finite.injOn_iff_bijOn_of_mapsTo (List.finite_length_eq _ _) fun l _ => ?_).1
    fun l hl l' hl' h => native_inj hM h5 hl hl' h
  simp [Poseidon.native]

/-- C77: it is a permutation of the states, in both fields. -/
theorem C77_permutation :
    Set.BijOn (Poseidon.native poseidonFp) {l | l.length = 5} {l | l.length = 5} ∧
    Set.BijOn (Poseidon.native poseidonFq) {l | l.length = 5} {l | l.length = 5} :=
  ⟨native_bijOn mds_inv_p fifth_p, native_bijOn mds_inv_q fifth_q⟩

/-- C77: the circuit computes it: it runs on every honest state of five elements, and in every satisfying
assignment the outputs are the permutation of the inputs. -/
theorem C77_circuit (s : List (Element Fp)) (hs : s.length = 5) :
    ((∀ e ∈ s, e.Honest) → ∃ r, (Poseidon.permutation poseidonFp s).sim = .ok r ∧ r.length = 5 ∧
      ∀ e ∈ r, e.Honest) ∧
    ∀ r, (Poseidon.permutation poseidonFp s).sat r →
      r.map Element.wire = Poseidon.native poseidonFp (s.map Element.wire) :=
  ⟨fun h => Poseidon.permutation_sim wf_p s hs h, fun r h => Poseidon.permutation_sat wf_p s r h⟩

/-! ### C78: literals -/

/-- C78: a literal below `2^256` becomes its four limbs, and a larger one is rejected. -/
theorem C78_literal (n : ℕ) :
    (n < 2 ^ 256 → ∃ a b c d, repr256 n = some [a, b, c, d] ∧ a < 2 ^ 64 ∧ b < 2 ^ 64 ∧ c < 2 ^ 64 ∧
      d < 2 ^ 64 ∧ n = a + b * 2 ^ 64 + c * 2 ^ 128 + d * 2 ^ 192) ∧
    (2 ^ 256 ≤ n → repr256 n = none) := by
  constructor
  · intro h
    have hl : (digits64 n).length ≤ 4 := (digits64_length n 4).2 h
    have hv := digits64_value n
    rw [← foldr_zeros _ (4 - (digits64 n).length)] at hv
    have hlt : ∀ d ∈ digits64 n ++ List.replicate (4 - (digits64 n).length) 0, d < 2 ^ 64 := by
      intro d hd
      rcases List.mem_append.1 hd with hd | hd
      · exact digits64_lt n d hd
      · rw [List.eq_of_mem_replicate hd]; norm_num
    have hlen : (digits64 n ++ List.replicate (4 - (digits64 n).length) 0).length = 4 := by
      rw [List.length_append, List.length_replicate]; omega
    rw [repr256, if_neg (by omega)]
    generalize digits64 n ++ List.replicate (4 - (digits64 n).length) 0 = l at *
    obtain ⟨a, b, c, d, rfl⟩ := List.length_eq_four.1 hlen
    refine ⟨a, b, c, d, rfl, hlt a (by simp), hlt b (by simp), hlt c (by simp), hlt d (by simp), ?_⟩
    rw [← hv]
    simp only [List.foldr_cons, List.foldr_nil]
    ring
  · intro h
    rw [repr256, if_pos]
    have := (digits64_length n 4).not
    push Not at this
    exact this.2 h

/-- C78: every constant of the Poseidon parameters is written as a number below the modulus, so the field
element is the number as written. -/
theorem C78_constants :
    (∀ row ∈ roundConstantsFp ++ mdsFp, ∀ n ∈ row, n < p ∧ literal p n = some (n : Fp)) ∧
    (∀ row ∈ roundConstantsFq ++ mdsFq, ∀ n ∈ row, n < q ∧ literal q n = some (n : Fq)) := by
  have hp : p < 2 ^ 256 := by decide +kernel
  have hq : q < 2 ^ 256 := by decide +kernel
  have h1 : ∀ row ∈ roundConstantsFp ++ mdsFp, ∀ n ∈ row, n < p := by decide +kernel
  have h2 : ∀ row ∈ roundConstantsFq ++ mdsFq, ∀ n ∈ row, n < q := by decide +kernel
  exact ⟨fun row hr n hn => ⟨h1 row hr n hn, literal_eq p ((h1 row hr n hn).trans hp)⟩,
    fun row hr n hn => ⟨h2 row hr n hn, literal_eq q ((h2 row hr n hn).trans hq)⟩⟩

/-! ### C79: generators -/

/-- C79: there are enough generators for the largest polynomials, and no two of them, nor any of them and
the blinding generator, come from hashing the same message. -/
theorem C79_generators {EP EQ : Type} (hashEp : List UInt8 → EP) (hashEq : List UInt8 → EQ) :
    (generate hashEp hashEq).pallasG.length = 4 * 2 ^ 11 ∧
    (generate hashEp hashEq).vestaG.length = 4 * 2 ^ 11 ∧
    (∀ i < 4 * 2 ^ 11, (generate hashEp hashEq).pallasG[i]? = some (hashEp (message i)) ∧
      (generate hashEp hashEq).vestaG[i]? = some (hashEq (message i))) ∧
    (generate hashEp hashEq).pallasH = hashEp [1] ∧ (generate hashEp hashEq).vestaH = hashEq [1] ∧
    (∀ i j, i < 4 * 2 ^ 11 → j < 4 * 2 ^ 11 → message i = message j → i = j) ∧
    ∀ i, message i ≠ [1] := by
  have hi : ∀ i, i < 4 * 2 ^ 11 → i < 2 ^ DEFAULT_EP_K := fun i h => h
  refine ⟨by simp [generate, paramsForCurve, DEFAULT_EP_K], by simp [generate, paramsForCurve, DEFAULT_EQ_K],
    fun i h => ⟨?_, ?_⟩, rfl, rfl, fun i j h h' e => ?_, fun i e => ?_⟩
  · simp only [generate, paramsForCurve, List.getElem?_map]
    rw [List.getElem?_range (hi i h)]
    rfl
  · simp only [generate, paramsForCurve, List.getElem?_map]
    rw [List.getElem?_range (show i < 2 ^ DEFAULT_EQ_K from hi i h)]
    rfl
  · rw [message, message, List.cons.injEq] at e
    exact leBytes32_inj (by omega) (by omega) e.2
  · simp [message] at e

/-- C79: baked parameters are the generated ones. If no generated point is the identity, the build script
writes a file, and reading it gives back exactly the generated parameters; otherwise the build fails. -/
theorem C79_baked (hashEp : List UInt8 → Pallas) (hashEq : List UInt8 → Vesta) :
    let P := generate hashEp hashEq
    ((∀ Q ∈ P.pallasG ++ [P.pallasH], Q ≠ 0) → (∀ Q ∈ P.vestaG ++ [P.vestaH], Q ≠ 0) →
      ∃ raw, bake P = some raw ∧ raw.length = 64 * (2 ^ 14 + 2) ∧ baked raw = some P) ∧
    ((∃ Q ∈ P.pallasG ++ [P.pallasH], Q = 0) ∨ (∃ Q ∈ P.vestaG ++ [P.vestaH], Q = 0) → bake P = none) :=
  baked_bake (by decide +kernel) (by decide +kernel) _ (by simp [generate, paramsForCurve])
    (by simp [generate, paramsForCurve])

/-! ### Examples -/

/-- Non-vacuity of C75_app: a square root function exists, and there is a machine. -/
example : ∃ sqrt : Fp → Option Fp, SqrtSpec sqrt := by
  classical
  refine ⟨fun v => if h : IsSquare v then some h.choose else none, fun v s h => ?_, fun v h => ?_⟩
  · split at h
    · next hv =>
      rw [Option.some.injEq] at h
      subst h
      exact hv.choose_spec.symm
    · cases h
  · rw [dif_pos h]
    exact Option.some_ne_none _

/-- The generator of Vesta, for the examples. -/
theorem vesta_gen : (curve (5 : Fq)).Nonsingular (-1) 2 :=
  nonsingular_curve goodCurve_q (by ring)

/-- The endomorphism at a point: C75_endo is about something. -/
example : ∃ h', (.some (zetaQ * (-1)) 2 h' : Vesta) = zetaP • (.some (-1) 2 vesta_gen : Vesta) :=
  C75_endo.2 _ _ vesta_gen

/-- Non-vacuity of C76_keys: there are 2^13 roots of unity of that order. -/
example : ((wP : ℕ) : Fp) ^ 2 ^ 13 = 1 ∧ ((wP : ℕ) : Fp) ≠ 1 :=
  ⟨wP_primitive.pow_eq_one, fun h => by
    have := wP_primitive.ne_one (by norm_num)
    exact this h⟩

/-- Literals, as in the tests of the macro. -/
example : repr256 0x1 = some [1, 0, 0, 0] ∧ repr256 (2 ^ 256) = none ∧
    repr256 (2 ^ 256 - 1) = some [2 ^ 64 - 1, 2 ^ 64 - 1, 2 ^ 64 - 1, 2 ^ 64 - 1] := by
  refine ⟨?_, (C78_literal _).2 le_rfl, ?_⟩ <;> simp [repr256, digits64]

/-- Non-vacuity of C79_baked: a hash function that never gives the identity. -/
example : ∃ raw, bake (generate (fun _ => (.some (-1) 2 (nonsingular_curve goodCurve_p (by ring)) : Pallas))
    fun _ => (.some (-1) 2 vesta_gen : Vesta)) = some raw ∧ raw.length = 64 * (2 ^ 14 + 2) := by
  obtain ⟨raw, h1, h2, -⟩ := (C79_baked (fun _ => .some (-1) 2 (nonsingular_curve goodCurve_p (by ring)))
    fun _ => .some (-1) 2 vesta_gen).1 (fun Q hQ => by
      simp only [generate, paramsForCurve, List.mem_append, List.mem_map, List.mem_singleton] at hQ
      rcases hQ with ⟨_, -, rfl⟩ | rfl <;> exact Point.some_ne_zero _) fun Q hQ => by
      simp only [generate, paramsForCurve, List.mem_append, List.mem_map, List.mem_singleton] at hQ
      rcases hQ with ⟨_, -, rfl⟩ | rfl <;> exact Point.some_ne_zero _
  exact ⟨raw, h1, h2⟩

end Ragu.Props

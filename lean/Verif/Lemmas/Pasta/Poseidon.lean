/-
The Poseidon parameters of the Pasta fields: literals, shapes, and that the permutation is one.
-/
import Verif.Model.Pasta.PoseidonFp
import Verif.Model.Pasta.PoseidonFq
import Verif.Lemmas.Pasta.Group
import Verif.Lemmas.Gadget.Sponge

set_option linter.unusedSectionVars false
set_option maxRecDepth 20000
namespace Ragu.Pasta
open Ragu Ragu.Cert Ragu.Gadget Ragu.Spec Finset

/-! ### Literals -/

theorem digits64_value (n : ℕ) : (digits64 n).foldr (fun d acc => d + 2 ^ 64 * acc) 0 = n := by
  induction n using Nat.strong_induction_on with
  | _ n ih =>
    rw [digits64]
    split
    · next h => rw [h]; rfl
    · next h =>
      rw [List.foldr_cons, ih _ (Nat.div_lt_self (Nat.pos_of_ne_zero h) (by norm_num))]
      exact Nat.mod_add_div n (2 ^ 64)

theorem digits64_length (n k : ℕ) : (digits64 n).length ≤ k ↔ n < 2 ^ (64 * k) := by
  induction n using Nat.strong_induction_on generalizing k with
  | _ n ih =>
    rw [digits64]
    split
    · next h => subst h; simp
    · next h =>
      rw [List.length_cons]
      cases k with
      | zero => simp; omega
      | succ k =>
        rw [Nat.add_le_add_iff_right, ih _ (Nat.div_lt_self (Nat.pos_of_ne_zero h) (by norm_num)),
          Nat.div_lt_iff_lt_mul (by norm_num), mul_add, pow_add]

theorem digits64_lt (n : ℕ) : ∀ d ∈ digits64 n, d < 2 ^ 64 := by
  induction n using Nat.strong_induction_on with
  | _ n ih =>
    rw [digits64]
    split
    · simp
    · next h =>
      intro d hd
      rcases List.mem_cons.1 hd with rfl | hd
      · exact Nat.mod_lt _ (by norm_num)
      · exact ih _ (Nat.div_lt_self (Nat.pos_of_ne_zero h) (by norm_num)) d hd

theorem foldr_zeros (l : List ℕ) (k : ℕ) :
    (l ++ List.replicate k 0).foldr (fun d acc => d + 2 ^ 64 * acc) 0 =
      l.foldr (fun d acc => d + 2 ^ 64 * acc) 0 := by
  rw [List.foldr_append]
  congr 1
  induction k with
  | zero => rfl
  | succ k ih => rw [List.replicate_succ, List.foldr_cons, ih, mul_zero, add_zero]

theorem literal_eq (m : ℕ) {n : ℕ} (h : n < 2 ^ 256) : literal m n = some (n : ZMod m) := by
  have hl : (digits64 n).length ≤ 4 := (digits64_length n 4).2 h
  rw [literal, repr256, if_neg (by omega), Option.map_some, fromRaw, foldr_zeros, digits64_value]

theorem literal_getD (m : ℕ) {n : ℕ} (h : n < 2 ^ 256) : (literal m n).getD 0 = (n : ZMod m) := by
  rw [literal_eq m h]; rfl

/-! ### The permutation is injective -/

section
variable {F : Type} [Field F]

/-- The matrix has a left inverse. -/
def LeftInverse (T : ℕ) (M : ℕ → ℕ → F) : Prop :=
  ∃ inv : ℕ → ℕ → F, ∀ i < T, ∀ j < T, ∑ k ∈ range T, inv i k * M k j = if i = j then 1 else 0

theorem mul_inj {T : ℕ} {M : ℕ → ℕ → F} (hM : LeftInverse T M) {x y : ℕ → F}
    (h : ∀ i < T, ∑ j ∈ range T, M i j * x j = ∑ j ∈ range T, M i j * y j) : ∀ i < T, x i = y i := by
  obtain ⟨inv, hi⟩ := hM
  have key : ∀ z : ℕ → F, ∀ i < T, ∑ k ∈ range T, inv i k * ∑ j ∈ range T, M k j * z j = z i := by
    intro z i hiT
    simp only [mul_sum]
    rw [sum_comm]
    rw [sum_congr rfl fun j hj => show ∑ k ∈ range T, inv i k * (M k j * z j) =
      (if i = j then 1 else 0) * z j by
        rw [← hi i hiT j (mem_range.1 hj), sum_mul]
        exact sum_congr rfl fun k _ => by ring]
    simp [hiT]
  intro i hiT
  rw [← key x i hiT, ← key y i hiT]
  exact sum_congr rfl fun k hk => by rw [h k (mem_range.1 hk)]

theorem poseidonRound_inj {T : ℕ} {M : ℕ → ℕ → F} (hM : LeftInverse T M)
    (h5 : Function.Injective fun a : F => a ^ 5) {c : ℕ → F} {full : Bool} {x y : ℕ → F}
    (h : ∀ i < T, poseidonRound T M c full x i = poseidonRound T M c full y i) :
    ∀ i < T, x i = y i := by
  intro i hi
  have := mul_inj hM h i hi
  split at this
  · exact add_right_cancel (h5 this)
  · exact add_right_cancel this

theorem poseidonRounds_inj {T : ℕ} {M : ℕ → ℕ → F} (hM : LeftInverse T M)
    (h5 : Function.Injective fun a : F => a ^ 5) {c : ℕ → ℕ → F} : ∀ (fs : List Bool) (r : ℕ)
    (x y : ℕ → F), (∀ i < T, poseidonRounds T M c r fs x i = poseidonRounds T M c r fs y i) →
    ∀ i < T, x i = y i
  | [], _, _, _, h => h
  | _ :: fs, r, _, _, h => poseidonRound_inj hM h5 (poseidonRounds_inj hM h5 fs (r + 1) _ _ h)

theorem native_inj [DecidableEq F] {P : PoseidonParams F} (hM : LeftInverse P.T (Poseidon.matrix P))
    (h5 : Function.Injective fun a : F => a ^ 5) {l l' : List F} (hl : l.length = P.T)
    (hl' : l'.length = P.T) (h : Poseidon.native P l = Poseidon.native P l') : l = l' := by
  have h1 : ∀ i < P.T, poseidon P.T (Poseidon.matrix P) (Poseidon.consts P) (P.fullRounds / 2)
      P.partialRounds (fun i => l.getD i 0) i = poseidon P.T (Poseidon.matrix P) (Poseidon.consts P)
      (P.fullRounds / 2) P.partialRounds (fun i => l'.getD i 0) i := by
    intro i hi
    have := congrArg (fun l => l[i]?) h
    simpa [Poseidon.native, hi] using this
  have h2 := poseidonRounds_inj hM h5 _ _ _ _ h1
  refine List.ext_getElem (by rw [hl, hl']) fun i a b => ?_
  have := h2 i (by omega)
  simpa [List.getD_eq_getElem?_getD, a, b] using this

end

theorem fifth_inj {m e k : ℕ} [Fact m.Prime] (h : 5 * e = k * (m - 1) + 1) :
    Function.Injective fun a : ZMod m => a ^ 5 := by
  have key : ∀ a : ZMod m, (a ^ 5) ^ e = a := by
    intro a
    rw [← pow_mul, h]
    by_cases ha : a = 0
    · rw [ha, zero_pow (by omega)]
    · rw [pow_succ, mul_comm k, pow_mul, ZMod.pow_card_sub_one_eq_one ha, one_pow, one_mul]
  intro a b hab
  rw [← key a, ← key b]
  exact congrArg (· ^ e) hab

theorem fifth_p : Function.Injective fun a : Fp => a ^ 5 :=
  fifth_inj (m := p) (k := 4) (e := (4 * (p - 1) + 1) / 5) (by decide +kernel)

theorem fifth_q : Function.Injective fun a : Fq => a ^ 5 :=
  fifth_inj (m := q) (k := 4) (e := (4 * (q - 1) + 1) / 5) (by decide +kernel)

/-! ### The matrices -/

/-- Both tables are of the given width, and their product is the identity modulo `m`. -/
def inverseCheck (m T : ℕ) (inv M : List (List ℕ)) : Bool :=
  (M.all fun row => row.all fun n => decide (n < 2 ^ 256)) &&
  (List.range T).all fun i => (List.range T).all fun j =>
    ((List.range T).foldr (fun k acc => (inv.getD i []).getD k 0 * (M.getD k []).getD j 0 + acc) 0) % m
      == if i = j then 1 else 0

theorem leftInverse_of {m T : ℕ} [Fact m.Prime] {inv M : List (List ℕ)}
    (h : inverseCheck m T inv M = true) : LeftInverse T fun i j =>
      ((M.map fun row => row.map fun n => (literal m n).getD 0).getD i []).getD j (0 : ZMod m) := by
  simp only [inverseCheck, Bool.and_eq_true, List.all_eq_true, decide_eq_true_eq, List.mem_range,
    beq_iff_eq] at h
  obtain ⟨hb, h⟩ := h
  have hget : ∀ k j, ((M.map fun row => row.map fun n => (literal m n).getD 0).getD k []).getD j
      (0 : ZMod m) = (((M.getD k []).getD j 0 : ℕ) : ZMod m) := by
    intro k j
    simp only [List.getD_eq_getElem?_getD, List.getElem?_map]
    rcases hk : M[k]? with _ | row
    · simp
    · simp only [Option.map_some, Option.getD_some, List.getElem?_map]
      rcases hj : row[j]? with _ | n
      · simp
      · simp only [Option.map_some, Option.getD_some]
        exact literal_getD m (hb row (List.mem_of_getElem? hk) n (List.mem_of_getElem? hj))
  have hsum : ∀ (f : ℕ → ℕ) (T : ℕ), ((List.range T).foldr (fun k acc => f k + acc) 0) =
      ∑ k ∈ range T, f k := by
    intro f T
    rw [← List.foldr_map (f := f) (g := fun a b => a + b), ← List.sum_eq_foldr]
    rfl
  refine ⟨fun i k => (((inv.getD i []).getD k 0 : ℕ) : ZMod m), fun i hi j hj => ?_⟩
  have := h i hi j hj
  rw [hsum] at this
  simp only [hget]
  have e : ((∑ k ∈ range T, (inv.getD i []).getD k 0 * (M.getD k []).getD j 0 : ℕ) : ZMod m) =
      ((if i = j then 1 else 0 : ℕ) : ZMod m) := by rw [← this, ZMod.natCast_mod]
  push_cast at e
  rw [e]

/-- The inverse of the matrix of `Fp`. -/
def mdsInvFp : List (List ℕ) := [
  [0x2b1a43c0229c7088cec87f2d8726c8af0bffc2b820db9c8da72c6a0170b0282c,
   0x2d4795663fabb438096f1dbb5e52afe1359e9e3c646d4c2d200432500e2c79b3,
   0x30849bd8413653c3df85e596ac94e62dfa88700c4dbb5d2cd0eb3046ab737dab,
   0x32dc94e217b34301bf67420c93a9cb7d662e516897f030555c0be1e6e65b9a98,
   0x26f6aeb66aa8d26c4cf14b3dc6665be3758284b425e38a1d8ca3d940b31f65c2],
  [0x37b07b7f173be752e94e181adb900a697e5518f158adf54fbe98e3ea0bdee3fc,
   0x247d32c1b0de28f1c8ad6b21bf8b2e1055f0130ea2c6c7a59ed71dd9c6f18325,
   0xcd9ead9bc6ca2eed6713aad1c6a3658427f0ae99d3273d2d1203da49ee62930,
   0x3aeca4294ac337d5319cac3bfbe62a81ca9883c7ed834e5d4b7e8fee13ec206e,
   0x2a4fbadd953d44b0572b1ccf94c902fbbb064264acbf4c59628fed7fc63b75c3],
  [0x32fa338a6f1dda396965f3d33fb1a6e00c0320f8ba7fad0c33d025ee922f0568,
   0x23838158ed993d79516b58b9295e0e3da7aaf605a35b34486453ce8ddd057ed8,
   0x2f50d2ded11c4422835aff79a1a62b92b7f6d165b97ff5f908dc6b0d0870a927,
   0x3009fe844221a1a373cc38ea007bca8b4296d66aac6385df8641256ebbec8ef5,
   0x26c24f4f94b20d9efb4d44e4fb5d962ae050c95deb76fc63591f9ed6d5bcf91],
  [0x23eb41564a720bf98a51f24f6dc69613b12d36e8cbdfd8a9f7676fd6251d1d5a,
   0xb033039094cf04c0c9a468b871e36abe0d9b3b4691409fb3b9b0b04e8dc6888,
   0x1b1480b55686c3567e53021e9c75dea02d61320e2853044310342b846fb7c7cf,
   0x8bb212d25b42ebeffa0c620769cfdcdcd14886f17889265538a565241174cfd,
   0x10badd9b224f4bb145b85ad6c2a381811cc141a3a255843a379c3edd30a235c1],
  [0x39a651b4358ff3defbe6e6be62da492a4cf406f843b806c14dfdab96bd55113f,
   0x29ee4fac236d825ec8bb2c1a03819cfb05972ec8bc3f44039fc1fbb179b60f49,
   0xe20eba03c0259e763c49a96d79d51d5f0e5c0ace0a28f0351aae379e6690d62,
   0x26cbb9fdba53ee40c2c4ceb6852e00500eb5b948c7c87319412a55f7a4df88bc,
   0x1c74f2eb8c954941f07bb8d012cebc9c9eb546fbea015d1b85b10782c93b2c0c]]

/-- The inverse of the matrix of `Fq`. -/
def mdsInvFq : List (List ℕ) := [
  [0x195907aa13673b9e8d10a469ad0f7a28ce62f7dc12c8965fb2e08d550126cc2e,
   0x2c32e689864b700fbb0a39443bc86fffd235f39069c33ec09559c9b30285ba77,
   0x161a2ae4cab3666393f4b036eb66d29d3f0fcce83fc50cbd9b98c0889a71f13e,
   0x2c40fe77d24be1abe72cf7f604ca8d2d4850b54f2c5f2031eab9851a4f782630,
   0x31eb496842c007b20971913b8f78e6cf2a7a8c32b78e9eb148fc3827890c1b63],
  [0x135524f23e2574c51c4e1fd0133b5471e45cde6507165b8d7005e2d6ed82301d,
   0x3a3dea801a0485c939d9f0c71e455cec172e20d3b1ce75cc683ce43dfa5cdb90,
   0x20519a5ecca5d6b8a4315137c85a6a112f688cb803f6e6b8797c4377f92189d4,
   0x119b4cb6f147cf2d9c51e4685e958090800a874378f58c5554b10ec68c2c235e,
   0x2bcbe9ea8bd46ad252d5d29623d905305060615c76f709ee4a2b4d9ce52c9f8f],
  [0x3f6a61cf994078bdc5567944c498428b9dd8e26ab4b5f47593315958000e9bbe,
   0x11f7347357ba87fb6e284861a23500bc5adc0ae27bcee472a08be5d4a59ada5b,
   0x334339b1738c2d239b69328bd9ac00fafcf401cf16ef303b5d7b2b6e8b50fcb1,
   0x234e024058fd8888214c1007bdd5d58e798bbf9ecb9d3a627a377e3e996fc863,
   0x36eae6453067b01582485e14c15136d3fdb16538fc59639d1f5fb23abb2a905f],
  [0x30dbceefda971a30f0cb61b89f26c350100b6812082a7471fcbf791911241888,
   0x103c1742ab59188141a3bfb56f35088dd4859a02f776e95b4a117544213ec058,
   0x28b4d458032a684f8a0faab0db74ea7479ae53350db5a1fa86726c836078db07,
   0x1ba02d27ddff41fa8bdac115652500cd55fee5952d011d3a6db6236b73da6f2f,
   0x445cdd91413c53fe4ed1da16f37dc0ad14e54dc3f5d8a2c97e8d6fb4ce34fb1],
  [0x2d1788a8bfa08a7b8d1e8de71fcbdbe8823785fb3be5fc6aaf8794c2d12e64f5,
   0x4e95943792179bfbbad5c3f633512188edabf9beb6a514e3871b7d5cc6bb0bc,
   0x14013285005220be0460ae8fcd5c16a4253b00f664b0654122b06b52bd1eef8e,
   0xa27804404cb9f362445511417f05e52ffb8ac689257ed7cfeb53ed737e63fd1,
   0x23d942c4ff7c4a15e5d35a1164e4ade91203af001312285db2e57c48f6c6f02c]]

theorem mds_inv_p : LeftInverse 5 (Poseidon.matrix poseidonFp) :=
  leftInverse_of (m := p) (inv := mdsInvFp) (by decide +kernel)

theorem mds_inv_q : LeftInverse 5 (Poseidon.matrix poseidonFq) :=
  leftInverse_of (m := q) (inv := mdsInvFq) (by decide +kernel)

/-! ### Shapes -/

theorem wf_p : Poseidon.WF poseidonFp where
  alpha := rfl
  width := by decide
  rounds := by decide
  mds_rows := by decide +kernel
  mds_cols := by
    have : ∀ row ∈ mdsFp, row.length = 5 := by decide +kernel
    simpa [poseidonFp] using this
  rcs := by
    have : 64 ≤ roundConstantsFp.length := by decide +kernel
    simpa [poseidonFp] using this
  rc_len := by
    have : ∀ row ∈ roundConstantsFp, row.length = 5 := by decide +kernel
    simpa [poseidonFp] using this

theorem wf_q : Poseidon.WF poseidonFq where
  alpha := rfl
  width := by decide
  rounds := by decide
  mds_rows := by decide +kernel
  mds_cols := by
    have : ∀ row ∈ mdsFq, row.length = 5 := by decide +kernel
    simpa [poseidonFq] using this
  rcs := by
    have : 64 ≤ roundConstantsFq.length := by decide +kernel
    simpa [poseidonFq] using this
  rc_len := by
    have : ∀ row ∈ roundConstantsFq, row.length = 5 := by decide +kernel
    simpa [poseidonFq] using this

end Ragu.Pasta

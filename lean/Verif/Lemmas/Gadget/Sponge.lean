/-
Lemmas about the sponge: the buffering logic against the duplex specification, and the
in-circuit permutation against the native one.
-/
import Verif.Model.Gadget.Sponge
import Verif.Spec.Sponge
import Verif.Lemmas.Gadget.Element
import Mathlib.Algebra.BigOperators.Intervals
import Mathlib.Tactic.Ring

set_option linter.unusedSectionVars false

namespace Ragu.Gadget
open Ragu Ragu.Circuit Syn

/-! ### Blocks -/

namespace SpongeSpec
open Spec
variable {F : Type} [Add F]

theorem blocks_nil (rate : ℕ) : blocks (F := F) rate [] = [] := by
  unfold blocks
  rcases Nat.eq_zero_or_pos rate with h | h
  · simp [h]
  · simp [Nat.div_eq_of_lt (by omega : rate - 1 < rate)]

theorem blocks_cons {rate : ℕ} (h : 1 ≤ rate) {v : List F} (hv : v.length = rate) (m : List F) :
    blocks rate (v ++ m) = v :: blocks rate m := by
  unfold blocks
  have e : ((v ++ m).length + rate - 1) / rate = (m.length + rate - 1) / rate + 1 := by
    rw [List.length_append, hv, show rate + m.length + rate - 1 = m.length + rate - 1 + rate from
      by omega, Nat.add_div_right _ h]
  rw [e, List.range_succ_eq_map, List.map_cons, List.map_map]
  congr 1
  · simp [hv]
  · refine List.map_congr_left fun i _ => ?_
    simp only [Function.comp, Nat.succ_eq_add_one]
    rw [show (i + 1) * rate = v.length + i * rate from by rw [hv]; ring, ← List.drop_drop,
      List.drop_left]

theorem blocks_short {rate : ℕ} {v : List F} (h0 : v ≠ []) (hv : v.length ≤ rate) :
    blocks rate v = [v] := by
  have hl : 1 ≤ v.length := List.length_pos_iff.2 h0
  unfold blocks
  have e : (v.length + rate - 1) / rate = 1 := by
    rw [show v.length + rate - 1 = (v.length - 1) + rate from by omega,
      Nat.add_div_right _ (by omega), Nat.div_eq_of_lt (by omega)]
  rw [e]
  simp [List.take_of_length_le hv]

theorem addValues_eq : ∀ s v : List F, Sponge.addValues (· + ·) s v = addBlock s v
  | [], [] => rfl
  | [], _ :: _ => rfl
  | s :: ss, [] => by
    rw [Sponge.addValues]
    apply List.ext_getElem
    · simp [addBlock]
    · intro i h1 h2
      simp only [addBlock, List.getElem_mapIdx, List.length_nil, Nat.not_lt_zero, dite_false]
  | s :: ss, v :: vs => by
    rw [Sponge.addValues, addValues_eq ss vs]
    simp [addBlock, List.mapIdx_cons]

theorem addBlock_length (s v : List F) : (addBlock s v).length = s.length := by simp [addBlock]


theorem absorbAll_cons {perm : List F → List F} {rate : ℕ} (h : 1 ≤ rate) {v : List F}
    (hv : v.length = rate) (s m : List F) :
    absorbAll perm rate s (v ++ m) = absorbAll perm rate (perm (addBlock s v)) m := by
  rw [absorbAll, blocks_cons h hv, List.foldl_cons, absorbAll]

theorem absorbAll_short {perm : List F → List F} {rate : ℕ} {v : List F} (h0 : v ≠ [])
    (hv : v.length ≤ rate) (s : List F) :
    absorbAll perm rate s v = perm (addBlock s v) := by
  rw [absorbAll, blocks_short h0 hv]; rfl

/-! ### The pure sponge -/

/-- The sponge's calls with no driver. -/
abbrev run (perm : List F → List F) (rate : ℕ) (ops : List (Sponge.Op F)) (m : Mode F) :
    List (Except SpongeErr F) × Mode F :=
  Sponge.run (M := Id) (· + ·) perm rate ops m

variable {perm : List F → List F} {rate : ℕ}

/-- One squeeze with no driver. -/
abbrev squeezeP (perm : List F → List F) (rate : ℕ) (m : Mode F) : Except SpongeErr F × Mode F :=
  Sponge.squeeze (M := Id) (· + ·) perm rate m

/-- One absorb with no driver. -/
abbrev absorbP (perm : List F → List F) (rate : ℕ) (v : F) (m : Mode F) :
    Except SpongeErr Unit × Mode F :=
  Sponge.absorb (M := Id) (· + ·) perm rate v m

theorem run_nil (m : Mode F) : run perm rate [] m = ([], m) := rfl

theorem run_absorb (v : F) (ops : List (Sponge.Op F)) (m : Mode F) :
    run perm rate (.absorb v :: ops) m = run perm rate ops (absorbP perm rate v m).2 := rfl

theorem run_squeeze (ops : List (Sponge.Op F)) (m : Mode F) :
    run perm rate (.squeeze :: ops) m =
      ((squeezeP perm rate m).1 :: (run perm rate ops (squeezeP perm rate m).2).1,
        (run perm rate ops (squeezeP perm rate m).2).2) := rfl

theorem permute_squeeze (v s : List F) : Sponge.permute (M := Id) (· + ·) perm rate (.squeeze v s) =
    .squeeze (Sponge.getRate rate (perm s)) (perm s) := rfl

theorem permute_absorb (v s : List F) : Sponge.permute (M := Id) (· + ·) perm rate (.absorb v s) =
    .absorb [] (perm (addBlock s v)) := by
  rw [← addValues_eq]; rfl

theorem absorbP_squeeze (hr : 1 ≤ rate) (x : F) (v s : List F) :
    absorbP perm rate x (.squeeze v s) = (.ok (), .absorb [x] s) := by
  have hr0 : ¬ (0 = rate) := by omega
  simp [Sponge.absorb, Sponge.absorbAgain, hr0]
  rfl

theorem absorbP_full (hr : 1 ≤ rate) (x : F) {v : List F} (hv : v.length = rate) (s : List F) :
    absorbP perm rate x (.absorb v s) = (.ok (), .absorb [x] (perm (addBlock s v))) := by
  have hr0 : ¬ (0 = rate) := by omega
  have : absorbP perm rate x (.absorb v s) =
      Sponge.absorbAgain rate x (Sponge.permute (M := Id) (· + ·) perm rate (.absorb v s)) := by
    simp only [absorbP, Sponge.absorb, if_pos hv]; rfl
  rw [this, permute_absorb]
  simp [Sponge.absorbAgain, hr0]

theorem absorbP_push (x : F) {v : List F} (hv : v.length ≠ rate) (s : List F) :
    absorbP perm rate x (.absorb v s) = (.ok (), .absorb (v ++ [x]) s) := by
  simp only [absorbP, Sponge.absorb, if_neg hv]; rfl

theorem squeezeP_pop (x : F) (v s : List F) :
    squeezeP perm rate (.squeeze (v ++ [x]) s) = (.ok x, .squeeze v s) := by
  simp [Sponge.squeeze]
  rfl

theorem squeezeP_empty (s : List F) : squeezeP perm rate (.squeeze [] s) =
    Sponge.squeezeAgain (.squeeze (Sponge.getRate rate (perm s)) (perm s)) := rfl

theorem squeezeP_absorb {v : List F} (hv : v ≠ []) (s : List F) :
    squeezeP perm rate (.absorb v s) = Sponge.squeezeAgain
      (.squeeze (Sponge.getRate rate (perm (addBlock s v))) (perm (addBlock s v))) := by
  have he : v.isEmpty = false := by simpa using hv
  have : squeezeP perm rate (.absorb v s) = Sponge.squeezeAgain (.squeeze
      (Sponge.getRate rate (Sponge.state (Sponge.permute (M := Id) (· + ·) perm rate (.absorb v s))))
      (Sponge.state (Sponge.permute (M := Id) (· + ·) perm rate (.absorb v s)))) := by
    simp only [squeezeP, Sponge.squeeze, he]; rfl
  rw [this, permute_absorb]; rfl

theorem squeezeP_new (s : List F) :
    squeezeP perm rate (.absorb [] s) = (.error .nothingAbsorbed, .absorb [] s) := rfl

theorem run_append (ops ops' : List (Sponge.Op F)) (m : Mode F) :
    run perm rate (ops ++ ops') m = ((run perm rate ops m).1 ++
      (run perm rate ops' (run perm rate ops m).2).1, (run perm rate ops' (run perm rate ops m).2).2)
    := by
  induction ops generalizing m with
  | nil => rfl
  | cons op ops ih =>
    cases op with
    | absorb v => rw [List.cons_append, run_absorb, run_absorb, ih]
    | squeeze =>
      rw [List.cons_append, run_squeeze, run_squeeze, ih]
      simp

/-- A run of absorbs. -/
theorem run_absorbs (h : 1 ≤ rate) : ∀ (m v st : List F), v.length ≤ rate →
    ∃ v' st', run perm rate (m.map .absorb) (.absorb v st) = ([], .absorb v' st') ∧
      v'.length ≤ rate ∧ (v ++ m ≠ [] → v' ≠ []) ∧
      absorbAll perm rate st' v' = absorbAll perm rate st (v ++ m) ∧
      (∀ T, (∀ l : List F, l.length = T → (perm l).length = T) → st.length = T → st'.length = T)
  | [], v, st, hv => ⟨v, st, rfl, hv, by simp, by simp, fun _ _ h => h⟩
  | x :: m, v, st, hv => by
    by_cases hl : v.length = rate
    · obtain ⟨v', st', h1, h2, h3, h4, h5⟩ := run_absorbs h m [x] (perm (addBlock st v)) (by simpa)
      refine ⟨v', st', ?_, h2, fun _ => h3 (by simp), ?_, fun T hp hT => h5 T hp
        (hp _ (by rw [addBlock_length, hT]))⟩
      · rw [← h1, List.map_cons, run_absorb, absorbP_full h x hl]
      · rw [h4, absorbAll_cons h hl]; rfl
    · obtain ⟨v', st', h1, h2, h3, h4, h5⟩ := run_absorbs h m (v ++ [x]) st
        (by simp; omega)
      refine ⟨v', st', ?_, h2, fun _ => h3 (by simp), by rw [h4]; simp, h5⟩
      rw [← h1, List.map_cons, run_absorb, absorbP_push x hl]

/-- Where the sponge is after `k ≥ 1` squeezes from state `S`. -/
def squeezed (perm : List F → List F) (rate : ℕ) (S : List F) (k : ℕ) : Mode F :=
  .squeeze (((perm^[(k - 1) / rate] S).take rate).drop ((k - 1) % rate + 1)).reverse
    (perm^[(k - 1) / rate] S)

theorem iterate_length {T : ℕ} (hp : ∀ l : List F, l.length = T → (perm l).length = T) {S : List F}
    (hS : S.length = T) (i : ℕ) : (perm^[i] S).length = T := by
  induction i with
  | zero => exact hS
  | succ i ih => rw [Function.iterate_succ_apply']; exact hp _ ih

theorem squeezeAgain_rate {s : List F} (hr : 1 ≤ rate) (hT : rate ≤ s.length) :
    Sponge.squeezeAgain (.squeeze (Sponge.getRate rate s) s) =
      (.ok (s[0]'(by omega)), .squeeze ((s.take rate).drop 1).reverse s) := by
  have hne : (s.take rate) ≠ [] := by
    intro h
    have := congrArg List.length h
    rw [List.length_take, List.length_nil] at this
    omega
  obtain ⟨x, xs, hx⟩ := List.exists_cons_of_ne_nil hne
  have h0 : s[0]'(by omega) = x := by
    have : (s.take rate)[0]? = some x := by rw [hx]; rfl
    rw [List.getElem?_take_of_lt (by omega)] at this
    rw [List.getElem?_eq_getElem (by omega)] at this
    exact Option.some.inj this
  simp only [Sponge.squeezeAgain, Sponge.getRate, hx]
  simp [h0]

theorem squeeze_squeezed {T : ℕ} (hp : ∀ l : List F, l.length = T → (perm l).length = T)
    (hr : 1 ≤ rate) (hT : rate ≤ T) {S : List F} (hS : S.length = T) {k : ℕ} (hk : 1 ≤ k) :
    ∃ x, streamAt perm rate S k = some x ∧
      squeezeP perm rate (squeezed perm rate S k) =
        (.ok x, squeezed perm rate S (k + 1)) := by
  have hlen := fun i => iterate_length hp hS i
  by_cases hm : (k - 1) % rate + 1 = rate
  · -- the buffer is empty
    have hd : k = rate * ((k - 1) / rate + 1) := by
      have := Nat.div_add_mod (k - 1) rate
      rw [Nat.mul_add]; omega
    have hk1 : k / rate = (k - 1) / rate + 1 := by
      conv_lhs => rw [hd]
      rw [Nat.mul_div_cancel_left _ (by omega)]
    have hk0 : k % rate = 0 := by
      conv_lhs => rw [hd]
      exact Nat.mul_mod_right _ _
    have he : ((perm^[(k - 1) / rate] S).take rate).drop ((k - 1) % rate + 1) = [] := by
      rw [hm]; simp
    have hl := hlen ((k - 1) / rate + 1)
    refine ⟨(perm^[(k - 1) / rate + 1] S)[0]'(by omega), ?_, ?_⟩
    · rw [streamAt, hk1, hk0, List.getElem?_eq_getElem]
    · unfold squeezed
      rw [he, List.reverse_nil, squeezeP_empty, ← Function.iterate_succ_apply' perm, squeezeAgain_rate hr (by rw [hl]; exact hT)]
      simp only [Nat.add_sub_cancel, hk1, hk0, zero_add]
  · have hmod : k % rate = (k - 1) % rate + 1 := by
      have h1 := Nat.div_add_mod (k - 1) rate
      have h2 := Nat.mod_lt (k - 1) (by omega : rate > 0)
      conv_lhs => rw [show k = (k - 1) % rate + 1 + rate * ((k - 1) / rate) from by omega]
      rw [Nat.add_mul_mod_self_left, Nat.mod_eq_of_lt (by omega)]
    have hdiv : k / rate = (k - 1) / rate := by
      have h1 := Nat.div_add_mod (k - 1) rate
      have h3 := Nat.div_add_mod k rate
      have : rate * (k / rate) = rate * ((k - 1) / rate) := by omega
      exact Nat.eq_of_mul_eq_mul_left (by omega) this
    have h2 := Nat.mod_lt (k - 1) (by omega : rate > 0)
    have hl := hlen ((k - 1) / rate)
    have hlt : (k - 1) % rate + 1 < ((perm^[(k - 1) / rate] S).take rate).length := by
      rw [List.length_take, hl]; omega
    refine ⟨(perm^[(k - 1) / rate] S)[(k - 1) % rate + 1]'(by omega), ?_, ?_⟩
    · rw [streamAt, hmod, hdiv, List.getElem?_eq_getElem]
    · unfold squeezed
      rw [List.drop_eq_getElem_cons hlt]
      rw [List.reverse_cons, squeezeP_pop]
      simp only [List.getElem_take, Nat.add_sub_cancel, hmod, hdiv]

theorem run_squeezes {T : ℕ} (hp : ∀ l : List F, l.length = T → (perm l).length = T)
    (hr : 1 ≤ rate) (hT : rate ≤ T) {S : List F} (hS : S.length = T) : ∀ (n k : ℕ), 1 ≤ k →
    ∃ xs : List F, (List.range' k n).map (streamAt perm rate S) = xs.map some ∧
      run perm rate (List.replicate n .squeeze) (squeezed perm rate S k) =
        (xs.map .ok, squeezed perm rate S (k + n))
  | 0, k, _ => ⟨[], rfl, rfl⟩
  | n + 1, k, hk => by
    obtain ⟨x, h1, h2⟩ := squeeze_squeezed hp hr hT hS hk
    obtain ⟨xs, h3, h4⟩ := run_squeezes hp hr hT hS n (k + 1) (by omega)
    refine ⟨x :: xs, by simp [List.range'_succ, h1, h3], ?_⟩
    rw [List.replicate_succ, run_squeeze, h2]
    simp only
    rw [h4, show k + 1 + n = k + (n + 1) from by ring]
    rfl

/-- A whole phase. -/
theorem run_phase {T : ℕ} (hp : ∀ l : List F, l.length = T → (perm l).length = T)
    (hr : 1 ≤ rate) (hT : rate ≤ T) (md : Mode F) (hmd : (∃ s, md = .absorb [] s) ∨ ∃ v s,
      md = .squeeze v s) (hs : (Sponge.state md).length = T) {m : List F} (hm : m ≠ []) {k : ℕ}
    (hk : 1 ≤ k) :
    ∃ xs : List F, (List.range k).map (streamAt perm rate (absorbAll perm rate (Sponge.state md) m)) =
        xs.map some ∧
      run perm rate (m.map .absorb ++ List.replicate k .squeeze) md =
        (xs.map .ok, squeezed perm rate (absorbAll perm rate (Sponge.state md) m) k) ∧
      (absorbAll perm rate (Sponge.state md) m).length = T := by
  have hstart : run perm rate (m.map .absorb) md =
      run perm rate (m.map .absorb) (.absorb [] (Sponge.state md)) := by
    rcases hmd with ⟨s, rfl⟩ | ⟨v, s, rfl⟩
    · rfl
    · obtain ⟨x, m', rfl⟩ := List.exists_cons_of_ne_nil hm
      rw [List.map_cons, run_absorb, run_absorb, absorbP_squeeze hr,
        absorbP_push x (by simpa using (by omega : 0 ≠ rate))]
      rfl
  obtain ⟨v', st', h1, h2, h3, h4, h5⟩ := run_absorbs (perm := perm) hr m [] (Sponge.state md)
    (by simp)
  have hv' : v' ≠ [] := h3 (by simpa using hm)
  have hst' := h5 T hp hs
  rw [List.nil_append] at h4
  rw [absorbAll_short hv' h2] at h4
  have hS : (absorbAll perm rate (Sponge.state md) m).length = T := by
    rw [← h4]; exact hp _ (by rw [addBlock_length, hst'])
  generalize hSd : absorbAll perm rate (Sponge.state md) m = S at *
  have hlS : 0 < S.length := by omega
  obtain ⟨k, rfl⟩ := Nat.exists_eq_add_of_le' hk
  obtain ⟨xs, h6, h7⟩ := run_squeezes hp hr hT hS k 1 le_rfl
  refine ⟨S[0] :: xs, ?_, ?_, hS⟩
  · rw [List.range_eq_range', List.range'_succ, List.map_cons, h6, List.map_cons]
    congr 1
    simp [streamAt]
  · rw [run_append, hstart, h1]
    simp only [List.nil_append]
    have hsq : squeezeP perm rate (.absorb v' st') = (.ok S[0], squeezed perm rate S 1) := by
      rw [squeezeP_absorb hv', h4, squeezeAgain_rate hr (by omega)]
      simp [squeezed]
    rw [List.replicate_succ, run_squeeze, hsq]
    simp only
    rw [h7, show 1 + k = k + 1 from by ring]
    rfl

/-- The calls of a sequence of phases. -/
def phaseOps (phases : List (List F × ℕ)) : List (Sponge.Op F) :=
  phases.flatMap fun p => p.1.map .absorb ++ List.replicate p.2 .squeeze

theorem run_phases {T : ℕ} (hp : ∀ l : List F, l.length = T → (perm l).length = T)
    (hr : 1 ≤ rate) (hT : rate ≤ T) : ∀ (phases : List (List F × ℕ)),
    (∀ p ∈ phases, p.1 ≠ [] ∧ 1 ≤ p.2) → ∀ (md : Mode F),
    ((∃ s, md = .absorb [] s) ∨ ∃ v s, md = .squeeze v s) → (Sponge.state md).length = T →
    ∃ outs : List F, duplex perm rate (Sponge.state md) phases = outs.map some ∧
      (run perm rate (phaseOps phases) md).1 = outs.map .ok
  | [], _, md, _, _ => ⟨[], rfl, rfl⟩
  | (m, k) :: rest, hph, md, hmd, hs => by
    obtain ⟨hm, hk⟩ := hph (m, k) (by simp)
    obtain ⟨xs, h1, h2, h3⟩ := run_phase hp hr hT md hmd hs hm hk
    obtain ⟨ys, h4, h5⟩ := run_phases hp hr hT rest (fun p hp => hph p (by simp [hp]))
      (squeezed perm rate (absorbAll perm rate (Sponge.state md) m) k) (Or.inr ⟨_, _, rfl⟩)
      (iterate_length hp h3 _)
    refine ⟨xs ++ ys, ?_, ?_⟩
    · rw [duplex, h1, List.map_append, ← h4]; rfl
    · have : phaseOps ((m, k) :: rest) =
          (m.map .absorb ++ List.replicate k .squeeze) ++ phaseOps rest := by
        simp [phaseOps]
      rw [this, run_append, h2]
      simp only
      rw [h5, List.map_append]

theorem run_squeezes_new (s : List F) (j : ℕ) :
    run perm rate (List.replicate j .squeeze) (.absorb [] s) =
      (List.replicate j (.error .nothingAbsorbed), .absorb [] s) := by
  induction j with
  | zero => rfl
  | succ j ih =>
    rw [List.replicate_succ, run_squeeze, squeezeP_new]
    simp only
    rw [ih]
    rfl

theorem run_absorbs_out (m : List F) (md : Mode F) :
    (run perm rate (m.map .absorb) md).1 = [] := by
  induction m generalizing md with
  | nil => rfl
  | cons x m ih => rw [List.map_cons, run_absorb, ih]

end SpongeSpec

/-! ### The in-circuit sponge -/

namespace Sponge

/-- Apply a function to every element held by the sponge. -/
def mapMode {E E' : Type} (f : E → E') : Mode E → Mode E'
  | .squeeze v s => .squeeze (v.map f) (s.map f)
  | .absorb v s => .absorb (v.map f) (s.map f)

/-- Apply a function to the argument of a call. -/
def mapOp {E E' : Type} (f : E → E') : Op E → Op E'
  | .absorb v => .absorb (f v)
  | .squeeze => .squeeze

section
variable {F : Type} [Field F] [DecidableEq F]

theorem addValues_wire : ∀ s v : List (Element F),
    (addValues Element.add s v).map Element.wire =
      addValues (· + ·) (s.map Element.wire) (v.map Element.wire)
  | [], [] => rfl
  | [], _ :: _ => rfl
  | s :: ss, [] => rfl
  | s :: ss, v :: vs => by simp [addValues, addValues_wire ss vs]

theorem getRate_map {E E' : Type} (f : E → E') (rate : ℕ) (s : List E) :
    (getRate rate s).map f = getRate rate (s.map f) := by
  simp [getRate, List.map_take]

theorem state_map {E E' : Type} (f : E → E') (m : Mode E) :
    state (mapMode f m) = (state m).map f := by cases m <;> rfl

theorem squeezeAgain_map {E E' : Type} (f : E → E') (m : Mode E) :
    squeezeAgain (mapMode f m) =
      ((squeezeAgain m).1.map f, mapMode f (squeezeAgain m).2) := by
  cases m with
  | absorb v s => rfl
  | squeeze v s =>
    rcases List.eq_nil_or_concat v with rfl | ⟨v, x, rfl⟩
    · rfl
    · simp [mapMode, squeezeAgain, Except.map]

theorem absorbAgain_map {E E' : Type} (f : E → E') (rate : ℕ) (x : E) (m : Mode E) :
    absorbAgain rate (f x) (mapMode f m) =
      ((absorbAgain rate x m).1, mapMode f (absorbAgain rate x m).2) := by
  cases m with
  | squeeze v s => rfl
  | absorb v s =>
    simp only [mapMode, absorbAgain, List.length_map]
    split <;> simp [mapMode]

variable {perm : List (Element F) → Syn F (List (Element F))} {P : List F → List F} {rate : ℕ}
  (hperm : ∀ s r, (perm s).sat r → r.map Element.wire = P (s.map Element.wire))
include hperm

theorem permute_sat {m m' : Mode (Element F)} (h : (permute Element.add perm rate m).sat m') :
    mapMode Element.wire m' =
      permute (M := Id) (· + ·) P rate (mapMode Element.wire m) := by
  cases m with
  | squeeze v s =>
    simp only [permute, sat_bind, sat_pure] at h
    obtain ⟨s', h1, rfl⟩ := h
    simp only [mapMode, getRate_map, hperm _ _ h1]
    rfl
  | absorb v s =>
    simp only [permute, sat_bind, sat_pure] at h
    obtain ⟨s', h1, rfl⟩ := h
    simp only [mapMode, hperm _ _ h1, addValues_wire]
    rfl

theorem squeeze_sat {m : Mode (Element F)} {r : Except SpongeErr (Element F) × Mode (Element F)}
    (h : (squeeze Element.add perm rate m).sat r) :
    (r.1.map Element.wire, mapMode Element.wire r.2) =
      SpongeSpec.squeezeP P rate (mapMode Element.wire m) := by
  cases m with
  | squeeze v s =>
    rcases List.eq_nil_or_concat v with rfl | ⟨v, x, rfl⟩
    · simp only [squeeze, List.getLast?_nil, sat_bind, sat_pure] at h
      obtain ⟨m', h1, rfl⟩ := h
      rw [← squeezeAgain_map, permute_sat hperm h1]
      rfl
    · simp only [squeeze, List.getLast?_append, List.getLast?_singleton, List.dropLast_concat,
        sat_pure, Option.some_or, List.concat_eq_append] at h
      subst h
      simp only [mapMode, List.concat_eq_append, List.map_append, List.map_cons, List.map_nil,
        SpongeSpec.squeezeP_pop]
      rfl
  | absorb v s =>
    cases v with
    | nil =>
      simp only [squeeze, List.isEmpty_nil, if_true, sat_pure] at h
      subst h
      rfl
    | cons x v =>
      simp only [squeeze, List.isEmpty_cons, Bool.false_eq_true, if_false, sat_bind,
        sat_pure] at h
      obtain ⟨m', h1, rfl⟩ := h
      rw [← squeezeAgain_map]
      have := permute_sat hperm h1
      rw [mapMode, getRate_map, ← state_map, this]
      rfl

theorem absorb_sat {x : Element F} {m : Mode (Element F)}
    {r : Except SpongeErr Unit × Mode (Element F)}
    (h : (absorb Element.add perm rate x m).sat r) :
    (r.1, mapMode Element.wire r.2) =
      SpongeSpec.absorbP P rate x.wire (mapMode Element.wire m) := by
  cases m with
  | squeeze v s =>
    simp only [absorb, sat_pure] at h
    subst h
    rw [← absorbAgain_map]
    rfl
  | absorb v s =>
    by_cases hl : v.length = rate
    · simp only [absorb, if_pos hl, sat_bind, sat_pure] at h
      obtain ⟨m', h1, rfl⟩ := h
      rw [← absorbAgain_map, permute_sat hperm h1]
      simp only [SpongeSpec.absorbP, absorb, mapMode, List.length_map, if_pos hl]
      rfl
    · simp only [absorb, if_neg hl, sat_pure] at h
      subst h
      simp only [mapMode, SpongeSpec.absorbP_push (rate := rate) (v := v.map Element.wire) x.wire
        (by simpa using hl), List.map_append, List.map_cons, List.map_nil]

theorem run_sat : ∀ (ops : List (Op (Element F))) (m : Mode (Element F))
    (r : List (Except SpongeErr (Element F)) × Mode (Element F)),
    (run Element.add perm rate ops m).sat r →
    (r.1.map (Except.map Element.wire), mapMode Element.wire r.2) =
      SpongeSpec.run P rate (ops.map (mapOp Element.wire)) (mapMode Element.wire m)
  | [], m, r, h => by
    simp only [run, sat_pure] at h
    subst h; rfl
  | .absorb v :: ops, m, r, h => by
    simp only [run, sat_bind] at h
    obtain ⟨r1, h1, h2⟩ := h
    have e1 := absorb_sat hperm h1
    have e2 := run_sat ops _ _ h2
    rw [e2, List.map_cons, mapOp, SpongeSpec.run_absorb, ← e1]
  | .squeeze :: ops, m, r, h => by
    simp only [run, sat_bind, sat_pure] at h
    obtain ⟨r1, h1, r2, h2, rfl⟩ := h
    have e1 := squeeze_sat hperm h1
    have e2 := run_sat ops _ _ h2
    rw [show (Op.squeeze :: ops).map (mapOp (Element.wire (F := F))) =
      .squeeze :: ops.map (mapOp Element.wire) from rfl, SpongeSpec.run_squeeze, ← e1]
    simp only
    rw [← e2]
    rfl

end

section
variable {F : Type} [Field F] [DecidableEq F]

/-- Everything the sponge holds is an honest element and the state has length `T`. -/
def HonestMode (T : ℕ) (m : Mode (Element F)) : Prop :=
  match m with
  | .squeeze v s => (∀ e ∈ v, e.Honest) ∧ (∀ e ∈ s, e.Honest) ∧ s.length = T
  | .absorb v s => (∀ e ∈ v, e.Honest) ∧ (∀ e ∈ s, e.Honest) ∧ s.length = T

theorem addValues_honest : ∀ s v : List (Element F), (∀ e ∈ s, e.Honest) → (∀ e ∈ v, e.Honest) →
    (∀ e ∈ addValues Element.add s v, e.Honest) ∧ (addValues Element.add s v).length = s.length
  | [], [], _, _ => by simp [addValues]
  | [], _ :: _, _, _ => by simp [addValues]
  | s :: ss, [], h, _ => ⟨h, rfl⟩
  | s :: ss, v :: vs, h1, h2 => by
    obtain ⟨h3, h4⟩ := addValues_honest ss vs (fun e he => h1 e (by simp [he]))
      (fun e he => h2 e (by simp [he]))
    refine ⟨?_, by simp [addValues, h4]⟩
    intro e he
    simp only [addValues, List.mem_cons] at he
    rcases he with rfl | he
    · have a1 : s.value = s.wire := h1 s (by simp)
      have a2 : v.value = v.wire := h2 v (by simp)
      simp [Element.Honest, a1, a2]
    · exact h3 e he

theorem getRate_honest {rate : ℕ} {s : List (Element F)} (h : ∀ e ∈ s, e.Honest) :
    ∀ e ∈ getRate rate s, e.Honest := by
  intro e he
  exact h e (List.mem_of_mem_take (by simpa [getRate] using he))

variable {perm : List (Element F) → Syn F (List (Element F))} {rate T : ℕ}
  (hperm : ∀ s : List (Element F), s.length = T → (∀ e ∈ s, e.Honest) →
    ∃ r, (perm s).sim = .ok r ∧ r.length = T ∧ ∀ e ∈ r, e.Honest)
include hperm

theorem permute_sim {m : Mode (Element F)} (h : HonestMode T m) :
    ∃ m', (permute Element.add perm rate m).sim = .ok m' ∧ HonestMode T m' ∧
      ((∃ v s, m = .absorb v s) → ∃ s, m' = .absorb [] s) := by
  cases m with
  | squeeze v s =>
    obtain ⟨_, h2, h3⟩ := h
    obtain ⟨r, e1, e2, e3⟩ := hperm s h3 h2
    refine ⟨.squeeze (getRate rate r) r, ?_, ⟨getRate_honest e3, e3, e2⟩, by simp⟩
    rw [permute, sim_bind_ok e1]; rfl
  | absorb v s =>
    obtain ⟨h1, h2, h3⟩ := h
    obtain ⟨h4, h5⟩ := addValues_honest s v h2 h1
    obtain ⟨r, e1, e2, e3⟩ := hperm (addValues Element.add s v) (by rw [h5, h3]) h4
    refine ⟨.absorb [] r, ?_, ⟨by simp, e3, e2⟩, fun _ => ⟨_, rfl⟩⟩
    rw [permute, sim_bind_ok e1]; rfl

omit hperm in
theorem squeezeAgain_honest {m : Mode (Element F)} (h : HonestMode T m) :
    HonestMode T (squeezeAgain m).2 ∧ ∀ e, (squeezeAgain m).1 = .ok e → e.Honest := by
  cases m with
  | absorb v s => exact ⟨h, by simp [squeezeAgain]⟩
  | squeeze v s =>
    rcases List.eq_nil_or_concat v with rfl | ⟨v, x, rfl⟩
    · exact ⟨h, by simp [squeezeAgain]⟩
    · obtain ⟨h1, h2, h3⟩ := h
      simp only [squeezeAgain, List.concat_eq_append, List.getLast?_append,
        List.getLast?_singleton, Option.some_or, List.dropLast_concat]
      refine ⟨⟨fun e he => h1 e (by simp [he]), h2, h3⟩, ?_⟩
      intro e he
      simp only [Except.ok.injEq] at he
      exact he ▸ h1 x (by simp)

theorem squeeze_sim {m : Mode (Element F)} (h : HonestMode T m) :
    ∃ r, (squeeze Element.add perm rate m).sim = .ok r ∧ HonestMode T r.2 ∧
      ∀ e, r.1 = .ok e → e.Honest := by
  cases m with
  | squeeze v s =>
    rcases List.eq_nil_or_concat v with rfl | ⟨v, x, rfl⟩
    · obtain ⟨m', e1, e2, -⟩ := permute_sim hperm (rate := rate) h
      refine ⟨squeezeAgain m', ?_, squeezeAgain_honest e2⟩
      simp only [squeeze, List.getLast?_nil]
      rw [sim_bind_ok e1]; rfl
    · refine ⟨squeezeAgain (.squeeze (v.concat x) s), ?_, squeezeAgain_honest h⟩
      simp [squeeze, squeezeAgain]
  | absorb v s =>
    cases v with
    | nil => exact ⟨_, rfl, h, by simp⟩
    | cons x v =>
      obtain ⟨m', e1, e2, e3⟩ := permute_sim hperm (rate := rate) h
      obtain ⟨s', rfl⟩ := e3 ⟨_, _, rfl⟩
      refine ⟨_, ?_, squeezeAgain_honest (m := .squeeze (getRate rate s') s')
        ⟨getRate_honest e2.2.1, e2.2⟩⟩
      simp only [squeeze, List.isEmpty_cons, Bool.false_eq_true, if_false]
      rw [sim_bind_ok e1]; rfl

theorem absorb_sim {x : Element F} (hx : x.Honest) {m : Mode (Element F)} (h : HonestMode T m) :
    ∃ r, (absorb Element.add perm rate x m).sim = .ok r ∧ HonestMode T r.2 := by
  have again : ∀ m : Mode (Element F), HonestMode T m →
      HonestMode T (absorbAgain rate x m).2 := by
    intro m hm
    cases m with
    | squeeze v s => exact hm
    | absorb v s =>
      simp only [absorbAgain]
      split
      · exact hm
      · obtain ⟨h1, h2⟩ := hm
        refine ⟨?_, h2⟩
        intro e he
        rcases List.mem_append.1 he with he | he
        · exact h1 e he
        · simp only [List.mem_singleton] at he
          exact he ▸ hx
  cases m with
  | squeeze v s => exact ⟨_, rfl, again _ ⟨by simp, h.2⟩⟩
  | absorb v s =>
    by_cases hl : v.length = rate
    · obtain ⟨m', e1, e2, -⟩ := permute_sim hperm (rate := rate) h
      refine ⟨absorbAgain rate x m', ?_, again _ e2⟩
      simp only [absorb, if_pos hl]
      rw [sim_bind_ok e1]; rfl
    · refine ⟨absorbAgain rate x (.absorb v s), ?_, again _ h⟩
      simp [absorb, absorbAgain, hl]

theorem run_sim : ∀ (ops : List (Op (Element F))), (∀ v, .absorb v ∈ ops → v.Honest) →
    ∀ m : Mode (Element F), HonestMode T m →
    ∃ r, (run Element.add perm rate ops m).sim = .ok r ∧ HonestMode T r.2 ∧
      ∀ e, .ok e ∈ r.1 → e.Honest
  | [], _, m, h => ⟨_, rfl, h, by simp⟩
  | .absorb v :: ops, ho, m, h => by
    obtain ⟨r1, h1, h2⟩ := absorb_sim hperm (rate := rate) (ho v (by simp)) h
    obtain ⟨r, h3, h4⟩ := run_sim ops (fun v hv => ho v (by simp [hv])) r1.2 h2
    refine ⟨r, ?_, h4⟩
    rw [run, sim_bind_ok h1]
    exact h3
  | .squeeze :: ops, ho, m, h => by
    obtain ⟨r1, h1, h2, h2'⟩ := squeeze_sim hperm (rate := rate) h
    obtain ⟨r, h3, h4, h5⟩ := run_sim ops (fun v hv => ho v (by simp [hv])) r1.2 h2
    refine ⟨(r1.1 :: r.1, r.2), ?_, h4, ?_⟩
    · rw [run, sim_bind_ok h1]
      simp only
      rw [sim_bind_ok h3]
      rfl
    · intro e he
      simp only [List.mem_cons] at he
      rcases he with he | he
      · exact h2' e he.symm
      · exact h5 e he

end
end Sponge

/-! ### The Poseidon permutation -/

namespace Poseidon
variable {F : Type} [Field F] [DecidableEq F]

/-- `sbox` on wires. -/
def sboxL (k : ℕ) (l : List F) : List F := (l.take k).map (· ^ 5) ++ l.drop k

/-- One round on wires. -/
def roundL (mds : List (List F)) (k : ℕ) (rc l : List F) : List F :=
  mds.map fun row => (List.zipWith (· * ·) (sboxL k (List.zipWith (· + ·) l rc)) row).sum

/-- All rounds on wires. -/
def roundsL (mds : List (List F)) : List ℕ → List (List F) → List F → List F
  | [], _, l => l
  | k :: ks, rc :: rcs, l => roundsL mds ks rcs (roundL mds k rc l)
  | _ :: _, [], l => l

theorem sbox1_sat {alpha : ℕ} {x r : Element F} (h : (sbox1 alpha x).sat r) :
    r.wire = x.wire ^ 5 := by
  unfold sbox1 at h
  split at h
  · simp only [sat_bind, Element.square_sat, Element.mul_sat, exists_eq_left] at h
    rw [h]
    ring
  · exact h.elim

theorem honest_diag (w : F) : Element.Honest ⟨w, w⟩ := rfl

theorem sbox1_sim {x : Element F} (hx : x.Honest) :
    (sbox1 5 x).sim = .ok ⟨x.wire ^ 5, x.wire ^ 5⟩ := by
  have h2 := Element.mul_sim hx hx
  rw [sbox1, if_pos rfl, Element.square, sim_bind_ok h2, Element.square,
    sim_bind_ok (Element.mul_sim (honest_diag _) (honest_diag _)),
    Element.mul_sim (honest_diag _) hx]
  congr 2 <;> ring

theorem sbox_sat {alpha : ℕ} : ∀ (k : ℕ) (s r : List (Element F)), (sbox alpha k s).sat r →
    r.map Element.wire = sboxL k (s.map Element.wire)
  | 0, s, r, h => by
    simp only [sbox, sat_pure] at h
    simp [h, sboxL]
  | k + 1, x :: xs, r, h => by
    simp only [sbox, sat_bind, sat_pure] at h
    obtain ⟨x', h1, xs', h2, rfl⟩ := h
    have := sbox_sat k _ _ h2
    simp only [List.map_cons, this, sbox1_sat h1, sboxL]
    simp
  | _ + 1, [], r, h => by exact h.elim

theorem sbox_sim : ∀ (k : ℕ) (s : List (Element F)), k ≤ s.length → (∀ e ∈ s, e.Honest) →
    ∃ r, (sbox 5 k s).sim = .ok r ∧ r.length = s.length ∧ ∀ e ∈ r, e.Honest
  | 0, s, _, h => ⟨s, rfl, rfl, h⟩
  | k + 1, [], hk, _ => by simp at hk
  | k + 1, x :: xs, hk, h => by
    obtain ⟨r, h1, h2, h3⟩ := sbox_sim k xs (by simpa using hk) (fun e he => h e (by simp [he]))
    refine ⟨⟨x.wire ^ 5, x.wire ^ 5⟩ :: r, ?_, by simp [h2], ?_⟩
    · rw [sbox, sim_bind_ok (sbox1_sim (h x (by simp))), sim_bind_ok h1]; rfl
    · intro e he
      rcases List.mem_cons.1 he with rfl | he
      · exact (by rfl)
      · exact h3 e he

theorem multiadd_sat {s : List (Element F)} {row : List F} {r : Element F}
    (h : (multiadd s row).sat r) :
    r.wire = (List.zipWith (· * ·) (s.map Element.wire) row).sum := by
  unfold multiadd at h
  split at h
  · exact h.elim
  · simp only [sat_pure] at h
    rw [h, List.zipWith_map_left]
    exact multiadd_lin s row

theorem multiadd_sim {s : List (Element F)} {row : List F} (hl : s.length = row.length)
    (hs : ∀ e ∈ s, e.Honest) : ∃ r, (multiadd s row).sim = .ok r ∧ r.Honest := by
  refine ⟨⟨lin (List.zipWith (fun v c => LcStep.term v.wire (.arbitrary c)) s row),
    (List.zip s row).foldl (fun sum p => sum + p.1.value * p.2) 0⟩, ?_, ?_⟩
  · rw [multiadd, if_neg (by simpa using hl)]; rfl
  · have e1 := multiadd_lin s row
    have e2 := multiadd_val s row 0
    have e3 : List.zipWith (fun (v : Element F) c => v.value * c) s row =
        List.zipWith (fun (v : Element F) c => v.wire * c) s row := by
      clear e1 e2 hl
      induction s generalizing row with
      | nil => simp
      | cons x xs ih =>
        cases row with
        | nil => simp
        | cons c cs =>
          have hx : x.value = x.wire := hs x (by simp)
          simp [hx, ih (fun e he => hs e (by simp [he]))]
    rw [Element.Honest]
    simp only
    rw [e1, e2, zero_add, e3]

theorem mdsRows_sat (s : List (Element F)) : ∀ (rows : List (List F)) (r : List (Element F)),
    (mdsRows s rows).sat r → r.map Element.wire =
      rows.map fun row => (List.zipWith (· * ·) (s.map Element.wire) row).sum
  | [], r, h => by
    simp only [mdsRows, sat_pure] at h
    simp [h]
  | row :: rows, r, h => by
    simp only [mdsRows, sat_bind, sat_pure] at h
    obtain ⟨x, h1, xs, h2, rfl⟩ := h
    simp only [List.map_cons, multiadd_sat h1, mdsRows_sat s rows xs h2]

theorem mdsRows_sim {s : List (Element F)} (hs : ∀ e ∈ s, e.Honest) :
    ∀ rows : List (List F), (∀ row ∈ rows, row.length = s.length) →
    ∃ r, (mdsRows s rows).sim = .ok r ∧ r.length = rows.length ∧ ∀ e ∈ r, e.Honest
  | [], _ => ⟨[], rfl, rfl, by simp⟩
  | row :: rows, hr => by
    obtain ⟨x, h1, h2⟩ := multiadd_sim (hr row (by simp)).symm hs
    obtain ⟨xs, h3, h4, h5⟩ := mdsRows_sim hs rows (fun row h => hr row (by simp [h]))
    refine ⟨x :: xs, ?_, by simp [h4], ?_⟩
    · rw [mdsRows, sim_bind_ok h1, sim_bind_ok h3]; rfl
    · intro e he
      rcases List.mem_cons.1 he with rfl | he
      · exact h2
      · exact h5 e he

theorem rounds_sat (p : PoseidonParams F) : ∀ (ks : List ℕ) (rcs : List (List F))
    (s r : List (Element F)), (rounds p ks rcs s).sat r →
    r.map Element.wire = roundsL p.mds ks rcs (s.map Element.wire)
  | [], rcs, s, r, h => by
    simp only [rounds, sat_pure] at h
    rw [h, roundsL]
  | k :: ks, [], s, r, h => by exact h.elim
  | k :: ks, rc :: rcs, s, r, h => by
    simp only [rounds, sat_bind] at h
    obtain ⟨s1, h1, s2, h2, s3, h3, h4⟩ := h
    rw [rounds_sat p ks rcs s3 r h4, roundsL]
    congr 1
    unfold mds at h3
    split at h3
    · rw [mdsRows_sat _ _ _ h3, sbox_sat _ _ _ h2, roundL]
      unfold addRoundConstants at h1
      split at h1
      · simp only [sat_pure] at h1
        have : s1.map Element.wire = List.zipWith (· + ·) (s.map Element.wire) rc := by
          rw [h1, List.map_zipWith, List.zipWith_map_left]
          simp [Coeff.value]
        rw [this]
      · exact h1.elim
    · exact h3.elim

/-- The shape of the parameters: `T ≥ 1` columns everywhere, enough round constants, at least one
round. -/
structure WF (p : PoseidonParams F) : Prop where
  alpha : p.alpha = 5
  width : 1 ≤ p.T
  rounds : 1 ≤ p.fullRounds / 2 + p.partialRounds
  mds_rows : p.mds.length = p.T
  mds_cols : ∀ row ∈ p.mds, row.length = p.T
  rcs : p.fullRounds / 2 + p.partialRounds + p.fullRounds / 2 ≤ p.roundConstants.length
  rc_len : ∀ rc ∈ p.roundConstants, rc.length = p.T

theorem rounds_sim {p : PoseidonParams F} (hp : WF p) : ∀ (ks : List ℕ) (rcs : List (List F))
    (s : List (Element F)), (∀ k ∈ ks, k ≤ p.T) → ks.length ≤ rcs.length →
    (∀ rc ∈ rcs, rc.length = p.T) → s.length = p.T → (∀ e ∈ s, e.Honest) →
    ∃ r, (rounds p ks rcs s).sim = .ok r ∧ r.length = p.T ∧ ∀ e ∈ r, e.Honest
  | [], rcs, s, _, _, _, hl, hs => ⟨s, by simp [rounds], hl, hs⟩
  | k :: ks, [], s, _, h, _, _, _ => by simp at h
  | k :: ks, rc :: rcs, s, hk, hlen, hrc, hl, hs => by
    have h1 : (addRoundConstants s rc).sim =
        .ok (List.zipWith (fun x c => x.addCoeff Element.one (.arbitrary c)) s rc) := by
      rw [addRoundConstants, if_pos (by rw [hl, hrc rc (by simp)])]; rfl
    have hh : ∀ e ∈ List.zipWith (fun (x : Element F) c =>
        x.addCoeff Element.one (.arbitrary c)) s rc, e.Honest := by
      intro e he
      rw [List.mem_iff_getElem] at he
      obtain ⟨i, hi, rfl⟩ := he
      have hx : (s[i]'(by simp at hi; omega)).value = (s[i]'(by simp at hi; omega)).wire :=
        hs _ (List.getElem_mem _)
      simp [Element.Honest, hx]
    have hz : (List.zipWith (fun (x : Element F) c =>
        x.addCoeff Element.one (.arbitrary c)) s rc).length = p.T := by
      simp [hl, hrc rc (by simp)]
    obtain ⟨s2, h2, h2l, h2h⟩ := sbox_sim k _ (by rw [hz]; exact hk k (by simp)) hh
    obtain ⟨s3, h3, h3l, h3h⟩ := mdsRows_sim h2h p.mds
      (fun row h => by rw [hp.mds_cols row h, h2l, hz])
    obtain ⟨r, h4, h5⟩ := rounds_sim hp ks rcs s3 (fun k h => hk k (by simp [h]))
      (by simpa using hlen) (fun rc h => hrc rc (by simp [h])) (by rw [h3l, hp.mds_rows]) h3h
    refine ⟨r, ?_, h5⟩
    rw [rounds, sim_bind_ok h1, hp.alpha, sim_bind_ok h2]
    have hm : (mds s2 p.mds).sim = .ok s3 := by
      rw [mds, if_pos (by rw [h2l, hz, hp.mds_rows]), h3]
    rw [sim_bind_ok hm, h4]

theorem zipWith_sum (f : F → F → F) : ∀ (n : ℕ) (a b : List F), a.length = n → b.length = n →
    (List.zipWith f a b).sum = ∑ j ∈ Finset.range n, f (a.getD j 0) (b.getD j 0)
  | 0, a, b, ha, hb => by
    rw [List.length_eq_zero_iff.1 ha]; simp
  | n + 1, [], b, ha, hb => by simp at ha
  | n + 1, a :: as, [], ha, hb => by simp at hb
  | n + 1, a :: as, b :: bs, ha, hb => by
    rw [List.zipWith_cons_cons, List.sum_cons, zipWith_sum f n as bs (by simpa using ha)
      (by simpa using hb), Finset.sum_range_succ']
    simp [add_comm]

/-- The parameters as functions. -/
def matrix (p : PoseidonParams F) (i j : ℕ) : F := (p.mds.getD i []).getD j 0
def consts (p : PoseidonParams F) (r i : ℕ) : F := (p.roundConstants.getD r []).getD i 0

theorem roundL_spec {p : PoseidonParams F} (hp : WF p) {k : ℕ} {full : Bool}
    (hk : k = if full then p.T else 1) {rc l : List F} (hrc : rc.length = p.T)
    (hl : l.length = p.T) {x c : ℕ → F} (hx : ∀ i < p.T, l.getD i 0 = x i)
    (hc : ∀ i < p.T, rc.getD i 0 = c i) :
    (roundL p.mds k rc l).length = p.T ∧ ∀ i < p.T, (roundL p.mds k rc l).getD i 0 =
      Spec.poseidonRound p.T (matrix p) c full x i := by
  refine ⟨by simp [roundL, hp.mds_rows], fun i hi => ?_⟩
  have hi' : i < p.mds.length := by rw [hp.mds_rows]; exact hi
  have hs : (sboxL k (List.zipWith (· + ·) l rc)).length = p.T := by
    simp [sboxL, hl, hrc]
    split at hk <;> have := hp.width <;> omega
  rw [roundL, List.getD_eq_getElem?_getD, List.getElem?_map, List.getElem?_eq_getElem hi']
  simp only [Option.map_some, Option.getD_some]
  rw [zipWith_sum _ p.T _ _ hs (hp.mds_cols _ (List.getElem_mem hi')), Spec.poseidonRound]
  refine Finset.sum_congr rfl fun j hj => ?_
  rw [Finset.mem_range] at hj
  rw [mul_comm]
  congr 1
  · simp [matrix, List.getD_eq_getElem?_getD, List.getElem?_eq_getElem hi']
  · rw [← hx j hj, ← hc j hj]
    have hz : (List.zipWith (· + ·) l rc)[j]? = some (l.getD j 0 + rc.getD j 0) := by
      rw [List.getElem?_zipWith, List.getD_eq_getElem?_getD, List.getD_eq_getElem?_getD,
        List.getElem?_eq_getElem (by omega), List.getElem?_eq_getElem (by omega)]
      rfl
    have hjk : (j < k) ↔ (full || decide (j = 0)) = true := by
      cases full <;> simp at hk ⊢ <;> omega
    rw [sboxL, List.getD_eq_getElem?_getD, List.getElem?_append]
    have hlen : (List.map (· ^ 5) (List.take k (List.zipWith (· + ·) l rc))).length = k := by
      simp [hl, hrc]
      split at hk <;> have := hp.width <;> omega
    rw [hlen]
    by_cases h : j < k
    · rw [if_pos h, if_pos (hjk.1 h), List.getElem?_map, List.getElem?_take_of_lt h, hz]
      rfl
    · rw [if_neg h, if_neg (fun h' => h (hjk.2 h')), List.getElem?_drop,
        show k + (j - k) = j from by omega, hz]
      rfl

theorem roundsL_spec {p : PoseidonParams F} (hp : WF p) : ∀ (fs : List Bool) (q : ℕ)
    (l : List F) (x : ℕ → F), q + fs.length ≤ p.roundConstants.length → l.length = p.T →
    (∀ i < p.T, l.getD i 0 = x i) →
    (roundsL p.mds (fs.map fun f => if f then p.T else 1) (p.roundConstants.drop q) l).length = p.T ∧
    ∀ i < p.T, (roundsL p.mds (fs.map fun f => if f then p.T else 1)
      (p.roundConstants.drop q) l).getD i 0 =
      Spec.poseidonRounds p.T (matrix p) (consts p) q fs x i
  | [], q, l, x, _, hl, hx => by
    simp only [List.map_nil, roundsL, Spec.poseidonRounds]
    exact ⟨hl, hx⟩
  | f :: fs, q, l, x, hq, hl, hx => by
    simp only [List.length_cons] at hq
    have hlt : q < p.roundConstants.length := by omega
    rw [List.drop_eq_getElem_cons hlt, List.map_cons, roundsL, Spec.poseidonRounds]
    obtain ⟨h1, h2⟩ := roundL_spec hp (k := if f then p.T else 1) rfl
      (hp.rc_len _ (List.getElem_mem hlt)) hl hx (c := consts p q) (fun i _ => by
        simp [consts, List.getD_eq_getElem?_getD, List.getElem?_eq_getElem hlt])
    exact roundsL_spec hp fs (q + 1) _ _ (by omega) h1 h2

/-- The native permutation on lists, from the specification. -/
def native (p : PoseidonParams F) (l : List F) : List F :=
  (List.range p.T).map (Spec.poseidon p.T (matrix p) (consts p) (p.fullRounds / 2)
    p.partialRounds fun i => l.getD i 0)

theorem kinds_eq (p : PoseidonParams F) :
    List.replicate (p.fullRounds / 2) p.T ++ List.replicate p.partialRounds 1 ++
      List.replicate (p.fullRounds / 2) p.T =
    (List.replicate (p.fullRounds / 2) true ++ List.replicate p.partialRounds false ++
      List.replicate (p.fullRounds / 2) true).map fun f => if f then p.T else 1 := by
  simp

theorem permutation_sat {p : PoseidonParams F} (hp : WF p) (s r : List (Element F))
    (h : (permutation p s).sat r) :
    r.map Element.wire = native p (s.map Element.wire) := by
  have hs : s.length = p.T := by
    have hr := hp.rounds
    have h' := h
    unfold permutation at h'
    have hne : List.replicate (p.fullRounds / 2) p.T ++ List.replicate p.partialRounds 1 ++
      List.replicate (p.fullRounds / 2) p.T ≠ [] := by
      intro h0
      have := congrArg List.length h0
      simp at this
      omega
    obtain ⟨k, ks, hk⟩ := List.exists_cons_of_ne_nil hne
    rw [hk] at h'
    cases hrc : p.roundConstants with
    | nil => rw [hrc] at h'; exact h'.elim
    | cons rc rcs =>
      rw [hrc] at h'
      simp only [rounds, sat_bind] at h'
      obtain ⟨s1, h1, -⟩ := h'
      unfold addRoundConstants at h1
      split at h1
      · rename_i hl
        rw [hl, hp.rc_len rc (by simp [hrc])]
      · exact h1.elim
  have e := rounds_sat p _ _ _ _ h
  rw [kinds_eq, ← List.drop_zero (l := p.roundConstants)] at e
  obtain ⟨h1, h2⟩ := roundsL_spec hp (List.replicate (p.fullRounds / 2) true ++
    List.replicate p.partialRounds false ++ List.replicate (p.fullRounds / 2) true) 0
    (s.map Element.wire) (fun i => (s.map Element.wire).getD i 0) (by simpa [add_assoc] using hp.rcs) (by simpa)
    (fun i _ => rfl)
  rw [e]
  apply List.ext_getElem
  · rw [h1]; simp [native]
  · intro i hi1 hi2
    have := h2 i (by rw [h1] at hi1; exact hi1)
    rw [List.getD_eq_getElem?_getD, List.getElem?_eq_getElem hi1, Option.getD_some] at this
    rw [this]
    simp [native, Spec.poseidon]

theorem permutation_sim {p : PoseidonParams F} (hp : WF p) (s : List (Element F))
    (hl : s.length = p.T) (hs : ∀ e ∈ s, e.Honest) :
    ∃ r, (permutation p s).sim = .ok r ∧ r.length = p.T ∧ ∀ e ∈ r, e.Honest := by
  refine rounds_sim hp _ _ s ?_ ?_ hp.rc_len hl hs
  · intro k hk
    have := hp.width
    simp only [List.mem_append, List.mem_replicate] at hk
    omega
  · simpa [add_assoc] using hp.rcs

end Poseidon
end Ragu.Gadget

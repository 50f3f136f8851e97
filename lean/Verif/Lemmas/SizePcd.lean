/-
The sizes of the Poseidon permutation, of the transcript and of the parts of the internal circuits.
-/
import Verif.Lemmas.Size
import Verif.Spec.CircuitSize
import Verif.Lemmas.Gadget.Sponge
import Verif.Model.Pcd.Stages
import Verif.Lemmas.Builder

set_option linter.unusedSectionVars false

namespace Ragu.Gadget
open Ragu Ragu.Circuit
variable {F : Type} [Field F] [DecidableEq F]

namespace Poseidon

theorem sized_sbox1 (x : Element F) : Sized (fun _ => True) (sbox1 5 x) ⟨3, 0, 6⟩ :=
  ((Element.sized_square _).bind' fun _ => (Element.sized_square _).bind' fun _ =>
    Element.sized_mul _ _).cast rfl

theorem sized_sbox : ∀ (k : ℕ) (xs : List (Element F)), k ≤ xs.length →
    Sized (fun r => r.length = xs.length) (sbox 5 k xs) ⟨3 * k, 0, 6 * k⟩
  | 0, _, _ => .pure rfl
  | k + 1, x :: xs, h => ((sized_sbox1 x).bind' fun _ =>
      (sized_sbox k xs (by simpa using h)).bind fun _ h => .pure (by simp [h])).cast (by size_eq)
  | k + 1, [], h => absurd h (by simp)

theorem sized_mdsRows (s : List (Element F)) : ∀ (m : List (List F)),
    (∀ row ∈ m, row.length = s.length) → Sized (fun r => r.length = m.length) (mdsRows s m) 0
  | [], _ => .pure rfl
  | row :: m, h => ((sized_multiadd (h row (by simp)).symm).bind' fun _ =>
      (sized_mdsRows s m fun r hr => h r (by simp [hr])).bind fun _ h => .pure (by simp [h])).cast rfl

theorem sized_mds {s : List (Element F)} {m : List (List F)} (h : s.length = m.length)
    (hr : ∀ row ∈ m, row.length = s.length) : Sized (fun r => r.length = s.length) (mds s m) 0 := by
  rw [mds, if_pos h, h]
  exact sized_mdsRows s m hr

theorem sized_addRoundConstants {s : List (Element F)} {rc : List F} (h : s.length = rc.length) :
    Sized (fun r => r.length = s.length) (addRoundConstants s rc) 0 := by
  rw [addRoundConstants, if_pos h]
  exact .pure (by simp [h])

theorem sized_rounds {p : PoseidonParams F} (hp : WF p) : ∀ (ks : List ℕ) (rcs : List (List F))
    (s : List (Element F)), (∀ k ∈ ks, k ≤ p.T) → ks.length ≤ rcs.length →
    (∀ rc ∈ rcs, rc.length = p.T) → s.length = p.T →
    Sized (fun r => r.length = p.T) (rounds p ks rcs s) ⟨3 * ks.sum, 0, 6 * ks.sum⟩
  | [], _, _, _, _, _, hs => .pure hs
  | k :: ks, rc :: rcs, s, hk, hl, hr, hs => by
    have h1 := sized_addRoundConstants (s := s) (hs.trans (hr rc (by simp)).symm)
    refine (h1.bind fun a ha => Sized.bind (s := ⟨3 * k, 0, 6 * k⟩) (Q := fun r => r.length = p.T)
      ?_ fun b hb => Sized.bind (s := 0) (Q := fun r => r.length = p.T) ?_ fun c hc =>
      sized_rounds hp ks rcs c (fun i hi => hk i (by simp [hi])) (by simpa using hl)
        (fun r h => hr r (by simp [h])) hc).cast (by
          apply Size.ext <;> simp only [Size.add_gates, Size.add_allocs, Size.add_cons,
            Size.zero_gates, Size.zero_allocs, Size.zero_cons, List.sum_cons] <;> ring)
    · rw [hp.alpha]
      exact (sized_sbox k a (by rw [ha, hs]; exact hk k (by simp))).mono fun r h => by
        rw [h, ha, hs]
    · refine (sized_mds (by rw [hb, hp.mds_rows]) fun row h => ?_).mono fun r h => h.trans hb
      rw [hp.mds_cols row h, hb]
  | k :: ks, [], _, _, hl, _, _ => absurd hl (by simp)

/-- The size of the permutation. -/
def permSize (p : PoseidonParams F) : Size := ⟨permGates p, 0, 2 * permGates p⟩

theorem sized_permutation {p : PoseidonParams F} (hp : WF p) {s : List (Element F)}
    (hs : s.length = p.T) : Sized (fun r => r.length = p.T) (permutation p s) (permSize p) := by
  refine (sized_rounds hp _ _ s ?_ ?_ hp.rc_len hs).cast ?_
  · intro k hk
    have := hp.width
    simp only [List.mem_append, List.mem_replicate] at hk
    omega
  · have := hp.rcs
    simp only [List.length_append, List.length_replicate]
    omega
  · apply Size.ext <;> simp [permSize, permGates] <;> ring

end Poseidon

/-- The phase of a sponge: whether it is squeezing, and how many values wait or are left. -/
def Phase (rate T : ℕ) (sq : Bool) (j : ℕ) : Mode (Element F) → Prop
  | .absorb v s => sq = false ∧ v.length = j ∧ j ≤ rate ∧ s.length = T
  | .squeeze v s => sq = true ∧ v.length = j ∧ s.length = T

theorem addValues_len {E : Type} (add : E → E → E) : ∀ (s v : List E),
    (Sponge.addValues add s v).length = s.length
  | [], [] => rfl
  | [], _ :: _ => rfl
  | _ :: _, [] => rfl
  | s :: ss, v :: vs => by simp [Sponge.addValues, addValues_len add ss vs]

end Ragu.Gadget

namespace Ragu.Pcd
open Ragu Ragu.Circuit Ragu.Gadget Ragu.Gadget.Poseidon Ragu.Spec
variable {F : Type} [Field F] [DecidableEq F]

section
variable {p : PoseidonParams F} (hp : Poseidon.WF p) (hr : 1 ≤ p.rate)
include hp hr

theorem sized_absorb_squeezing (v : Element F) {j : ℕ} {t : Mode (Element F)}
    (h : Phase p.rate p.T true j t) :
    Sized (Phase p.rate p.T false 1) (transcriptWrite p v t) 0 := by
  cases t with
  | absorb a s => exact absurd h.1 (by simp)
  | squeeze a s =>
    have : (0 : ℕ) ≠ p.rate := by omega
    refine (Sized.bind (Q := fun r => (∃ u, r.1 = .ok u) ∧ Phase p.rate p.T false 1 r.2) (s := 0) (t := 0)
      (.pure ?_) fun r hr => ?_).cast rfl
    · simp [Sponge.absorbAgain, this, Phase, h.2.2, hr]
    · obtain ⟨r, t⟩ := r
      obtain ⟨⟨u, hu⟩, ht⟩ := hr
      subst hu
      exact .pure ht

theorem sized_absorb_room (v : Element F) {j : ℕ} (hj : j ≠ p.rate) {t : Mode (Element F)}
    (h : Phase p.rate p.T false j t) :
    Sized (Phase p.rate p.T false (j + 1)) (transcriptWrite p v t) 0 := by
  cases t with
  | squeeze a s => exact absurd h.1 (by simp)
  | absorb a s =>
    obtain ⟨-, h2, h3, h4⟩ := h
    unfold transcriptWrite Sponge.absorb
    simp only [h2, hj, if_false]
    refine (Sized.bind (Q := fun r => (∃ u, r.1 = .ok u) ∧ Phase p.rate p.T false (j + 1) r.2) (s := 0) (t := 0)
      (.pure ?_) fun r hr => ?_).cast rfl
    · simp [Phase, h2, h4]; omega
    · obtain ⟨r, t⟩ := r
      obtain ⟨⟨u, hu⟩, ht⟩ := hr
      subst hu
      exact .pure ht

theorem sized_absorb_full (v : Element F) {t : Mode (Element F)}
    (h : Phase p.rate p.T false p.rate t) :
    Sized (Phase p.rate p.T false 1) (transcriptWrite p v t) (permSize p) := by
  cases t with
  | squeeze a s => exact absurd h.1 (by simp)
  | absorb a s =>
    obtain ⟨-, h2, h3, h4⟩ := h
    unfold transcriptWrite Sponge.absorb
    simp only [h2, if_true]
    have : (0 : ℕ) ≠ p.rate := by omega
    refine (Sized.bind (Q := fun r => (∃ u, r.1 = .ok u) ∧ Phase p.rate p.T false 1 r.2)
      (s := permSize p) (t := 0) ?_ fun r hr => ?_).cast (Size.add_zero _)
    · refine (Sized.bind (Q := Phase p.rate p.T false 0) (s := permSize p) ?_ fun m hm =>
        .pure ?_).cast (Size.add_zero _)
      · refine ((sized_permutation hp (by rw [addValues_len, h4])).bind fun s hs => .pure ?_).cast
          (Size.add_zero _)
        simp [Phase, hs]
      · cases m with
        | squeeze a s => exact absurd hm.1 (by simp)
        | absorb a s =>
          obtain ⟨-, e2, -, e4⟩ := hm
          simp [Sponge.absorbAgain, e2, this, Phase, e4, hr]
    · obtain ⟨r, t⟩ := r
      obtain ⟨⟨u, hu⟩, ht⟩ := hr
      subst hu
      exact .pure ht

theorem sized_squeeze_left {j : ℕ} {t : Mode (Element F)}
    (h : Phase p.rate p.T true (j + 1) t) :
    Sized (fun r => Phase p.rate p.T true j r.2) (transcriptChallenge p t) 0 := by
  cases t with
  | absorb a s => exact absurd h.1 (by simp)
  | squeeze a s =>
    obtain ⟨-, h2, h3⟩ := h
    obtain ⟨a, x, rfl⟩ : ∃ a' x, a = a' ++ [x] :=
      ⟨_, _, (List.dropLast_append_getLast (l := a) (by rintro rfl; simp at h2)).symm⟩
    unfold transcriptChallenge Sponge.squeeze
    simp only [List.getLast?_concat, List.dropLast_concat]
    refine .pure ?_
    simp only [List.length_append, List.length_singleton] at h2
    exact ⟨rfl, by omega, h3⟩

theorem squeezeAgain_phase (hT : p.rate ≤ p.T) {s : List (Element F)} (hs : s.length = p.T) :
    ∃ c a, Sponge.squeezeAgain (.squeeze (Sponge.getRate p.rate s) s) = (.ok c, .squeeze a s) ∧
      a.length = p.rate - 1 := by
  have hl : (Sponge.getRate p.rate s).length = p.rate := by simp [Sponge.getRate, hs, hT]
  have hne : Sponge.getRate p.rate s ≠ [] := by intro h; rw [h] at hl; simp at hl; omega
  refine ⟨(Sponge.getRate p.rate s).getLast hne, (Sponge.getRate p.rate s).dropLast, ?_, by simp [hl]⟩
  simp [Sponge.squeezeAgain, List.getLast?_eq_getLast_of_ne_nil hne]

theorem sized_squeeze_empty (hT : p.rate ≤ p.T) {t : Mode (Element F)}
    (h : Phase p.rate p.T true 0 t) :
    Sized (fun r => Phase p.rate p.T true (p.rate - 1) r.2) (transcriptChallenge p t) (permSize p) := by
  cases t with
  | absorb a s => exact absurd h.1 (by simp)
  | squeeze a s =>
    obtain ⟨-, h2, h3⟩ := h
    obtain rfl := List.length_eq_zero_iff.1 h2
    unfold transcriptChallenge Sponge.squeeze
    simp only [List.getLast?_nil]
    refine (Sized.bind (Q := fun r => (∃ u, r.1 = .ok u) ∧ Phase p.rate p.T true (p.rate - 1) r.2)
      (s := permSize p) (t := 0) ?_ fun r hr => ?_).cast (Size.add_zero _)
    · refine (Sized.bind (Q := fun m => ∃ s, s.length = p.T ∧ m = .squeeze (Sponge.getRate p.rate s) s)
        (s := permSize p) ?_ fun m hm => .pure ?_).cast (Size.add_zero _)
      · exact ((sized_permutation hp h3).bind fun s hs => .pure ⟨s, hs, rfl⟩).cast (Size.add_zero _)
      · obtain ⟨s, hs, rfl⟩ := hm
        obtain ⟨c, a, e, ha⟩ := squeezeAgain_phase hp hr hT hs
        rw [e]
        exact ⟨⟨c, rfl⟩, rfl, ha, hs⟩
    · obtain ⟨r, t⟩ := r
      obtain ⟨⟨u, hu⟩, ht⟩ := hr
      subst hu
      exact .pure ht

theorem sized_squeeze_absorbing (hT : p.rate ≤ p.T) {j : ℕ} (hj : 1 ≤ j) {t : Mode (Element F)}
    (h : Phase p.rate p.T false j t) :
    Sized (fun r => Phase p.rate p.T true (p.rate - 1) r.2) (transcriptChallenge p t) (permSize p) := by
  cases t with
  | squeeze a s => exact absurd h.1 (by simp)
  | absorb a s =>
    obtain ⟨-, h2, h3, h4⟩ := h
    unfold transcriptChallenge Sponge.squeeze
    have : a.isEmpty = false := by
      cases a with
      | nil => simp at h2; omega
      | cons => rfl
    simp only [this, Bool.false_eq_true, if_false]
    refine (Sized.bind (Q := fun r => (∃ u, r.1 = .ok u) ∧ Phase p.rate p.T true (p.rate - 1) r.2)
      (s := permSize p) (t := 0) ?_ fun r hr => ?_).cast (Size.add_zero _)
    · refine (Sized.bind (Q := fun m => (Sponge.state m).length = p.T)
        (s := permSize p) ?_ fun m hm => .pure ?_).cast (Size.add_zero _)
      · exact ((sized_permutation hp (by rw [addValues_len, h4])).bind fun s hs => .pure hs).cast
          (Size.add_zero _)
      · obtain ⟨c, a, e, ha⟩ := squeezeAgain_phase hp hr hT hm
        rw [e]
        exact ⟨⟨c, rfl⟩, rfl, ha, hm⟩
    · obtain ⟨r, t⟩ := r
      obtain ⟨⟨u, hu⟩, ht⟩ := hr
      subst hu
      exact .pure ht

theorem sized_save {j : ℕ} (hj : 1 ≤ j) {t : Mode (Element F)} (h : Phase p.rate p.T false j t) :
    Sized (fun r => r.length = p.T) (transcriptSave p t) (permSize p) := by
  cases t with
  | squeeze a s => exact absurd h.1 (by simp)
  | absorb a s =>
    obtain ⟨-, h2, h3, h4⟩ := h
    unfold transcriptSave Sponge.saveState
    have : a.isEmpty = false := by
      cases a with
      | nil => simp at h2; omega
      | cons => rfl
    simp only [this, Bool.false_eq_true, if_false]
    refine (Sized.bind (Q := fun r => ∃ u, r = .ok u ∧ u.length = p.T)
      (s := permSize p) (t := 0) ?_ fun r hr => ?_).cast (Size.add_zero _)
    · refine (Sized.bind (Q := fun m => (Sponge.state m).length = p.T)
        (s := permSize p) ?_ fun m hm => .pure ⟨_, rfl, hm⟩).cast (Size.add_zero _)
      exact ((sized_permutation hp (by rw [addValues_len, h4])).bind fun s hs => .pure hs).cast
          (Size.add_zero _)
    · obtain ⟨u, rfl, hu⟩ := hr
      exact .pure hu

/-- A call that absorbs, and what follows. -/
theorem sized_write_then {α : Type} {R : α → Prop} {f : Mode (Element F) → Syn F α}
    {base : Size} {r : List SpongeCall} (v : Element F) {sq : Bool} {j : ℕ} {t : Mode (Element F)}
    (h : Phase p.rate p.T sq j t)
    (k : ∀ j' t', Phase p.rate p.T false j' t' → 1 ≤ j' →
      Sized R (f t') (base + (permSize p).times (permutations p.rate false j' r))) :
    Sized R (transcriptWrite p v t >>= f)
      (base + (permSize p).times (permutations p.rate sq j (.absorb :: r))) := by
  cases sq with
  | true => exact ((sized_absorb_squeezing hp hr v h).bind fun t' h' =>
      k _ t' h' le_rfl).cast (Size.zero_add _)
  | false =>
    simp only [permutations]
    by_cases hj : j = p.rate
    · subst hj
      simp only [if_true]
      exact ((sized_absorb_full hp hr v h).bind fun t' h' => k _ t' h' le_rfl).cast (by
        apply Size.ext <;> simp <;> ring)
    · simp only [hj, if_false]
      exact ((sized_absorb_room hp hr v hj h).bind fun t' h' => k _ t' h' (by omega)).cast
        (Size.zero_add _)

theorem sized_point_then {α : Type} {R : α → Prop} {f : Mode (Element F) → Syn F α}
    {base : Size} {r : List SpongeCall} (v : Point F) {sq : Bool} {j : ℕ} {t : Mode (Element F)}
    (h : Phase p.rate p.T sq j t)
    (k : ∀ j' t', Phase p.rate p.T false j' t' → 1 ≤ j' →
      Sized R (f t') (base + (permSize p).times (permutations p.rate false j' r))) :
    Sized R (transcriptWritePoint p v t >>= f)
      (base + (permSize p).times (permutations p.rate sq j (.absorb :: .absorb :: r))) := by
  have e : (transcriptWritePoint p v t >>= f) =
      (transcriptWrite p v.x t >>= fun t => transcriptWrite p v.y t >>= f) := by
    change ((transcriptWrite p v.x t >>= fun t => transcriptWrite p v.y t >>= Pure.pure) >>= f) = _
    rw [Syn.bind_assoc]
    congr 1
    funext t
    rw [Syn.bind_assoc]
    rfl
  rw [e]
  exact sized_write_then hp hr v.x h fun j t h _ => sized_write_then hp hr v.y h k

theorem sized_challenge_then (hT : p.rate ≤ p.T) {α : Type} {R : α → Prop}
    {f : Element F × Mode (Element F) → Syn F α} {base : Size} {r : List SpongeCall} {sq : Bool}
    {j : ℕ} {t : Mode (Element F)} (h : Phase p.rate p.T sq j t) (hj : sq = false → 1 ≤ j)
    (k : ∀ j' c t', Phase p.rate p.T true j' t' →
      Sized R (f (c, t')) (base + (permSize p).times (permutations p.rate true j' r))) :
    Sized R (transcriptChallenge p t >>= f)
      (base + (permSize p).times (permutations p.rate sq j (.squeeze :: r))) := by
  cases sq with
  | true =>
    cases j with
    | zero => exact ((sized_squeeze_empty hp hr hT h).bind fun r h' => k _ r.1 r.2 h').cast (by
        apply Size.ext <;> simp [permutations] <;> ring)
    | succ j =>
      exact ((sized_squeeze_left hp hr h).bind fun r h' => k _ r.1 r.2 h').cast (Size.zero_add _)
  | false => exact ((sized_squeeze_absorbing hp hr hT (hj rfl) h).bind fun r h' => k _ r.1 r.2 h').cast (by
        apply Size.ext <;> simp [permutations] <;> ring)

theorem sized_save_then {α : Type} {R : α → Prop} {f : List (Element F) → Syn F α} {base : Size}
    {sq : Bool} {j : ℕ} {t : Mode (Element F)} (h : Phase p.rate p.T sq j t) (hs : sq = false)
    (hj : 1 ≤ j) (k : ∀ s, s.length = p.T → Sized R (f s) base) :
    Sized R (transcriptSave p t >>= f)
      (base + (permSize p).times (permutations p.rate sq j [.save])) := by
  subst hs
  exact ((sized_save hp hr hj h).bind k).cast (by
    apply Size.ext <;> simp [permutations] <;> ring)

theorem sized_writeAll_then {α : Type} {R : α → Prop} {f : Mode (Element F) → Syn F α}
    {base : Size} {r : List SpongeCall} : ∀ (vs : List (Element F)) {sq : Bool} {j : ℕ}
    {t : Mode (Element F)}, Phase p.rate p.T sq j t → (vs = [] → sq = false → 1 ≤ j) →
    (∀ sq' j' t', Phase p.rate p.T sq' j' t' → (sq' = false → 1 ≤ j') →
      Sized R (f t') (base + (permSize p).times (permutations p.rate sq' j' r))) →
    Sized R (transcriptWriteAll p vs t >>= f)
      (base + (permSize p).times (permutations p.rate sq j (List.replicate vs.length .absorb ++ r)))
  | [], sq, j, t, h, hj, k => k sq j t h (hj rfl)
  | v :: vs, sq, j, t, h, _, k => by
    have e : (transcriptWriteAll p (v :: vs) t >>= f) =
        (transcriptWrite p v t >>= fun t => transcriptWriteAll p vs t >>= f) := by
      change ((transcriptWrite p v t >>= fun t => transcriptWriteAll p vs t) >>= f) = _
      rw [Syn.bind_assoc]
    rw [e]
    exact sized_write_then hp hr v h fun j t h hj =>
      sized_writeAll_then vs h (fun _ _ => hj) k

/-- A new transcript has the tag absorbed. -/
theorem sized_new_then {α : Type} {R : α → Prop} {f : Mode (Element F) → Syn F α}
    {base : Size} {r : List SpongeCall} (tag : List UInt8)
    (k : ∀ sq' j' t', Phase p.rate p.T sq' j' t' → (sq' = false → 1 ≤ j') →
      Sized R (f t') (base + (permSize p).times (permutations p.rate sq' j' r))) :
    Sized R (transcriptNew p tag >>= f)
      (base + (permSize p).times (permutations p.rate false 0
        (List.replicate (1 + (chunks 16 tag).length) .absorb ++ r))) := by
  have := sized_writeAll_then hp hr (R := R) (f := f) (base := base) (r := r)
    ((Transcript.tagElems tag).map Element.constant) (sq := false) (j := 0)
    (t := Sponge.new Element.zero p.T) (by simp [Phase, Sponge.new])
    (by simp [Transcript.tagElems]) k
  rw [show ((Transcript.tagElems tag).map (Element.constant (F := F))).length =
    1 + (chunks 16 tag).length by simp [Transcript.tagElems, Nat.add_comm]] at this
  exact this

end

/-! ### Polynomials in the public values -/

theorem sized_applicationKy {N : ℕ} (hN : 1 ≤ N) {q : ProofInputs F} (h1 : q.left.length = N)
    (h2 : q.right.length = N) (h3 : q.output.length = N) (y : Element F) :
    Sized (fun _ => True) (q.applicationKy y) ⟨3 * N, 0, 6 * N⟩ := by
  refine ((Horner.sized_writeAll_none y q.left).bind fun r hr => ?_).cast (s := _ + ⟨2 * N + 1, 0, 4 * N + 2⟩) (by
    rw [h1]; size_eq)
  have hs : r.isSome := by
    rw [hr]
    cases h : q.left with
    | nil => rw [h] at h1; simp at h1; omega
    | cons => rfl
  refine ((Horner.sized_writeAll_some y q.right hs).bind fun r hr =>
    (Horner.sized_writeAll_some y q.output hr).bind fun r hr => Horner.sized_finishKy y hr).cast ?_
  rw [h2, h3]; size_eq

theorem sized_unifiedKyValues {N : ℕ} {q : ProofInputs F} (h1 : q.left.length = N)
    (h2 : q.right.length = N) (h3 : q.unified.length = 29) (y : Element F) :
    Sized (fun _ => True) (q.unifiedKyValues y) ⟨2 * N + 32, 0, 4 * N + 64⟩ := by
  refine ((Horner.sized_writeAll_none y q.unified).bind fun r hr => ?_).cast
    (s := _ + ⟨2 * N + 4, 0, 4 * N + 8⟩) (by rw [h3]; size_eq)
  have hs : r.isSome := by
    rw [hr]
    cases h : q.unified with
    | nil => rw [h] at h3; simp at h3
    | cons => rfl
  refine ((Horner.sized_write_some y hs _).bind fun r hr => (Horner.sized_finishKy y hr).bind' fun _ =>
    (Horner.sized_writeAll_some y q.left hs).bind fun r hr =>
    (Horner.sized_writeAll_some y q.right hr).bind fun r hr =>
    (Horner.sized_write_some y hr _).bind fun r hr => (Horner.sized_finishKy y hr).bind' fun _ =>
    .pure trivial).cast ?_
  rw [h1, h2]; size_eq

theorem sized_isTrivial {N : ℕ} (hN : 1 ≤ N) {q : ProofInputs F} (h : q.output.length = N) :
    Sized (fun _ => True) (q.isTrivial N) ⟨2, 0, 4⟩ := by
  unfold ProofInputs.isTrivial
  rw [List.getElem?_eq_getElem (by omega)]
  exact sized_isZero _

theorem sized_isBaseCase {N : ℕ} (hN : 1 ≤ N) {l r : ProofInputs F} (hl : l.output.length = N)
    (hr : r.output.length = N) : Sized (fun _ => True) (isBaseCase N l r) ⟨5, 0, 10⟩ :=
  ((sized_isTrivial hN hl).bind' fun _ => (sized_isTrivial hN hr).bind' fun _ =>
    Boolean.sized_and _ _).cast rfl

/-! ### Folding -/

theorem sized_newFolder (mu nu : Element F) :
    Sized (fun _ => True) (Fold.ClaimFolder.new mu nu) ⟨2, 0, 4⟩ :=
  ((Element.sized_mul _ _).bind' fun _ => (Element.sized_invert _).bind' fun _ =>
    .pure trivial).cast rfl

theorem sized_foldRow_some (mn : Element F) (i : ℕ) : ∀ (js : List ℕ) (r : Option (Element F))
    (es ks : List (Element F)), r.isSome → (js.filter (i ≠ ·)).length ≤ es.length →
    (js.filter (i = ·)).length ≤ ks.length →
    Sized (fun t => t.1.isSome ∧ t.2.1.length = es.length - (js.filter (i ≠ ·)).length ∧
      t.2.2.length = ks.length - (js.filter (i = ·)).length) (Fold.foldRow mn i js r es ks)
      ⟨js.length, 0, 2 * js.length⟩
  | [], r, es, ks, hr, _, _ => .pure ⟨hr, by simp, by simp⟩
  | j :: js, r, es, ks, hr, h1, h2 => by
    unfold Fold.foldRow
    by_cases hij : i = j
    · subst hij
      simp only [if_true]
      cases ks with
      | nil => simp at h2
      | cons k ks =>
        refine ((Horner.sized_write_some mn hr k).bind fun r hr => (sized_foldRow_some mn i js r es ks hr
          (by simpa using h1) (by simpa using h2)).mono fun t ht => ?_).cast (by size_eq)
        simpa using ht
    · simp only [hij, if_false]
      cases es with
      | nil => simp [hij] at h1
      | cons e es =>
        refine ((Horner.sized_write_some mn hr e).bind fun r hr => (sized_foldRow_some mn i js r es ks hr
          (by simpa [hij] using h1) (by simpa [hij] using h2)).mono fun t ht => ?_).cast (by size_eq)
        simpa [hij] using ht

/-- One row: the first value is free. -/
theorem sized_foldRow (mn : Element F) (i : ℕ) : ∀ (js : List ℕ)
    (es ks : List (Element F)), (js.filter (i ≠ ·)).length ≤ es.length →
    (js.filter (i = ·)).length ≤ ks.length →
    Sized (fun t => t.2.1.length = es.length - (js.filter (i ≠ ·)).length ∧
      t.2.2.length = ks.length - (js.filter (i = ·)).length) (Fold.foldRow mn i js none es ks)
      ⟨js.length - 1, 0, 2 * (js.length - 1)⟩
  | [], es, ks, _, _ => .pure ⟨by simp, by simp⟩
  | j :: js, es, ks, h1, h2 => by
    unfold Fold.foldRow
    by_cases hij : i = j
    · subst hij
      simp only [if_true]
      cases ks with
      | nil => simp at h2
      | cons k ks =>
        refine ((Horner.sized_write_none mn k).bind fun r hr => (sized_foldRow_some mn i js r es ks hr
          (by simpa using h1) (by simpa using h2)).mono fun t ht => ?_).cast (by size_eq)
        simpa using ht.2
    · simp only [hij, if_false]
      cases es with
      | nil => simp [hij] at h1
      | cons e es =>
        refine ((Horner.sized_write_none mn e).bind fun r hr => (sized_foldRow_some mn i js r es ks hr
          (by simpa [hij] using h1) (by simpa [hij] using h2)).mono fun t ht => ?_).cast (by size_eq)
        simpa [hij] using ht.2

theorem range_filter_ne {n i : ℕ} (h : i < n) : ((List.range n).filter (i ≠ ·)).length = n - 1 := by
  have h1 := (List.range n).length_eq_length_filter_add (fun j => decide (i = j))
  have h2 : ((List.range n).filter (i = ·)).length = 1 := by
    rw [← List.countP_eq_length_filter]
    have : List.countP (fun j => decide (i = j)) (List.range n) = List.count i (List.range n) := by
      rw [List.count]
      congr 1
      funext j
      exact decide_eq_decide.2 eq_comm
    rw [this, List.count_eq_one_of_mem List.nodup_range (List.mem_range.2 h)]
  simp only [List.length_range] at h1
  rw [h2] at h1
  have h3 : ((List.range n).filter (i ≠ ·)) = (List.range n).filter fun j => !decide (i = j) := by
    congr 1; funext j; simp
  rw [h3]; omega

theorem range_filter_eq {n i : ℕ} (h : i < n) : ((List.range n).filter (i = ·)).length = 1 := by
  have h1 := (List.range n).length_eq_length_filter_add (fun j => decide (i = j))
  have h2 := range_filter_ne h
  have h3 : ((List.range n).filter (i ≠ ·)) = (List.range n).filter fun j => !decide (i = j) := by
    congr 1; funext j; simp
  rw [h3] at h2
  simp only [List.length_range] at h1
  omega

theorem sized_foldRows_some (mn mi : Element F) (n : ℕ) : ∀ (is : List ℕ) (r : Option (Element F))
    (es ks : List (Element F)), r.isSome → (∀ i ∈ is, i < n) → is.length * (n - 1) ≤ es.length →
    is.length ≤ ks.length →
    Sized (fun _ => True) (Fold.foldRows mn mi n is r es ks) ⟨is.length * n, 0, 2 * (is.length * n)⟩
  | [], _, _, _, _, _, _, _ => (Sized.pure trivial).cast (s := 0) (by size_eq)
  | i :: is, r, es, ks, hr, hi, h1, h2 => by
    have hn : i < n := hi i (by simp)
    simp only [List.length_cons] at h1 h2
    refine (Sized.bind (sized_foldRow mn i (List.range n) es ks (by rw [range_filter_ne hn]; nlinarith)
      (by rw [range_filter_eq hn]; omega)) fun t ht => (Horner.sized_write_some mi hr _).bind fun r hr =>
      sized_foldRows_some mn mi n is r t.2.1 t.2.2 hr (fun i h => hi i (by simp [h])) ?_ ?_).cast ?_
    · rw [ht.1, range_filter_ne hn]
      rw [Nat.add_mul, Nat.one_mul] at h1; omega
    · rw [ht.2, range_filter_eq hn]; omega
    · apply Size.ext <;> simp only [Size.add_gates, Size.add_allocs, Size.add_cons, List.length_range,
        List.length_cons, Nat.add_mul, Nat.one_mul] <;> omega

theorem sized_foldProducts {n : ℕ} (hn : 1 ≤ n) (mn mi : Element F) {es ks : List (Element F)}
    (h1 : n * n - n ≤ es.length) (h2 : n ≤ ks.length) :
    Sized (fun _ => True) (Fold.foldProducts n mn mi es ks) ⟨n * n - 1, 0, 2 * (n * n - 1)⟩ := by
  obtain ⟨m, rfl⟩ : ∃ m, n = m + 1 := ⟨n - 1, by omega⟩
  have e : Fold.foldRows mn mi (m + 1) (List.range (m + 1)) none es ks =
      Fold.foldRows mn mi (m + 1) (0 :: (List.range m).map Nat.succ) none es ks := by
    rw [List.range_succ_eq_map]
  have h3 : (m + 1) * m ≤ es.length := by
    have : (m + 1) * (m + 1) - (m + 1) = (m + 1) * m := by
      rw [Nat.mul_add (m + 1) m 1]; omega
    omega
  have hn : 0 < m + 1 := by omega
  rw [Nat.add_mul, Nat.one_mul] at h3
  refine (Sized.bind (s := ⟨(m + 1) * (m + 1) - 1, 0, 2 * ((m + 1) * (m + 1) - 1)⟩)
    (t := 0) (Q := fun _ => True) ?_ fun _ _ => .pure trivial).cast (by size_eq)
  rw [e]
  refine (Sized.bind (sized_foldRow mn 0 (List.range (m + 1)) es ks
    (by rw [range_filter_ne hn]; omega) (by rw [range_filter_eq hn]; omega)) fun t ht =>
    (Horner.sized_write_none mi _).bind fun r hr =>
      sized_foldRows_some mn mi (m + 1) ((List.range m).map Nat.succ) r t.2.1 t.2.2 hr ?_ ?_ ?_).cast ?_
  · simp only [List.mem_map, List.mem_range]
    rintro _ ⟨i, hi, rfl⟩
    simpa using hi
  · rw [ht.1, range_filter_ne hn]
    simp only [List.length_map, List.length_range, Nat.add_sub_cancel]; omega
  · rw [ht.2, range_filter_eq hn]
    simp only [List.length_map, List.length_range]; omega
  · apply Size.ext <;> simp only [Size.add_gates, Size.add_allocs, Size.add_cons, List.length_range,
      List.length_map, Nat.add_mul, Nat.one_mul, Nat.mul_add, Nat.mul_one, Size.zero_gates,
      Size.zero_cons, Size.zero_allocs] <;> omega

theorem sized_foldChunks (m : ℕ) (l1 : Element F) : ∀ (cs : List (List (Element F))),
    (∀ c ∈ cs, c.length ≤ m) → Sized (fun r => r.length = cs.length) (Fold.foldChunks m l1 cs)
      ⟨cs.length * (m - 1), 0, 2 * (cs.length * (m - 1))⟩
  | [], _ => by
    refine Sized.cast (.pure rfl) ?_
    apply Size.ext <;> simp
  | c :: cs, h => by
    have := h c (by simp)
    refine ((Element.sized_fold _ _).bind' fun _ => (sized_foldChunks m l1 cs fun c h' =>
      h c (by simp [h'])).bind fun r hr => .pure (by simp [hr])).cast ?_
    apply Size.ext <;> simp only [Size.add_gates, Size.add_allocs, Size.add_cons, List.length_cons,
      List.length_append, List.length_replicate, Nat.add_mul, Nat.one_mul, Size.zero_gates,
      Size.zero_cons, Size.zero_allocs] <;> omega

theorem chunks_le {α : Type} (m : ℕ) : ∀ (k : ℕ) (l : List α), l.length ≤ k →
    ∀ c ∈ chunks m l, c.length ≤ m
  | 0, l, h => by
    have : l = [] := List.length_eq_zero_iff.1 (by omega)
    subst this
    rw [chunks]; simp
  | k + 1, l, h => by
    rw [chunks]
    split
    · simp
    · rename_i h'
      push Not at h'
      have : l.length ≠ 0 := by simpa using h'.1
      simp only [List.mem_cons]
      rintro c (rfl | hc)
      · simp
      · exact chunks_le m k (l.drop m) (by simp; omega) c hc

theorem sized_foldTwoLayer {m g : ℕ} (hm : m ≠ 0) (l : List (Element F)) (l1 l2 : Element F)
    {c : ℕ} (hc : (chunks m l).length = c) :
    Sized (fun _ => True) (Fold.foldTwoLayer m g l l1 l2)
      ⟨c * (m - 1) + (c + (g - c) - 1), 0, 2 * (c * (m - 1) + (c + (g - c) - 1))⟩ := by
  rw [Fold.foldTwoLayer, if_neg hm]
  subst hc
  refine ((sized_foldChunks m l1 _ (chunks_le m _ l le_rfl)).bind fun r hr =>
    (Element.sized_fold _ _).cast (t := ⟨(chunks m l).length + (g - (chunks m l).length) - 1, 0,
      2 * ((chunks m l).length + (g - (chunks m l).length) - 1)⟩) ?_).cast ?_
  · simp [hr]
  · apply Size.ext <;> simp only [Size.add_gates, Size.add_allocs, Size.add_cons]; omega

end Ragu.Pcd

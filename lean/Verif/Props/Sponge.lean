/-
Properties C37, C38 and C54: the sponge, the transcript and its split across the
two hash circuits.
-/
import Verif.Lemmas.Gadget.Sponge
import Verif.Model.Transcript
import Verif.Lemmas.TestField

set_option linter.unusedSectionVars false

namespace Ragu.Props
open Ragu Ragu.Circuit Ragu.Gadget Ragu.Gadget.Syn Ragu.Transcript

section Pure
variable {F : Type} [Add F]

/-- C37: for any permutation of states of length `T` and any rate between 1 and `T`, the outputs
of any history of calls are those of the duplex construction, preceded by an error for every
squeeze made before anything was absorbed. The history is given as `j` squeezes, then phases of
absorbing a message and squeezing some outputs, then trailing absorbs. -/
theorem C37_duplex (perm : List F → List F) (T rate : ℕ)
    (hp : ∀ l : List F, l.length = T → (perm l).length = T) (hr : 1 ≤ rate) (hT : rate ≤ T)
    (zero : F) (j : ℕ) (phases : List (List F × ℕ)) (hph : ∀ p ∈ phases, p.1 ≠ [] ∧ 1 ≤ p.2)
    (tail : List F) :
    ∃ outs : List F, Spec.duplex perm rate (List.replicate T zero) phases = outs.map some ∧
      (Sponge.run (M := Id) (· + ·) perm rate
        (List.replicate j .squeeze ++
          (phases.flatMap fun p => p.1.map .absorb ++ List.replicate p.2 .squeeze) ++
          tail.map .absorb) (Sponge.new zero T)).1 =
        List.replicate j (.error .nothingAbsorbed) ++ outs.map .ok := by
  obtain ⟨outs, h1, h2⟩ := SpongeSpec.run_phases hp hr hT phases hph
    (.absorb [] (List.replicate T zero)) (Or.inl ⟨_, rfl⟩) (by simp [Sponge.state])
  refine ⟨outs, h1, ?_⟩
  change (SpongeSpec.run perm rate _ _).1 = _
  rw [SpongeSpec.run_append, SpongeSpec.run_append, Sponge.new, SpongeSpec.run_squeezes_new]
  simp only [SpongeSpec.run_absorbs_out, List.append_nil]
  exact congrArg _ h2

/-- C37: every history of calls has the form used in `C37_duplex`. -/
theorem C37_histories (ops : List (Sponge.Op F)) :
    ∃ (j : ℕ) (phases : List (List F × ℕ)) (tail : List F),
      (∀ p ∈ phases, p.1 ≠ [] ∧ 1 ≤ p.2) ∧
      ops = List.replicate j .squeeze ++
        (phases.flatMap fun p => p.1.map .absorb ++ List.replicate p.2 .squeeze) ++
        tail.map .absorb := by
  induction ops with
  | nil => exact ⟨0, [], [], by simp, rfl⟩
  | cons op ops ih =>
    obtain ⟨j, phases, tail, h1, rfl⟩ := ih
    cases op with
    | squeeze => exact ⟨j + 1, phases, tail, h1, by simp [List.replicate_succ]⟩
    | absorb v =>
      cases j with
      | succ j =>
        refine ⟨0, ([v], j + 1) :: phases, tail, ?_, by simp⟩
        intro p hp
        rcases List.mem_cons.1 hp with rfl | hp
        · simp
        · exact h1 p hp
      | zero =>
        cases phases with
        | nil => exact ⟨0, [], v :: tail, by simp, by simp⟩
        | cons q qs =>
          refine ⟨0, (v :: q.1, q.2) :: qs, tail, ?_, by simp⟩
          intro p hp
          rcases List.mem_cons.1 hp with rfl | hp
          · exact ⟨by simp, (h1 q (by simp)).2⟩
          · exact h1 p (by simp [hp])

/-- C37: squeezing a new sponge is an error and changes nothing. -/
theorem C37_squeeze_new (perm : List F → List F) (rate T : ℕ) (zero : F) :
    Sponge.squeeze (M := Id) (· + ·) perm rate (Sponge.new zero T) =
      (.error .nothingAbsorbed, Sponge.new zero T) := rfl

/-- `save_state` with no driver. -/
abbrev saveP (perm : List F → List F) (rate : ℕ) (m : Mode F) : Except SaveErr (List F) :=
  Sponge.saveState (M := Id) (· + ·) perm rate m

/-- C37: after `save_state` and `resume`, every history that starts with a squeeze gives the same
outputs, and leaves the same sponge, as if the sponge had not been interrupted. -/
theorem C37_save_resume (perm : List F → List F) (rate : ℕ) (hr : 1 ≤ rate) (m : Mode F)
    (s : List F) (hs : saveP perm rate m = .ok s) (hl : rate ≤ s.length)
    (ops : List (Sponge.Op F)) :
    Sponge.run (M := Id) (· + ·) perm rate (.squeeze :: ops) (Sponge.resume rate s) =
      Sponge.run (M := Id) (· + ·) perm rate (.squeeze :: ops) m := by
  cases m with
  | squeeze v st => cases hs
  | absorb v st =>
    cases v with
    | nil => cases hs
    | cons x v =>
      have e : s = perm (Spec.addBlock st (x :: v)) := by
        have h : saveP perm rate (.absorb (x :: v) st) =
          .ok (Sponge.state (Sponge.permute (M := Id) (· + ·) perm rate (.absorb (x :: v) st))) := rfl
        rw [h, SpongeSpec.permute_absorb] at hs
        exact (Except.ok.inj hs).symm
      change SpongeSpec.run perm rate _ _ = SpongeSpec.run perm rate _ _
      have h1 : SpongeSpec.squeezeP perm rate (Sponge.resume rate s) =
          SpongeSpec.squeezeP perm rate (.absorb (x :: v) st) := by
        rw [SpongeSpec.squeezeP_absorb (by simp), ← e, SpongeSpec.squeezeAgain_rate hr hl,
          Sponge.resume, Sponge.getRate]
        have hne : s.take rate ≠ [] := by
          intro h
          have := congrArg List.length h
          rw [List.length_take, List.length_nil] at this
          omega
        obtain ⟨y, ys, hy⟩ := List.exists_cons_of_ne_nil hne
        rw [hy, List.reverse_cons, SpongeSpec.squeezeP_pop]
        have h0 : (s.take rate)[0]? = some y := by rw [hy]; rfl
        rw [List.getElem?_take_of_lt (by omega), List.getElem?_eq_getElem (by omega)] at h0
        rw [Option.some.inj h0]
        rfl
      rw [SpongeSpec.run_squeeze, SpongeSpec.run_squeeze, h1]

/-- C37: `save_state` fails exactly when the sponge is squeezing or nothing is pending. -/
theorem C37_save_errors (perm : List F → List F) (rate : ℕ) (v s : List F) :
    saveP perm rate (.squeeze v s) = .error .alreadyInSqueezeMode ∧
    saveP perm rate (.absorb [] s) = .error .nothingAbsorbed ∧
    (v ≠ [] → saveP perm rate (.absorb v s) = .ok (perm (Spec.addBlock s v))) := by
  refine ⟨rfl, rfl, fun hv => ?_⟩
  obtain ⟨x, v, rfl⟩ := List.exists_cons_of_ne_nil hv
  have h : saveP perm rate (.absorb (x :: v) s) =
    .ok (Sponge.state (Sponge.permute (M := Id) (· + ·) perm rate (.absorb (x :: v) s))) := rfl
  rw [h, SpongeSpec.permute_absorb]; rfl

end Pure

/-- C37, where resuming is *not* like continuing: if the first call after `resume` is an absorb,
the outputs can differ from the uninterrupted sponge, because the pending block has already been
permuted. (The transcript type forbids this by requiring a challenge first.) -/
theorem C37_resume_then_absorb_differs :
    ∃ (perm : List ℕ → List ℕ) (m : Mode ℕ) (s : List ℕ), saveP perm 2 m = .ok s ∧
      (Sponge.run (M := Id) (· + ·) perm 2 [.absorb 1, .squeeze] (Sponge.resume 2 s)).1 ≠
        (Sponge.run (M := Id) (· + ·) perm 2 [.absorb 1, .squeeze] m).1 :=
  ⟨List.map (2 * ·), .absorb [1] [0, 0, 0], [2, 0, 0], rfl, by decide⟩

/-- C37, a limit of the construction: messages are not padded, so absorbing a trailing zero that
fits in the same block changes nothing. Callers must fix lengths (as the transcript does for its
tag). -/
theorem C37_trailing_zero {F : Type} [AddMonoid F] (perm : List F → List F) (rate : ℕ)
    (m s : List F) (hm : m ≠ []) (hl : m.length < rate) (ops : List (Sponge.Op F)) :
    Sponge.run (M := Id) (· + ·) perm rate (m.map .absorb ++ [.absorb 0] ++ .squeeze :: ops)
        (.absorb [] s) =
      Sponge.run (M := Id) (· + ·) perm rate (m.map .absorb ++ .squeeze :: ops) (.absorb [] s) := by
  have hrun : ∀ (m v : List F), (v ++ m).length ≤ rate → SpongeSpec.run perm rate
      (m.map .absorb) (.absorb v s) = ([], .absorb (v ++ m) s) := by
    intro m
    induction m with
    | nil => intro v _; simp [SpongeSpec.run_nil]
    | cons x m ih =>
      intro v hv
      rw [List.map_cons, SpongeSpec.run_absorb,
        SpongeSpec.absorbP_push x (by simp at hv; omega), ih (v ++ [x]) (by simpa using hv)]
      simp
  change SpongeSpec.run perm rate _ _ = SpongeSpec.run perm rate _ _
  rw [SpongeSpec.run_append, SpongeSpec.run_append, SpongeSpec.run_append,
    hrun m [] (by simpa using hl.le)]
  simp only [List.nil_append]
  rw [SpongeSpec.run_absorb, SpongeSpec.absorbP_push 0 (by omega), SpongeSpec.run_nil]
  simp only [List.nil_append]
  rw [SpongeSpec.run_squeeze, SpongeSpec.run_squeeze, SpongeSpec.squeezeP_absorb (by simp),
    SpongeSpec.squeezeP_absorb hm]
  have : Spec.addBlock s (m ++ [0]) = Spec.addBlock s m := by
    unfold Spec.addBlock
    apply List.ext_getElem
    · simp
    · intro i h1 h2
      simp only [List.getElem_mapIdx, List.length_append, List.length_singleton]
      by_cases h : i < m.length
      · rw [dif_pos (by omega), dif_pos h, List.getElem_append_left h]
      · rw [dif_neg h]
        split
        · rw [List.getElem_append_right (by omega)]
          simp
        · rfl
  rw [this]

section Circuit
variable {F : Type} [Field F] [DecidableEq F]

/-- C37: the permutation gadget computes the Poseidon permutation of its input wires, for every
satisfying assignment, and the honest run succeeds. -/
theorem C37_poseidon {p : PoseidonParams F} (hp : Poseidon.WF p) (s : List (Element F)) :
    (∀ r, (Poseidon.permutation p s).sat r → r.length = p.T ∧ ∀ i < p.T,
      (r.map Element.wire)[i]? = some (Spec.poseidon p.T (Poseidon.matrix p) (Poseidon.consts p)
        (p.fullRounds / 2) p.partialRounds (fun j => (s.map Element.wire).getD j 0) i)) ∧
    (s.length = p.T → (∀ e ∈ s, e.Honest) →
      ∃ r, (Poseidon.permutation p s).sim = .ok r ∧ ∀ e ∈ r, e.Honest) := by
  refine ⟨fun r h => ?_, fun hl hs => ?_⟩
  · have e := Poseidon.permutation_sat hp s r h
    refine ⟨?_, fun i hi => ?_⟩
    · have := congrArg List.length e
      simpa [Poseidon.native] using this
    · rw [e]
      simp [Poseidon.native, hi]
  · obtain ⟨r, h1, -, h2⟩ := Poseidon.permutation_sim hp s hl hs
    exact ⟨r, h1, h2⟩

/-- The native permutation keeps the length. -/
theorem native_length (p : PoseidonParams F) (l : List F) :
    (Poseidon.native p l).length = p.T := by simp [Poseidon.native]

/-- C37: in a circuit, every satisfying assignment gives the squeezed wires the values of the
native sponge (with the Poseidon permutation) on the absorbed wires, and the honest run
succeeds. Together with `C37_duplex` this is the duplex specification. -/
theorem C37_in_circuit {p : PoseidonParams F} (hp : Poseidon.WF p)
    (ops : List (Sponge.Op (Element F))) :
    (∀ r, (Sponge.run Element.add (Poseidon.permutation p) p.rate ops
        (Sponge.new Element.zero p.T)).sat r →
      r.1.map (Except.map Element.wire) = (Sponge.run (M := Id) (· + ·) (Poseidon.native p) p.rate
        (ops.map (Sponge.mapOp Element.wire)) (Sponge.new 0 p.T)).1) ∧
    ((∀ v, .absorb v ∈ ops → v.Honest) → ∃ r, (Sponge.run Element.add (Poseidon.permutation p)
      p.rate ops (Sponge.new Element.zero p.T)).sim = .ok r ∧ ∀ e, .ok e ∈ r.1 → e.Honest) := by
  have hnew : Sponge.mapMode Element.wire (Sponge.new (Element.zero (F := F)) p.T) =
      Sponge.new 0 p.T := by simp [Sponge.new, Sponge.mapMode]
  refine ⟨fun r h => ?_, fun ho => ?_⟩
  · have := Sponge.run_sat (Poseidon.permutation_sat hp) ops _ _ h
    rw [hnew] at this
    exact congrArg Prod.fst this
  · obtain ⟨r, h1, -, h2⟩ := Sponge.run_sim (T := p.T) (rate := p.rate)
      (fun s hl hs => Poseidon.permutation_sim hp s hl hs) ops ho (Sponge.new Element.zero p.T)
      ⟨by simp, fun e he => by
        rw [(List.mem_replicate.1 he).2]; simp [Element.Honest], by simp⟩
    exact ⟨r, h1, h2⟩

end Circuit

/-! ### C38: tags -/

theorem leBytes_inj : ∀ a b : List UInt8, a.length = b.length → leBytes a = leBytes b → a = b
  | [], [], _, _ => rfl
  | [], _ :: _, h, _ => by simp at h
  | _ :: _, [], h, _ => by simp at h
  | x :: a, y :: b, hl, h => by
    simp only [leBytes] at h
    have hx := x.toNat_lt
    have hy := y.toNat_lt
    have e1 : x.toNat = y.toNat := by omega
    have e2 : leBytes a = leBytes b := by omega
    rw [UInt8.toNat_inj.1 e1, leBytes_inj a b (by simpa using hl) e2]

theorem leBytes_lt : ∀ a : List UInt8, leBytes a < 256 ^ a.length
  | [] => by simp [leBytes]
  | x :: a => by
    have hx := x.toNat_lt
    have := leBytes_lt a
    simp only [leBytes, List.length_cons, pow_succ]
    omega

theorem chunks_cons {a : List UInt8} (ha : a ≠ []) :
    Gadget.chunks 16 a = a.take 16 :: Gadget.chunks 16 (a.drop 16) := by
  rw [Gadget.chunks, dif_neg (by simpa using ha)]

theorem chunks_inj : ∀ (n : ℕ) (a b : List UInt8), a.length ≤ n → a.length = b.length →
    (Gadget.chunks 16 a).map leBytes = (Gadget.chunks 16 b).map leBytes → a = b
  | 0, a, b, hn, hl, _ => by
    have h1 : a = [] := List.length_eq_zero_iff.1 (by omega)
    have h2 : b = [] := List.length_eq_zero_iff.1 (by omega)
    rw [h1, h2]
  | n + 1, a, b, hn, hl, h => by
    by_cases ha : a = []
    · subst ha
      exact (List.length_eq_zero_iff.1 hl.symm).symm
    · have hb : b ≠ [] := by
        rintro rfl
        exact ha (List.length_eq_zero_iff.1 hl)
      rw [chunks_cons ha, chunks_cons hb, List.map_cons, List.map_cons, List.cons.injEq] at h
      have h1 := leBytes_inj _ _ (by simp [hl]) h.1
      have hpos : 0 < a.length := List.length_pos_iff.2 ha
      have h2 := chunks_inj n (a.drop 16) (b.drop 16) (by simp; omega) (by simp [hl]) h.2
      rw [← List.take_append_drop 16 a, ← List.take_append_drop 16 b, h1, h2]

theorem chunks_len : ∀ (n : ℕ) (a : List UInt8), a.length ≤ n → ∀ c ∈ Gadget.chunks 16 a,
    c.length ≤ 16
  | 0, a, hn, c, hc => by
    rw [Gadget.chunks, dif_pos (Or.inl (List.length_eq_zero_iff.1 (by omega)))] at hc
    simp at hc
  | n + 1, a, hn, c, hc => by
    rw [Gadget.chunks] at hc
    split at hc
    · simp at hc
    · rename_i h
      push Not at h
      have hpos : 0 < a.length := List.length_pos_iff.2 h.1
      rcases List.mem_cons.1 hc with rfl | hc
      · simp
      · exact chunks_len n (a.drop 16) (by simp; omega) c hc

theorem chunks_count (n : ℕ) : ∀ (a b : List UInt8), a.length ≤ n → a.length = b.length →
    (Gadget.chunks 16 a).length = (Gadget.chunks 16 b).length := by
  induction n with
  | zero =>
    intro a b hn hl
    rw [List.length_eq_zero_iff.1 (by omega : a.length = 0),
      List.length_eq_zero_iff.1 (by omega : b.length = 0)]
  | succ n ih =>
    intro a b hn hl
    by_cases ha : a = []
    · subst ha
      rw [(List.length_eq_zero_iff.1 hl.symm)]
    · have hb : b ≠ [] := by
        rintro rfl
        exact ha (List.length_eq_zero_iff.1 hl)
      have hpos : 0 < a.length := List.length_pos_iff.2 ha
      rw [chunks_cons ha, chunks_cons hb, List.length_cons, List.length_cons, ih (a.drop 16) (b.drop 16) (by simp; omega)
          (by simp [hl])]

/-- C38: in a field of characteristic above 2^128, the absorbed encodings of two different tags
(shorter than 2^64 bytes) are such that neither is a prefix of the other: whatever messages
follow, the two absorbed sequences differ. -/
theorem C38_tags_separate {F : Type} [Field F] (q : ℕ) [CharP F q] (hq : 2 ^ 128 < q)
    (t1 t2 : List UInt8) (h1 : t1.length < 2 ^ 64) (h2 : t2.length < 2 ^ 64) (hne : t1 ≠ t2)
    (rest1 rest2 : List F) :
    (tagElems t1 : List F) ++ rest1 ≠ tagElems t2 ++ rest2 := by
  have inj : ∀ a b : ℕ, a < 2 ^ 128 → b < 2 ^ 128 → (a : F) = b → a = b := by
    intro a b ha hb h
    rw [CharP.natCast_eq_natCast F q] at h
    exact Nat.ModEq.eq_of_lt_of_lt h (by omega) (by omega)
  intro h
  simp only [tagElems, List.cons_append, List.cons.injEq] at h
  have hl : t1.length = t2.length := inj _ _ (by omega) (by omega) h.1
  have hc := chunks_count _ t1 t2 le_rfl hl
  have hm := (List.append_inj h.2 (by simp [hc])).1
  apply hne
  refine chunks_inj _ t1 t2 le_rfl hl ?_
  apply List.ext_getElem
  · simpa using hc
  · intro i hi1 hi2
    rw [List.length_map] at hi1 hi2
    have e : ((Gadget.chunks 16 t1).map fun c => (leBytes c : F))[i]'(by simpa using hi1) =
        ((Gadget.chunks 16 t2).map fun c => (leBytes c : F))[i]'(by simpa using hi2) := by
      simp only [hm]
    simp only [List.getElem_map] at e ⊢
    have bound : ∀ c : List UInt8, c.length ≤ 16 → leBytes c < 2 ^ 128 := by
      intro c hc
      refine lt_of_lt_of_le (leBytes_lt c) ?_
      rw [show (2 : ℕ) ^ 128 = 256 ^ 16 from by norm_num]
      exact Nat.pow_le_pow_right (by norm_num) hc
    exact inj _ _ (bound _ (chunks_len _ t1 le_rfl _ (List.getElem_mem _)))
      (bound _ (chunks_len _ t2 le_rfl _ (List.getElem_mem _))) e

/-- C38 needs the field to be large: in F_5 two different tags have the same encoding. -/
theorem C38_small_field_fails :
    ∃ t1 t2 : List UInt8, t1 ≠ t2 ∧ (tagElems t1 : List (ZMod 5)) = tagElems t2 :=
  ⟨[0], [5], by decide, by simp [tagElems, Gadget.chunks, leBytes]; decide⟩

/-! ### C54: splitting the transcript -/

section Split
variable {F : Type} [Field F] [DecidableEq F]

theorem ops_split {E : Type} (tag : List E) (c : Commitments E) :
    proverOps tag c = hashes1Ops tag c ++ hashes2Ops c := by
  simp [proverOps, hashes1Ops, hashes2Ops]

theorem enforceEqualStates_sat : ∀ (a b : List (Element F)) (r : Unit),
    (enforceEqualStates a b).sat r → a.map Element.wire = b.map Element.wire
  | [], [], _, _ => rfl
  | [], _ :: _, _, h => h.elim
  | _ :: _, [], _, h => h.elim
  | a :: as, b :: bs, r, h => by
    simp only [enforceEqualStates, sat_bind, enforceEqual_sat] at h
    obtain ⟨_, h1, h2⟩ := h
    rw [List.map_cons, List.map_cons, h1, enforceEqualStates_sat as bs _ h2]

theorem saveState_sat {p : PoseidonParams F} (hp : Poseidon.WF p) {m : Mode (Element F)}
    {r : Except SaveErr (List (Element F))}
    (h : (Sponge.saveState Element.add (Poseidon.permutation p) p.rate m).sat r) :
    r.map (List.map Element.wire) =
      saveP (Poseidon.native p) p.rate (Sponge.mapMode Element.wire m) := by
  cases m with
  | squeeze v s =>
    simp only [Sponge.saveState, sat_pure] at h
    subst h; rfl
  | absorb v s =>
    cases v with
    | nil =>
      simp only [Sponge.saveState, List.isEmpty_nil, if_true, sat_pure] at h
      subst h; rfl
    | cons x v =>
      simp only [Sponge.saveState, List.isEmpty_cons, Bool.false_eq_true, if_false, sat_bind,
        sat_pure] at h
      obtain ⟨m', h1, rfl⟩ := h
      have := Sponge.permute_sat (Poseidon.permutation_sat hp) h1
      simp only [Except.map, ← Sponge.state_map, this]
      rfl

/-- C38/C37 in a circuit: challenges squeezed after resuming from a saved state are those of the
uninterrupted transcript. -/
theorem C38_resume_in_circuit {p : PoseidonParams F} (hp : Poseidon.WF p) (hr : 1 ≤ p.rate)
    (hT : p.rate ≤ p.T) (m : Mode (Element F)) (st staged : List (Element F))
    (hsave : (Sponge.saveState Element.add (Poseidon.permutation p) p.rate m).sat (.ok st))
    (heq : st.map Element.wire = staged.map Element.wire) (ops : List (Sponge.Op (Element F)))
    (r : List (Except SpongeErr (Element F)) × Mode (Element F))
    (h : (Sponge.run Element.add (Poseidon.permutation p) p.rate (.squeeze :: ops)
      (Sponge.resume p.rate staged)).sat r) :
    r.1.map (Except.map Element.wire) = (Sponge.run (M := Id) (· + ·) (Poseidon.native p) p.rate
      (.squeeze :: ops.map (Sponge.mapOp Element.wire)) (Sponge.mapMode Element.wire m)).1 := by
  have h1 := Sponge.run_sat (Poseidon.permutation_sat hp) _ _ _ h
  have h2 := saveState_sat hp hsave
  have hres : Sponge.mapMode Element.wire (Sponge.resume p.rate staged) =
      Sponge.resume p.rate (st.map Element.wire) := by
    rw [Sponge.resume, Sponge.mapMode, Sponge.getRate_map, ← heq]; rfl
  rw [hres] at h1
  have hs : saveP (Poseidon.native p) p.rate (Sponge.mapMode Element.wire m) =
      .ok (st.map Element.wire) := h2.symm
  have hlen : p.rate ≤ (st.map Element.wire).length := by
    have : ∃ l, st.map Element.wire = Poseidon.native p l := by
      cases hm : Sponge.mapMode Element.wire m with
      | squeeze v s => rw [hm] at hs; cases hs
      | absorb v s =>
        cases v with
        | nil => rw [hm] at hs; cases hs
        | cons x v =>
          rw [hm, (C37_save_errors _ _ _ _).2.2 (by simp)] at hs
          exact ⟨_, (Except.ok.inj hs).symm⟩
    obtain ⟨l, hl⟩ := this
    rw [hl, native_length]; exact hT
  have h3 := C37_save_resume (Poseidon.native p) p.rate hr _ _ hs hlen
    (ops.map (Sponge.mapOp Element.wire))
  have h4 := congrArg Prod.fst h1
  have h5 := congrArg Prod.fst h3
  exact h4.trans h5

theorem map_hashes1Ops (tag : List (Element F)) (c : Commitments (Element F)) :
    (hashes1Ops tag c).map (Sponge.mapOp Element.wire) =
      hashes1Ops (tag.map Element.wire) (c.map Element.wire) := by
  simp [hashes1Ops, newOps, writePoint, Sponge.mapOp, Commitments.map, Function.comp_def]

theorem map_hashes2Ops (c : Commitments (Element F)) :
    (hashes2Ops c).map (Sponge.mapOp Element.wire) = hashes2Ops (c.map Element.wire) := by
  simp [hashes2Ops, writePoint, Sponge.mapOp, Commitments.map]

/-- C54: for any satisfying assignments of the two hash circuits that share the staged sponge
state, the challenges of the first followed by those of the second are exactly those the prover
derives from one uninterrupted transcript over the same commitments. -/
theorem C54_split {p : PoseidonParams F} (hp : Poseidon.WF p) (hr : 1 ≤ p.rate)
    (hT : p.rate ≤ p.T) (tag : List UInt8) (c : Commitments (Element F))
    (staged : List (Element F)) (r1 r2 : List (Except SpongeErr (Element F)))
    (h1 : (hashes1 p tag c staged).sat r1) (h2 : (hashes2 p c staged).sat r2) :
    (r1 ++ r2).map (Except.map Element.wire) =
      (Sponge.run (M := Id) (· + ·) (Poseidon.native p) p.rate
        (proverOps (tagElems tag) (c.map Element.wire)) (Sponge.new 0 p.T)).1 := by
  simp only [hashes1, sat_bind] at h1
  obtain ⟨⟨outs, m⟩, h3, s, h4, h5⟩ := h1
  simp only [hashes2, sat_bind, sat_pure] at h2
  obtain ⟨q, h6, rfl⟩ := h2
  cases s with
  | error e => exact h5.elim
  | ok st =>
    simp only [sat_bind, sat_pure] at h5
    obtain ⟨u, h7, rfl⟩ := h5
    have e1 := Sponge.run_sat (Poseidon.permutation_sat hp) _ _ _ h3
    have e2 := C38_resume_in_circuit hp hr hT m st staged h4 (enforceEqualStates_sat _ _ _ h7)
      (hashes2Ops c).tail q h6
    have hnew : Sponge.mapMode Element.wire (Sponge.new (Element.zero (F := F)) p.T) =
        Sponge.new 0 p.T := by simp [Sponge.new, Sponge.mapMode]
    have htag : ((tagElems tag).map (Element.constant (F := F))).map Element.wire =
        tagElems tag := by simp [Function.comp_def]
    rw [hnew, map_hashes1Ops, htag] at e1
    have h2' : (Sponge.Op.squeeze :: (hashes2Ops c).tail.map (Sponge.mapOp Element.wire)) =
        hashes2Ops (c.map Element.wire) := by
      rw [← map_hashes2Ops]; rfl
    rw [h2'] at e2
    rw [ops_split]
    change _ = (SpongeSpec.run _ _ _ _).1
    rw [SpongeSpec.run_append, ← e1, List.map_append]
    simp only
    exact congrArg _ e2

/-- C54: the honest prover of both circuits succeeds: given honest commitments there is a staged
state for which both circuits' witnesses check. -/
theorem C54_complete {p : PoseidonParams F} (hp : Poseidon.WF p) (hr : 1 ≤ p.rate)
    (tag : List UInt8) (c : Commitments (Element F))
    (hc : ∀ v, .absorb v ∈ hashes1Ops [] c ++ hashes2Ops c → v.Honest) :
    ∃ staged r1 r2, (hashes1 p tag c staged).sim = .ok r1 ∧ (hashes2 p c staged).sim = .ok r2 := by
  have hperm := fun s hl hs => Poseidon.permutation_sim (s := s) hp hl hs
  obtain ⟨r, h1, h2, -⟩ := Sponge.run_sim (T := p.T) (rate := p.rate) hperm
    (hashes1Ops ((tagElems tag).map (Element.constant (F := F))) c) (by
      intro v hv
      simp only [hashes1Ops, newOps, List.append_assoc, List.mem_append] at hv
      rcases hv with hv | hv
      · simp only [List.mem_map] at hv
        obtain ⟨w, ⟨a, -, rfl⟩, e⟩ := hv
        cases e
        simp [Element.Honest]
      · refine hc v ?_
        simp only [hashes1Ops, newOps, List.map_nil, List.nil_append, List.mem_append]
        left
        simpa only [List.mem_append, or_assoc] using hv) (Sponge.new Element.zero p.T)
    ⟨by simp, fun e he => by rw [(List.mem_replicate.1 he).2]; simp [Element.Honest], by simp⟩
  obtain ⟨outs, m⟩ := r
  have hm : ∃ v s, m = .absorb v s ∧ v ≠ [] := by
    have e := Sponge.run_sat (Poseidon.permutation_sat hp) _ _ _ (Syn.sim_sat h1)
    have e2 := congrArg Prod.snd e
    simp only at e2
    rw [show hashes1Ops ((tagElems tag).map (Element.constant (F := F))) c =
        (newOps ((tagElems tag).map (Element.constant (F := F))) ++ writePoint c.preamble ++
          [.squeeze] ++ writePoint c.sPrime ++ [.squeeze, .squeeze]) ++
        [c.innerError.1, c.innerError.2].map .absorb from by simp [hashes1Ops, writePoint],
      List.map_append] at e2
    change _ = (SpongeSpec.run _ _ _ _).2 at e2
    rw [SpongeSpec.run_append] at e2
    simp only at e2
    rw [show ([c.innerError.1, c.innerError.2].map Sponge.Op.absorb).map
      (Sponge.mapOp Element.wire) = [.absorb c.innerError.1.wire, .absorb c.innerError.2.wire]
      from rfl] at e2
    have key : ∀ (x y : F) (m0 : Mode F), ∃ v s, (SpongeSpec.run (Poseidon.native p) p.rate
        [.absorb x, .absorb y] m0).2 = .absorb v s ∧ v ≠ [] := by
      intro x y m0
      have step : ∀ (y : F) (m0 : Mode F), (∃ v s, m0 = .absorb v s) →
          ∃ v s, (SpongeSpec.absorbP (Poseidon.native p) p.rate y m0).2 = .absorb v s ∧
            v ≠ [] := by
        rintro y _ ⟨v, s, rfl⟩
        by_cases hl : v.length = p.rate
        · rw [SpongeSpec.absorbP_full hr y hl]; exact ⟨_, _, rfl, by simp⟩
        · rw [SpongeSpec.absorbP_push y hl]; exact ⟨_, _, rfl, by simp⟩
      rw [SpongeSpec.run_absorb, SpongeSpec.run_absorb, SpongeSpec.run_nil]
      refine step y _ ?_
      cases m0 with
      | squeeze v s => rw [SpongeSpec.absorbP_squeeze hr]; exact ⟨_, _, rfl⟩
      | absorb v s =>
        obtain ⟨v', s', e, -⟩ := step x _ ⟨v, s, rfl⟩
        exact ⟨v', s', e⟩
    obtain ⟨v, s, hv, hne⟩ := key c.innerError.1.wire c.innerError.2.wire _
    rw [hv] at e2
    cases m with
    | squeeze v' s' => simp [Sponge.mapMode] at e2
    | absorb v' s' =>
      simp only [Sponge.mapMode, Mode.absorb.injEq] at e2
      refine ⟨v', s', rfl, ?_⟩
      rintro rfl
      exact hne (by simpa using e2.1.symm)
  obtain ⟨v, s, rfl, hv⟩ := hm
  obtain ⟨m', h3, h4, h5⟩ := Sponge.permute_sim (T := p.T) (rate := p.rate) hperm
    (m := .absorb v s) h2
  obtain ⟨st, rfl⟩ := h5 ⟨_, _, rfl⟩
  have hsave : (Sponge.saveState Element.add (Poseidon.permutation p) p.rate (.absorb v s)).sim =
      .ok (.ok st) := by
    have he : v.isEmpty = false := by simpa using hv
    simp only [Sponge.saveState, he, Bool.false_eq_true, if_false]
    rw [sim_bind_ok h3]; rfl
  have heq : ∀ st : List (Element F), (enforceEqualStates st st).sim = .ok () := by
    intro st
    induction st with
    | nil => rfl
    | cons a as ih =>
      have h0 : (enforceEqual a.wire a.wire).sim = .ok () := by simp
      rw [enforceEqualStates, sim_bind_ok h0, ih]
  obtain ⟨r2, h6, -, -⟩ := Sponge.run_sim (T := p.T) (rate := p.rate) hperm (hashes2Ops c)
    (fun v hv => hc v (by simp [hv])) (Sponge.resume p.rate st)
    ⟨Sponge.getRate_honest h4.2.1, h4.2⟩
  refine ⟨st, outs, r2.1, ?_, ?_⟩
  · rw [hashes1, sim_bind_ok h1]
    simp only
    rw [sim_bind_ok hsave]
    simp only
    rw [sim_bind_ok (heq st)]; rfl
  · rw [hashes2, sim_bind_ok h6]; rfl

end Split

/-! ### Concrete cases -/

/-- A small Poseidon: width 3, rate 2, two full and one partial round over F_17. -/
private def toyParams : PoseidonParams (ZMod 17) where
  T := 3
  rate := 2
  fullRounds := 2
  partialRounds := 1
  alpha := 5
  roundConstants := [[1, 2, 3], [4, 5, 6], [7, 8, 9]]
  mds := [[2, 1, 1], [1, 2, 1], [1, 1, 3]]

example : Poseidon.WF toyParams ∧ 1 ≤ toyParams.rate ∧ toyParams.rate ≤ toyParams.T := by
  refine ⟨⟨rfl, by decide, by decide, rfl, ?_, by decide, ?_⟩, by decide, by decide⟩ <;>
    intro r hr <;> simp [toyParams] at hr ⊢ <;> rcases hr with rfl | rfl | rfl <;> rfl

/-- A toy run with two phases whose messages cross the block boundary. -/
example : (Sponge.run (M := Id) (· + ·) (List.map (fun x : ℕ => 2 * x + 1)) 2
    [.squeeze, .absorb 1, .absorb 2, .absorb 3, .squeeze, .squeeze, .squeeze, .absorb 4, .squeeze]
    (Sponge.new 0 3)).1 =
    [.error .nothingAbsorbed, .ok 13, .ok 11, .ok 27, .ok 63] := by decide +kernel
example : Spec.duplex (List.map (fun x : ℕ => 2 * x + 1)) 2 [0, 0, 0] [([1, 2, 3], 3), ([4], 1)] =
    [some 13, some 11, some 27, some 63] := by decide +kernel

/-- Fields as large as C38 needs exist, and the tag in use fits. -/
example : ∃ q, 2 ^ 128 < q ∧ Nat.Prime q := by
  obtain ⟨q, h1, h2⟩ := Nat.exists_infinite_primes (2 ^ 128 + 1)
  exact ⟨q, h1, h2⟩
example : (tagElems [0x46, 0x49, 0x58, 0x4d, 0x45] : List ℚ) = [5, 297650374982] := by
  simp [tagElems, Gadget.chunks, leBytes]

end Ragu.Props

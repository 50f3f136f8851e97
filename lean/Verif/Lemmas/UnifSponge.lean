/-
The endoscalar gadgets, the Poseidon sponge and the transcript make the same calls whatever their
wires and witness values are.
-/
import Verif.Lemmas.UnifGadget
import Verif.Lemmas.Gadget.Sponge
import Verif.Lemmas.Gadget.Computes
import Verif.Model.Pcd.Internal

set_option linter.unusedSectionVars false

namespace Ragu.Unif
open Ragu Ragu.Circuit Ragu.Gadget Ragu.Spec
variable {W F α β γ : Type} [Field F] [DecidableEq F] {m : ℕ}

/-! ### Lists of a known length -/

def ListN [Gad W F α] (n m : ℕ) (l : Fam W F (List α)) : Prop :=
  ∃ ls : List (Fam W F α), ls.length = n ∧ (∀ b ∈ ls, rel m b) ∧ ∀ w σ, l w σ = ls.map fun b => b w σ

theorem ListN.rel [Gad W F α] {n m : ℕ} {l : Fam W F (List α)} (r : ListN n m l) : rel m l := by
  obtain ⟨ls, -, h⟩ := r
  exact ⟨ls, h⟩
macro_rules | `(tactic| rel_lem) => `(tactic| (apply ListN.rel; assumption))

theorem ListN.length [Gad W F α] {n m : ℕ} {l : Fam W F (List α)} (r : ListN n m l) (w : W)
    (σ : ℕ → F) : (l w σ).length = n := by
  obtain ⟨ls, rfl, -, e⟩ := r
  simp [e]

theorem ListN.mono [Gad W F α] {n m m' : ℕ} {l : Fam W F (List α)} (h : m ≤ m') (r : ListN n m l) :
    ListN n m' l := by
  obtain ⟨ls, hl, h1, h2⟩ := r
  exact ⟨ls, hl, fun b hb => rel_up h (h1 b hb), h2⟩

theorem ListN.loc [Gad W F α] {n m : ℕ} {l : Fam W F (List α)} (r : ListN n m l) (w : W)
    {σ τ : ℕ → F} (ag : Agree m σ τ) : l w σ = l w τ := rel_loc r.rel w ag

theorem rel_listN [Gad W F α] {m : ℕ} {l : Fam W F (List α)} (r : Unif.rel m l) :
    ∃ n, ListN n m l := by
  obtain ⟨ls, h⟩ := r
  exact ⟨_, ls, rfl, h⟩

theorem ListN.nil [Gad W F α] : ListN 0 m (fun (_ : W) (_ : ℕ → F) => ([] : List α)) :=
  ⟨[], by simp, by simp, by simp⟩
theorem ListN.cons [Gad W F α] {n : ℕ} {a : Fam W F α} {l : Fam W F (List α)} (ha : Unif.rel m a)
    (hl : ListN n m l) : ListN (n + 1) m fun w σ => a w σ :: l w σ := by
  obtain ⟨ls, rfl, r, e⟩ := hl
  exact ⟨a :: ls, rfl, by simpa using ⟨ha, r⟩, fun w σ => by simp [e]⟩
theorem ListN.append [Gad W F α] {n n' : ℕ} {k l : Fam W F (List α)} (hk : ListN n m k)
    (hl : ListN n' m l) : ListN (n + n') m fun w σ => k w σ ++ l w σ := by
  obtain ⟨ks, rfl, r, e⟩ := hk
  obtain ⟨ls, rfl, r', e'⟩ := hl
  refine ⟨ks ++ ls, by simp, ?_, fun w σ => by simp [e, e']⟩
  intro b hb
  rcases List.mem_append.1 hb with hb | hb
  exacts [r b hb, r' b hb]
theorem ListN.replicate [Gad W F α] (n : ℕ) {a : Fam W F α} (ha : Unif.rel m a) :
    ListN n m fun w σ => List.replicate n (a w σ) :=
  ⟨List.replicate n a, by simp, fun b hb => by rw [List.eq_of_mem_replicate hb]; exact ha, by simp⟩
macro_rules | `(tactic| rel_lem) => `(tactic| exact ListN.nil)
macro_rules | `(tactic| rel_lem) => `(tactic| apply ListN.cons)
macro_rules | `(tactic| rel_lem) => `(tactic| apply ListN.append)
macro_rules | `(tactic| rel_lem) => `(tactic| apply ListN.replicate)

theorem ListN.uncons [Gad W F α] {n : ℕ} {l : Fam W F (List α)} (h : ListN (n + 1) m l) :
    ∃ a t, Unif.rel m a ∧ ListN n m t ∧ ∀ w σ, l w σ = a w σ :: t w σ := by
  obtain ⟨ls, hn, r, e⟩ := h
  cases ls with
  | nil => cases hn
  | cons b ls =>
    exact ⟨b, fun w σ => ls.map fun b => b w σ, r b (by simp), ⟨ls, by simpa using hn,
      fun b hb => r b (by simp [hb]), fun _ _ => rfl⟩, fun w σ => by simp [e]⟩

theorem ListN.eq_nil [Gad W F α] {l : Fam W F (List α)} (h : ListN 0 m l) (w : W) (σ : ℕ → F) :
    l w σ = [] := List.length_eq_zero_iff.1 (h.length w σ)

theorem ListN.getElem? [Gad W F α] {n i : ℕ} {l : Fam W F (List α)} (h : ListN n m l) (hi : i < n) :
    ∃ a, Unif.rel m a ∧ ∀ w σ, (l w σ)[i]? = some (a w σ) := by
  obtain ⟨ls, rfl, r, e⟩ := h
  exact ⟨ls[i], r _ (List.getElem_mem hi), fun w σ => by simp [e, hi]⟩

/-! ### Endoscalars -/

/-- Endoscalars with a known number of bits. -/
def EndoR (n m : ℕ) (a : Fam W F (Endoscalar F)) : Prop :=
  ListN n m (fun w σ => (a w σ).bits) ∧ Loc m (fun w σ => (a w σ).value)

theorem EndoR.mono {n m m' : ℕ} {a : Fam W F (Endoscalar F)} (h : m ≤ m') (r : EndoR n m a) :
    EndoR n m' a := ⟨r.1.mono h, r.2.mono h⟩

theorem EndoR.loc {n m : ℕ} {a : Fam W F (Endoscalar F)} (r : EndoR n m a) (w : W)
    {σ τ : ℕ → F} (ag : Agree m σ τ) : a w σ = a w τ := by
  have h1 := r.1.loc w ag
  have h2 := r.2 w σ τ ag
  dsimp only at h1 h2
  rcases h3 : a w σ with ⟨b, v⟩
  rcases h4 : a w τ with ⟨b', v'⟩
  rw [h3, h4] at h1 h2
  simp only at h1 h2
  rw [h1, h2]

theorem unif_extractLoop (sqrt : F → Option F) (gen : F) {e : Fam W F (Element F)} (he : rel m e)
    (i k : ℕ) (c c0 c1 : F) {v : Fam W F ℕ} (hv : Loc m v) :
    UnifR (PairR (ListN k) Loc) m
      fun w σ => Endoscalar.extractLoop sqrt gen (e w σ) i k c c0 c1 (v w σ) := by
  induction k generalizing m i c c0 c1 v with
  | zero => exact UnifR.pure ⟨ListN.nil, hv⟩
  | succ k ih =>
    simp only [Endoscalar.extractLoop]
    have hw : Loc m fun w σ => Endoscalar.extractWitness sqrt gen ((e w σ).value + c) := by loc
    refine .check (fun _ _ => .inr ⟨_, rfl⟩) ?_
    show UnifR _ m fun w σ => (Boolean.alloc _ >>= _)
    unif_step
    unif_step
    unif_step
    unif_step
    refine UnifR.bind2R (ih ?_ (i + 1) _ _ _ ?_) ?_ ?_
    · rels
    · loc
    · loc
    · intro _ bs x hm hb hx
      lift_rels hm
      exact UnifR.pure ⟨ListN.cons (by rels) hb, hx⟩

theorem unif_extract (nbits : ℕ) (sqrt : F → Option F) (gen : F) {e : Fam W F (Element F)}
    (he : rel m e) :
    UnifR (EndoR nbits) m fun w σ => Endoscalar.extract nbits sqrt gen (e w σ) := by
  unfold Endoscalar.extract
  refine UnifR.bind2R (unif_extractLoop sqrt gen he 0 nbits 0 0 0 (fun _ _ _ _ => rfl)) ?_ ?_
  · loc
  · intro _ a b hm ha hb
    exact UnifR.pure ⟨ha, hb⟩
macro_rules | `(tactic| unif_lem) => `(tactic| apply unif_extract)

theorem rel_toBits {n : ℕ} {e : Fam W F (Endoscalar F)} (he : EndoR n m e) :
    ListN n m fun w σ => (e w σ).toBits := by
  obtain ⟨⟨ls, rfl, r, h⟩, hv⟩ := he
  refine ⟨ls.mapIdx fun i b w σ => ⟨b w σ, ((e w σ).value >>> i) % 2 == 1⟩, by simp, ?_, fun w σ => ?_⟩
  · intro b hb
    obtain ⟨i, hi, rfl⟩ := List.mem_mapIdx.1 hb
    exact rel_bmk (r _ (List.getElem_mem hi)) (fun w σ τ ag => by
      have := hv w σ τ ag
      dsimp only at this
      rw [this])
  · simp only [Endoscalar.toBits, h]
    apply List.ext_getElem <;> simp

theorem unif_liftLoop (zeta : F) (k : ℕ) {n : ℕ} (hn : 2 * k ≤ n) {l : Fam W F (List (Boolean F))}
    (hl : ListN n m l) {a : Fam W F (Element F)} (ha : rel m a) {c : Fam W F F} (hc : rel m c) :
    Unif m fun w σ => Endoscalar.liftLoop zeta k (l w σ) (a w σ) (c w σ) := by
  induction k generalizing m n l a c with
  | zero => exact UnifR.pure ⟨ha, hc⟩
  | succ k ih =>
    obtain ⟨n, rfl⟩ : ∃ n', n = n' + 1 + 1 := ⟨n - 2, by omega⟩
    obtain ⟨b1, l1, hb1, hl1, e1⟩ := hl.uncons
    obtain ⟨b2, l2, hb2, hl2, e2⟩ := hl1.uncons
    simp only [e1, e2, Endoscalar.liftLoop]
    clear e1 e2 hl hl1
    have hc' : rel m fun w σ => c w σ + c w σ + 1 := (Aff.add hc hc).add (Aff.const m 1)
    unif_step
    refine ih (by omega) hl2 ?_ hc'
    rels

theorem rel_constant' {c : Fam W F F} (h : rel m c) : rel m fun w σ => Element.constant (c w σ) := by
  unfold Element.constant
  refine ⟨?_, ?_⟩
  · refine Aff.congr h fun w σ => ?_
    simp [Coeff.value]
  · loc

theorem unif_lift (nbits : ℕ) (zeta : F) {e : Fam W F (Endoscalar F)} (he : EndoR nbits m e) :
    Unif m fun w σ => Endoscalar.lift nbits zeta (e w σ) := by
  unfold Endoscalar.lift
  refine Unif.bind2 (unif_liftLoop zeta (nbits / 2) (by omega) (rel_toBits he) rel_zero
    (rel_const _)) ?_ ?_
  · loc
  · intro _ a b hm ha hb
    exact UnifR.pure (rel_add ha (rel_constant' hb))
macro_rules | `(tactic| unif_lem) => `(tactic| apply unif_lift)

/-! ### Poseidon -/

theorem unif_sbox1 {alpha : ℕ} (h : alpha = 5) {x : Fam W F (Element F)} (hx : rel m x) :
    Unif m fun w σ => Poseidon.sbox1 alpha (x w σ) := by
  simp only [Poseidon.sbox1, h, if_true]
  unifs

theorem unif_sbox {alpha : ℕ} (h : alpha = 5) (k : ℕ) {n : ℕ} (hk : k ≤ n)
    {l : Fam W F (List (Element F))} (hl : ListN n m l) :
    UnifR (ListN n) m fun w σ => Poseidon.sbox alpha k (l w σ) := by
  induction k generalizing m n l with
  | zero => exact (UnifR.pure hl).congr fun w σ => by cases l w σ <;> rfl
  | succ k ih =>
    obtain ⟨n, rfl⟩ : ∃ n', n = n' + 1 := ⟨n - 1, by omega⟩
    obtain ⟨b1, l1, hb1, hl1, e1⟩ := hl.uncons
    simp only [e1, Poseidon.sbox]
    clear e1 hl
    refine Unif.bind (unif_sbox1 h hb1) ?_ ?_
    · loc
    · intro _ _ hm _
      lift_rels hm
      refine UnifR.bindR (ih (by omega) hl1) ?_ ?_
      · loc
      · intro _ _ hm _
        lift_rels hm
        unifs

theorem unif_mdsRows {n : ℕ} {s : Fam W F (List (Element F))} (hs : ListN n m s)
    (rows : List (List F)) (hr : ∀ r ∈ rows, r.length = n) :
    UnifR (ListN rows.length) m fun w σ => Poseidon.mdsRows (s w σ) rows := by
  induction rows generalizing m with
  | nil => exact UnifR.pure ListN.nil
  | cons r rows ih =>
    simp only [Poseidon.mdsRows]
    refine Unif.bind (unif_multiadd hs.rel r fun w σ => ?_) ?_ ?_
    · rw [hs.length, hr r (by simp)]
    · loc
    · intro _ _ hm _
      lift_rels hm
      refine UnifR.bindR (ih hs fun r h => hr r (by simp [h])) ?_ ?_
      · loc
      · intro _ _ hm h
        lift_rels hm
        exact UnifR.pure (ListN.cons (by rels) h)

theorem unif_mds {n : ℕ} {s : Fam W F (List (Element F))} (hs : ListN n m s)
    (rows : List (List F)) (hn : rows.length = n) (hr : ∀ r ∈ rows, r.length = n) :
    UnifR (ListN n) m fun w σ => Poseidon.mds (s w σ) rows := by
  simp only [Poseidon.mds, hs.length, hn, if_true]
  have := unif_mdsRows hs rows hr
  rwa [hn] at this

theorem rel_zipConst {n : ℕ} {l : Fam W F (List (Element F))} (hl : ListN n m l) (cs : List F)
    (hc : cs.length = n) : ListN n m fun w σ =>
      List.zipWith (fun x c => x.addCoeff Element.one (.arbitrary c)) (l w σ) cs := by
  induction cs generalizing n l with
  | nil =>
    subst hc
    simp only [List.zipWith_nil_right]
    exact ListN.nil
  | cons c cs ih =>
    obtain ⟨n, rfl⟩ : ∃ n', n = n' + 1 := ⟨cs.length, hc.symm⟩
    obtain ⟨b1, l1, hb1, hl1, e1⟩ := hl.uncons
    simp only [e1, List.zipWith_cons_cons]
    exact ListN.cons (rel_addCoeff hb1 rel_one _) (ih hl1 (by simpa using hc))

theorem unif_addRoundConstants {n : ℕ} {s : Fam W F (List (Element F))} (hs : ListN n m s)
    (rc : List F) (hn : rc.length = n) :
    UnifR (ListN n) m fun w σ => Poseidon.addRoundConstants (s w σ) rc := by
  simp only [Poseidon.addRoundConstants, hs.length, hn, if_true]
  exact UnifR.pure (rel_zipConst hs rc hn)

theorem unif_rounds {p : PoseidonParams F} (hp : Poseidon.WF p) (ks : List ℕ)
    (hk : ∀ k ∈ ks, k ≤ p.T) (rcs : List (List F)) (hl : ks.length ≤ rcs.length)
    (hr : ∀ r ∈ rcs, r.length = p.T) {s : Fam W F (List (Element F))} (hs : ListN p.T m s) :
    UnifR (ListN p.T) m fun w σ => Poseidon.rounds p ks rcs (s w σ) := by
  induction ks generalizing m rcs s with
  | nil => exact (UnifR.pure hs).congr fun w σ => by cases rcs <;> rfl
  | cons k ks ih =>
    cases rcs with
    | nil => simp at hl
    | cons rc rcs =>
      simp only [Poseidon.rounds]
      refine UnifR.bindR (unif_addRoundConstants hs rc (hr rc (by simp))) ?_ ?_
      · loc
      · intro _ s1 hm hs1
        refine UnifR.bindR (unif_sbox hp.alpha k (hk k (by simp)) hs1) ?_ ?_
        · loc
        · intro _ s2 hm hs2
          refine UnifR.bindR (unif_mds hs2 p.mds hp.mds_rows hp.mds_cols) ?_ ?_
          · loc
          · intro _ s3 hm hs3
            exact ih (fun k h => hk k (by simp [h])) rcs (by simpa using hl)
              (fun r h => hr r (by simp [h])) hs3

theorem unif_permutation {p : PoseidonParams F} (hp : Poseidon.WF p)
    {s : Fam W F (List (Element F))} (hs : ListN p.T m s) :
    UnifR (ListN p.T) m fun w σ => Poseidon.permutation p (s w σ) := by
  unfold Poseidon.permutation
  refine unif_rounds hp _ ?_ _ ?_ hp.rc_len hs
  · intro k hk
    simp only [List.mem_append, List.mem_replicate] at hk
    have := hp.width
    omega
  · simpa [Nat.add_assoc] using hp.rcs

/-! ### The sponge -/

/-- A sponge in squeeze mode. -/
def SqR (T m : ℕ) (t : Fam W F (Mode (Element F))) : Prop :=
  ∃ vs st, rel m vs ∧ ListN T m st ∧ ∀ w σ, t w σ = .squeeze (vs w σ) (st w σ)

/-- A sponge in absorb mode with `n` pending values. -/
def AbsR (T n m : ℕ) (t : Fam W F (Mode (Element F))) : Prop :=
  ∃ vs st, ListN n m vs ∧ ListN T m st ∧ ∀ w σ, t w σ = .absorb (vs w σ) (st w σ)

/-- A sponge in absorb mode with some pending values. -/
def FullR (T m : ℕ) (t : Fam W F (Mode (Element F))) : Prop := ∃ n, AbsR T (n + 1) m t

/-- A sponge that challenges can be squeezed from. -/
def ReadyR (T m : ℕ) (t : Fam W F (Mode (Element F))) : Prop := SqR T m t ∨ FullR T m t

/-- A sponge. -/
def ModeR (T m : ℕ) (t : Fam W F (Mode (Element F))) : Prop := SqR T m t ∨ ∃ n, AbsR T n m t

theorem SqR.mono {T m m' : ℕ} {t : Fam W F (Mode (Element F))} (h : m ≤ m') (r : SqR T m t) :
    SqR T m' t := by
  obtain ⟨vs, st, h1, h2, h3⟩ := r
  exact ⟨vs, st, rel_up h h1, h2.mono h, h3⟩

theorem SqR.loc {T m : ℕ} {t : Fam W F (Mode (Element F))} (r : SqR T m t) (w : W)
    {σ τ : ℕ → F} (ag : Agree m σ τ) : t w σ = t w τ := by
  obtain ⟨vs, st, h1, h2, h3⟩ := r
  rw [h3, h3, rel_loc h1 w ag, h2.loc w ag]

theorem AbsR.mono {T n m m' : ℕ} {t : Fam W F (Mode (Element F))} (h : m ≤ m') (r : AbsR T n m t) :
    AbsR T n m' t := by
  obtain ⟨vs, st, h1, h2, h3⟩ := r
  exact ⟨vs, st, h1.mono h, h2.mono h, h3⟩

theorem AbsR.loc {T n m : ℕ} {t : Fam W F (Mode (Element F))} (r : AbsR T n m t) (w : W)
    {σ τ : ℕ → F} (ag : Agree m σ τ) : t w σ = t w τ := by
  obtain ⟨vs, st, h1, h2, h3⟩ := r
  rw [h3, h3, h1.loc w ag, h2.loc w ag]

theorem FullR.mono {T m m' : ℕ} {t : Fam W F (Mode (Element F))} (h : m ≤ m') (r : FullR T m t) :
    FullR T m' t := r.imp fun _ r => r.mono h

theorem FullR.loc {T m : ℕ} {t : Fam W F (Mode (Element F))} (r : FullR T m t) (w : W)
    {σ τ : ℕ → F} (ag : Agree m σ τ) : t w σ = t w τ := by
  obtain ⟨_, r⟩ := r
  exact r.loc w ag

theorem FullR.ready {T m : ℕ} {t : Fam W F (Mode (Element F))} (r : FullR T m t) : ReadyR T m t :=
  .inr r
theorem SqR.ready {T m : ℕ} {t : Fam W F (Mode (Element F))} (r : SqR T m t) : ReadyR T m t :=
  .inl r
theorem SqR.mode {T m : ℕ} {t : Fam W F (Mode (Element F))} (r : SqR T m t) : ModeR T m t :=
  .inl r
theorem AbsR.mode {T n m : ℕ} {t : Fam W F (Mode (Element F))} (r : AbsR T n m t) : ModeR T m t :=
  .inr ⟨_, r⟩
theorem FullR.mode {T m : ℕ} {t : Fam W F (Mode (Element F))} (r : FullR T m t) : ModeR T m t :=
  .inr (r.imp' _ fun _ r => r)
macro_rules | `(tactic| rel_lem) => `(tactic| (apply FullR.ready; assumption))
macro_rules | `(tactic| rel_lem) => `(tactic| (apply SqR.ready; assumption))
macro_rules | `(tactic| rel_lem) => `(tactic| (apply SqR.mode; assumption))
macro_rules | `(tactic| rel_lem) => `(tactic| (apply AbsR.mode; assumption))
macro_rules | `(tactic| rel_lem) => `(tactic| (apply FullR.mode; assumption))

theorem rel_addValues {n n' : ℕ} {s v : Fam W F (List (Element F))} (hs : ListN n m s)
    (hv : ListN n' m v) : ListN n m fun w σ => Sponge.addValues Element.add (s w σ) (v w σ) := by
  induction n generalizing n' s v with
  | zero =>
    have e : ∀ w σ, Sponge.addValues Element.add (s w σ) (v w σ) = [] := fun w σ => by
      rw [hs.eq_nil]; cases v w σ <;> rfl
    simpa only [e] using ListN.nil
  | succ n ih =>
    obtain ⟨b1, l1, hb1, hl1, e1⟩ := hs.uncons
    cases n' with
    | zero =>
      have e : ∀ w σ, Sponge.addValues Element.add (s w σ) (v w σ) = s w σ := fun w σ => by
        rw [hv.eq_nil, e1]; rfl
      simpa only [e] using hs
    | succ n' =>
      obtain ⟨b2, l2, hb2, hl2, e2⟩ := hv.uncons
      simp only [e1, e2, Sponge.addValues]
      exact ListN.cons (rel_add hb1 hb2) (ih hl1 hl2)

theorem rel_getRate {T : ℕ} (rate : ℕ) (h2 : rate ≤ T)
    {s : Fam W F (List (Element F))} (hs : ListN T m s) :
    ListN rate m fun w σ => Sponge.getRate rate (s w σ) := by
  obtain ⟨ls, rfl, r, e⟩ := hs
  refine ⟨(ls.take rate).reverse, by simpa using h2, ?_, fun w σ => ?_⟩
  · intro b hb
    exact r b (List.mem_of_mem_take (List.mem_reverse.1 hb))
  · simp only [Sponge.getRate, e, List.map_reverse, List.map_take]

theorem ListN.unsnoc [Gad W F α] {n : ℕ} {l : Fam W F (List α)} (h : ListN (n + 1) m l) :
    ∃ a t, Unif.rel m a ∧ ListN n m t ∧ (∀ w σ, (l w σ).getLast? = some (a w σ)) ∧
      ∀ w σ, (l w σ).dropLast = t w σ := by
  obtain ⟨ls, hn, r, e⟩ := h
  rcases List.eq_nil_or_concat ls with rfl | ⟨ls, b, rfl⟩
  · cases hn
  · refine ⟨b, fun w σ => ls.map fun b => b w σ, r b (by simp), ⟨ls, by simpa using hn,
      fun b hb => r b (by simp [hb]), fun _ _ => rfl⟩, fun w σ => by simp [e], fun w σ => ?_⟩
    simp only [e, List.concat_eq_append, List.map_append, List.map_cons, List.map_nil,
      List.dropLast_concat]

section
variable {p : PoseidonParams F} (hp : Poseidon.WF p) (hr : 1 ≤ p.rate) (hT : p.rate ≤ p.T)
  {t : Fam W F (Mode (Element F))}
include hp hr hT

theorem unif_permuteAbs {n : ℕ} (h : AbsR p.T n m t) : UnifR (AbsR p.T 0) m fun w σ =>
    Sponge.permute Element.add (Poseidon.permutation p) p.rate (t w σ) := by
  obtain ⟨vs, st, h1, h2, h3⟩ := h
  simp only [h3, Sponge.permute]
  clear h3
  refine UnifR.bindR (unif_permutation hp (rel_addValues h2 h1)) ?_ ?_
  · loc
  · intro _ s hm hs
    exact UnifR.pure ⟨_, _, ListN.nil, hs, fun _ _ => rfl⟩

theorem unif_write {v : Fam W F (Element F)} (hv : rel m v) (h : ModeR p.T m t) :
    UnifR (FullR p.T) m fun w σ => Pcd.transcriptWrite p (v w σ) (t w σ) := by
  simp only [Pcd.transcriptWrite]
  have hr0 : ¬ (0 = p.rate) := by omega
  rcases h with ⟨vs, st, h1, h2, h3⟩ | ⟨n, vs, st, h1, h2, h3⟩
  · simp only [h3, Sponge.absorb, Sponge.absorbAgain, List.length_nil, hr0, if_false]
    refine UnifR.pure (R := FullR p.T) ⟨0, fun w σ => [v w σ], st, ?_, h2, fun _ _ => rfl⟩
    exact ListN.cons hv ListN.nil
  · by_cases hn : n = p.rate
    · simp only [h3, Sponge.absorb, h1.length, hn, if_true, Syn.bind_assoc]
      have hA : AbsR p.T n m fun w σ => Mode.absorb (vs w σ) (st w σ) :=
        ⟨vs, st, h1, h2, fun _ _ => rfl⟩
      clear h3
      refine UnifR.bindR (unif_permuteAbs hp hr hT hA) ?_ ?_
      · loc
      · rintro _ _ hm ⟨vs', st', h1', h2', h3'⟩
        lift_rels hm
        simp only [h3', h1'.eq_nil, Sponge.absorbAgain, List.length_nil, hr0, if_false]
        refine UnifR.pure (R := FullR p.T) ⟨0, fun w σ => [v w σ], st', ?_, h2', fun _ _ => rfl⟩
        exact ListN.cons hv ListN.nil
    · simp only [h3, Sponge.absorb, h1.length, hn, if_false]
      refine UnifR.pure (R := FullR p.T) ⟨n, fun w σ => vs w σ ++ [v w σ], st, ?_, h2, fun _ _ => rfl⟩
      exact ListN.append h1 (ListN.cons hv ListN.nil)

theorem unif_writeAll {n : ℕ} {vs : Fam W F (List (Element F))} (hv : ListN (n + 1) m vs)
    (h : ModeR p.T m t) :
    UnifR (FullR p.T) m fun w σ => Pcd.transcriptWriteAll p (vs w σ) (t w σ) := by
  induction n generalizing m vs t with
  | zero =>
    obtain ⟨b1, l1, hb1, hl1, e1⟩ := hv.uncons
    simp only [e1, hl1.eq_nil, Pcd.transcriptWriteAll]
    clear e1 hv
    refine UnifR.bindR (unif_write hp hr hT hb1 h) ?_ ?_
    · intro w σ τ ag; rfl
    · intro _ _ hm h
      exact UnifR.pure h
  | succ n ih =>
    obtain ⟨b1, l1, hb1, hl1, e1⟩ := hv.uncons
    simp only [e1, Pcd.transcriptWriteAll]
    clear e1 hv
    refine UnifR.bindR (unif_write hp hr hT hb1 h) ?_ ?_
    · loc
    · intro _ _ hm h
      exact ih (hl1.mono hm) h.mode

theorem unif_writePoint {v : Fam W F (Point F)} (hv : rel m v) (h : ModeR p.T m t) :
    UnifR (FullR p.T) m fun w σ => Pcd.transcriptWritePoint p (v w σ) (t w σ) :=
  unif_writeAll hp hr hT (ListN.cons hv.1 (ListN.cons hv.2 ListN.nil)) h

theorem unif_transcriptNew (tag : List UInt8) :
    UnifR (FullR p.T) m fun (_ : W) (_ : ℕ → F) => Pcd.transcriptNew p tag := by
  unfold Pcd.transcriptNew Transcript.tagElems
  have h : ∀ l : List F, ListN l.length m fun (_ : W) (_ : ℕ → F) => l.map Element.constant := by
    intro l
    induction l with
    | nil => exact ListN.nil
    | cons a l ih => exact ListN.cons (rel_constant a) ih
  refine unif_writeAll hp hr hT (h (_ :: _)) (.inr ⟨0, fun _ _ => [], _, ListN.nil,
    ListN.replicate p.T rel_zero, fun _ _ => rfl⟩)

theorem squeezeAgain_eq {vs st : List (Element F)} {v : Element F} (h : vs.getLast? = some v) :
    Sponge.squeezeAgain (.squeeze vs st) = (.ok v, .squeeze vs.dropLast st) := by
  simp only [Sponge.squeezeAgain, h]

theorem unif_challenge (h : ReadyR p.T m t) :
    UnifR (PairR rel (SqR p.T)) m fun w σ => Pcd.transcriptChallenge p (t w σ) := by
  simp only [Pcd.transcriptChallenge]
  obtain ⟨rate, hrate⟩ : ∃ r, p.rate = r + 1 := ⟨p.rate - 1, by omega⟩
  have key : ∀ {m : ℕ} {st : Fam W F (List (Element F))}, ListN p.T m st →
      ∃ v vs, rel m v ∧ rel m vs ∧ (∀ w σ, (Sponge.getRate p.rate (st w σ)).getLast? = some (v w σ)) ∧
        ∀ w σ, (Sponge.getRate p.rate (st w σ)).dropLast = vs w σ := by
    intro m st hst
    have := rel_getRate p.rate hT hst
    have h2 : ListN (rate + 1) m fun w σ => Sponge.getRate p.rate (st w σ) := hrate ▸ this
    obtain ⟨v, vs, h1, h2, h3, h4⟩ := h2.unsnoc
    exact ⟨v, vs, h1, h2.rel, h3, h4⟩
  rcases h with ⟨vs, st, h1, h2, h3⟩ | ⟨n, vs, st, h1, h2, h3⟩
  · obtain ⟨n, h1⟩ := rel_listN h1
    cases n with
    | zero =>
      simp only [h3, h1.eq_nil, Sponge.squeeze, List.getLast?_nil, Sponge.permute, Syn.bind_assoc]
      clear h3
      refine UnifR.bindR (unif_permutation hp h2) ?_ ?_
      · loc
      · intro _ s hm hs
        obtain ⟨v, vs, k1, k2, k3, k4⟩ := key hs
        refine (UnifR.pure (a := fun w σ => (v w σ, Mode.squeeze (vs w σ) (s w σ)))
          ⟨k1, _, _, k2, hs, fun _ _ => rfl⟩).congr fun w σ => ?_
        simp only [Syn.pure_bind, squeezeAgain_eq hp hr hT (k3 w σ), k4]
    | succ n =>
      obtain ⟨v, vs', k1, k2, k3, k4⟩ := h1.unsnoc
      simp only [h3, Sponge.squeeze, k3, k4]
      exact UnifR.pure ⟨k1, _, _, k2.rel, h2, fun _ _ => rfl⟩
  · obtain ⟨b1, l1, hb1, hl1, e1⟩ := h1.uncons
    have e : ∀ w σ, (vs w σ).isEmpty = false := fun w σ => by rw [e1]; rfl
    simp only [h3, Sponge.squeeze, e, Bool.false_eq_true, if_false, Sponge.permute, Syn.bind_assoc]
    clear h3 e e1
    refine UnifR.bindR (unif_permutation hp (rel_addValues h2 h1)) ?_ ?_
    · loc
    · intro _ s hm hs
      obtain ⟨v, vs, k1, k2, k3, k4⟩ := key hs
      refine (UnifR.pure (a := fun w σ => (v w σ, Mode.squeeze (vs w σ) (s w σ)))
        ⟨k1, _, _, k2, hs, fun _ _ => rfl⟩).congr fun w σ => ?_
      simp only [Syn.pure_bind, Sponge.state, squeezeAgain_eq hp hr hT (k3 w σ), k4]

theorem unif_save (h : FullR p.T m t) :
    UnifR (ListN p.T) m fun w σ => Pcd.transcriptSave p (t w σ) := by
  simp only [Pcd.transcriptSave]
  obtain ⟨n, vs, st, h1, h2, h3⟩ := h
  obtain ⟨b1, l1, hb1, hl1, e1⟩ := h1.uncons
  have e : ∀ w σ, (vs w σ).isEmpty = false := fun w σ => by rw [e1]; rfl
  simp only [h3, Sponge.saveState, e, Bool.false_eq_true, if_false, Sponge.permute, Syn.bind_assoc]
  clear h3 e e1
  refine UnifR.bindR (unif_permutation hp (rel_addValues h2 h1)) ?_ ?_
  · loc
  · intro _ s hm hs
    exact (UnifR.pure hs).congr fun w σ => rfl

theorem rel_resume {s : Fam W F (List (Element F))} (hs : ListN p.T m s) :
    SqR p.T m fun w σ => Sponge.resume p.rate (s w σ) :=
  ⟨_, s, (rel_getRate p.rate hT hs).rel, hs, fun _ _ => rfl⟩

end

theorem unif_enforceEqualStates {n : ℕ} {a b : Fam W F (List (Element F))} (ha : ListN n m a)
    (hb : ListN n m b) : Unif m fun w σ => Transcript.enforceEqualStates (a w σ) (b w σ) := by
  induction n generalizing m a b with
  | zero =>
    simp only [ha.eq_nil, hb.eq_nil, Transcript.enforceEqualStates]
    exact UnifR.pure trivial
  | succ n ih =>
    obtain ⟨b1, l1, hb1, hl1, e1⟩ := ha.uncons
    obtain ⟨b2, l2, hb2, hl2, e2⟩ := hb.uncons
    simp only [e1, e2, Transcript.enforceEqualStates]
    clear e1 e2 ha hb
    unif_step
    exact ih hl1 hl2

end Ragu.Unif

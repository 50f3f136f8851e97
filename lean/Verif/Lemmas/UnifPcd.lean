/-
The folding of claims, the public inputs of headers, the unified instance and the claims of
`compute_v` make the same calls whatever their wires and witness values are.
-/
import Verif.Lemmas.UnifSponge

set_option linter.unusedSectionVars false

namespace Ragu.Unif
open Ragu Ragu.Circuit Ragu.Registry Ragu.Gadget Ragu.Spec Ragu.Pcd
variable {W F α β γ : Type} [Field F] [DecidableEq F] {m : ℕ}

/-! ### Folding claims -/

structure FolderR (m : ℕ) (c : Fam W F (Fold.ClaimFolder F)) : Prop where
  muNu : rel m fun w σ => (c w σ).muNu
  muInv : rel m fun w σ => (c w σ).muInv

theorem FolderR.mono {m m' : ℕ} {c : Fam W F (Fold.ClaimFolder F)} (h : m ≤ m') (r : FolderR m c) :
    FolderR m' c := ⟨rel_up h r.1, rel_up h r.2⟩

theorem FolderR.loc {m : ℕ} {c : Fam W F (Fold.ClaimFolder F)} (r : FolderR m c) (w : W)
    {σ τ : ℕ → F} (ag : Agree m σ τ) : c w σ = c w τ := by
  have h1 := rel_loc r.1 w ag
  have h2 := rel_loc r.2 w ag
  rcases h3 : c w σ with ⟨a, b⟩
  rcases h4 : c w τ with ⟨a', b'⟩
  simp only [h3, h4] at h1 h2
  rw [h1, h2]

theorem unif_folderNew {a b : Fam W F (Element F)} (ha : rel m a) (hb : rel m b) :
    UnifR FolderR m fun w σ => Fold.ClaimFolder.new (a w σ) (b w σ) := by
  unfold Fold.ClaimFolder.new
  unif_step
  unif_step
  exact UnifR.pure ⟨by rels, by rels⟩
macro_rules | `(tactic| unif_lem) => `(tactic| apply unif_folderNew)

theorem unif_foldRow (i : ℕ) (js : List ℕ) {u : Fam W F (Element F)} (hu : rel m u)
    {r : Fam W F (Option (Element F))} (hr : rel m r) {es ks : Fam W F (List (Element F))}
    {ne nk : ℕ} (he : ListN ne m es) (hk : ListN nk m ks)
    (he' : (js.filter (i ≠ ·)).length ≤ ne) (hk' : (js.filter (i = ·)).length ≤ nk) :
    UnifR (PairR rel (PairR (ListN (ne - (js.filter (i ≠ ·)).length))
        (ListN (nk - (js.filter (i = ·)).length)))) m
      fun w σ => Fold.foldRow (u w σ) i js (r w σ) (es w σ) (ks w σ) := by
  induction js generalizing m r es ks ne nk with
  | nil => exact UnifR.pure ⟨hr, he, hk⟩
  | cons j js ih =>
    by_cases h : i = j
    · simp only [List.filter_cons, h, ne_eq, not_true_eq_false, decide_false, decide_true,
        if_true, Bool.false_eq_true, if_false, List.length_cons] at he' hk' ⊢
      obtain ⟨nk, rfl⟩ : ∃ n', nk = n' + 1 := ⟨nk - 1, by omega⟩
      obtain ⟨b1, l1, hb1, hl1, e1⟩ := hk.uncons
      simp only [Fold.foldRow, e1, if_true]
      clear e1 hk
      refine Unif.bind (unif_hwrite hu hr hb1) (by loc) ?_
      intro _ x hm hx
      lift_rels hm
      have := ih hu hx he hl1 (by simpa [h] using he') (by simpa [h] using hk')
      simpa [h] using this
    · simp only [List.filter_cons, h, ne_eq, not_false_eq_true, decide_false, decide_true,
        if_true, Bool.false_eq_true, if_false, List.length_cons] at he' hk' ⊢
      obtain ⟨ne, rfl⟩ : ∃ n', ne = n' + 1 := ⟨ne - 1, by omega⟩
      obtain ⟨b1, l1, hb1, hl1, e1⟩ := he.uncons
      simp only [Fold.foldRow, e1, h, if_false]
      clear e1 he
      refine Unif.bind (unif_hwrite hu hr hb1) (by loc) ?_
      intro _ x hm hx
      lift_rels hm
      have := ih hu hx hl1 hk (by simpa using he') hk'
      simpa using this

theorem filter_range (n i : ℕ) (h : i < n) : ((List.range n).filter (i = ·)).length = 1 ∧
    ((List.range n).filter (i ≠ ·)).length = n - 1 := by
  have h1 : ((List.range n).filter (i = ·)).length = 1 := by
    rw [← List.countP_eq_length_filter]
    have := List.count_range (a := i) (n := n)
    simp only [h, if_true, List.count] at this
    rw [← this]
    congr 1
    funext x
    simp [eq_comm, Bool.beq_eq_decide_eq]
  have h2 := List.length_eq_length_filter_add (l := List.range n) (i = ·)
  refine ⟨h1, ?_⟩
  rw [List.length_range, h1] at h2
  have h3 : (List.range n).filter (i ≠ ·) = (List.range n).filter fun x => !decide (i = x) :=
    List.filter_congr fun x _ => by simp
  rw [h3]
  omega

theorem unif_foldRows (n : ℕ) (is : List ℕ) (hi : ∀ i ∈ is, i < n) {u v : Fam W F (Element F)}
    (hu : rel m u) (hv : rel m v) {r : Fam W F (Option (Element F))} (hr : rel m r)
    {es ks : Fam W F (List (Element F))} {ne nk : ℕ} (he : ListN ne m es) (hk : ListN nk m ks)
    (he' : is.length * (n - 1) ≤ ne) (hk' : is.length ≤ nk) :
    Unif m fun w σ => Fold.foldRows (u w σ) (v w σ) n is (r w σ) (es w σ) (ks w σ) := by
  induction is generalizing m r es ks ne nk with
  | nil => exact UnifR.pure hr
  | cons i is ih =>
    obtain ⟨f1, f2⟩ := filter_range n i (hi i (by simp))
    simp only [List.length_cons, Nat.add_mul, Nat.one_mul] at he' hk'
    simp only [Fold.foldRows]
    have hrow := unif_foldRow i (List.range n) hu (rel_none (W := W)) he hk
      (by rw [f2]; omega) (by rw [f1]; omega)
    refine UnifR.bindR hrow ?_ ?_
    · loc
    · rintro m' a hm ⟨h1, h2, h3⟩
      lift_rels hm
      refine Unif.bind (unif_hwrite hv hr (rel_hfinish h1)) ?_ ?_
      · intro w σ τ ag
        simp only [rel_loc hu w ag, rel_loc hv w ag, h2.loc w ag, h3.loc w ag]
      intro _ x hm hx
      rw [f2] at h2
      rw [f1] at h3
      exact ih (fun i h => hi i (by simp [h])) (rel_up hm hu) (rel_up hm hv) hx (h2.mono hm)
        (h3.mono hm) (by omega) (by omega)

theorem unif_foldProducts (n : ℕ) {u v : Fam W F (Element F)}
    (hu : rel m u) (hv : rel m v) {es ks : Fam W F (List (Element F))} {ne nk : ℕ}
    (he : ListN ne m es) (hk : ListN nk m ks) (he' : n * (n - 1) ≤ ne) (hk' : n ≤ nk) :
    Unif m fun w σ => Fold.foldProducts n (u w σ) (v w σ) (es w σ) (ks w σ) := by
  unfold Fold.foldProducts
  refine Unif.bind (unif_foldRows n (List.range n) (by simp) hu hv rel_none he hk (by simpa using he')
    (by simpa using hk')) ?_ ?_
  · loc
  · intro _ _ hm _
    exact UnifR.pure (by rels)

theorem chunks_of {δ : Type} {k : ℕ} (hk : k ≠ 0) {l : List δ} (h : l ≠ []) :
    Gadget.chunks k l = l.take k :: Gadget.chunks k (l.drop k) := by
  rw [Gadget.chunks]; simp [h, hk]

theorem chunks_map {δ : Type} (k : ℕ) (hk : k ≠ 0) (f : δ → γ) : ∀ (n : ℕ) (l : List δ), l.length ≤ n →
    Gadget.chunks k (l.map f) = (Gadget.chunks k l).map (List.map f)
  | n, [], h => by
    have e : ∀ {δ : Type}, Gadget.chunks k ([] : List δ) = [] := by intro δ; rw [Gadget.chunks]; simp
    simp only [List.map_nil, e]
  | 0, _ :: _, h => by simp at h
  | n + 1, a :: l, h => by
    simp only [List.length_cons] at h
    have := chunks_map k hk f n ((a :: l).drop k) (by
      simp only [List.length_drop, List.length_cons]; omega)
    rw [chunks_of hk (by simp), chunks_of hk (l := a :: l) (by simp), ← List.map_take,
      ← List.map_drop, this]
    rfl

theorem rel_chunks [Gad W F α] (k : ℕ) (hk : k ≠ 0) {l : Fam W F (List α)} (hl : rel m l) :
    rel m fun w σ => Gadget.chunks k (l w σ) := by
  obtain ⟨ls, r, e⟩ := hl
  refine ⟨(Gadget.chunks k ls).map fun c w σ => c.map fun b => b w σ, ?_, fun w σ => ?_⟩
  · intro b hb
    obtain ⟨c, hc, rfl⟩ := List.mem_map.1 hb
    clear hb
    refine ⟨c, fun b hb => r b ?_, fun _ _ => rfl⟩
    clear e r
    induction hn : ls.length using Nat.strong_induction_on generalizing ls with
    | _ n ih =>
      rw [Gadget.chunks] at hc
      by_cases h0 : ls = []
      · simp [h0] at hc
      · simp only [h0, hk, or_self, dite_false, List.mem_cons] at hc
        have hl : 0 < ls.length := List.length_pos_iff.2 h0
        rcases hc with rfl | hc
        · exact List.mem_of_mem_take hb
        · exact List.mem_of_mem_drop (ih (ls.drop k).length (by simp only [List.length_drop]; omega)
            _ hc rfl)
  · simp only [e, chunks_map k hk _ _ ls le_rfl, List.map_map]
    rfl

theorem unif_foldChunks (k : ℕ) {x : Fam W F (Element F)} (hx : rel m x)
    {l : Fam W F (List (List (Element F)))} (hl : rel m l) :
    Unif m fun w σ => Fold.foldChunks k (x w σ) (l w σ) := by
  obtain ⟨n, hl⟩ := rel_listN hl
  induction n generalizing m l with
  | zero =>
    simp only [hl.eq_nil, Fold.foldChunks]
    exact UnifR.pure rel_nil
  | succ n ih =>
    obtain ⟨b1, l1, hb1, hl1, e1⟩ := hl.uncons
    simp only [e1, Fold.foldChunks]
    clear e1 hl
    obtain ⟨n1, hb1⟩ := rel_listN hb1
    simp only [hb1.length]
    have hb2 := hb1.rel
    unif_step
    refine Unif.bind (ih hx hl1.rel hl1) ?_ ?_
    · loc
    · intro _ _ hm _
      lift_rels hm
      unifs

theorem unif_foldTwoLayer (k g : ℕ) (hk : k ≠ 0) {l : Fam W F (List (Element F))}
    {x y : Fam W F (Element F)} (hl : rel m l) (hx : rel m x) (hy : rel m y) :
    Unif m fun w σ => Fold.foldTwoLayer k g (l w σ) (x w σ) (y w σ) := by
  simp only [Fold.foldTwoLayer, hk, if_false]
  refine Unif.bind (unif_foldChunks k hx (rel_chunks k hk hl)) ?_ ?_
  · loc
  · intro _ _ hm h
    lift_rels hm
    obtain ⟨n, hn⟩ := length_const h
    simp only [hn]
    unifs

/-! ### Unified outputs -/

/-- The gadget of a slot. -/
def KR : (k : Pcd.Kind) → ℕ → Fam W F (k.Gadget F) → Prop
  | .point => rel (α := Point F)
  | .element => rel (α := Element F)

theorem KR.mono {k : Pcd.Kind} {m m' : ℕ} {a : Fam W F (k.Gadget F)} (h : m ≤ m') (r : KR k m a) :
    KR k m' a := by cases k <;> exact rel_up h r

theorem KR.loc {k : Pcd.Kind} {m : ℕ} {a : Fam W F (k.Gadget F)} (r : KR k m a) (w : W)
    {σ τ : ℕ → F} (ag : Agree m σ τ) : a w σ = a w τ := by cases k <;> exact rel_loc r w ag

theorem unif_kalloc (b : F) (k : Pcd.Kind) {v : Fam W F (k.Native F)} (hv : Loc m v) :
    UnifR (KR k) m fun w σ => k.alloc b (v w σ) := by
  cases k
  · exact unif_palloc b hv
  · exact unif_alloc hv

/-- The number of elements a slot writes. -/
def kindLen : Pcd.Kind → ℕ
  | .point => 2
  | .element => 1

theorem rel_kwrite (k : Pcd.Kind) {a : Fam W F (k.Gadget F)} (ha : KR k m a) :
    ListN (kindLen k) m fun w σ => k.write (a w σ) := by
  cases k
  · exact ListN.cons (rel_px ha) (ListN.cons (rel_py ha) ListN.nil)
  · exact ListN.cons ha ListN.nil

def UR (m : ℕ) (o : Fam W F (UnifiedOutput F)) : Prop := ∀ s, KR s.kind m fun w σ => o w σ s

theorem UR.mono {m m' : ℕ} {o : Fam W F (UnifiedOutput F)} (h : m ≤ m') (r : UR m o) : UR m' o :=
  fun s => (r s).mono h

theorem UR.loc {m : ℕ} {o : Fam W F (UnifiedOutput F)} (r : UR m o) (w : W)
    {σ τ : ℕ → F} (ag : Agree m σ τ) : o w σ = o w τ := funext fun s => (r s).loc w ag

theorem UR.write {o : Fam W F (UnifiedOutput F)} (r : UR m o) :
    ListN 29 m fun w σ => (o w σ).write := by
  have : ∀ l : List SlotId, ListN (l.map fun s => kindLen s.kind).sum m
      fun w σ => l.flatMap fun s => s.kind.write (o w σ s) := by
    intro l
    induction l with
    | nil => exact ListN.nil
    | cons s l ih =>
      simp only [List.flatMap_cons, List.map_cons, List.sum_cons]
      exact (rel_kwrite _ (r s)).append ih
  exact this SlotId.all

/-! ### The builder -/

structure SlotR (m : ℕ) {k : Pcd.Kind} (s : Fam W F (Slot F k)) : Prop where
  value : (∀ w σ, (s w σ).value = none) ∨ ∃ b, KR k m b ∧ ∀ w σ, (s w σ).value = some (b w σ)
  inst : Loc m fun w σ => (s w σ).inst
  wasSet : Loc m fun w σ => (s w σ).wasSet

theorem SlotR.mono {m m' : ℕ} {k : Pcd.Kind} {s : Fam W F (Slot F k)} (h : m ≤ m')
    (r : SlotR m s) : SlotR m' s :=
  ⟨r.1.imp_right fun ⟨b, hb, e⟩ => ⟨b, hb.mono h, e⟩, r.2.mono h, r.3.mono h⟩

theorem SlotR.loc {m : ℕ} {k : Pcd.Kind} {s : Fam W F (Slot F k)} (r : SlotR m s) (w : W)
    {σ τ : ℕ → F} (ag : Agree m σ τ) : s w σ = s w τ := by
  have h1 : (s w σ).value = (s w τ).value := by
    rcases r.1 with h | ⟨b, hb, h⟩
    · rw [h, h]
    · rw [h, h, hb.loc w ag]
  have h2 := r.2 w σ τ ag
  have h3 := r.3 w σ τ ag
  dsimp only at h2 h3
  rcases h4 : s w σ with ⟨a, b, c⟩
  rcases h5 : s w τ with ⟨a', b', c'⟩
  rw [h4, h5] at h1 h2 h3
  simp only at h1 h2 h3
  rw [h1, h2, h3]

/-- A builder in which the slots `S` may be filled. -/
structure BR (S : List SlotId) (m : ℕ) (B : Fam W F (OutputBuilder F)) : Prop where
  slot : ∀ s, SlotR m fun w σ => (B w σ).slots s
  empty : ∀ s, s ∉ S → ∀ w σ, ((B w σ).slots s).value = none
  inst : Loc m fun w σ => (B w σ).inst

theorem BR.mono {S : List SlotId} {m m' : ℕ} {B : Fam W F (OutputBuilder F)} (h : m ≤ m')
    (r : BR S m B) : BR S m' B := ⟨fun s => (r.1 s).mono h, r.2, r.3.mono h⟩

theorem BR.loc {S : List SlotId} {m : ℕ} {B : Fam W F (OutputBuilder F)} (r : BR S m B) (w : W)
    {σ τ : ℕ → F} (ag : Agree m σ τ) : B w σ = B w τ := by
  have h1 : (B w σ).slots = (B w τ).slots := funext fun s => (r.1 s).loc w ag
  have h2 := r.3 w σ τ ag
  dsimp only at h2
  rcases h4 : B w σ with ⟨a, b⟩
  rcases h5 : B w τ with ⟨a', b'⟩
  rw [h4, h5] at h1 h2
  simp only at h1 h2
  rw [h1, h2]

theorem BR.new {inst : Fam W F (UnifiedInstance F)} (h : Loc m inst) :
    BR [] m fun w σ => OutputBuilder.new (inst w σ) :=
  ⟨fun s => ⟨.inl fun _ _ => rfl, fun w σ τ ag => by simp [OutputBuilder.new, Slot.new, h w σ τ ag],
    fun _ _ _ _ => rfl⟩, fun _ _ _ _ => rfl, h⟩

theorem BR.update {S : List SlotId} {B : Fam W F (OutputBuilder F)} (r : BR S m B) (s : SlotId)
    {x : Fam W F (Slot F s.kind)} (hx : SlotR m x) :
    BR (s :: S) m fun w σ => { B w σ with slots := Function.update (B w σ).slots s (x w σ) } := by
  refine ⟨fun t => ?_, fun t ht w σ => ?_, r.3⟩
  · by_cases h : t = s
    · subst h
      simpa only [Function.update_self] using hx
    · simpa only [Function.update_of_ne h] using r.1 t
  · simp only [List.mem_cons, not_or] at ht
    simpa only [Function.update_of_ne ht.1] using r.2 t ht.2 w σ

section
variable {S : List SlotId} {B : Fam W F (OutputBuilder F)} (hB : BR S m B) (b : F) (s : SlotId)
  (hs : s ∉ S)
include hB hs

theorem unif_read : UnifR (PairR (KR s.kind) (BR (s :: S))) m fun w σ => (B w σ).read b s := by
  unfold OutputBuilder.read Slot.read
  simp only [hB.empty s hs, Option.isSome_none, Bool.false_eq_true, if_false, Syn.bind_assoc,
    Syn.pure_bind]
  have h1 := (hB.slot s).inst
  refine UnifR.bindR (unif_kalloc b s.kind h1) ?_ ?_
  · loc
  · intro _ x hm hx
    refine UnifR.pure ⟨hx, (hB.mono hm).update s ⟨.inr ⟨x, hx, fun _ _ => rfl⟩, ?_, ?_⟩⟩
    · exact h1.mono hm
    · exact (hB.slot s).wasSet.mono hm

theorem unif_receive : UnifR (PairR (KR s.kind) (BR (s :: S))) m fun w σ => (B w σ).receive b s := by
  unfold OutputBuilder.receive Slot.receive
  simp only [hB.empty s hs, Option.isSome_none, Bool.false_eq_true, if_false, Syn.bind_assoc,
    Syn.pure_bind]
  have h1 := (hB.slot s).inst
  refine UnifR.bindR (unif_kalloc b s.kind h1) ?_ ?_
  · loc
  · intro _ x hm hx
    refine UnifR.pure ⟨hx, (hB.mono hm).update s ⟨.inr ⟨x, hx, fun _ _ => rfl⟩, ?_, ?_⟩⟩
    · exact h1.mono hm
    · exact fun _ _ _ _ => rfl

omit b in
theorem unif_provide {v : Fam W F (s.kind.Gadget F)} (hv : KR s.kind m v) :
    UnifR (BR (s :: S)) m fun w σ => (B w σ).provide s (v w σ) := by
  unfold OutputBuilder.provide Slot.provide
  simp only [hB.empty s hs, Option.isSome_none, Bool.false_eq_true, if_false,
    Syn.pure_bind]
  refine UnifR.pure (hB.update s ⟨.inr ⟨v, hv, fun _ _ => rfl⟩, ?_, ?_⟩)
  · exact (hB.slot s).inst
  · exact fun _ _ _ _ => rfl
end

theorem unif_take (b : F) {k : Pcd.Kind} {s : Fam W F (Slot F k)} (hs : SlotR m s) :
    UnifR (KR k) m fun w σ => (s w σ).take b := by
  unfold Slot.take
  rcases hs.1 with h | ⟨x, hx, h⟩
  · simp only [h]
    exact unif_kalloc b k hs.inst
  · simp only [h]
    exact UnifR.pure hx

theorem unif_forEachSlot {f : Fam W F ((s : SlotId) → Syn F (s.kind.Gadget F))} (hf : Loc m f)
    (h : ∀ s m', m ≤ m' → UnifR (KR s.kind) m' fun w σ => f w σ s) :
    UnifR UR m fun w σ => forEachSlot (f w σ) := by
  unfold forEachSlot
  iterate 21
    refine UnifR.bindR (h _ _ (by omega)) (by loc) ?_
    intro _ _ hm _
    lift_rels hm
  refine UnifR.pure fun s => ?_
  cases s <;> (dsimp only; with_reducible assumption)

theorem unif_finishNoSuffix {S : List SlotId} (b : F) {B : Fam W F (OutputBuilder F)}
    (hB : BR S m B) : UnifR (PairR UR Loc) m fun w σ => (B w σ).finishNoSuffix b := by
  unfold OutputBuilder.finishNoSuffix
  refine UnifR.bindR (R := UR) (unif_forEachSlot ?_ fun s m' hm => unif_take b ((hB.slot s).mono hm))
    ?_ ?_
  · loc
  · loc
  · intro m' o hm ho
    lift_rels hm
    refine .check (k := fun w σ => Pure.pure (o w σ, { (B w σ).inst with
      coverage := (coverAll (fun s => ((B w σ).slots s).wasSet) (B w σ).inst.coverage).getD
        (B w σ).inst.coverage })) ?_ (UnifR.pure ⟨ho, ?_⟩)
    · intro w σ
      cases coverAll (fun s => ((B w σ).slots s).wasSet) (B w σ).inst.coverage with
      | some c => exact .inl rfl
      | none => exact .inr ⟨_, rfl⟩
    · loc

theorem unif_finish {S : List SlotId} (b : F) {B : Fam W F (OutputBuilder F)}
    (hB : BR S m B) : UnifR (PairR (ListN 30) Loc) m fun w σ => (B w σ).finish b := by
  unfold OutputBuilder.finish
  refine UnifR.bind2R (unif_finishNoSuffix b hB) ?_ ?_
  · loc
  · intro _ o i hm ho hi
    exact UnifR.pure ⟨ho.write.append (ListN.cons rel_zero ListN.nil), hi⟩

end Ragu.Unif

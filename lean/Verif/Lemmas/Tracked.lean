/-
Tracked polynomials: what their terms say about their coefficients and their commitment.
-/
import Verif.Model.Pcd.Tracked
import Verif.Lemmas.ClaimBuilder
import Verif.Props.Msm

set_option linter.unusedSectionVars false
namespace Ragu.Pcd
open Ragu Ragu.Circuit Ragu.Registry Ragu.Spec Ragu.Sparse Ragu.Gadget Ragu.Props
variable {F : Type} [Field F] [DecidableEq F] {K : Type}

/-- The coefficients are the combination of the source polynomials given by the terms. -/
def Tracks (N : ℕ) (src : K → Poly F) (t : Tracked K F) : Prop :=
  WellFormed N t.poly ∧
    ∀ k, coeff t.poly k = (t.terms.map fun kc => kc.2 * coeff (src kc.1) k).sum

theorem tracks_default (N : ℕ) (src : K → Poly F) : Tracks N src Tracked.default :=
  ⟨trivial, fun k => by simp [Tracked.default, coeff]⟩

theorem tracks_single {N : ℕ} {src : K → Poly F} {key : K} (h : WellFormed N (src key)) :
    Tracks N src (Tracked.single (src key) key) :=
  ⟨h, fun k => by simp [Tracked.single]⟩

theorem tracks_scale {N : ℕ} {src : K → Poly F} {t : Tracked K F} (h : Tracks N src t) (c : F) :
    Tracks N src (t.scale c) := by
  refine ⟨scale_wf h.1 c, fun k => ?_⟩
  rw [Tracked.scale, scale_coeff, h.2 k, List.map_map, ← List.sum_map_mul_right]
  congr 1
  refine List.map_congr_left fun kc _ => ?_
  simp only [Function.comp]; ring

theorem tracks_add {N : ℕ} {src : K → Poly F} {t u : Tracked K F} (ht : Tracks N src t)
    (hu : Tracks N src u) : ∃ v, t.addAssign N u = some v ∧ Tracks N src v := by
  obtain ⟨p, h1, h2, h3⟩ := combineAssign_spec N (fun a b => a + b) (by simp) t.poly u.poly ht.1 hu.1
  refine ⟨⟨p, t.terms ++ u.terms⟩, ?_, h2, fun k => ?_⟩
  · rw [Tracked.addAssign, show Sparse.addAssign N t.poly u.poly = some p from h1]; rfl
  · rw [h3, ht.2, hu.2, List.map_append, List.sum_append]

theorem tracks_sum {N : ℕ} {src : K → Poly F} (hw : ∀ k, WellFormed N (src k)) {keys : List K}
    {p : Poly F} (hp : sumPolynomials N (keys.map src) = some p) :
    Tracks N src ⟨p, keys.map fun k => (k, 1)⟩ := by
  by_cases hk : keys = []
  · subst hk; cases hp
  · obtain ⟨r, h1, h2, h3⟩ := sumPolynomials_spec N (keys.map src) (by simpa using hk) (by
      intro q hq; obtain ⟨k, -, rfl⟩ := List.mem_map.1 hq; exact hw k)
    rw [hp] at h1; cases h1
    refine ⟨h2, fun k => ?_⟩
    rw [h3, sumCoeff, List.map_map, List.map_map]
    congr 1
    refine List.map_congr_left fun x _ => ?_
    simp

theorem tracks_fold {N : ℕ} {src : K → Poly F} (s : F) : ∀ (items : List (Tracked K F)),
    (∀ t ∈ items, Tracks N src t) →
    ∃ r, Fold.fold (trackedFoldable N) items s = some r ∧ Tracks N src r := by
  have gen : ∀ (items : List (Tracked K F)) (acc : Tracked K F), Tracks N src acc →
      (∀ t ∈ items, Tracks N src t) → ∃ r, items.foldlM (fun acc item =>
        (trackedFoldable N).add ((trackedFoldable N).scale s acc) item) acc = some r ∧
        Tracks N src r := by
    intro items
    induction items with
    | nil => intro acc ha _; exact ⟨acc, rfl, ha⟩
    | cons t items ih =>
      intro acc ha h
      obtain ⟨v, h1, h2⟩ := tracks_add (tracks_scale ha s) (h t (by simp))
      obtain ⟨r, h3, h4⟩ := ih v h2 fun u hu => h u (by simp [hu])
      refine ⟨r, ?_, h4⟩
      rw [List.foldlM_cons]
      show ((acc.scale s).addAssign N t).bind _ = _
      rw [h1]; exact h3
  intro items h
  exact gen items _ (tracks_default N src) h

/-- Folding tracked polynomials folds the polynomials. -/
theorem fold_tracked_poly (N : ℕ) (s : F) (items : List (Tracked K F)) :
    (Fold.fold (trackedFoldable N) items s).map (·.poly) =
      Fold.fold (polyFoldable N) (items.map (·.poly)) s := by
  have gen : ∀ (items : List (Tracked K F)) (acc : Tracked K F),
      (items.foldlM (fun acc item => (trackedFoldable N).add ((trackedFoldable N).scale s acc) item)
        acc).map (·.poly) = (items.map (·.poly)).foldlM (fun acc item =>
          (polyFoldable N).add ((polyFoldable N).scale s acc) item) acc.poly := by
    intro items
    induction items with
    | nil => intro acc; rfl
    | cons t items ih =>
      intro acc
      rw [List.foldlM_cons, List.map_cons, List.foldlM_cons]
      show (((acc.scale s).addAssign N t).bind _).map _ =
        (Sparse.addAssign N (Sparse.scale acc.poly s) t.poly).bind _
      rw [Tracked.addAssign]
      show (Option.bind (Option.bind (Sparse.addAssign N (Sparse.scale acc.poly s) t.poly) _) _).map _ = _
      cases Sparse.addAssign N (Sparse.scale acc.poly s) t.poly with
      | none => rfl
      | some p => exact ih ⟨p, _⟩
  exact gen items _

theorem chunks_map {α β : Type} (f : α → β) {m : ℕ} (hm : m ≠ 0) (l : List α) :
    chunks m (l.map f) = (chunks m l).map (List.map f) := by
  apply List.ext_getElem?
  intro k
  rw [List.getElem?_map, Fold.chunks_getElem? hm, Fold.chunks_getElem? hm]
  rw [List.length_map]
  split
  · simp
  · rfl

theorem mapM_map_congr {α β γ δ : Type} (f : α → Option β) (g : γ → Option δ) (p : α → γ)
    (q : β → δ) : ∀ (l : List α), (∀ a ∈ l, (f a).map q = g (p a)) →
    (l.mapM f).map (List.map q) = (l.map p).mapM g := by
  intro l
  induction l with
  | nil => intro _; simp
  | cons a l ih =>
    intro h
    rw [List.map_cons, List.mapM_cons, List.mapM_cons, ← h a (by simp), ← ih fun b hb => h b (by simp [hb])]
    cases f a with
    | none => rfl
    | some b => cases l.mapM f <;> rfl

theorem foldInner_tracked_poly (N m g : ℕ) (s : F) (l : List (Tracked K F)) :
    (Fold.foldInner (trackedFoldable N) m g l s).map (List.map (·.poly)) =
      Fold.foldInner (polyFoldable N) m g (l.map (·.poly)) s := by
  rw [Fold.foldInner, Fold.foldInner, List.length_map]
  split
  · rename_i h
    rw [chunks_map _ h.2, ← mapM_map_congr (fun chunk : List (Tracked K F) =>
      Fold.fold (trackedFoldable N)
        (chunk ++ List.replicate (m - chunk.length) (trackedFoldable N).default) s) _
      (List.map fun x => x.poly) (fun x => x.poly)]
    · cases (chunks m l).mapM (fun chunk => Fold.fold (trackedFoldable N)
        (chunk ++ List.replicate (m - chunk.length) (trackedFoldable N).default) s) with
      | none => rfl
      | some x =>
        simp only [Option.bind_eq_bind, Option.bind_some, Option.map_some, Option.pure_def, List.map_take,
          List.map_append, List.map_replicate]
        rfl
    · intro c _
      rw [fold_tracked_poly, List.map_append, List.map_replicate, List.length_map]
      rfl
  · rfl

theorem tracks_foldInner {N m g : ℕ} {src : K → Poly F} (hm : m ≠ 0) (s : F)
    {l : List (Tracked K F)} (hl : l.length ≤ m * g) (h : ∀ t ∈ l, Tracks N src t) :
    ∃ rs, Fold.foldInner (trackedFoldable N) m g l s = some rs ∧ rs.length = g ∧
      ∀ t ∈ rs, Tracks N src t := by
  obtain ⟨folded, h1, h2⟩ := Fold.mapM_some_spec
    (fun chunk => Fold.fold (trackedFoldable N) (chunk ++ List.replicate (m - chunk.length)
      (trackedFoldable (F := F) (K := K) N).default) s)
    (fun _ r => Tracks N src r) (chunks m l) (by
      intro c hc
      obtain ⟨k, rfl⟩ := Fold.mem_chunks hm hc
      refine tracks_fold s _ fun t ht => ?_
      rcases List.mem_append.1 ht with h' | h'
      · exact h t (List.mem_of_mem_drop (List.mem_of_mem_take h'))
      · rw [(List.mem_replicate.1 h').2]; exact tracks_default N src)
  refine ⟨(folded ++ List.replicate g Tracked.default).take g, ?_, by simp, ?_⟩
  · rw [Fold.foldInner, if_pos ⟨hl, hm⟩, h1]; rfl
  · intro t ht
    rcases List.mem_append.1 (List.mem_of_mem_take ht) with h' | h'
    · obtain ⟨i, hi⟩ := List.getElem?_of_mem h'
      obtain ⟨c, c1, c2⟩ := Fold.forall₂_getElem? h2.flip i t hi
      exact c2
    · rw [(List.mem_replicate.1 h').2]; exact tracks_default N src

section
variable [DecidableEq K] {HC : Type} [AddCommGroup HC] [Module F HC]

theorem dedupInsert_sum (g : K → HC) (kc : K × F) : ∀ (es : List (K × F)),
    ((dedupInsert es kc).map fun x => x.2 • g x.1).sum =
      (es.map fun x => x.2 • g x.1).sum + kc.2 • g kc.1
  | [] => by simp [dedupInsert]
  | e :: es => by
    rw [dedupInsert]
    split
    · rename_i h
      simp only [List.map_cons, List.sum_cons, add_smul, h]; abel
    · simp only [List.map_cons, List.sum_cons, dedupInsert_sum g kc es]; abel

theorem dedup_sum (g : K → HC) (terms : List (K × F)) :
    ((dedup terms).map fun x => x.2 • g x.1).sum = (terms.map fun x => x.2 • g x.1).sum := by
  have gen : ∀ (terms es : List (K × F)),
      ((terms.foldl dedupInsert es).map fun x => x.2 • g x.1).sum =
        (es.map fun x => x.2 • g x.1).sum + (terms.map fun x => x.2 • g x.1).sum := by
    intro terms
    induction terms with
    | nil => intro es; simp
    | cons t ts ih => intro es; rw [List.foldl_cons, ih, dedupInsert_sum]; simp [add_assoc]
  rw [dedup, gen]; simp

theorem sum_range_map {α : Type} (f : α → F) (g : α → HC) : ∀ (l : List α),
    ∑ i ∈ Finset.range l.length, (l.map f).getD i 0 • (l.map g).getD i 0 =
      (l.map fun x => f x • g x).sum
  | [] => by simp
  | a :: l => by
    rw [List.length_cons, Finset.sum_range_succ', List.map_cons, List.map_cons, List.map_cons,
      List.sum_cons, ← sum_range_map f g l, add_comm]
    simp

theorem resolve_spec {numBits : ℕ} {repr : F → List UInt8} (hr : ReprOk numBits repr) (get : K → HC)
    (terms : List (K × F)) :
    resolve numBits repr get terms = some (terms.map fun x => x.2 • get x.1).sum := by
  rw [resolve]
  simp only [List.map_map]
  rw [show ((fun cb : F × HC => repr cb.1) ∘ fun kc : K × F => (kc.2, get kc.1)) =
    repr ∘ fun kc : K × F => kc.2 from rfl, ← List.map_map (f := fun kc : K × F => kc.2),
    C04_mul_field numBits repr (fun a => (hr a).1) (fun a => (hr a).2) _ _ (by simp),
    List.length_map]
  congr 1
  exact (sum_range_map (fun kc : K × F => kc.2) (fun kc => get kc.1) (dedup terms)).trans
    (dedup_sum get terms)

theorem resolve_tracks {N numBits : ℕ} {repr : F → List UInt8} (hr : ReprOk numBits repr)
    {gens : List HC} (hg : N ≤ gens.length) {src : K → Poly F} {get : K → HC}
    (hw : ∀ k, WellFormed N (src k))
    (hc : ∀ k, Msm.commit N numBits repr (src k) gens = some (get k)) {t : Tracked K F}
    (h : Tracks N src t) :
    ∃ C, resolve numBits repr get t.terms = some C ∧
      Msm.commit N numBits repr t.poly gens = some C := by
  refine ⟨_, resolve_spec hr get t.terms, ?_⟩
  rw [C12_commit N numBits repr hr t.poly gens h.1 hg]
  congr 1
  have hget : ∀ k, get k = ∑ i ∈ Finset.range N, coeff (src k) i • gens.getD i 0 := fun k => by
    have := hc k
    rw [C12_commit N numBits repr hr _ gens (hw k) hg] at this
    exact (Option.some.inj this).symm
  simp only [hget, h.2]
  generalize t.terms = l
  induction l with
  | nil => simp
  | cons x xs ih =>
    simp only [List.map_cons, List.sum_cons, add_smul, Finset.sum_add_distrib]
    rw [ih, Finset.smul_sum]
    simp only [mul_smul]

end

/-! ### The claims of a fuse -/

/-- A claim over other traces. -/
def Claim.map {Rx Rx' Id : Type} (f : Rx → Rx') : Claim Rx Id → Claim Rx' Id
  | .raw a b => .raw (f a) (f b)
  | .circuit id rx => .circuit id (f rx)
  | .internal id rxs => .internal id (rxs.map f)
  | .bonding id rxs => .bonding id (rxs.map f)

/-- A child over other traces. -/
def Child.map {Rx Rx' Id V : Type} (f : Rx → Rx') (p : Child Rx Id V) : Child Rx' Id V :=
  ⟨fun c => f (p.rx c), p.id, p.c, p.app, p.bridge, p.unified⟩

theorem claimTable_map {Rx Rx' Id V : Type} (f : Rx → Rx') (ps : List (Child Rx Id V)) (zero : V) :
    claimTable (ps.map (Child.map f)) zero =
      (claimTable ps zero).map fun cv => (Claim.map f cv.1, cv.2) := by
  simp only [claimTable, List.map_map, List.map_append, List.flatMap_cons, List.flatMap_nil,
    List.append_nil, List.map_cons, List.map_nil, internalClaim, bondingClaim, bondedParts,
    traceParts, List.map_flatMap, Child.map, Claim.map, Function.comp_def]

section
variable {E : Env F} {n : ℕ} {r : Registry F} {s : ℕ → Poly F}

/-- The atoms of a claim. -/
theorem handle_tracked {y z : F} {tz : Poly F} (hs : Supplies E n r y s)
    (ht : WellFormed (4 * n) tz) {src : K → Poly F} (hsrc : ∀ k, WellFormed (4 * n) (src k))
    (c : Claim K ℕ) (hne : Claim.polys c ≠ []) (as : List (Tracked K F)) (bs : List (Poly F)) :
    ∃ a b, (trackedProcessor E n r).handle ⟨y, z, tz, as, bs⟩ (Claim.map (fun k => ⟨k, src k⟩) c) =
      some ⟨y, z, tz, as ++ [a], bs ++ [b]⟩ ∧ Tracks (4 * n) src a ∧
      IsClaim (4 * n) s tz z (Claim.map src c) a.poly b := by
  cases c with
  | raw a b => exact ⟨_, src b, rfl, tracks_single (hsrc a), hsrc a, hsrc b, fun _ => rfl,
      fun _ => rfl⟩
  | circuit i k =>
    obtain ⟨b, h1, h2, h3⟩ := circuitImpl_spec ⟨y, z, tz, as, bs⟩ hs ht
      (fun t : Tracked K F => t.poly) i (Tracked.single (src k) k) (hsrc k)
    exact ⟨_, b, h1, tracks_single (hsrc k), hsrc k, h2, fun _ => rfl, h3⟩
  | internal i ks =>
    have hmap : (ks.map fun k => (⟨k, src k⟩ : Atom K F)).map (·.poly) = ks.map src := by
      rw [List.map_map]; rfl
    have hkeys : (ks.map fun k => (⟨k, src k⟩ : Atom K F)).map (fun a => (a.key, (1 : F))) =
        ks.map fun k => (k, 1) := by rw [List.map_map]; rfl
    obtain ⟨rx, h1, h2, h3⟩ := sumPolynomials_spec (4 * n) (ks.map src) (by
      simpa [Claim.polys] using hne) (by
      intro q hq; obtain ⟨k, -, rfl⟩ := List.mem_map.1 hq; exact hsrc k)
    have htr := tracks_sum hsrc h1
    obtain ⟨b, h4, h5, h6⟩ := circuitImpl_spec ⟨y, z, tz, as, bs⟩ hs ht
      (fun t : Tracked K F => t.poly) (registryIndex i) ⟨rx, ks.map fun k => (k, 1)⟩ h2
    refine ⟨_, b, ?_, htr, h2, h5, h3, fun k => ?_⟩
    · simp only [Processor.handle, Claim.map, trackedProcessor, circuitIndex_eq, hmap, hkeys, h1,
        Option.bind_eq_bind, Option.bind_some]
      exact h4
    · rw [h6]; simp only [h3]; rfl
  | bonding i ks =>
    have hmap : (ks.map fun k => (⟨k, src k⟩ : Atom K F)).map
        (fun a => Tracked.single a.poly a.key) = ks.map fun k => Tracked.single (src k) k := by
      rw [List.map_map]; rfl
    obtain ⟨t, h1, h2⟩ := tracks_fold (N := 4 * n) (src := src) z
      (ks.map fun k => Tracked.single (src k) k) (by
      intro t ht; obtain ⟨k, -, rfl⟩ := List.mem_map.1 ht; exact tracks_single (hsrc k))
    obtain ⟨q, h4, h5, h6⟩ := Fold.fold_poly_spec (4 * n) z (ks.map src) (by
      intro q hq; obtain ⟨k, -, rfl⟩ := List.mem_map.1 hq; exact hsrc k)
    have hq : t.poly = q := by
      have := fold_tracked_poly (4 * n) z (ks.map fun k => Tracked.single (src k) k)
      rw [h1, List.map_map] at this
      rw [show ((fun x : Tracked K F => x.poly) ∘ fun k => Tracked.single (src k) k) = src from rfl,
        h4] at this
      exact Option.some.inj this
    refine ⟨t, s (registryIndex i), ?_, h2, h2.1, (hs _).2, fun k => ?_, fun k => rfl⟩
    · simp only [Processor.handle, Claim.map, trackedProcessor, circuitIndex_eq, hmap, h1,
        Option.bind_eq_bind, Option.bind_some]
      exact bondingImpl_spec ⟨y, z, tz, as, bs⟩ hs _ _
    · rw [hq, h6, hornerVal_foldCoeff]; rfl

end
end Ragu.Pcd

/-
The circuit `compute_v` makes the same calls whatever its wires and witness values are.
-/
import Verif.Lemmas.UnifInternal

set_option linter.unusedSectionVars false

namespace Ragu.Unif
open Ragu Ragu.Circuit Ragu.Registry Ragu.Gadget Ragu.Spec Ragu.Pcd
variable {W F α β γ : Type} [Field F] [DecidableEq F] {m : ℕ}

/-! ### Claims -/

theorem rel_zip [Gad W F α] [Gad W F β] {k : Fam W F (List α)} {l : Fam W F (List β)}
    (hk : rel m k) (hl : rel m l) : rel m fun w σ => (k w σ).zip (l w σ) := by
  obtain ⟨ks, r, e⟩ := hk
  obtain ⟨ls, r', e'⟩ := hl
  refine ⟨(ks.zip ls).map fun p w σ => (p.1 w σ, p.2 w σ), ?_, fun w σ => ?_⟩
  · intro b hb
    obtain ⟨p, hp, rfl⟩ := List.mem_map.1 hb
    exact ⟨r _ (List.of_mem_zip hp).1, r' _ (List.of_mem_zip hp).2⟩
  · simp only [e, e', List.zip_map, List.map_map]
    rfl

theorem unif_foldlM [Gad W F α] [Gad W F β] {l : Fam W F (List α)} (hl : rel m l)
    {f : Fam W F (β → α → Syn F β)} (hf : Loc m f) {p : Fam W F β} (hp : rel m p)
    (h : ∀ m' p a, m ≤ m' → rel m' p → rel m' a → Unif m' fun w σ => f w σ (p w σ) (a w σ)) :
    Unif m fun w σ => (l w σ).foldlM (f w σ) (p w σ) := by
  obtain ⟨n, hl⟩ := rel_listN hl
  induction n generalizing m l p with
  | zero =>
    simp only [hl.eq_nil, List.foldlM_nil]
    exact UnifR.pure hp
  | succ n ih =>
    obtain ⟨b1, l1, hb1, hl1, e1⟩ := hl.uncons
    simp only [e1, List.foldlM_cons]
    refine Unif.bind (h m p b1 le_rfl hp hb1) ?_ ?_
    · intro w σ τ ag
      simp only [hf w σ τ ag, hl1.loc w ag]
    · intro m' p' hm hp'
      exact ih (hl1.mono hm).rel (hf.mono hm) hp'
        (fun m'' p a hm' => h m'' p a (hm.trans hm')) (hl1.mono hm)

theorem unif_foldlMConst {ι : Type} [Gad W F β] (l : List ι) 
    {f : Fam W F (β → ι → Syn F β)} (hf : Loc m f) {p : Fam W F β} (hp : rel m p)
    (h : ∀ i m' p, m ≤ m' → rel m' p → Unif m' fun w σ => f w σ (p w σ) i) :
    Unif m fun w σ => l.foldlM (f w σ) (p w σ) := by
  induction l generalizing m p with
  | nil =>
    simp only [List.foldlM_nil]
    exact UnifR.pure hp
  | cons i l ih =>
    simp only [List.foldlM_cons]
    refine Unif.bind (h i m p le_rfl hp) ?_ ?_
    · intro w σ τ ag
      simp only [hf w σ τ ag]
    · intro m' p' hm hp'
      exact ih (hf.mono hm) hp' (fun i m'' p hm' => h i m'' p (hm.trans hm'))

theorem rel_foldlAdd {l : Fam W F (List (Element F))} (hl : rel m l) {a : Fam W F (Element F)}
    (ha : rel m a) : rel m fun w σ => (l w σ).foldl (fun s x => s.add x) (a w σ) := by
  obtain ⟨n, hl⟩ := rel_listN hl
  induction n generalizing l a with
  | zero => simpa only [hl.eq_nil, List.foldl_nil] using ha
  | succ n ih =>
    obtain ⟨b1, l1, hb1, hl1, e1⟩ := hl.uncons
    simp only [e1, List.foldl_cons]
    exact ih hl1.rel (rel_add ha hb1) hl1

theorem rel_fst [Gad W F α] [Gad W F β] {a : Fam W F (α × β)} (h : rel m a) :
    rel m fun w σ => (a w σ).1 := h.1
theorem rel_snd [Gad W F α] [Gad W F β] {a : Fam W F (α × β)} (h : rel m a) :
    rel m fun w σ => (a w σ).2 := h.2

section
variable {q : Fam W F (QueryOutput (Element F))} (hq : QueryR m q)
include hq

theorem rel_source (c : RxComponent) : rel m fun w σ => (evaluationSource (q w σ)).rx c := by
  have l1 := hq.left.a
  have l2 := hq.left.b
  have r1 := hq.right.a
  have r2 := hq.right.b
  cases c with
  | rx i =>
    have h1 := hq.left.rx i
    have h2 := hq.right.rx i
    dsimp only [evaluationSource]
    rels
  | _ => dsimp only [evaluationSource]; rels

variable {z t : Fam W F (Element F)} (hz : rel m z) (ht : rel m t)
  {p : Fam W F (List (Element F) × List (Element F))}
include hz ht

theorem processor_loc : ∀ w σ τ, Agree m σ τ →
    evaluationProcessor (z w σ) (t w σ) (q w σ).fixedRegistry =
      evaluationProcessor (z w τ) (t w τ) (q w τ).fixedRegistry := by
  loc

theorem unif_internal (id : NativeId) {l : Fam W F (List (Element F))} (hl : rel m l)
    (hp : rel m p) : Unif m fun w σ =>
      (evaluationProcessor (z w σ) (t w σ) (q w σ).fixedRegistry).internalCircuit (p w σ) id
        (l w σ) := by
  have h1 := rel_fst hp
  have h2 := rel_snd hp
  have h3 := hq.fixed id
  have h4 := rel_foldlAdd hl rel_zero
  dsimp only [evaluationProcessor]
  unifs

theorem unif_bonding (id : NativeId) {l : Fam W F (List (Element F))} (hl : rel m l)
    (hp : rel m p) : Unif m fun w σ =>
      (evaluationProcessor (z w σ) (t w σ) (q w σ).fixedRegistry).bonding (p w σ) id (l w σ) := by
  have h1 := rel_fst hp
  have h2 := rel_snd hp
  have h3 := hq.fixed id
  dsimp only [evaluationProcessor]
  refine Unif.bind (unif_fold hz hl) (by loc) ?_
  intro _ _ hm _
  lift_rels hm
  unifs

theorem unif_buildInternal (id : NativeId) (hp : rel m p) : Unif m fun w σ =>
    buildInternal (evaluationSource (q w σ))
      (evaluationProcessor (z w σ) (t w σ) (q w σ).fixedRegistry) (p w σ) id := by
  have hs := fun i => rel_source hq (.rx i)
  have hloc := processor_loc hq hz ht
  cases id <;> simp only [buildInternal]
  case hashes1Circuit =>
    refine unif_foldlM (rel_zip (rel_zip (hs _) (hs _)) (hs _)) ?_ hp ?_
    · intro w σ τ ag; simp only [hloc w σ τ ag]
    · intro m' p a hm hp ha
      exact unif_internal (hq.mono hm) (rel_up hm hz) (rel_up hm ht) _
        (rel_cons ha.1.1 (rel_cons ha.1.2 (rel_cons ha.2 rel_nil))) hp
  case hashes2Circuit =>
    refine unif_foldlM (rel_zip (hs _) (hs _)) ?_ hp ?_
    · intro w σ τ ag; simp only [hloc w σ τ ag]
    · intro m' p a hm hp ha
      exact unif_internal (hq.mono hm) (rel_up hm hz) (rel_up hm ht) _
        (rel_cons ha.1 (rel_cons ha.2 rel_nil)) hp
  case outerCollapseCircuit =>
    refine unif_foldlM (rel_zip (rel_zip (hs _) (hs _)) (hs _)) ?_ hp ?_
    · intro w σ τ ag; simp only [hloc w σ τ ag]
    · intro m' p a hm hp ha
      exact unif_internal (hq.mono hm) (rel_up hm hz) (rel_up hm ht) _
        (rel_cons ha.1.1 (rel_cons ha.1.2 (rel_cons ha.2 rel_nil))) hp
  case innerCollapseCircuit =>
    refine unif_foldlM (rel_zip (rel_zip (rel_zip (hs _) (hs _)) (hs _)) (hs _)) ?_ hp ?_
    · intro w σ τ ag; simp only [hloc w σ τ ag]
    · intro m' p a hm hp ha
      exact unif_internal (hq.mono hm) (rel_up hm hz) (rel_up hm ht) _
        (rel_cons ha.1.1.1 (rel_cons ha.1.1.2 (rel_cons ha.1.2 (rel_cons ha.2 rel_nil)))) hp
  case computeVCircuit =>
    refine unif_foldlM (rel_zip (rel_zip (rel_zip (hs _) (hs _)) (hs _)) (hs _)) ?_ hp ?_
    · intro w σ τ ag; simp only [hloc w σ τ ag]
    · intro m' p a hm hp ha
      exact unif_internal (hq.mono hm) (rel_up hm hz) (rel_up hm ht) _
        (rel_cons ha.1.1.1 (rel_cons ha.1.1.2 (rel_cons ha.1.2 (rel_cons ha.2 rel_nil)))) hp
  case outerErrorFinalStaged =>
    exact unif_bonding hq hz ht _ (rel_append (rel_append (hs _) (hs _)) (hs _)) hp
  all_goals exact unif_bonding hq hz ht _ (hs _) hp

theorem unif_buildClaims (hp : rel m p) : Unif m fun w σ =>
    buildClaims (evaluationSource (q w σ))
      (evaluationProcessor (z w σ) (t w σ) (q w σ).fixedRegistry) (p w σ) := by
  unfold buildClaims
  have hs := rel_source hq
  have hloc := processor_loc hq hz ht
  refine Unif.bind (unif_foldlM (rel_zip (hs _) (hs _)) ?_ hp ?_) ?_ ?_
  · intro w σ τ ag; simp only [hloc w σ τ ag]
  · intro m' p a hm hp ha
    have h1 := rel_fst hp
    have h2 := rel_snd hp
    have h3 := ha.1
    have h4 := ha.2
    dsimp only [evaluationProcessor]
    exact UnifR.pure (rel_pair (rel_append h1 (rel_cons h3 rel_nil))
      (rel_append h2 (rel_cons h4 rel_nil)))
  · loc
  intro m' p' hm hp'
  lift_rels hm
  have hs := rel_source hq
  have hloc := processor_loc hq hz ht
  have ha : rel m' fun w σ => (evaluationSource (q w σ)).appCircuits := by
    have h1 := hq.left.xyc
    have h2 := hq.right.xyc
    dsimp only [evaluationSource]
    rels
  refine Unif.bind (unif_foldlM (rel_zip ha (hs _)) ?_ hp' ?_) ?_ ?_
  · intro w σ τ ag; simp only [hloc w σ τ ag]
  · intro m3 p3 a3 hm3 hp3 ha3
    have ht := rel_up hm3 ht
    have h1 := rel_fst hp3
    have h2 := rel_snd hp3
    have h3 := ha3.1
    have h4 := ha3.2
    dsimp only [evaluationProcessor]
    exact UnifR.pure (rel_pair (rel_append h1 (rel_cons h4 rel_nil))
      (rel_append h2 (rel_cons (rel_add (rel_add h4 h3) ht) rel_nil)))
  · loc
  intro m4 p4 hm hp4
  have hq := hq.mono hm
  have hz := rel_up hm hz
  have ht := rel_up hm ht
  refine unif_foldlMConst _ ?_ hp4 ?_
  · loc
  · intro i m5 p5 hm hp5
    exact unif_buildInternal (hq.mono hm) (rel_up hm hz) (rel_up hm ht) i hp5

theorem unif_axbx {a b c d : Fam W F (Element F)} (ha : rel m a) (hb : rel m b) (hc : rel m c)
    (hd : rel m d) : Unif m fun w σ =>
      computeAxBx (q w σ) (z w σ) (t w σ) (a w σ) (b w σ) (c w σ) (d w σ) := by
  unfold computeAxBx
  refine Unif.bind2 (unif_buildClaims hq hz ht (p := fun _ _ => ([], [])) ⟨rel_nil, rel_nil⟩)
    (by loc) ?_
  intro _ k l hm hk hl
  lift_rels hm
  refine Unif.bind (unif_foldTwoLayer GROUP_SIZE NUM_GROUPS (by decide) hk ha hb) (by loc) ?_
  intro _ _ hm _
  lift_rels hm
  refine Unif.bind (unif_foldTwoLayer GROUP_SIZE NUM_GROUPS (by decide) hl hc hd) (by loc) ?_
  intro _ _ hm _
  lift_rels hm
  unifs
end
macro_rules | `(tactic| unif_lem) => `(tactic| apply unif_axbx)

/-! ### The quotient -/

theorem unif_invertAll {n : ℕ} {es : Fam W F (List (Element F))} (he : ListN n m es)
    {as : Fam W F (List F)} (ha : Loc m as) (hl : ∀ w σ, (as w σ).length = n) :
    UnifR (ListN n) m fun w σ => invertAll (es w σ) (as w σ) := by
  induction n generalizing m es as with
  | zero =>
    simp only [he.eq_nil, invertAll]
    exact UnifR.pure ListN.nil
  | succ n ih =>
    obtain ⟨b1, l1, hb1, hl1, e1⟩ := he.uncons
    have e2 : ∀ w σ, as w σ = (as w σ).headD 0 :: (as w σ).tail := fun w σ => by
      have := hl w σ
      cases h : as w σ with
      | nil => rw [h] at this; cases this
      | cons a l => rfl
    have e3 : (fun w σ => invertAll (es w σ) (as w σ)) = fun w σ =>
        invertAll (b1 w σ :: l1 w σ) ((as w σ).headD 0 :: (as w σ).tail) := by
      funext w σ
      rw [← e1, ← e2]
    rw [e3]
    simp only [invertAll]
    clear e1 he e2 e3
    refine Unif.bind (unif_invertWith hb1 ?_) ?_ ?_
    · intro w σ τ ag; simp only [ha w σ τ ag]
    · intro w σ τ ag; simp only [ha w σ τ ag, hl1.loc w ag]
    · intro m' x hm hx
      lift_rels hm
      refine UnifR.bindR (ih hl1 (as := fun w σ => (as w σ).tail) ?_ fun w σ => ?_) ?_ ?_
      · intro w σ τ ag; simp only [ha w σ τ ag]
      · simp [hl w σ]
      · loc
      · intro _ _ hm h
        lift_rels hm
        exact UnifR.pure (ListN.cons hx h)

theorem unif_inverter {n : ℕ} {es : Fam W F (List (Element F))} (he : ListN n m es) :
    UnifR (ListN n) m fun w σ => inverterInvert (es w σ) := by
  unfold inverterInvert
  refine unif_invertAll he ?_ fun w σ => ?_
  · loc
  · simp [batchInvert, he.length]

structure CDenR (m : ℕ) (c : Fam W F (ChildDenominators F)) : Prop where
  u : rel m fun w σ => (c w σ).u
  y : rel m fun w σ => (c w σ).y
  x : rel m fun w σ => (c w σ).x
  circuitId : rel m fun w σ => (c w σ).circuitId

structure DenR (m : ℕ) (c : Fam W F (Denominators F)) : Prop where
  left : CDenR m fun w σ => (c w σ).left
  right : CDenR m fun w σ => (c w σ).right
  w : rel m fun w σ => (c w σ).w
  x : rel m fun w σ => (c w σ).x
  y : rel m fun w σ => (c w σ).y
  xz : rel m fun w σ => (c w σ).xz
  internal : ∀ i, rel m fun w σ => (c w σ).internal i

section
variable {N : ℕ} {pre : Fam W F (PreambleOutput F)} (hpre : PreR N m pre)
  {w₀ x y z u : Fam W F (Element F)} (hw : rel m w₀) (hx : rel m x) (hy : rel m y) (hz : rel m z)
  (hu : rel m u) (E : Env F)
include hpre hw hx hy

theorem rel_points {xz : Fam W F (Element F)} (hxz : rel m xz) :
    ListN 25 m fun w σ => denominatorPoints E (w₀ w σ) (x w σ) (y w σ) (xz w σ) (pre w σ) := by
  unfold denominatorPoints
  have l1 : rel (α := Element F) m fun w σ => (pre w σ).left.unified .u := hpre.left.unified .u
  have l2 : rel (α := Element F) m fun w σ => (pre w σ).left.unified .y := hpre.left.unified .y
  have l3 : rel (α := Element F) m fun w σ => (pre w σ).left.unified .x := hpre.left.unified .x
  have l4 := hpre.left.circuitId
  have r1 : rel (α := Element F) m fun w σ => (pre w σ).right.unified .u := hpre.right.unified .u
  have r2 : rel (α := Element F) m fun w σ => (pre w σ).right.unified .y := hpre.right.unified .y
  have r3 : rel (α := Element F) m fun w σ => (pre w σ).right.unified .x := hpre.right.unified .x
  have r4 := hpre.right.circuitId
  refine ListN.append (n := 12) (n' := 13) ?_ ?_
  · exact .cons l1 (.cons l2 (.cons l3 (.cons l4 (.cons r1 (.cons r2 (.cons r3 (.cons r4
      (.cons hw (.cons hx (.cons hy (.cons hxz .nil)))))))))))
  · exact ⟨NativeId.all.map fun id _ _ => Element.constant (id.omega E), rfl, by
      intro b hb
      obtain ⟨i, -, rfl⟩ := List.mem_map.1 hb
      exact rel_constant _, fun w σ => by simp⟩

include hz hu

theorem unif_denominators : UnifR DenR m fun w σ =>
    Denominators.new E (u w σ) (w₀ w σ) (x w σ) (y w σ) (z w σ) (pre w σ) := by
  unfold Denominators.new
  refine Unif.bind (unif_mul hx hz) (by loc) ?_
  intro m1 xz hm hxz
  lift_rels hm
  have hd : ListN 25 m1 fun w σ =>
      (denominatorPoints E (w₀ w σ) (x w σ) (y w σ) (xz w σ) (pre w σ)).map fun v =>
        (u w σ).sub v := by
    obtain ⟨ls, h1, h2, h3⟩ := rel_points hpre hw hx hy E hxz
    refine ⟨ls.map fun b w σ => (u w σ).sub (b w σ), by simpa using h1, ?_, fun w σ => by simp [h3]⟩
    intro b hb
    obtain ⟨c, hc, rfl⟩ := List.mem_map.1 hb
    exact rel_sub hu (h2 c hc)
  refine UnifR.bindR (unif_inverter hd) (by intro w σ τ ag; rfl) ?_
  intro m2 inv hm hinv
  have e : (12 + NativeId.all.length) = 25 := rfl
  simp only [hinv.length, e, ne_eq, not_true_eq_false, if_false]
  have hg : ∀ i, rel m2 fun w σ => (inv w σ).getD i Element.zero := fun i =>
    rel_lgetD i hinv.rel rel_zero
  exact UnifR.pure ⟨⟨hg _, hg _, hg _, hg _⟩, ⟨hg _, hg _, hg _, hg _⟩, hg _, hg _, hg _, hg _,
    fun i => hg _⟩

variable {e : Fam W F (EvalOutput (Element F))} (he : EvalR m e)
  {q : Fam W F (QueryOutput (Element F))} (hq : QueryR m q) {ax bx : Fam W F (Element F)}
  (hax : rel m ax) (hbx : rel m bx)
include he hq hax hbx

omit hw hx hy hz hu in
theorem rel_queries {d : Fam W F (Denominators F)} (hd : DenR m d) : rel m fun w σ =>
    polyQueries (e w σ) (q w σ) (pre w σ) (d w σ) (ax w σ) (bx w σ) := by
  unfold polyQueries
  have l1 : rel (α := Element F) m fun w σ => (pre w σ).left.unified .v := hpre.left.unified .v
  have r1 : rel (α := Element F) m fun w σ => (pre w σ).right.unified .v := hpre.right.unified .v
  refine rel_append (rel_append ?_ ?_) ?_
  · refine rel_cons ⟨he.left.p, l1, hd.left.u⟩ ?_
    refine rel_cons ⟨he.right.p, r1, hd.right.u⟩ ?_
    refine rel_cons ⟨he.left.xy, hq.left.xyw, hd.w⟩ ?_
    refine rel_cons ⟨he.right.xy, hq.right.xyw, hd.w⟩ ?_
    refine rel_cons ⟨he.wx0, hq.left.xyw, hd.left.y⟩ ?_
    refine rel_cons ⟨he.wx1, hq.right.xyw, hd.right.y⟩ ?_
    refine rel_cons ⟨he.wx0, hq.left.wyx, hd.y⟩ ?_
    refine rel_cons ⟨he.wx1, hq.right.wyx, hd.y⟩ ?_
    refine rel_cons ⟨he.wy, hq.left.wyx, hd.left.x⟩ ?_
    refine rel_cons ⟨he.wy, hq.right.wyx, hd.right.x⟩ ?_
    refine rel_cons ⟨he.wy, hq.wxy, hd.x⟩ ?_
    refine rel_cons ⟨he.xy, hq.wxy, hd.w⟩ ?_
    refine rel_cons ⟨he.xy, hq.left.xyc, hd.left.circuitId⟩ ?_
    refine rel_cons ⟨he.xy, hq.right.xyc, hd.right.circuitId⟩ ?_
    refine rel_cons ⟨he.left.a, hq.left.a, hd.xz⟩ ?_
    refine rel_cons ⟨he.left.b, hq.left.b, hd.x⟩ ?_
    refine rel_cons ⟨he.right.a, hq.right.a, hd.xz⟩ ?_
    refine rel_cons ⟨he.right.b, hq.right.b, hd.x⟩ ?_
    refine rel_cons ⟨he.a, hax, hd.xz⟩ ?_
    exact rel_cons ⟨he.b, hbx, hd.x⟩ rel_nil
  · simp only [List.flatMap_cons, List.flatMap_nil]
    refine rel_append ?_ (rel_append ?_ rel_nil)
    · exact rel_mapConst _ fun i => ⟨he.left.rx i, hq.left.rx i, hd.xz⟩
    · exact rel_mapConst _ fun i => ⟨he.right.rx i, hq.right.rx i, hd.xz⟩
  · exact rel_mapConst _ fun i => ⟨he.xy, hq.fixed i, hd.internal i⟩

omit hpre hw hx hy hz hu he hq hax hbx in
theorem unif_accumulate {a : Fam W F (Element F)} (ha : rel m a)
    {h : Fam W F (Option (Element F))} (hh : rel m h)
    {l : Fam W F (List (Element F × Element F × Element F))} (hl : rel m l) :
    Unif m fun w σ => accumulateQueries (a w σ) (h w σ) (l w σ) := by
  obtain ⟨n, hl⟩ := rel_listN hl
  induction n generalizing m l h with
  | zero =>
    simp only [hl.eq_nil, accumulateQueries]
    exact UnifR.pure hh
  | succ n ih =>
    obtain ⟨b1, l1, ⟨h1, h2, h3⟩, hl1, e1⟩ := hl.uncons
    simp only [e1, accumulateQueries]
    clear e1 hl
    refine Unif.bind (unif_mul (rel_sub h1 h2) h3) (by loc) ?_
    intro _ t hm ht
    lift_rels hm
    refine Unif.bind (unif_hwrite ha hh ht) (by loc) ?_
    intro _ t2 hm ht2
    lift_rels hm
    exact ih ha ht2 hl1.rel hl1

theorem unif_quotient {a : Fam W F (Element F)} (ha : rel m a) : Unif m fun w σ =>
    quotientValue E (u w σ) (w₀ w σ) (x w σ) (y w σ) (z w σ) (a w σ) (pre w σ) (e w σ) (q w σ)
      (ax w σ) (bx w σ) := by
  unfold quotientValue
  refine UnifR.bindR (unif_denominators hpre hw hx hy hz hu E) (by loc) ?_
  intro _ d hm hd
  lift_rels hm
  refine Unif.bind (unif_accumulate ha rel_none (rel_queries hpre he hq hax hbx hd)) (by loc) ?_
  intro _ _ hm _
  exact UnifR.pure (by rels)
end

/-! ### The circuit -/

theorem unif_consistent (b : F) {o : Fam W F (UnifiedOutput F)} (ho : UR m o) :
    Unif m fun w σ => (o w σ).enforceConsistent b := by
  unfold UnifiedOutput.enforceConsistent
  have h (s : SlotId) : KR s.kind m fun w σ => o w σ s := ho s
  refine Unif.then (unif_enforceConsistent b (ho .bridgePreamble)) (by loc) ?_
  intro _ hm
  lift_rels hm
  refine Unif.then (unif_enforceConsistent b (ho .bridgeSPrime)) (by loc) ?_
  intro _ hm
  lift_rels hm
  refine Unif.then (unif_enforceConsistent b (ho .bridgeInnerError)) (by loc) ?_
  intro _ hm
  lift_rels hm
  refine Unif.then (unif_enforceConsistent b (ho .bridgeOuterError)) (by loc) ?_
  intro _ hm
  lift_rels hm
  refine Unif.then (unif_enforceConsistent b (ho .bridgeAb)) (by loc) ?_
  intro _ hm
  lift_rels hm
  refine Unif.then (unif_enforceConsistent b (ho .bridgeQuery)) (by loc) ?_
  intro _ hm
  lift_rels hm
  refine Unif.then (unif_enforceConsistent b (ho .bridgeF)) (by loc) ?_
  intro _ hm
  lift_rels hm
  exact unif_enforceConsistent b (ho .bridgeEval)

theorem unif_preConsistent (b : F) {N : ℕ} {pre : Fam W F (PreambleOutput F)} (hpre : PreR N m pre) :
    Unif m fun w σ => (pre w σ).enforceConsistent b := by
  unfold PreambleOutput.enforceConsistent
  refine Unif.then (unif_consistent b hpre.left.unified) (by loc) ?_
  intro _ hm
  lift_rels hm
  exact unif_consistent b hpre.right.unified

macro "read_c" s:term : tactic => `(tactic|
  (refine UnifR.bind2R (α := Element _) (R := rel) (unif_read (by assumption) _ $s (by decide))
      (by loc; all_goals rfl) ?_
   intro _ _ _ hm _ _; lift_rels hm))
macro "prov_c" s:term : tactic => `(tactic|
  (refine UnifR.bindR (unif_provide (by assumption) $s (by decide) ?_) ?_ ?_ <;>
    [(change rel (α := Element _) _ _; rels); loc; (intro _ _ hm _; lift_rels hm)]))

theorem unif_computeV (E : Env F) (ec : EndoConsts F) (b : F) (k : ℕ) {N : ℕ}
    {pre : Fam W F (PreambleOutput F)} (hpre : PreR N m pre)
    {q : Fam W F (QueryOutput (Element F))} (hq : QueryR m q)
    {e : Fam W F (EvalOutput (Element F))} (he : EvalR m e)
    {inst : Fam W F (UnifiedInstance F)} (hi : Loc m inst) : UnifR (OutR 30) m fun w σ =>
      computeV E ec b k (pre w σ) (q w σ) (e w σ) (inst w σ) := by
  unfold computeV
  have hB : BR [] m fun w σ => OutputBuilder.new (inst w σ) := BR.new hi
  have hew := he.write
  dsimp only
  refine Unif.then (unif_preConsistent b hpre) (by loc) ?_
  intro _ hm
  lift_rels hm
  read_c .w
  read_c .y
  read_c .z
  read_c .x
  unif_step
  read_c .mu
  read_c .nu
  read_c .muPrime
  read_c .nuPrime
  unif_step
  unif_step
  unif_step
  unif_step
  unif_step
  read_c .alpha
  read_c .u
  refine Unif.bind (unif_quotient hpre (by rels) (by rels) (by rels) (by rels) (by rels) E he hq
    (by rels) (by rels) (by rels)) (by loc) ?_
  intro _ _ hm _
  lift_rels hm
  read_c .preBeta
  unif_step
  unif_step
  unif_step
  unif_step
  prov_c .v
  exact (unif_finish b (by assumption))

end Ragu.Unif

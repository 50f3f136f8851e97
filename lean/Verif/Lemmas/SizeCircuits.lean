/-
The sizes of the internal circuits.
-/
import Verif.Lemmas.SizePcd

set_option linter.unusedSectionVars false

namespace Ragu.Pcd
open Ragu Ragu.Circuit Ragu.Registry Ragu.Gadget Ragu.Gadget.Poseidon Ragu.Spec
variable {F : Type} [Field F] [DecidableEq F]

/-! ### The unified output -/

/-- The size of the allocation of a field. -/
def Kind.size : Kind → Size
  | .point => ⟨3, 0, 5⟩
  | .element => ⟨0, 1, 0⟩

theorem sized_kind (b : F) : ∀ (k : Kind) (v : k.Native F),
    Sized (fun _ => True) (k.alloc b v) k.size
  | .point, p => Point.sized_alloc b p
  | .element, e => Element.sized_alloc e

/-- The fields that have been filled so far. -/
def HasSlots (l : List SlotId) (B : OutputBuilder F) : Prop :=
  ∀ s, (B.slots s).value.isSome = decide (s ∈ l)

theorem hasSlots_new (inst : UnifiedInstance F) : HasSlots [] (OutputBuilder.new inst) := by
  intro s
  simp [OutputBuilder.new, Slot.new]

theorem hasSlots_update {l : List SlotId} {B : OutputBuilder F} (h : HasSlots l B) (s : SlotId)
    (v : Slot F s.kind) (hv : v.value.isSome) :
    HasSlots (s :: l) { B with slots := Function.update B.slots s v } := by
  intro t
  by_cases hts : t = s
  · subst hts
    simp [hv]
  · simp [h t, hts]

theorem sized_read (b : F) {l : List SlotId} {B : OutputBuilder F} (h : HasSlots l B) (s : SlotId)
    (hs : s ∉ l) : Sized (fun r => HasSlots (s :: l) r.2) (B.read b s) s.kind.size := by
  unfold OutputBuilder.read Slot.read
  rw [h s, decide_eq_false hs]
  simp only [Bool.false_eq_true, if_false]
  refine (Sized.bind (Q := fun r => r.2.value.isSome) ?_ fun r hr =>
      .pure (hasSlots_update h s r.2 hr)).cast (Size.add_zero _)
  refine ((sized_kind b _ _).bind' fun _ => .pure ?_).cast (Size.add_zero _)
  rfl

theorem sized_receive (b : F) {l : List SlotId} {B : OutputBuilder F} (h : HasSlots l B) (s : SlotId)
    (hs : s ∉ l) : Sized (fun r => HasSlots (s :: l) r.2) (B.receive b s) s.kind.size := by
  unfold OutputBuilder.receive Slot.receive
  rw [h s, decide_eq_false hs]
  simp only [Bool.false_eq_true, if_false]
  refine (Sized.bind (Q := fun r => r.2.value.isSome) ?_ fun r hr =>
      .pure (hasSlots_update h s r.2 hr)).cast (Size.add_zero _)
  refine ((sized_kind b _ _).bind' fun _ => .pure ?_).cast (Size.add_zero _)
  rfl

theorem sized_provide {l : List SlotId} {B : OutputBuilder F} (h : HasSlots l B) (s : SlotId)
    (hs : s ∉ l) (g : s.kind.Gadget F) : Sized (HasSlots (s :: l)) (B.provide s g) 0 := by
  unfold OutputBuilder.provide Slot.provide
  rw [h s, decide_eq_false hs]
  simp only [Bool.false_eq_true, if_false]
  exact .pure (hasSlots_update h s _ rfl)

/-- The size of the fields that are still to be allocated. -/
def restSize (l : List SlotId) : Size :=
  SlotId.all.foldr (fun s t => (if s ∈ l then 0 else s.kind.size) + t) 0

theorem sized_forEachSlot {β : SlotId → Type} {f : (s : SlotId) → Syn F (β s)} {sz : SlotId → Size}
    (h : ∀ s, Sized (fun _ => True) (f s) (sz s)) :
    Sized (fun _ => True) (forEachSlot f) (SlotId.all.foldr (fun s t => sz s + t) 0) :=
  (h _).bind' fun _ => (h _).bind' fun _ => (h _).bind' fun _ => (h _).bind' fun _ =>
  (h _).bind' fun _ => (h _).bind' fun _ => (h _).bind' fun _ => (h _).bind' fun _ =>
  (h _).bind' fun _ => (h _).bind' fun _ => (h _).bind' fun _ => (h _).bind' fun _ =>
  (h _).bind' fun _ => (h _).bind' fun _ => (h _).bind' fun _ => (h _).bind' fun _ =>
  (h _).bind' fun _ => (h _).bind' fun _ => (h _).bind' fun _ => (h _).bind' fun _ =>
  (h _).bind' fun _ => .pure trivial

theorem sized_finishNoSuffix (b : F) {l : List SlotId} {B : OutputBuilder F} (h : HasSlots l B) :
    Sized (fun _ => True) (B.finishNoSuffix b) (restSize l) := by
  unfold OutputBuilder.finishNoSuffix
  refine (Sized.bind' (t := 0) (sized_forEachSlot (sz := fun s => if s ∈ l then 0 else s.kind.size)
    fun s => ?_) fun o => ?_).cast (Size.add_zero _)
  · unfold Slot.take
    have hs := h s
    cases hv : (B.slots s).value with
    | some v =>
      rw [hv] at hs
      rw [if_pos (by simpa using hs.symm)]
      exact .pure trivial
    | none =>
      rw [hv] at hs
      rw [if_neg (by simpa using hs.symm)]
      exact sized_kind b _ _
  · split
    · exact .pure trivial
    · exact .check (.pure trivial)

theorem sized_finish (b : F) {l : List SlotId} {B : OutputBuilder F} (h : HasSlots l B) :
    Sized (fun _ => True) (B.finish b) (restSize l) :=
  ((sized_finishNoSuffix b h).bind' fun _ => .pure trivial).cast (Size.add_zero _)

theorem sized_states : ∀ (a b : List (Element F)), a.length = b.length →
    Sized (fun _ => True) (Transcript.enforceEqualStates a b) ⟨0, 0, a.length⟩
  | [], [], _ => .pure trivial
  | _ :: a, _ :: b, h => ((sized_enforceEqual _ _).bind' fun _ => sized_states a b (by
      simpa using h)).cast (by size_eq)
  | [], _ :: _, h => absurd h (by simp)
  | _ :: _, [], h => absurd h (by simp)

theorem unified_write_length (o : UnifiedOutput F) : o.write.length = 29 := rfl

/-- The lengths of the lists of a child. -/
structure ChildLengths (N : ℕ) (c : ChildInputs F) : Prop where
  left : c.leftHeader.length = N
  right : c.rightHeader.length = N
  output : c.outputHeader.length = N

/-! ### The circuits -/

theorem bindB {α β : Type} {Q : α → Prop} {R : β → Prop} {x : Syn F α} {f : α → Syn F β}
    {s base z : Size} (h : Sized Q x s) (k : ∀ a, Q a → Sized R (f a) (base + z)) :
    Sized R (x >>= f) (s + base + z) := by
  rw [Size.add_assoc]; exact h.bind k

theorem endB {α : Type} {p : PoseidonParams F} {Q : α → Prop} {x : Syn F α} {s : Size} {sq : Bool} {j : ℕ}
    (h : Sized Q x s) : Sized Q x (s + (permSize p).times (permutations p.rate sq j [])) :=
  h.cast (by apply Size.ext <;> simp [permutations])

theorem sized_hashes1 {p : PoseidonParams F} (hp : WF p) (hr : 1 ≤ p.rate) (hT : p.rate ≤ p.T)
    (tag : List UInt8) (b : F) (k : ℕ) {N : ℕ} (hN : 1 ≤ N) {pre : PreambleOutput F}
    (hl : ChildLengths N pre.left) (hrt : ChildLengths N pre.right) {oe : OuterErrorOutput F}
    (hs : oe.spongeState.length = p.T) (inst : UnifiedInstance F) :
    Sized (fun _ => True) (hashes1Circuit p tag b k pre oe inst)
      (⟨2 * k + 10 * N + 88, 10, 4 * k + 20 * N + 176 + p.T⟩ +
        (permSize p).times (permutations p.rate false 0 (hashes1Calls (1 + (chunks 16 tag).length)))) := by
  refine Sized.cast (bindB (Element.sized_root _ k) fun _ _ => bindB (Element.sized_root _ k) fun _ _ =>
    sized_new_then hp hr tag fun sq j t h hj =>
    bindB (sized_receive b (hasSlots_new inst) .bridgePreamble (by decide)) fun x hB =>
    sized_point_then hp hr x.1 h fun j t h hj => sized_challenge_then hp hr hT h (fun _ => hj) fun j w t h =>
    bindB (sized_provide hB .w (by decide) w) fun B hB =>
    bindB (sized_receive b hB .bridgeSPrime (by decide)) fun x hB =>
    sized_point_then hp hr x.1 h fun j t h hj => sized_challenge_then hp hr hT h (fun _ => hj) fun j y t h =>
    sized_challenge_then hp hr hT h (by simp) fun j z t h =>
    bindB (sized_provide hB .y (by decide) y) fun B hB =>
    bindB (sized_provide hB .z (by decide) z) fun B hB =>
    bindB (sized_applicationKy hN hl.left hl.right hl.output y) fun _ _ =>
    bindB (sized_applicationKy hN hrt.left hrt.right hrt.output y) fun _ _ =>
    bindB (sized_enforceEqual _ _) fun _ _ => bindB (sized_enforceEqual _ _) fun _ _ =>
    bindB (sized_unifiedKyValues hl.left hl.right rfl y) fun _ _ =>
    bindB (sized_unifiedKyValues hrt.left hrt.right rfl y) fun _ _ =>
    bindB (sized_enforceEqual _ _) fun _ _ => bindB (sized_enforceEqual _ _) fun _ _ =>
    bindB (sized_enforceEqual _ _) fun _ _ => bindB (sized_enforceEqual _ _) fun _ _ =>
    bindB (sized_receive b hB .bridgeInnerError (by decide)) fun x hB =>
    sized_point_then hp hr x.1 h fun j t h hj => sized_save_then hp hr h rfl hj fun st hst =>
    ((sized_states _ _ (hst.trans hs.symm)).cast (t := ⟨0, 0, p.T⟩) (by rw [hst])).bind' fun _ =>
    (sized_finishNoSuffix b hB).bind' fun _ => .pure trivial) ?_
  rw [show restSize [.bridgeInnerError, .z, .y, .bridgeSPrime, .w, .bridgePreamble] = ⟨15, 10, 25⟩
    from rfl]
  simp only [SlotId.kind, Kind.size, hashes1Calls]
  generalize permutations _ _ _ _ = q
  size_eq

theorem sized_hashes2 {p : PoseidonParams F} (hp : WF p) (hr : 1 ≤ p.rate) (hT : p.rate ≤ p.T)
    (b : F) {oe : OuterErrorOutput F} (hs : oe.spongeState.length = p.T) (inst : UnifiedInstance F) :
    Sized (fun _ => True) (hashes2Circuit p b oe inst)
      (⟨24, 5, 40⟩ + (permSize p).times (permutations p.rate true p.rate hashes2Calls)) := by
  have h0 : Phase p.rate p.T true p.rate (Sponge.resume p.rate oe.spongeState) := by
    simp [Phase, Sponge.resume, Sponge.getRate, hs, hT]
  refine Sized.cast (sized_challenge_then hp hr hT h0 (by simp) fun j mu t h =>
    bindB (sized_provide (hasSlots_new inst) .mu (by decide) mu) fun B hB =>
    sized_challenge_then hp hr hT h (by simp) fun j nu t h =>
    bindB (sized_provide hB .nu (by decide) nu) fun B hB =>
    bindB (sized_receive b hB .bridgeOuterError (by decide)) fun x hB =>
    sized_point_then hp hr x.1 h fun j t h hj => sized_challenge_then hp hr hT h (fun _ => hj) fun j muP t h =>
    sized_challenge_then hp hr hT h (by simp) fun j nuP t h =>
    bindB (sized_provide hB .muPrime (by decide) muP) fun B hB =>
    bindB (sized_provide hB .nuPrime (by decide) nuP) fun B hB =>
    bindB (sized_receive b hB .bridgeAb (by decide)) fun x hB =>
    sized_point_then hp hr x.1 h fun j t h hj => sized_challenge_then hp hr hT h (fun _ => hj) fun j c t h =>
    bindB (sized_provide hB .x (by decide) c) fun B hB =>
    bindB (sized_receive b hB .bridgeQuery (by decide)) fun x hB =>
    sized_point_then hp hr x.1 h fun j t h hj => sized_challenge_then hp hr hT h (fun _ => hj) fun j c t h =>
    bindB (sized_provide hB .alpha (by decide) c) fun B hB =>
    bindB (sized_receive b hB .bridgeF (by decide)) fun x hB =>
    sized_point_then hp hr x.1 h fun j t h hj => sized_challenge_then hp hr hT h (fun _ => hj) fun j c t h =>
    bindB (sized_provide hB .u (by decide) c) fun B hB =>
    bindB (sized_receive b hB .bridgeEval (by decide)) fun x hB =>
    sized_point_then hp hr x.1 h fun j t h hj => sized_challenge_then hp hr hT h (fun _ => hj) (r := []) fun j c t h =>
    bindB (sized_provide hB .preBeta (by decide) c) fun B hB =>
    endB (sized_finish b hB)) ?_
  · rw [show restSize [.preBeta, .bridgeEval, .u, .bridgeF, .alpha, .bridgeQuery, .x, .bridgeAb, .nuPrime,
      .muPrime, .bridgeOuterError, .nu, .mu] = ⟨9, 5, 15⟩ from rfl]
    simp only [SlotId.kind, Kind.size]
    rw [show [SpongeCall.squeeze, SpongeCall.squeeze, SpongeCall.absorb, SpongeCall.absorb, SpongeCall.squeeze,
            SpongeCall.squeeze, SpongeCall.absorb, SpongeCall.absorb, SpongeCall.squeeze, SpongeCall.absorb,
            SpongeCall.absorb, SpongeCall.squeeze, SpongeCall.absorb, SpongeCall.absorb, SpongeCall.squeeze,
            SpongeCall.absorb, SpongeCall.absorb, SpongeCall.squeeze] = hashes2Calls from rfl]
    generalize permutations _ _ _ _ = q
    size_eq

theorem sized_innerCollapseLoop (cf : Fold.ClaimFolder F) {m : ℕ} (hm : 1 ≤ m) (ky : ℕ → Element F)
    (collapsed : List (Element F)) : ∀ (i : ℕ) (ls : List (List (Element F))),
    (∀ e ∈ ls, e.length = m * m - m) → i + ls.length ≤ collapsed.length →
    Sized (fun _ => True) (innerCollapseLoop cf m ky collapsed i ls)
      (Size.times ls.length ⟨m * m - 1, 0, 2 * (m * m - 1) + 1⟩)
  | _, [], _, _ => by
    refine Sized.cast (.pure trivial) ?_
    apply Size.ext <;> simp
  | i, e :: ls, h, hc => by
    simp only [List.length_cons] at hc
    unfold innerCollapseLoop
    refine ((sized_foldProducts hm _ _ (h e (by simp)).ge (by simp)).bind' fun v => ?_).cast
      (s := _ + (⟨0, 0, 1⟩ + Size.times ls.length ⟨m * m - 1, 0, 2 * (m * m - 1) + 1⟩)) (by
        apply Size.ext <;> simp <;> ring)
    rw [List.getElem?_eq_getElem (by omega)]
    exact (sized_enforceEqual _ _).bind' fun _ => sized_innerCollapseLoop cf hm ky collapsed (i + 1) ls
      (fun e he => h e (by simp [he])) (by omega)

theorem sized_innerCollapse (b : F) {m : ℕ} (hm : 1 ≤ m) (pre : PreambleOutput F)
    {oe : OuterErrorOutput F} {ls : List (List (Element F))} (h : ∀ e ∈ ls, e.length = m * m - m)
    (hc : ls.length ≤ oe.collapsed.length) (inst : UnifiedInstance F) :
    Sized (fun _ => True) (innerCollapseCircuit b m pre oe ls inst)
      (⟨26, 13, 44⟩ + Size.times ls.length ⟨m * m - 1, 0, 2 * (m * m - 1) + 1⟩) := by
  refine Sized.cast ((sized_read b (hasSlots_new inst) .mu (by decide)).bind fun x hB =>
    (sized_read b hB .nu (by decide)).bind fun y hB => (sized_newFolder _ _).bind' fun cf =>
    (sized_innerCollapseLoop cf hm _ _ 0 ls h (by omega)).bind' fun _ => sized_finish b hB) ?_
  rw [show restSize [.nu, .mu] = ⟨24, 11, 40⟩ from rfl]
  simp only [SlotId.kind, Kind.size]
  size_eq

theorem sized_outerCollapse (b : F) {N : ℕ} (hN : 1 ≤ N) {g : ℕ} (hg : 1 ≤ g) {pre : PreambleOutput F}
    (hl : pre.left.outputHeader.length = N) (hr : pre.right.outputHeader.length = N)
    {oe : OuterErrorOutput F} (h1 : oe.errorTerms.length = g * g - g) (h2 : oe.collapsed.length = g)
    (inst : UnifiedInstance F) :
    Sized (fun _ => True) (outerCollapseCircuit b N g pre oe inst)
      ⟨32 + (g * g - 1), 13, 57 + 2 * (g * g - 1)⟩ := by
  refine Sized.cast ((sized_read b (hasSlots_new inst) .muPrime (by decide)).bind fun x hB =>
    (sized_read b hB .nuPrime (by decide)).bind fun y hB => (sized_newFolder _ _).bind' fun cf =>
    (sized_foldProducts hg _ _ h1.ge h2.ge).bind' fun _ =>
    (sized_receive b hB .c (by decide)).bind fun z hB => (sized_isBaseCase hN hl hr).bind' fun _ =>
    (Boolean.sized_conditionalEnforceEqual _ _ _).bind' fun _ => sized_finish b hB) ?_
  rw [show restSize [.c, .nuPrime, .muPrime] = ⟨24, 10, 40⟩ from rfl]
  simp only [SlotId.kind, Kind.size]
  size_eq

/-! ### `compute_v` -/

theorem sized_consistent (b : F) (o : UnifiedOutput F) :
    Sized (fun _ => True) (o.enforceConsistent b) ⟨24, 0, 56⟩ :=
  ((Point.sized_enforceConsistent _ _).bind' fun _ => (Point.sized_enforceConsistent _ _).bind' fun _ =>
    (Point.sized_enforceConsistent _ _).bind' fun _ => (Point.sized_enforceConsistent _ _).bind' fun _ =>
    (Point.sized_enforceConsistent _ _).bind' fun _ => (Point.sized_enforceConsistent _ _).bind' fun _ =>
    (Point.sized_enforceConsistent _ _).bind' fun _ => Point.sized_enforceConsistent _ _).cast rfl

theorem sized_preambleConsistent (b : F) (o : PreambleOutput F) :
    Sized (fun _ => True) (o.enforceConsistent b) ⟨48, 0, 112⟩ :=
  ((sized_consistent _ _).bind' fun _ => sized_consistent _ _).cast rfl

theorem sized_invertAll : ∀ (es : List (Element F)) (as : List F), es.length = as.length →
    Sized (fun r => r.length = es.length) (invertAll es as) ⟨es.length, 0, 2 * es.length⟩
  | [], _, _ => .pure rfl
  | e :: es, a :: as, h => ((Element.sized_invertWith _ _).bind' fun _ =>
      (sized_invertAll es as (by simpa using h)).bind fun r hr => .pure (by simp [hr])).cast (by size_eq)
  | _ :: _, [], h => absurd h (by simp)

theorem denominatorPoints_length (E : Env F) (w x y xz : Element F) (pre : PreambleOutput F) :
    (denominatorPoints E w x y xz pre).length = 25 := rfl

theorem sized_denominators (E : Env F) (u w x y z : Element F) (pre : PreambleOutput F) :
    Sized (fun _ => True) (Denominators.new E u w x y z pre) ⟨26, 0, 52⟩ := by
  unfold Denominators.new
  refine ((Element.sized_mul _ _).bind' fun xz => (Sized.bind (sized_invertAll _ _ (by
    simp [batchInvert])) fun r hr => ?_).cast (s := _ + 0) (t := ⟨25, 0, 50⟩) (by
      apply Size.ext <;> simp [denominatorPoints_length])).cast rfl
  have : r.length = 12 + NativeId.all.length := by
    rw [hr, List.length_map, denominatorPoints_length]; rfl
  rw [if_neg (by simp [this])]
  exact .pure trivial

theorem sized_accumulate_some (alpha : Element F) : ∀ (qs : List (Element F × Element F × Element F))
    {h : Option (Element F)}, h.isSome → Sized (fun _ => True) (accumulateQueries alpha h qs)
      ⟨2 * qs.length, 0, 4 * qs.length⟩
  | [], _, _ => .pure trivial
  | (_, _, _) :: qs, _, h => ((Element.sized_mul _ _).bind' fun t =>
      (Horner.sized_write_some alpha h t).bind fun _ h => sized_accumulate_some alpha qs h).cast
        (by size_eq)

theorem sized_accumulate (alpha : Element F) (q : Element F × Element F × Element F)
    (qs : List (Element F × Element F × Element F)) :
    Sized (fun _ => True) (accumulateQueries alpha none (q :: qs))
      ⟨2 * qs.length + 1, 0, 4 * qs.length + 2⟩ := by
  obtain ⟨a, b, c⟩ := q
  exact ((Element.sized_mul _ _).bind' fun t => (Horner.sized_write_none alpha t).bind fun _ h =>
    sized_accumulate_some alpha qs h).cast (by size_eq)

theorem polyQueries_length (e : EvalOutput (Element F)) (q : QueryOutput (Element F))
    (pre : PreambleOutput F) (d : Denominators F) (ax bx : Element F) :
    (polyQueries e q pre d ax bx).length = 55 := rfl

theorem sized_quotientValue (E : Env F) (u w x y z alpha : Element F) (pre : PreambleOutput F)
    (e : EvalOutput (Element F)) (q : QueryOutput (Element F)) (ax bx : Element F) :
    Sized (fun _ => True) (quotientValue E u w x y z alpha pre e q ax bx) ⟨135, 0, 270⟩ := by
  unfold quotientValue
  refine ((sized_denominators E u w x y z pre).bind' fun d => Sized.bind' (s := ⟨109, 0, 218⟩)
    (t := 0) (Q := fun _ => True) ?_ fun _ => .pure trivial).cast rfl
  obtain ⟨a, l, h⟩ : ∃ a l, polyQueries e q pre d ax bx = a :: l := ⟨_, _, rfl⟩
  have hl := polyQueries_length e q pre d ax bx
  rw [h] at hl ⊢
  have : l.length = 54 := by simpa using hl
  have := sized_accumulate alpha a l
  rwa [‹l.length = 54›] at this

/-- What the claims add to the two lists. -/
abbrev Both (n : ℕ) (p : List (Element F) × List (Element F)) : Prop :=
  p.1.length = n ∧ p.2.length = n

section
variable (z txz : Element F) (fr : NativeId → Element F)

theorem sized_raw {n : ℕ} {p : List (Element F) × List (Element F)} (h : Both n p) (a b : Element F) :
    Sized (Both (n + 1)) ((evaluationProcessor z txz fr).rawClaim p a b) 0 :=
  .pure ⟨by simp [h.1], by simp [h.2]⟩

theorem sized_circuit {n : ℕ} {p : List (Element F) × List (Element F)} (h : Both n p) (a b : Element F) :
    Sized (Both (n + 1)) ((evaluationProcessor z txz fr).circuit p a b) 0 :=
  .pure ⟨by simp [h.1], by simp [h.2]⟩

theorem sized_internal {n : ℕ} {p : List (Element F) × List (Element F)} (h : Both n p) (id : NativeId)
    (l : List (Element F)) :
    Sized (Both (n + 1)) ((evaluationProcessor z txz fr).internalCircuit p id l) 0 :=
  .pure ⟨by simp [h.1], by simp [h.2]⟩

theorem sized_bonding {n : ℕ} {p : List (Element F) × List (Element F)} (h : Both n p) (id : NativeId)
    (l : List (Element F)) :
    Sized (Both (n + 1)) ((evaluationProcessor z txz fr).bonding p id l)
      ⟨l.length - 1, 0, 2 * (l.length - 1)⟩ :=
  ((Element.sized_fold l z).bind' fun _ => .pure ⟨by simp [h.1], by simp [h.2]⟩).cast (Size.add_zero _)

end

theorem sized_buildClaims (q : QueryOutput (Element F)) (z txz : Element F) :
    Sized (Both 22) (buildClaims (evaluationSource q) (evaluationProcessor z txz q.fixedRegistry) ([], []))
      ⟨12, 0, 24⟩ := by
  refine Sized.cast (s := 0 + (0 + ⟨12, 0, 24⟩)) (Sized.bind (Q := Both 2) (s := 0) ?_ fun p hp =>
    Sized.bind (Q := Both 4) (s := 0) ?_ fun p hp => ?_) rfl
  · exact (sized_raw z txz _ (n := 0) ⟨rfl, rfl⟩ _ _).bind fun p hp =>
      (sized_raw z txz _ hp _ _).bind fun p hp => .pure hp
  · exact (sized_circuit z txz _ hp _ _).bind fun p hp =>
      (sized_circuit z txz _ hp _ _).bind fun p hp => .pure hp
  · have two : ∀ {n : ℕ} {p : List (Element F) × List (Element F)}, Both n p →
        ∀ (id : NativeId) (a b : List (Element F)), Sized (Both (n + 2))
          ((evaluationProcessor z txz q.fixedRegistry).internalCircuit p id a >>= fun p =>
            (evaluationProcessor z txz q.fixedRegistry).internalCircuit p id b >>= fun p => Pure.pure p) 0 :=
      fun h id a b => (sized_internal z txz _ h id a).bind fun p hp =>
        (sized_internal z txz _ hp id b).bind fun p hp => .pure hp
    have one : ∀ {n : ℕ} {p : List (Element F) × List (Element F)}, Both n p →
        ∀ (id : NativeId) (l : List (Element F)) (k : ℕ), l.length = k + 1 → Sized (Both (n + 1))
          ((evaluationProcessor z txz q.fixedRegistry).bonding p id l) ⟨k, 0, 2 * k⟩ :=
      fun h id l k hl => (sized_bonding z txz _ h id l).cast (by simp [hl])
    simp only [NativeId.all, List.foldlM_cons, List.foldlM_nil]
    refine Sized.cast (s := 0 + (0 + (0 + (0 + (0 + (⟨1, 0, 2⟩ + (⟨1, 0, 2⟩ + (⟨1, 0, 2⟩ + (⟨1, 0, 2⟩ +
      (⟨1, 0, 2⟩ + (⟨1, 0, 2⟩ + (⟨5, 0, 10⟩ + (⟨1, 0, 2⟩ + 0))))))))))))) ?_ rfl
    refine Sized.bind (two hp .hashes1Circuit _ _) fun p hp => ?_
    refine Sized.bind (two hp .hashes2Circuit _ _) fun p hp => ?_
    refine Sized.bind (two hp .innerCollapseCircuit _ _) fun p hp => ?_
    refine Sized.bind (two hp .outerCollapseCircuit _ _) fun p hp => ?_
    refine Sized.bind (two hp .computeVCircuit _ _) fun p hp => ?_
    refine Sized.bind (one hp .preambleStage _ 1 rfl) fun p hp => ?_
    refine Sized.bind (one hp .innerErrorStage _ 1 rfl) fun p hp => ?_
    refine Sized.bind (one hp .outerErrorStage _ 1 rfl) fun p hp => ?_
    refine Sized.bind (one hp .queryStage _ 1 rfl) fun p hp => ?_
    refine Sized.bind (one hp .evalStage _ 1 rfl) fun p hp => ?_
    refine Sized.bind (one hp .innerErrorFinalStaged _ 1 rfl) fun p hp => ?_
    refine Sized.bind (one hp .outerErrorFinalStaged _ 5 rfl) fun p hp => ?_
    exact Sized.bind (one hp .evalFinalStaged _ 1 rfl) fun p hp => .pure hp

theorem chunks_22 {l : List (Element F)} (h : l.length = 22) : (chunks GROUP_SIZE l).length = 4 := by
  have step : ∀ {k : ℕ} {l : List (Element F)}, l.length = k + 7 →
      (chunks GROUP_SIZE l).length = 1 + (chunks GROUP_SIZE (l.drop 7)).length := by
    intro k l h
    rw [chunks, dif_neg (by rintro (rfl | h') <;> simp_all [GROUP_SIZE])]
    simp [GROUP_SIZE, Nat.add_comm]
  rw [step (k := 15) h, step (k := 8) (by simp [h]), step (k := 1) (by simp [h]), chunks, dif_neg]
  · rw [chunks, dif_pos (by left; apply List.eq_nil_of_length_eq_zero; simp [h, GROUP_SIZE])]
    rfl
  · rintro (h' | h')
    · have := congrArg List.length h'
      simp [h] at this
    · simp [GROUP_SIZE] at h'

theorem sized_computeAxBx (q : QueryOutput (Element F)) (z txz mi mpi mn mpn : Element F) :
    Sized (fun _ => True) (computeAxBx q z txz mi mpi mn mpn) ⟨96, 0, 192⟩ :=
  ((sized_buildClaims q z txz).bind fun p hp =>
    (sized_foldTwoLayer (by decide) _ _ _ (chunks_22 hp.1)).bind' fun _ =>
    (sized_foldTwoLayer (by decide) _ _ _ (chunks_22 hp.2)).bind' fun _ => .pure trivial).cast rfl

theorem eval_write_length (e : EvalOutput (Element F)) : e.write.length = 36 := rfl

theorem sized_computeV (E : Env F) (ec : EndoConsts F) (b : F) (k : ℕ) (pre : PreambleOutput F)
    (query : QueryOutput (Element F)) (eval : EvalOutput (Element F)) (inst : UnifiedInstance F) :
    Sized (fun _ => True) (computeV E ec b k pre query eval inst)
      ⟨353 + 6 * k + 3 * ec.nbits + ec.nbits / 2, 12, 714 + 12 * k + 6 * ec.nbits + 2 * (ec.nbits / 2)⟩ := by
  refine Sized.cast ((sized_preambleConsistent b pre).bind' fun _ =>
    (sized_read b (hasSlots_new inst) .w (by decide)).bind fun w hB =>
    (sized_read b hB .y (by decide)).bind fun y hB =>
    (sized_read b hB .z (by decide)).bind fun z hB =>
    (sized_read b hB .x (by decide)).bind fun x hB =>
    (Txz.sized_evaluate k _ _).bind' fun txz =>
    (sized_read b hB .mu (by decide)).bind fun mu hB =>
    (sized_read b hB .nu (by decide)).bind fun nu hB =>
    (sized_read b hB .muPrime (by decide)).bind fun muP hB =>
    (sized_read b hB .nuPrime (by decide)).bind fun nuP hB =>
    (Element.sized_invert _).bind' fun _ => (Element.sized_invert _).bind' fun _ =>
    (Element.sized_mul _ _).bind' fun _ => (Element.sized_mul _ _).bind' fun _ =>
    (sized_computeAxBx _ _ _ _ _ _ _).bind' fun _ =>
    (sized_read b hB .alpha (by decide)).bind fun al hB =>
    (sized_read b hB .u (by decide)).bind fun u hB =>
    (sized_quotientValue _ _ _ _ _ _ _ _ _ _ _ _).bind' fun fu =>
    (sized_read b hB .preBeta (by decide)).bind fun pb hB =>
    (Endoscalar.sized_extract _ _ _ _).bind fun e he =>
    (Endoscalar.sized_lift _ he.ge).bind' fun beta =>
    (Horner.sized_write_none beta fu).bind fun h hh =>
    (Horner.sized_writeAll_some beta eval.write hh).bind' fun h =>
    (sized_provide hB .v (by decide) _).bind fun B hB => sized_finish b hB) ?_
  rw [show restSize [.v, .preBeta, .u, .alpha, .nuPrime, .muPrime, .nu, .mu, .x, .z, .y, .w] =
    ⟨24, 1, 40⟩ from rfl]
  simp only [SlotId.kind, Kind.size, eval_write_length]
  size_eq

end Ragu.Pcd

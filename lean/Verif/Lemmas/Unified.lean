/-
The slots of the unified instance.
-/
import Verif.Spec.Unified
import Verif.Lemmas.Gadget.Point

set_option linter.unusedSectionVars false
namespace Ragu.Pcd
open Ragu Ragu.Circuit Ragu.Gadget Ragu.Spec Syn
variable {F : Type} [Field F] [DecidableEq F]

theorem SlotId.mem_all (s : SlotId) : s ∈ SlotId.all := by cases s <;> decide
theorem SlotId.nodup_all : SlotId.all.Nodup := by decide

theorem forEachSlot_sat {β : SlotId → Type} (f : (s : SlotId) → Syn F (β s))
    (r : (s : SlotId) → β s) : (forEachSlot f).sat r ↔ ∀ s, (f s).sat (r s) := by
  simp only [forEachSlot, sat_bind, sat_pure]
  constructor
  · rintro ⟨r0, h0, r1, h1, r2, h2, r3, h3, r4, h4, r5, h5, r6, h6, r7, h7, r8, h8, r9, h9, r10, h10,
      r11, h11, r12, h12, r13, h13, r14, h14, r15, h15, r16, h16, r17, h17, r18, h18, r19, h19,
      r20, h20, rfl⟩ s
    cases s <;> assumption
  · intro h
    refine ⟨_, h _, _, h _, _, h _, _, h _, _, h _, _, h _, _, h _, _, h _, _, h _, _, h _, _, h _,
      _, h _, _, h _, _, h _, _, h _, _, h _, _, h _, _, h _, _, h _, _, h _, _, h _, ?_⟩
    funext s
    cases s <;> rfl

theorem forEachSlot_sim {β : SlotId → Type} {f : (s : SlotId) → Syn F (β s)}
    {r : (s : SlotId) → β s} (h : ∀ s, (f s).sim = .ok (r s)) : (forEachSlot f).sim = .ok r := by
  rw [forEachSlot]
  iterate 21 rw [sim_bind_ok (h _)]
  show Except.ok _ = Except.ok _
  congr 1
  funext s
  cases s <;> rfl

/-! ### Coverage -/

theorem coverLoop (ws : SlotId → Bool) : ∀ (l : List SlotId), l.Nodup → ∀ cov : SlotId → Bool,
    l.foldlM (fun cov s => if ws s then cover cov s else some cov) cov =
      if ∀ s ∈ l, ws s = true → cov s = false then
        some (fun s => cov s || (decide (s ∈ l) && ws s)) else none := by
  intro l
  induction l with
  | nil => intro _ cov; simp
  | cons t l ih =>
    intro hn cov
    rw [List.nodup_cons] at hn
    rw [List.foldlM_cons]
    by_cases hw : ws t = true
    · rw [if_pos hw, cover]
      by_cases hc : cov t = true
      · rw [if_pos hc, if_neg]
        · rfl
        · intro h; have := h t (by simp) hw; rw [hc] at this; cases this
      · rw [if_neg hc]
        show (l.foldlM _ (Function.update cov t true)) = _
        rw [ih hn.2]
        have e : (∀ s ∈ l, ws s = true → Function.update cov t true s = false) ↔
            ∀ s ∈ t :: l, ws s = true → cov s = false := by
          constructor
          · intro h s hs hws
            rcases List.mem_cons.1 hs with rfl | hs'
            · simpa using hc
            · have := h s hs' hws
              rwa [Function.update_of_ne (by rintro rfl; exact hn.1 hs')] at this
          · intro h s hs hws
            rw [Function.update_of_ne (by rintro rfl; exact hn.1 hs)]
            exact h s (by simp [hs]) hws
        simp only [e]
        congr 1
        congr 1
        funext s
        by_cases hst : s = t
        · subst hst; simp [hw]
        · rw [Function.update_of_ne hst]; simp [hst]
    · rw [if_neg hw]
      show (l.foldlM _ cov) = _
      rw [ih hn.2]
      have e : (∀ s ∈ l, ws s = true → cov s = false) ↔
          ∀ s ∈ t :: l, ws s = true → cov s = false := by
        simp [hw]
      simp only [e]
      congr 1
      congr 1
      funext s
      by_cases hst : s = t
      · subst hst; simp [hw]
      · simp [hst]

open Classical in
theorem coverAll_eq (ws cov : SlotId → Bool) : coverAll ws cov =
    if ∀ s, ws s = true → cov s = false then some (fun s => cov s || ws s) else none := by
  rw [coverAll, coverLoop ws _ SlotId.nodup_all]
  simp only [SlotId.mem_all, decide_true, Bool.true_and, true_implies]

theorem assertComplete_eq (cov : SlotId → Bool) : assertComplete cov = some () ↔ ∀ s, cov s = true := by
  rw [assertComplete]
  constructor
  · intro h
    split at h
    · rename_i h'; exact fun s => List.all_eq_true.1 h' s (SlotId.mem_all s)
    · cases h
  · intro h
    rw [if_pos (List.all_eq_true.2 fun s _ => h s)]

/-! ### Operations -/

theorem kind_alloc_sat (b : F) (k : Kind) (n : k.Native F) (g : k.Gadget F) :
    (k.alloc b n).sat g ↔ Allocated b k n g := by
  cases k with
  | point => exact Point.alloc_sat b n g
  | element => exact Element.alloc_sat n g

/-- The gadget of an honest allocation. -/
def honestGadget : (k : Kind) → k.Native F → k.Gadget F
  | .element, n => ⟨n, n⟩
  | .point, n => ⟨⟨(n.getD (0, 0)).1, (n.getD (0, 0)).1⟩, ⟨(n.getD (0, 0)).2, (n.getD (0, 0)).2⟩⟩

theorem kind_alloc_sim {b : F} {k : Kind} {n : k.Native F} (h : ValidNative b k n) :
    (k.alloc b n).sim = .ok (honestGadget k n) := by
  cases k with
  | element => rfl
  | point =>
    obtain ⟨x, y, rfl, h2⟩ := h
    show (Point.alloc b (some (x, y))).sim = _
    simp only [Point.alloc, Option.getD_some, Option.isSome_some]
    rw [sim_bind_ok (a := ()) rfl, sim_bind_ok (Element.allocSquare_sim x)]
    simp only
    rw [sim_bind_ok (Element.mul_sim (show (⟨x, x⟩ : Element F).Honest from rfl)
      (show (⟨x ^ 2, x ^ 2⟩ : Element F).Honest from rfl)), sim_bind_ok (Element.allocSquare_sim y)]
    simp only
    rw [sim_bind_ok (a := ())]
    · rfl
    · rw [enforceZero_sim, if_pos]
      simp [lin_eq, lcVal, LcStep.add, LcStep.sub, Coeff.value]
      linear_combination -h2

/-- The builder after an operation that leaves `g` in slot `s`. -/
def fill (B : OutputBuilder F) (s : SlotId) (cov : Bool) (g : s.kind.Gadget F) : OutputBuilder F :=
  { B with
    slots := Function.update B.slots s (Slot.mk (some g) (B.slots s).inst ((B.slots s).wasSet || cov)) }

/-- The values an operation may leave in its slot. -/
def ActOk (b : F) {s : SlotId} (n : s.kind.Native F) (act : Act F s) (g : s.kind.Gadget F) : Prop :=
  match act with
  | .read => Allocated b s.kind n g
  | .provide v => g = v
  | .receive => Allocated b s.kind n g

theorem slot_read_sat (b : F) {k : Kind} (sl : Slot F k) (r) :
    (sl.read b).sat r ↔ sl.value = none ∧ ∃ g, Allocated b k sl.inst g ∧
      r = (g, ⟨some g, sl.inst, sl.wasSet⟩) := by
  obtain ⟨value, inst, ws⟩ := sl
  cases value with
  | some v => simp [Slot.read, Syn.sat]
  | none =>
    simp only [Slot.read, Option.isSome_none, Bool.false_eq_true, if_false, sat_bind, sat_pure,
      true_and, kind_alloc_sat]

theorem slot_receive_sat (b : F) {k : Kind} (sl : Slot F k) (r) :
    (sl.receive b).sat r ↔ sl.value = none ∧ ∃ g, Allocated b k sl.inst g ∧
      r = (g, ⟨some g, sl.inst, true⟩) := by
  obtain ⟨value, inst, ws⟩ := sl
  cases value with
  | some v => simp [Slot.receive, Syn.sat]
  | none =>
    simp only [Slot.receive, Option.isSome_none, Bool.false_eq_true, if_false, sat_bind, sat_pure,
      true_and, kind_alloc_sat]

theorem slot_provide_sat {k : Kind} (sl : Slot F k) (v : k.Gadget F) (r) :
    (sl.provide v).sat r ↔ sl.value = none ∧ r = ⟨some v, sl.inst, true⟩ := by
  obtain ⟨value, inst, ws⟩ := sl
  cases value with
  | some v => simp [Slot.provide, Syn.sat]
  | none => simp only [Slot.provide, Option.isSome_none, Bool.false_eq_true, if_false, sat_pure,
      true_and]

theorem runOp_sat (b : F) (B : OutputBuilder F) (op : SlotOp F) (B' : OutputBuilder F) :
    (runOp b B op).sat B' ↔ (B.slots op.slot).value = none ∧
      ∃ g, ActOk b (B.slots op.slot).inst op.act g ∧ B' = fill B op.slot op.covers g := by
  obtain ⟨s, act⟩ := op
  cases act with
  | read =>
    simp only [runOp, OutputBuilder.read, sat_bind, sat_pure, slot_read_sat, ActOk, fill,
      SlotOp.covers, Bool.or_false]
    constructor
    · rintro ⟨_, ⟨_, ⟨h, g, hg, rfl⟩, rfl⟩, rfl⟩
      exact ⟨h, g, hg, rfl⟩
    · rintro ⟨h, g, hg, rfl⟩
      exact ⟨_, ⟨_, ⟨h, g, hg, rfl⟩, rfl⟩, rfl⟩
  | receive =>
    simp only [runOp, OutputBuilder.receive, sat_bind, sat_pure, slot_receive_sat, ActOk, fill,
      SlotOp.covers, Bool.or_true]
    constructor
    · rintro ⟨_, ⟨_, ⟨h, g, hg, rfl⟩, rfl⟩, rfl⟩
      exact ⟨h, g, hg, rfl⟩
    · rintro ⟨h, g, hg, rfl⟩
      exact ⟨_, ⟨_, ⟨h, g, hg, rfl⟩, rfl⟩, rfl⟩
  | provide v =>
    simp only [runOp, OutputBuilder.provide, sat_bind, sat_pure, slot_provide_sat, ActOk, fill,
      SlotOp.covers, Bool.or_true]
    constructor
    · rintro ⟨_, ⟨h, rfl⟩, rfl⟩
      exact ⟨h, v, rfl, rfl⟩
    · rintro ⟨h, g, rfl, rfl⟩
      exact ⟨_, ⟨h, rfl⟩, rfl⟩

/-- The value an honest operation leaves in its slot. -/
def actHonest {s : SlotId} (n : s.kind.Native F) (act : Act F s) : s.kind.Gadget F :=
  match act with
  | .read => honestGadget s.kind n
  | .provide v => v
  | .receive => honestGadget s.kind n

theorem runOp_sim {b : F} (B : OutputBuilder F) (op : SlotOp F)
    (hv : ValidNative b op.slot.kind (B.slots op.slot).inst) :
    (runOp b B op).sim = if (B.slots op.slot).value.isSome then .error .panic else
      .ok (fill B op.slot op.covers (actHonest (B.slots op.slot).inst op.act)) := by
  obtain ⟨s, act⟩ := op
  simp only at hv ⊢
  cases h : (B.slots s).value.isSome with
  | true =>
    cases act <;> simp [runOp, OutputBuilder.read, OutputBuilder.receive, OutputBuilder.provide,
      Slot.read, Slot.receive, Slot.provide, h, sim_bind, Syn.sim, Except.bind]
  | false =>
    cases act <;> simp [runOp, OutputBuilder.read, OutputBuilder.receive, OutputBuilder.provide,
      Slot.read, Slot.receive, Slot.provide, h, sim_bind, Except.bind, kind_alloc_sim hv,
      fill, SlotOp.covers, actHonest, pure, Syn.sim]

/-! ### Sequences of operations -/

/-- The builder after the operations, the slots of which hold the values of `o`. -/
def fillAll (o : UnifiedOutput F) : OutputBuilder F → List (SlotOp F) → OutputBuilder F
  | B, [] => B
  | B, op :: ops => fillAll o (fill B op.slot op.covers (o op.slot)) ops

theorem fill_inst (B : OutputBuilder F) (s : SlotId) (c : Bool) (g : s.kind.Gadget F) (t : SlotId) :
    ((fill B s c g).slots t).inst = (B.slots t).inst := by
  by_cases h : t = s
  · subst h; simp [fill]
  · simp [fill, Function.update_of_ne h]

theorem fill_value_ne (B : OutputBuilder F) {s : SlotId} (c : Bool) (g : s.kind.Gadget F) {t : SlotId}
    (h : t ≠ s) : (fill B s c g).slots t = B.slots t := by
  simp [fill, Function.update_of_ne h]

theorem fillAll_inst (o : UnifiedOutput F) : ∀ (ops : List (SlotOp F)) (B : OutputBuilder F),
    (fillAll o B ops).inst = B.inst ∧ ∀ t, ((fillAll o B ops).slots t).inst = (B.slots t).inst
  | [], _ => ⟨rfl, fun _ => rfl⟩
  | op :: ops, B => by
    obtain ⟨h1, h2⟩ := fillAll_inst o ops (fill B op.slot op.covers (o op.slot))
    exact ⟨h1, fun t => (h2 t).trans (fill_inst ..)⟩

theorem fillAll_value (o : UnifiedOutput F) : ∀ (ops : List (SlotOp F)) (B : OutputBuilder F) (t : SlotId),
    ((fillAll o B ops).slots t).value =
      if t ∈ ops.map SlotOp.slot then some (o t) else (B.slots t).value
  | [], _, _ => by simp [fillAll]
  | op :: ops, B, t => by
    rw [fillAll, fillAll_value o ops]
    by_cases h : t ∈ ops.map SlotOp.slot
    · rw [if_pos h, if_pos (by simp [h])]
    · rw [if_neg h]
      by_cases ht : t = op.slot
      · subst ht; simp [fill]
      · rw [fill_value_ne _ _ _ ht, if_neg]
        intro hm
        rcases List.mem_cons.1 (by rwa [List.map_cons] at hm) with hm | hm
        · exact ht hm
        · exact h hm

theorem fillAll_wasSet (o : UnifiedOutput F) : ∀ (ops : List (SlotOp F)) (B : OutputBuilder F) (t : SlotId),
    ((fillAll o B ops).slots t).wasSet =
      ((B.slots t).wasSet || ops.any fun op => op.covers && decide (op.slot = t))
  | [], _, _ => by simp [fillAll]
  | op :: ops, B, t => by
    rw [fillAll, fillAll_wasSet o ops, List.any_cons]
    by_cases ht : t = op.slot
    · subst ht; simp [fill, Bool.or_assoc]
    · rw [fill_value_ne _ _ _ ht]
      have : decide (op.slot = t) = false := by simpa using fun h => ht h.symm
      simp [this]

theorem fillAll_congr {o o' : UnifiedOutput F} : ∀ (ops : List (SlotOp F)) (B : OutputBuilder F),
    (∀ op ∈ ops, o op.slot = o' op.slot) → fillAll o B ops = fillAll o' B ops
  | [], _, _ => rfl
  | op :: ops, B, h => by
    rw [fillAll, fillAll, h op (by simp)]
    exact fillAll_congr ops _ fun op h' => h op (by simp [h'])

/-- No slot is used twice, nor one that is already filled. -/
def Fresh (B : OutputBuilder F) (ops : List (SlotOp F)) : Prop :=
  (ops.map SlotOp.slot).Nodup ∧ ∀ op ∈ ops, (B.slots op.slot).value = none

theorem fresh_cons (B : OutputBuilder F) (op : SlotOp F) (ops : List (SlotOp F)) (g : op.slot.kind.Gadget F) :
    Fresh B (op :: ops) ↔ (B.slots op.slot).value = none ∧ Fresh (fill B op.slot op.covers g) ops := by
  simp only [Fresh, List.map_cons, List.nodup_cons, List.mem_cons, forall_eq_or_imp]
  constructor
  · rintro ⟨⟨h1, h2⟩, h3, h4⟩
    refine ⟨h3, h2, fun op' h' => ?_⟩
    have hne : op'.slot ≠ op.slot := fun e => h1 (e ▸ List.mem_map_of_mem h')
    rw [fill_value_ne _ _ _ hne]
    exact h4 op' h'
  · rintro ⟨h3, h2, h4⟩
    have key : op.slot ∉ ops.map SlotOp.slot := by
      intro hm
      obtain ⟨op', h', e⟩ := List.mem_map.1 hm
      have := h4 op' h'
      rw [e] at this
      simp [fill] at this
    refine ⟨⟨key, h2⟩, h3, fun op' h' => ?_⟩
    have hne : op'.slot ≠ op.slot := fun e => key (e ▸ List.mem_map_of_mem h')
    have := h4 op' h'
    rwa [fill_value_ne _ _ _ hne] at this

/-- An output with one slot replaced. -/
theorem exists_output (o : UnifiedOutput F) (s : SlotId) (g : s.kind.Gadget F) :
    ∃ o' : UnifiedOutput F, o' s = g ∧ ∀ t, t ≠ s → o' t = o t :=
  ⟨Function.update o s g, by simp, fun t h => by simp [Function.update_of_ne h]⟩

theorem runOps_sat (b : F) : ∀ (ops : List (SlotOp F)) (B B' : OutputBuilder F),
    (runOps b B ops).sat B' ↔ Fresh B ops ∧ ∃ o : UnifiedOutput F,
      (∀ op ∈ ops, ActOk b (B.slots op.slot).inst op.act (o op.slot)) ∧ B' = fillAll o B ops
  | [], B, B' => by
    simp only [runOps, sat_pure, fillAll, Fresh, List.map_nil, List.nodup_nil, List.not_mem_nil,
      false_implies, implies_true, true_and, exists_const_iff]
    exact ⟨fun h => ⟨⟨fun s => honestGadget s.kind (B.slots s).inst⟩, h⟩, fun h => h.2⟩
  | op :: ops, B, B' => by
    simp only [runOps, sat_bind, runOp_sat, runOps_sat b ops]
    constructor
    · rintro ⟨_, ⟨h1, g, hg, rfl⟩, h2, o, ho, rfl⟩
      obtain ⟨o', ho1, ho2⟩ := exists_output o op.slot g
      have hne : ∀ op' ∈ ops, op'.slot ≠ op.slot := by
        intro op' h' e
        have := ((fresh_cons B op ops g).2 ⟨h1, h2⟩).1
        rw [List.map_cons, List.nodup_cons] at this
        exact this.1 (e ▸ List.mem_map_of_mem h')
      refine ⟨(fresh_cons B op ops g).2 ⟨h1, h2⟩, o', ?_, ?_⟩
      · intro op' h'
        rcases List.mem_cons.1 h' with rfl | h'
        · rw [ho1]; exact hg
        · have := ho op' h'
          rw [fill_inst] at this
          rwa [ho2 _ (hne op' h')]
      · rw [fillAll, ho1]
        exact fillAll_congr ops _ fun op' h' => (ho2 _ (hne op' h')).symm
    · rintro ⟨h, o, ho, rfl⟩
      obtain ⟨h1, h2⟩ := (fresh_cons B op ops (o op.slot)).1 h
      refine ⟨_, ⟨h1, o op.slot, ho op (by simp), rfl⟩, h2, o, ?_, rfl⟩
      intro op' h'
      rw [fill_inst]
      exact ho op' (by simp [h'])

theorem runOps_sim {b : F} : ∀ (ops : List (SlotOp F)) (B : OutputBuilder F),
    (∀ s, ValidNative b s.kind (B.slots s).inst) →
    (Fresh B ops → ∃ o : UnifiedOutput F,
      (∀ op ∈ ops, o op.slot = actHonest (B.slots op.slot).inst op.act) ∧
      (runOps b B ops).sim = .ok (fillAll o B ops)) ∧
    (¬ Fresh B ops → (runOps b B ops).sim = .error .panic)
  | [], B, hv => by
    refine ⟨fun _ => ⟨fun s => honestGadget s.kind (B.slots s).inst, by simp, rfl⟩, fun h => ?_⟩
    simp [Fresh] at h
  | op :: ops, B, hv => by
    simp only [runOps, sim_bind, runOp_sim B op (hv op.slot)]
    obtain ⟨i1, i2⟩ := runOps_sim ops (fill B op.slot op.covers (actHonest (B.slots op.slot).inst op.act))
      (fun s => by rw [fill_inst]; exact hv s)
    constructor
    · intro h
      obtain ⟨h1, h2⟩ := (fresh_cons B op ops (actHonest (B.slots op.slot).inst op.act)).1 h
      obtain ⟨o, ho, hs⟩ := i1 h2
      obtain ⟨o', ho1, ho2⟩ := exists_output o op.slot (actHonest (B.slots op.slot).inst op.act)
      have hne : ∀ op' ∈ ops, op'.slot ≠ op.slot := by
        intro op' h' e
        have := h.1
        rw [List.map_cons, List.nodup_cons] at this
        exact this.1 (e ▸ List.mem_map_of_mem h')
      refine ⟨o', ?_, ?_⟩
      · intro op' h'
        rcases List.mem_cons.1 h' with rfl | h'
        · exact ho1
        · rw [ho2 _ (hne op' h'), ho op' h', fill_inst]
      · simp only [h1, Option.isSome_none, Bool.false_eq_true, if_false, Except.bind]
        rw [hs, fillAll, ho1]
        congr 1
        exact fillAll_congr ops _ fun op' h' => (ho2 _ (hne op' h')).symm
    · intro h
      cases h1 : (B.slots op.slot).value with
      | some v => simp [Except.bind]
      | none =>
        simp only [Option.isSome_none, Bool.false_eq_true, if_false, Except.bind]
        exact i2 fun h2 => h ((fresh_cons B op ops _).2 ⟨h1, h2⟩)

/-! ### A whole circuit -/

theorem fresh_new (inst : UnifiedInstance F) (ops : List (SlotOp F)) :
    Fresh (OutputBuilder.new inst) ops ↔ (ops.map SlotOp.slot).Nodup :=
  ⟨fun h => h.1, fun h => ⟨h, fun _ _ => rfl⟩⟩

theorem take_sat (b : F) {k : Kind} (sl : Slot F k) (g : k.Gadget F) :
    (sl.take b).sat g ↔ (∀ v, sl.value = some v → g = v) ∧
      (sl.value = none → Allocated b k sl.inst g) := by
  obtain ⟨value, inst, ws⟩ := sl
  cases value with
  | some v => simp [Slot.take, sat_pure]
  | none => simp [Slot.take, kind_alloc_sat]

theorem take_sim {b : F} {k : Kind} (sl : Slot F k) (h : ValidNative b k sl.inst) :
    (sl.take b).sim = .ok (sl.value.getD (honestGadget k sl.inst)) := by
  obtain ⟨value, inst, ws⟩ := sl
  cases value with
  | some v => rfl
  | none => exact kind_alloc_sim h

/-- The set of slots that the operations cover. -/
def coveredBy (ops : List (SlotOp F)) (s : SlotId) : Bool :=
  ops.any fun op => op.covers && decide (op.slot = s)

/-- The coverage after a circuit. -/
def afterCircuit (inst : UnifiedInstance F) (ops : List (SlotOp F)) : Option (UnifiedInstance F) :=
  (coverAll (coveredBy ops) inst.coverage).map fun cov => { inst with coverage := cov }

theorem actOk_unique {b : F} {value : (s : SlotId) → s.kind.Native F} {ops : List (SlotOp F)}
    (hn : (ops.map SlotOp.slot).Nodup) {op : SlotOp F} (hop : op ∈ ops) (g : op.slot.kind.Gadget F) :
    ActOk b (value op.slot) op.act g ↔ SlotSpec b value ops op.slot g := by
  have uniq : ∀ op' ∈ ops, op'.slot = op.slot → op' = op := fun op' h' e =>
    List.inj_on_of_nodup_map hn h' hop e
  obtain ⟨s, act⟩ := op
  simp only at uniq g ⊢
  have hne : ∀ v, (⟨s, .provide v⟩ : SlotOp F) ∈ ops → act = .provide v := by
    intro v hv
    have := uniq _ hv rfl
    cases this
    rfl
  cases act with
  | read =>
    constructor
    · intro h
      exact ⟨fun v hv => (by cases hne v hv), fun _ => h⟩
    · intro h
      exact h.2 fun v hv => by cases hne v hv
  | receive =>
    constructor
    · intro h
      exact ⟨fun v hv => (by cases hne v hv), fun _ => h⟩
    · intro h
      exact h.2 fun v hv => by cases hne v hv
  | provide v =>
    constructor
    · rintro h
      refine ⟨fun v' hv => ?_, fun h' => absurd hop (h' v)⟩
      have := hne v' hv
      cases this
      exact h
    · intro h
      exact h.1 v hop

theorem runCircuit_sat (b : F) (inst : UnifiedInstance F) (ops : List (SlotOp F)) (o : UnifiedOutput F)
    (inst' : UnifiedInstance F) : (runCircuit b inst ops).sat (o, inst') ↔
      (ops.map SlotOp.slot).Nodup ∧ (∀ s, SlotSpec b inst.value ops s (o s)) ∧
      inst' = (afterCircuit inst ops).getD inst := by
  simp only [runCircuit, sat_bind, runOps_sat, fresh_new]
  have hfin : ∀ (o₁ : UnifiedOutput F),
      ((fillAll o₁ (OutputBuilder.new inst) ops).finishNoSuffix b).sat (o, inst') ↔
        (∀ s, (∀ op ∈ ops, op.slot = s → o s = o₁ s) ∧
          ((∀ op ∈ ops, op.slot ≠ s) → Allocated b s.kind (inst.value s) (o s))) ∧
        inst' = (afterCircuit inst ops).getD inst := by
    intro o₁
    have hw : (fun s => ((fillAll o₁ (OutputBuilder.new inst) ops).slots s).wasSet) = coveredBy ops := by
      funext s
      rw [fillAll_wasSet]
      rfl
    have hi : (fillAll o₁ (OutputBuilder.new inst) ops).inst = inst := (fillAll_inst _ _ _).1
    have hsat : ∀ o₂ : UnifiedOutput F,
        (forEachSlot fun s => ((fillAll o₁ (OutputBuilder.new inst) ops).slots s).take b).sat o₂ ↔
        (∀ s, (∀ op ∈ ops, op.slot = s → o₂ s = o₁ s) ∧
          ((∀ op ∈ ops, op.slot ≠ s) → Allocated b s.kind (inst.value s) (o₂ s))) := by
      intro o₂
      rw [forEachSlot_sat]
      refine forall_congr' fun s => ?_
      rw [take_sat, fillAll_value, (fillAll_inst _ _ _).2]
      by_cases hm : s ∈ ops.map SlotOp.slot
      · rw [if_pos hm]
        obtain ⟨op, h1, h2⟩ := List.mem_map.1 hm
        constructor
        · intro h
          exact ⟨fun _ _ _ => h.1 _ rfl, fun h' => absurd h2 (h' op h1)⟩
        · intro h
          exact ⟨fun v hv => (by cases hv; exact h.1 op h1 h2), fun h => (by cases h)⟩
      · rw [if_neg hm]
        constructor
        · intro h
          exact ⟨fun op h1 h2 => absurd (List.mem_map.2 ⟨op, h1, h2⟩) hm, fun _ => h.2 rfl⟩
        · intro h
          exact ⟨fun v hv => (by cases hv), fun _ => h.2 fun op h1 h2 =>
            hm (List.mem_map.2 ⟨op, h1, h2⟩)⟩
    simp only [OutputBuilder.finishNoSuffix, sat_bind, hw, hi, afterCircuit, hsat]
    cases coverAll (coveredBy ops) inst.coverage with
    | none =>
      simp only [Syn.sat, sat_pure, Option.map_none, Option.getD_none]
      constructor
      · rintro ⟨o₂, h, h'⟩; cases h'; exact ⟨h, rfl⟩
      · rintro ⟨h, rfl⟩; exact ⟨o, h, rfl⟩
    | some cov =>
      simp only [sat_pure, Option.map_some, Option.getD_some]
      constructor
      · rintro ⟨o₂, h, h'⟩; cases h'; exact ⟨h, rfl⟩
      · rintro ⟨h, rfl⟩; exact ⟨o, h, rfl⟩
  constructor
  · rintro ⟨_, ⟨hn, o₁, ho, rfl⟩, h⟩
    obtain ⟨h1, h2⟩ := (hfin o₁).1 h
    refine ⟨hn, fun s => ?_, h2⟩
    by_cases hm : ∃ op ∈ ops, op.slot = s
    · obtain ⟨op, hop, rfl⟩ := hm
      rw [(h1 op.slot).1 op hop rfl]
      exact (actOk_unique hn hop _).1 (ho op hop)
    · push Not at hm
      exact ⟨fun v hv => absurd rfl (hm _ hv), fun _ => (h1 s).2 hm⟩
  · rintro ⟨hn, h1, h2⟩
    refine ⟨_, ⟨hn, o, fun op hop => ?_, rfl⟩, (hfin o).2 ⟨fun s => ⟨fun _ _ _ => rfl, fun hm => ?_⟩, h2⟩⟩
    · exact (actOk_unique hn hop _).2 (h1 op.slot)
    · exact (h1 s).2 fun v hv => hm _ hv rfl

theorem runCircuit_sim {b : F} {inst : UnifiedInstance F} (hv : ∀ s, ValidNative b s.kind (inst.value s))
    (ops : List (SlotOp F)) :
    (∀ inst', (ops.map SlotOp.slot).Nodup → afterCircuit inst ops = some inst' →
      ∃ o : UnifiedOutput F, (runCircuit b inst ops).sim = .ok (o, inst') ∧
        (∀ op ∈ ops, o op.slot = actHonest (inst.value op.slot) op.act) ∧
        ∀ s, s ∉ ops.map SlotOp.slot → o s = honestGadget s.kind (inst.value s)) ∧
    (¬ (ops.map SlotOp.slot).Nodup ∨ afterCircuit inst ops = none →
      (runCircuit b inst ops).sim = .error .panic) := by
  obtain ⟨s1, s2⟩ := runOps_sim (b := b) ops (OutputBuilder.new inst) hv
  have hfin : ∀ o : UnifiedOutput F, (forEachSlot fun s =>
      ((fillAll o (OutputBuilder.new inst) ops).slots s).take b).sim =
      .ok fun s => if s ∈ ops.map SlotOp.slot then o s else honestGadget s.kind (inst.value s) := by
    intro o
    refine forEachSlot_sim fun s => ?_
    rw [take_sim _ (by rw [(fillAll_inst _ _ _).2]; exact hv s), fillAll_value, (fillAll_inst _ _ _).2]
    by_cases hm : s ∈ ops.map SlotOp.slot
    · simp only [if_pos hm, Option.getD_some]
    · simp only [if_neg hm]; rfl
  have hw : ∀ o : UnifiedOutput F,
      (fun s => ((fillAll o (OutputBuilder.new inst) ops).slots s).wasSet) = coveredBy ops := by
    intro o
    funext s
    rw [fillAll_wasSet]
    rfl
  have hi : ∀ o : UnifiedOutput F, (fillAll o (OutputBuilder.new inst) ops).inst = inst :=
    fun o => (fillAll_inst _ _ _).1
  constructor
  · intro inst' hn ha
    obtain ⟨o, ho, hs⟩ := s1 ((fresh_new inst ops).2 hn)
    refine ⟨fun s => if s ∈ ops.map SlotOp.slot then o s else honestGadget s.kind (inst.value s),
      ?_, ?_, ?_⟩
    · rw [runCircuit, sim_bind_ok hs, OutputBuilder.finishNoSuffix, sim_bind_ok (hfin o)]
      simp only [hw, hi]
      rw [afterCircuit] at ha
      cases hc : coverAll (coveredBy ops) inst.coverage with
      | none => rw [hc] at ha; cases ha
      | some cov => rw [hc] at ha; cases ha; rfl
    · intro op hop
      simp only
      rw [if_pos (List.mem_map_of_mem hop)]
      exact ho op hop
    · intro s hs
      simp only
      rw [if_neg hs]
  · intro h
    by_cases hn : (ops.map SlotOp.slot).Nodup
    · have ha := h.resolve_left (not_not.2 hn)
      obtain ⟨o, ho, hs⟩ := s1 ((fresh_new inst ops).2 hn)
      rw [runCircuit, sim_bind_ok hs, OutputBuilder.finishNoSuffix, sim_bind_ok (hfin o)]
      simp only [hw, hi]
      rw [afterCircuit] at ha
      cases hc : coverAll (coveredBy ops) inst.coverage with
      | none => rfl
      | some cov => rw [hc] at ha; cases ha
    · rw [runCircuit, sim_bind, s2 (fun h => hn ((fresh_new inst ops).1 h))]
      rfl

end Ragu.Pcd

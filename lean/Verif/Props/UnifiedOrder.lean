/-
The order in which the unified instance is written and allocated: C52.
-/
import Verif.Spec.UnifiedOrder
import Verif.Props.Unified

set_option linter.unusedSectionVars false
namespace Ragu.Props
open Ragu Ragu.Circuit Ragu.Gadget Ragu.Gadget.Syn Ragu.Pcd Ragu.Spec
variable {F : Type} [Field F] [DecidableEq F]

section aux

/-- The result of code with the values of its closures. -/
def madeResult {α : Type} : Syn F α → Option α
  | .ret a => some a
  | .gate w k => madeResult (k w.1 w.2.1 w.2.2.1 w.2.2.2)
  | .alloc w k => madeResult (k w)
  | .enforce _ k => madeResult k
  | .check _ k => madeResult k
  | .panic => none

theorem made_bind {α β : Type} (m : Syn F α) (f : α → Syn F β) {r : α} (h : madeResult m = some r) :
    made (m >>= f) = made m ++ made (f r) := by
  induction m with
  | ret a => simp only [madeResult, Option.some.injEq] at h; subst h; rfl
  | gate w k ih =>
    show _ :: made (k _ _ _ _ >>= f) = _
    rw [ih _ _ _ _ h]; rfl
  | alloc w k ih =>
    show _ :: made (k _ >>= f) = _
    rw [ih _ h]; rfl
  | enforce v k ih => exact ih h
  | check e k ih => exact ih h
  | panic => cases h

theorem kind_alloc_made (b : F) (k : Pcd.Kind) (n : k.Native F) :
    (∃ r, madeResult (k.alloc b n) = some r) ∧ made (k.alloc b n) = fieldMade k n := by
  cases k with
  | element => exact ⟨⟨_, rfl⟩, rfl⟩
  | point => exact ⟨⟨_, rfl⟩, rfl⟩

theorem forEachSlot_made {β : SlotId → Type} (f : (s : SlotId) → Syn F (β s))
    (h : ∀ s, ∃ r, madeResult (f s) = some r) :
    made (forEachSlot f) = slotOrder.flatMap fun s => made (f s) := by
  choose r hr using h
  unfold forEachSlot
  rw [made_bind _ _ (hr _), made_bind _ _ (hr _), made_bind _ _ (hr _), made_bind _ _ (hr _),
    made_bind _ _ (hr _), made_bind _ _ (hr _), made_bind _ _ (hr _), made_bind _ _ (hr _),
    made_bind _ _ (hr _), made_bind _ _ (hr _), made_bind _ _ (hr _), made_bind _ _ (hr _),
    made_bind _ _ (hr _), made_bind _ _ (hr _), made_bind _ _ (hr _), made_bind _ _ (hr _),
    made_bind _ _ (hr _), made_bind _ _ (hr _), made_bind _ _ (hr _), made_bind _ _ (hr _),
    made_bind _ _ (hr _)]
  simp [slotOrder, made, pure]

theorem forEachSlot_result {β : SlotId → Type} (f : (s : SlotId) → Syn F (β s))
    (h : ∀ s, ∃ r, madeResult (f s) = some r) : ∃ r, madeResult (forEachSlot f) = some r := by
  have key : ∀ {α γ : Type} (m : Syn F α) (g : α → Syn F γ), (∃ r, madeResult m = some r) →
      (∀ r, ∃ t, madeResult (g r) = some t) → ∃ t, madeResult (m >>= g) = some t := by
    intro α γ m g hm hg
    induction m with
    | ret a => exact hg a
    | gate w k ih => exact ih _ _ _ _ hm
    | alloc w k ih => exact ih _ hm
    | enforce v k ih => exact ih hm
    | check e k ih => exact ih hm
    | panic => obtain ⟨r, hr⟩ := hm; cases hr
  unfold forEachSlot
  iterate 21 refine key _ _ (h _) fun _ => ?_
  exact ⟨_, rfl⟩

end aux

/-- C52: a child's unified output is allocated field by field in the documented order, an element as one wire and
a point as the three gates of its curve equation, with the values of the child's proof. -/
theorem C52_alloc_order {G HC : Type} (b : F) (p : Proof F G HC) :
    made (allocFromProof b p) = slotOrder.flatMap fun s => fieldMade s.kind (p.unifiedValue s) := by
  rw [allocFromProof, forEachSlot_made _ fun s => (kind_alloc_made b _ _).1]
  exact congrArg (List.flatMap · slotOrder) (funext fun s => (kind_alloc_made b _ _).2)

/-- C52: when a circuit ends, the slots that have no value yet, and only these, are allocated from the instance, in
the documented order; the zero at the end of the output makes nothing. -/
theorem C52_finish_order (b : F) (B : OutputBuilder F) :
    made (B.finish b) = slotOrder.flatMap fun s =>
      if (B.slots s).value.isSome then [] else fieldMade s.kind (B.slots s).inst := by
  have ht : ∀ s, (∃ r, madeResult ((B.slots s).take b) = some r) ∧ made ((B.slots s).take b) =
      if (B.slots s).value.isSome then [] else fieldMade s.kind (B.slots s).inst := by
    intro s
    unfold Slot.take
    cases (B.slots s).value with
    | some v => exact ⟨⟨v, rfl⟩, rfl⟩
    | none => exact kind_alloc_made b _ _
  have hf := forEachSlot_made (fun s => (B.slots s).take b) fun s => (ht s).1
  obtain ⟨o, ho⟩ := forEachSlot_result (fun s => (B.slots s).take b) fun s => (ht s).1
  have hn : made (B.finishNoSuffix b) = slotOrder.flatMap (fun s => made ((B.slots s).take b)) ∧
      ∃ r, madeResult (B.finishNoSuffix b) = some r := by
    unfold OutputBuilder.finishNoSuffix
    have hr : ∀ {γ : Type} (g : UnifiedOutput F → Syn F γ),
        madeResult (forEachSlot (fun s => (B.slots s).take b) >>= g) = madeResult (g o) := by
      intro γ g
      have : ∀ {α : Type} (m : Syn F α) (g : α → Syn F γ) (r : α), madeResult m = some r →
          madeResult (m >>= g) = madeResult (g r) := by
        intro α m g r h
        induction m with
        | ret a => simp only [madeResult, Option.some.injEq] at h; subst h; rfl
        | gate w k ih => exact ih _ _ _ _ h
        | alloc w k ih => exact ih _ h
        | enforce v k ih => exact ih h
        | check e k ih => exact ih h
        | panic => cases h
      exact this _ g o ho
    rw [made_bind _ _ ho, hf, hr]
    cases coverAll (fun s => (B.slots s).wasSet) B.inst.coverage with
    | some cov => exact ⟨by simp [made, pure], _, rfl⟩
    | none => exact ⟨by simp [made, pure], _, rfl⟩
  obtain ⟨h1, r, h2⟩ := hn
  unfold OutputBuilder.finish
  rw [made_bind _ _ h2, h1]
  simp only [made, pure, List.append_nil]
  exact congrArg (List.flatMap · slotOrder) (funext fun s => (ht s).2)

/-- C52: the elements of a unified output, one by one. -/
theorem C52_written (o : UnifiedOutput F) : o.write =
    [(o .bridgePreamble).x, (o .bridgePreamble).y, o .w,
     (o .bridgeSPrime).x, (o .bridgeSPrime).y, o .y, o .z,
     (o .bridgeInnerError).x, (o .bridgeInnerError).y, o .mu, o .nu,
     (o .bridgeOuterError).x, (o .bridgeOuterError).y, o .muPrime, o .nuPrime, o .c,
     (o .bridgeAb).x, (o .bridgeAb).y, o .x,
     (o .bridgeQuery).x, (o .bridgeQuery).y, o .alpha,
     (o .bridgeF).x, (o .bridgeF).y, o .u,
     (o .bridgeEval).x, (o .bridgeEval).y, o .preBeta, o .v] := rfl

/-- C52: the output of a circuit ends with a zero wire, whatever was filled and covered: if the constraints accept
it, it is a unified output followed by the constant zero. -/
theorem C52_zero_suffix (b : F) (B : OutputBuilder F) (l : List (Element F)) (inst : UnifiedInstance F)
    (h : (B.finish b).sat (l, inst)) :
    ∃ o : UnifiedOutput F, (B.finishNoSuffix b).sat (o, inst) ∧ l = o.write ++ [⟨0, 0⟩] := by
  unfold OutputBuilder.finish at h
  rw [sat_bind] at h
  obtain ⟨⟨o, i⟩, h1, h2⟩ := h
  simp only [sat_pure, Prod.mk.injEq] at h2
  obtain ⟨rfl, rfl⟩ := h2
  refine ⟨o, h1, ?_⟩
  have : (Element.zero : Element F) = ⟨0, 0⟩ := by
    ext
    · exact Element.zero_wire
    · rfl
  rw [this]

/-- A fresh builder allocates everything when it ends: 13 elements and 8 points. -/
example : (made ((OutputBuilder.new demoInst).finish (1 : ZMod 7))).length = 13 + 8 * 3 := by
  rw [C52_finish_order]; rfl

example : ∃ r, ((OutputBuilder.new demoInst).finish (1 : ZMod 7)).sat r := by
  obtain ⟨r, hr⟩ := (C52_circuit demoInst_valid []).1.2 ⟨by simp, by simp⟩
  have hs : ((OutputBuilder.new demoInst).finishNoSuffix (1 : ZMod 7)).sat r := sim_sat hr
  refine ⟨(r.1.write ++ [Element.zero], r.2), ?_⟩
  unfold OutputBuilder.finish
  rw [sat_bind]
  exact ⟨r, hs, rfl⟩

end Ragu.Props

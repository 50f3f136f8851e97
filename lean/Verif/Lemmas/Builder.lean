/-
The output builder inside a longer circuit.
-/
import Verif.Lemmas.Unified
import Verif.Lemmas.Gadget.Runs

set_option linter.unusedSectionVars false
namespace Ragu.Pcd
open Ragu Ragu.Circuit Ragu.Gadget Ragu.Spec Syn
variable {F : Type} [Field F] [DecidableEq F]

/-- A slot with the value it was given, and whether it was covered. -/
structure Filled (F : Type) where
  slot : SlotId
  covers : Bool
  gadget : slot.kind.Gadget F

/-- The builder after a list of operations, the last one first. -/
def filled (inst : UnifiedInstance F) : List (Filled F) → OutputBuilder F
  | [] => OutputBuilder.new inst
  | f :: T => fill (filled inst T) f.slot f.covers f.gadget

theorem filled_inst (inst : UnifiedInstance F) : ∀ T : List (Filled F),
    (filled inst T).inst = inst ∧ ∀ s, ((filled inst T).slots s).inst = inst.value s
  | [] => ⟨rfl, fun _ => rfl⟩
  | f :: T => by
    obtain ⟨h1, h2⟩ := filled_inst inst T
    exact ⟨h1, fun s => by rw [filled, fill_inst, h2]⟩

theorem filled_none (inst : UnifiedInstance F) {s : SlotId} : ∀ {T : List (Filled F)},
    s ∉ T.map Filled.slot → ((filled inst T).slots s).value = none ∧
      ((filled inst T).slots s).wasSet = false
  | [], _ => ⟨rfl, rfl⟩
  | f :: T, h => by
    rw [List.map_cons, List.mem_cons, not_or] at h
    rw [filled, fill_value_ne _ _ _ h.1]
    exact filled_none inst h.2

theorem filled_some (inst : UnifiedInstance F) : ∀ {T : List (Filled F)},
    (T.map Filled.slot).Nodup → ∀ f ∈ T, ((filled inst T).slots f.slot).value = some f.gadget ∧
      ((filled inst T).slots f.slot).wasSet = f.covers
  | [], _, f, hf => by simp at hf
  | g :: T, hn, f, hf => by
    rw [List.map_cons, List.nodup_cons] at hn
    rcases List.mem_cons.1 hf with rfl | hf
    · have := filled_none inst hn.1
      simp [filled, fill, this.2]
    · have hne : f.slot ≠ g.slot := fun e => hn.1 (e ▸ List.mem_map_of_mem hf)
      rw [filled, fill_value_ne _ _ _ hne]
      exact filled_some inst hn.2 f hf

/-- The coverage that the operations add. -/
def filledCovers (T : List (Filled F)) (s : SlotId) : Bool :=
  T.any fun f => f.covers && decide (f.slot = s)

theorem filled_wasSet (inst : UnifiedInstance F) : ∀ (T : List (Filled F)) (s : SlotId),
    ((filled inst T).slots s).wasSet = filledCovers T s
  | [], s => rfl
  | f :: T, s => by
    have ih := filled_wasSet inst T s
    rw [filledCovers, List.any_cons]
    by_cases hs : s = f.slot
    · subst hs
      rw [filledCovers] at ih
      simp [filled, fill, ih, Bool.or_comm]
    · rw [filled, fill_value_ne _ _ _ hs, ih]
      have : decide (f.slot = s) = false := by simpa using fun h => hs h.symm
      simp [this, filledCovers]

variable {m : Prop} {b : F} {inst : UnifiedInstance F} {T : List (Filled F)}

/-- What is known of a slot's gadget: it was allocated from the instance, honestly in an honest
run. -/
def FromInst (m : Prop) (b : F) (inst : UnifiedInstance F) (s : SlotId) (g : s.kind.Gadget F) :
    Prop :=
  Allocated b s.kind (inst.value s) g ∧ (m → g = honestGadget s.kind (inst.value s))

theorem runs_alloc {s : SlotId} (hv : m → ValidNative b s.kind (inst.value s)) :
    Runs m (s.kind.alloc b (inst.value s)) (FromInst m b inst s) :=
  ⟨fun hm r hr => ⟨(kind_alloc_sat b _ _ r).1 hr, fun k => (hm k).elim⟩, fun hm =>
    ⟨_, kind_alloc_sim (hv hm), (kind_alloc_sat b _ _ _).1 (Syn.sim_sat (kind_alloc_sim (hv hm))),
      fun _ => rfl⟩⟩

theorem runs_read {s : SlotId} (hs : (T.map Filled.slot).contains s = false)
    (hv : m → ValidNative b s.kind (inst.value s)) :
    Runs m ((filled inst T).read b s) (fun r => FromInst m b inst s r.1 ∧
      r.2 = filled inst (⟨s, false, r.1⟩ :: T)) := by
  have hn := filled_none inst (s := s) (T := T) (by
    intro h; rw [List.contains_eq_mem] at hs; simp [h] at hs)
  rw [OutputBuilder.read, Slot.read, hn.1, (filled_inst inst T).2]
  simp only [Option.isSome_none, Bool.false_eq_true, if_false, Syn.bind_assoc, Syn.pure_bind]
  refine (runs_alloc hv).bind fun a ha => Runs.pure ⟨ha, ?_⟩
  simp only [filled, fill, (filled_inst inst T).2, hn.2, Bool.or_false]

theorem runs_receive {s : SlotId} (hs : (T.map Filled.slot).contains s = false)
    (hv : m → ValidNative b s.kind (inst.value s)) :
    Runs m ((filled inst T).receive b s) (fun r => FromInst m b inst s r.1 ∧
      r.2 = filled inst (⟨s, true, r.1⟩ :: T)) := by
  have hn := filled_none inst (s := s) (T := T) (by
    intro h; rw [List.contains_eq_mem] at hs; simp [h] at hs)
  rw [OutputBuilder.receive, Slot.receive, hn.1, (filled_inst inst T).2]
  simp only [Option.isSome_none, Bool.false_eq_true, if_false, Syn.bind_assoc, Syn.pure_bind]
  refine (runs_alloc hv).bind fun a ha => Runs.pure ⟨ha, ?_⟩
  simp only [filled, fill, (filled_inst inst T).2, Bool.or_true]

theorem runs_provide {s : SlotId} (hs : (T.map Filled.slot).contains s = false)
    (g : s.kind.Gadget F) :
    Runs m ((filled inst T).provide s g) (fun r => r = filled inst (⟨s, true, g⟩ :: T)) := by
  have hn := filled_none inst (s := s) (T := T) (by
    intro h; rw [List.contains_eq_mem] at hs; simp [h] at hs)
  rw [OutputBuilder.provide, Slot.provide, hn.1, (filled_inst inst T).2]
  simp only [Option.isSome_none, Bool.false_eq_true, if_false, Syn.pure_bind]
  refine Runs.pure ?_
  simp only [filled, fill, (filled_inst inst T).2, Bool.or_true]

/-- What the end of a circuit gives: the output has the gadgets that were put in the slots, and
other slots are allocated from the instance; in an honest run the coverage grows by the covered
slots. -/
structure Finished (m : Prop) (b : F) (inst : UnifiedInstance F) (T : List (Filled F))
    (o : UnifiedOutput F) (inst' : UnifiedInstance F) : Prop where
  slots : ∀ f ∈ T, o f.slot = f.gadget
  rest : ∀ s, s ∉ T.map Filled.slot → FromInst m b inst s (o s)
  after : m → inst' = ⟨inst.value, fun s => inst.coverage s || filledCovers T s⟩

theorem runs_finishNoSuffix (hn : (T.map Filled.slot).Nodup)
    (hv : m → ∀ s, ValidNative b s.kind (inst.value s))
    (hc : m → ∀ s, filledCovers T s = true → inst.coverage s = false) :
    Runs m ((filled inst T).finishNoSuffix b) (fun r => Finished m b inst T r.1 r.2) := by
  have hw : (fun s => ((filled inst T).slots s).wasSet) = filledCovers T :=
    funext fun s => filled_wasSet inst T s
  rw [OutputBuilder.finishNoSuffix, hw, (filled_inst inst T).1]
  refine Runs.bind (P := fun o => (∀ f ∈ T, o f.slot = f.gadget) ∧
    ∀ s, s ∉ T.map Filled.slot → FromInst m b inst s (o s)) ?_ fun o ho => ?_
  · refine ⟨fun hm r hr => ?_, fun hm => ?_⟩
    · rw [forEachSlot_sat] at hr
      refine ⟨fun f hf => ?_, fun s hs => ?_⟩
      · exact ((take_sat b _ _).1 (hr f.slot)).1 _ (filled_some inst hn f hf).1
      · have := ((take_sat b _ _).1 (hr s)).2 (filled_none inst hs).1
        rw [(filled_inst inst T).2] at this
        exact ⟨this, fun k => (hm k).elim⟩
    · refine ⟨_, forEachSlot_sim fun s => take_sim _ (by
        rw [(filled_inst inst T).2]; exact hv hm s), fun f hf => ?_, fun s hs => ?_⟩
      · rw [(filled_some inst hn f hf).1]; rfl
      · rw [(filled_none inst hs).1, (filled_inst inst T).2]
        exact ⟨(kind_alloc_sat b _ _ _).1 (Syn.sim_sat (kind_alloc_sim (hv hm s))), fun _ => rfl⟩
  · rw [coverAll_eq]
    by_cases h : ∀ s, filledCovers T s = true → inst.coverage s = false
    · simp only [if_pos h]
      exact Runs.pure ⟨ho.1, ho.2, fun _ => rfl⟩
    · simp only [if_neg h]
      refine ⟨fun hm r hr => ?_, fun hm => absurd (hc hm) h⟩
      rw [show r = _ from hr]
      exact ⟨ho.1, ho.2, fun k => (hm k).elim⟩

theorem runs_finish (hn : (T.map Filled.slot).Nodup)
    (hv : m → ∀ s, ValidNative b s.kind (inst.value s))
    (hc : m → ∀ s, filledCovers T s = true → inst.coverage s = false) :
    Runs m ((filled inst T).finish b) (fun r => ∃ o : UnifiedOutput F,
      r.1 = o.write ++ [Element.zero] ∧ Finished m b inst T o r.2) := by
  rw [OutputBuilder.finish]
  exact (runs_finishNoSuffix hn hv hc).bind fun r hr => Runs.pure ⟨r.1, rfl, hr⟩

end Ragu.Pcd

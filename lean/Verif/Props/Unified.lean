/-
The unified instance of the internal circuits: C52.
-/
import Verif.Lemmas.Unified
import Verif.Lemmas.TestField

set_option linter.unusedSectionVars false
namespace Ragu.Props
open Ragu Ragu.Circuit Ragu.Gadget Ragu.Pcd Ragu.Spec
variable {F : Type} [Field F] [DecidableEq F]

/-- C52: the constraints of a circuit accept an output exactly when no slot was filled twice, every
provided slot carries the provided value, and every other slot carries a value allocated from the
instance, whether it was read, received or never touched. -/
theorem C52_output (b : F) (inst : UnifiedInstance F) (ops : List (SlotOp F)) (o : UnifiedOutput F) :
    (∃ inst', (runCircuit b inst ops).sat (o, inst')) ↔
      (ops.map SlotOp.slot).Nodup ∧ ∀ s, SlotSpec b inst.value ops s (o s) := by
  simp only [runCircuit_sat]
  constructor
  · rintro ⟨_, h1, h2, _⟩; exact ⟨h1, h2⟩
  · rintro ⟨h1, h2⟩; exact ⟨_, h1, h2, rfl⟩

/-- C52: filling a slot a second time, in whatever way, stops synthesis, and the constraints have no
solution either. -/
theorem C52_filled_once {b : F} {inst : UnifiedInstance F}
    (hv : ∀ s, ValidNative b s.kind (inst.value s)) (ops : List (SlotOp F))
    (h : ¬ (ops.map SlotOp.slot).Nodup) :
    (runCircuit b inst ops).sim = .error .panic ∧ ∀ r, ¬ (runCircuit b inst ops).sat r :=
  ⟨(runCircuit_sim hv ops).2 (.inl h), fun r hr => h ((runCircuit_sat b inst ops r.1 r.2).1 hr).1⟩

/-- C52: one circuit.  It succeeds exactly when it fills each slot at most once and covers no slot
that is already covered; then the instance keeps its values, the covered slots are the old ones and
the ones the circuit provides or receives, and the slots that were only read or left alone carry the
honest values of the instance. -/
theorem C52_circuit {b : F} {inst : UnifiedInstance F}
    (hv : ∀ s, ValidNative b s.kind (inst.value s)) (ops : List (SlotOp F)) :
    ((∃ r, (runCircuit b inst ops).sim = .ok r) ↔
      (ops.map SlotOp.slot).Nodup ∧ ∀ op ∈ ops, op.covers = true → inst.coverage op.slot = false) ∧
    ∀ o inst', (runCircuit b inst ops).sim = .ok (o, inst') →
      inst'.value = inst.value ∧
      (∀ s, inst'.coverage s = true ↔
        inst.coverage s = true ∨ ∃ op ∈ ops, op.covers = true ∧ op.slot = s) ∧
      (∀ s v, (⟨s, .provide v⟩ : SlotOp F) ∈ ops → o s = v) ∧
      ∀ s, (∀ v, (⟨s, .provide v⟩ : SlotOp F) ∉ ops) → o s = honestGadget s.kind (inst.value s) := by
  obtain ⟨s1, s2⟩ := runCircuit_sim hv ops
  have hcov : (∀ s, coveredBy ops s = true → inst.coverage s = false) ↔
      ∀ op ∈ ops, op.covers = true → inst.coverage op.slot = false := by
    simp only [coveredBy, List.any_eq_true, Bool.and_eq_true, decide_eq_true_eq]
    constructor
    · intro h op ho hc; exact h _ ⟨op, ho, hc, rfl⟩
    · rintro h s ⟨op, ho, hc, rfl⟩; exact h op ho hc
  by_cases hn : (ops.map SlotOp.slot).Nodup
  · by_cases hc : ∀ s, coveredBy ops s = true → inst.coverage s = false
    · have ha : afterCircuit inst ops =
          some { inst with coverage := fun s => inst.coverage s || coveredBy ops s } := by
        rw [afterCircuit, coverAll_eq, if_pos hc]; rfl
      obtain ⟨o, ho, h1, h2⟩ := s1 _ hn ha
      refine ⟨⟨fun _ => ⟨hn, hcov.1 hc⟩, fun _ => ⟨_, ho⟩⟩, ?_⟩
      intro o' inst' ho'
      rw [ho] at ho'
      cases ho'
      refine ⟨rfl, fun s => ?_, fun s v hm => h1 ⟨s, .provide v⟩ hm, fun s hs => ?_⟩
      · simp only [Bool.or_eq_true, coveredBy, List.any_eq_true, Bool.and_eq_true, decide_eq_true_eq]
      · by_cases hm : s ∈ ops.map SlotOp.slot
        · obtain ⟨⟨t, act⟩, hop, rfl⟩ := List.mem_map.1 hm
          have := h1 _ hop
          cases act with
          | provide v => exact absurd hop (hs v)
          | read => exact this
          | receive => exact this
        · exact h2 s hm
    · have ha : afterCircuit inst ops = none := by
        rw [afterCircuit, coverAll_eq, if_neg hc]; rfl
      have he := s2 (.inr ha)
      refine ⟨⟨?_, fun h => absurd (hcov.2 h.2) hc⟩, ?_⟩
      · rintro ⟨r, hr⟩; rw [he] at hr; cases hr
      · intro o inst' hr; rw [he] at hr; cases hr
  · have he := s2 (.inl hn)
    refine ⟨⟨?_, fun h => absurd h.1 hn⟩, ?_⟩
    · rintro ⟨r, hr⟩; rw [he] at hr; cases hr
    · intro o inst' hr; rw [he] at hr; cases hr

/-- The slots covered so far and the circuits that remain. -/
theorem runCircuits_spec {b : F} : ∀ (circuits : List (List (SlotOp F))) (inst : UnifiedInstance F),
    (∀ s, ValidNative b s.kind (inst.value s)) →
    ((∃ r, runCircuits b inst circuits = .ok r) ↔
      (∀ ops ∈ circuits, (ops.map SlotOp.slot).Nodup) ∧
      ∀ s, (if inst.coverage s = true then 1 else 0) + timesCovered circuits s ≤ 1) ∧
    ∀ r, runCircuits b inst circuits = .ok r → r.value = inst.value ∧
      ∀ s, (if r.coverage s = true then 1 else 0) =
        (if inst.coverage s = true then 1 else 0) + timesCovered circuits s
  | [], inst, hv => by
    refine ⟨⟨fun _ => ⟨by simp, fun s => ?_⟩, fun _ => ⟨inst, rfl⟩⟩, ?_⟩
    · simp only [timesCovered, List.flatten_nil, List.filter_nil, List.length_nil]
      split <;> omega
    · intro r hr
      cases hr
      exact ⟨rfl, fun s => by simp [timesCovered]⟩
  | ops :: rest, inst, hv => by
    obtain ⟨c1, c2⟩ := C52_circuit hv ops
    have htimes : ∀ s, timesCovered (ops :: rest) s =
        (ops.filter fun op => op.covers && decide (op.slot = s)).length + timesCovered rest s := by
      intro s; simp [timesCovered]
    have hle : (ops.map SlotOp.slot).Nodup → ∀ s,
        (ops.filter fun op => op.covers && decide (op.slot = s)).length ≤ 1 := by
      intro hn s
      by_contra hlt
      have hnd : ((ops.filter fun op => op.covers && decide (op.slot = s)).map SlotOp.slot).Nodup :=
        List.Nodup.sublist ((List.filter_sublist ..).map _) hn
      have hall : ∀ t ∈ (ops.filter fun op => op.covers && decide (op.slot = s)).map SlotOp.slot,
          t = s := by
        intro t ht
        obtain ⟨op, ho, rfl⟩ := List.mem_map.1 ht
        have := (List.mem_filter.1 ho).2
        simp only [Bool.and_eq_true, decide_eq_true_eq] at this
        exact this.2
      have hrep := List.eq_replicate_of_mem hall
      rw [hrep, List.nodup_replicate, List.length_map] at hnd
      omega
    have hpos : ∀ s, 0 < (ops.filter fun op => op.covers && decide (op.slot = s)).length ↔
        ∃ op ∈ ops, op.covers = true ∧ op.slot = s := by
      intro s
      rw [List.length_pos_iff_exists_mem]
      simp only [List.mem_filter, Bool.and_eq_true, decide_eq_true_eq]
    cases hrun : (runCircuit b inst ops).sim with
    | error e =>
      have hno : ¬ ((ops.map SlotOp.slot).Nodup ∧
          ∀ op ∈ ops, op.covers = true → inst.coverage op.slot = false) := fun h => by
        obtain ⟨r, hr⟩ := c1.2 h
        rw [hrun] at hr; cases hr
      have hr0 : runCircuits b inst (ops :: rest) = .error e := by
        rw [runCircuits, hrun]
      refine ⟨⟨?_, ?_⟩, ?_⟩
      · rintro ⟨r, hr⟩; rw [hr0] at hr; cases hr
      · rintro ⟨h1, h2⟩
        refine absurd ⟨h1 ops (by simp), fun op ho hc => ?_⟩ hno
        have hx := h2 op.slot
        rw [htimes] at hx
        have := (hpos op.slot).2 ⟨op, ho, hc, rfl⟩
        by_contra hcv
        rw [if_pos (by simpa using hcv)] at hx
        omega
      · intro r hr; rw [hr0] at hr; cases hr
    | ok r =>
      obtain ⟨o, inst'⟩ := r
      obtain ⟨hn, hcv⟩ := c1.1 ⟨_, hrun⟩
      obtain ⟨v1, v2, -, -⟩ := c2 o inst' hrun
      obtain ⟨i1, i2⟩ := runCircuits_spec rest inst' (by rw [v1]; exact hv)
      have hcount : ∀ s, (if inst'.coverage s = true then 1 else 0) =
          (if inst.coverage s = true then 1 else 0) +
            (ops.filter fun op => op.covers && decide (op.slot = s)).length := by
        intro s
        have h1 := hle hn s
        have h2 := hpos s
        have h3 := v2 s
        by_cases hc : inst.coverage s = true
        · have : ¬ ∃ op ∈ ops, op.covers = true ∧ op.slot = s := by
            rintro ⟨op, ho, hc', rfl⟩
            rw [hcv op ho hc'] at hc; cases hc
          rw [if_pos (h3.2 (.inl hc)), if_pos hc]
          have := mt h2.1 this
          omega
        · rw [if_neg hc]
          by_cases he : ∃ op ∈ ops, op.covers = true ∧ op.slot = s
          · rw [if_pos (h3.2 (.inr he))]
            have := h2.2 he
            omega
          · rw [if_neg (fun h => (h3.1 h).elim hc he)]
            have := mt h2.1 he
            omega
      have hr0 : runCircuits b inst (ops :: rest) = runCircuits b inst' rest := by
        rw [runCircuits, hrun]
      rw [hr0]
      refine ⟨i1.trans ?_, fun r hr => ⟨(i2 r hr).1.trans v1, fun s => ?_⟩⟩
      · simp only [List.mem_cons, forall_eq_or_imp, hn, true_and, hcount, htimes, add_assoc]
      · rw [(i2 r hr).2 s, hcount, htimes, add_assoc]

/-- C52: a sequence of circuits over a fresh instance succeeds exactly when every circuit fills each
of its slots once and each slot is covered by at most one circuit; the final completeness check then
succeeds exactly when each slot was covered exactly once. -/
theorem C52_coverage {b : F} {inst : UnifiedInstance F} (hfresh : ∀ s, inst.coverage s = false)
    (hv : ∀ s, ValidNative b s.kind (inst.value s)) (circuits : List (List (SlotOp F))) :
    ((∃ r, runCircuits b inst circuits = .ok r) ↔
      (∀ ops ∈ circuits, (ops.map SlotOp.slot).Nodup) ∧ ∀ s, timesCovered circuits s ≤ 1) ∧
    ∀ r, runCircuits b inst circuits = .ok r →
      (assertComplete r.coverage = some () ↔ ∀ s, timesCovered circuits s = 1) := by
  obtain ⟨h1, h2⟩ := runCircuits_spec circuits inst hv
  simp only [hfresh, Bool.false_eq_true, if_false, Nat.zero_add] at h1 h2
  refine ⟨h1, fun r hr => ?_⟩
  rw [assertComplete_eq]
  refine forall_congr' fun s => ?_
  have := (h2 r hr).2 s
  by_cases hc : r.coverage s = true
  · rw [if_pos hc] at this; simp [hc, ← this]
  · rw [if_neg hc] at this; simp [hc, ← this]

/-- The honest allocation of a slot carries the instance value on its wires. -/
theorem honestGadget_value (s : SlotId) (n : s.kind.Native F) :
    (s.kind.write (honestGadget s.kind n)).map Element.wire =
      match s.kind, n with
      | .element, n => [n]
      | .point, n => [(n.getD (0, 0)).1, (n.getD (0, 0)).2] := by
  cases s <;> rfl

/-- C52: the wires of a unified output are, in order, the coordinates or the element of each field:
29 in total. -/
theorem C52_width (o : UnifiedOutput F) : o.write.length = 29 := rfl

/-- C52: a child's unified output is allocated in full from the child's proof. -/
theorem C52_from_proof {G HC : Type} (b : F) (p : Proof F G HC) (o : UnifiedOutput F) :
    (allocFromProof b p).sat o ↔ ∀ s, Allocated b s.kind (p.unifiedValue s) (o s) := by
  rw [allocFromProof, forEachSlot_sat]
  exact forall_congr' fun s => kind_alloc_sat b _ _ _

/-! ### Cases -/

/-- An instance over the curve y² = x³ + 1 of F₇. -/
def demoInst : UnifiedInstance (ZMod 7) :=
  ⟨fun s => match s with
    | .bridgePreamble | .bridgeSPrime | .bridgeInnerError | .bridgeOuterError | .bridgeAb
    | .bridgeQuery | .bridgeF | .bridgeEval => some (0, 1)
    | .w | .y | .z | .mu | .nu | .muPrime | .nuPrime | .c | .x | .alpha | .u | .preBeta | .v => (3 : ZMod 7),
    fun _ => false⟩

theorem demoInst_valid (s : SlotId) : ValidNative (1 : ZMod 7) s.kind (demoInst.value s) := by
  cases s <;> first | trivial | exact ⟨0, 1, rfl, by decide⟩

/-- Two circuits that cover different slots. -/
def demoOps : List (List (SlotOp (ZMod 7))) :=
  [[⟨.w, .provide ⟨5, 5⟩⟩, ⟨.bridgePreamble, .receive⟩, ⟨.y, .read⟩], [⟨.y, .receive⟩, ⟨.w, .read⟩]]

example : ∃ r, runCircuits (1 : ZMod 7) demoInst demoOps = .ok r :=
  (C52_coverage (fun _ => rfl) demoInst_valid demoOps).1.2
    ⟨by decide, fun s => by cases s <;> decide⟩

example : ¬ ∃ r, runCircuits (1 : ZMod 7) demoInst (demoOps ++ [[⟨.w, .receive⟩]]) = .ok r := by
  rw [(C52_coverage (fun _ => rfl) demoInst_valid _).1]
  rintro ⟨-, h⟩
  exact absurd (h .w) (by decide)

example : (runCircuit (1 : ZMod 7) demoInst [⟨.w, .read⟩, ⟨.w, .receive⟩]).sim = .error .panic :=
  (C52_filled_once demoInst_valid _ (by decide)).1

/-- One circuit receiving every slot completes the instance. -/
example : ∃ r, runCircuits (1 : ZMod 7) demoInst [SlotId.all.map fun s => ⟨s, .receive⟩] = .ok r ∧
    assertComplete r.coverage = some () := by
  obtain ⟨h1, h2⟩ := C52_coverage (fun _ => rfl) demoInst_valid
    [SlotId.all.map fun s => (⟨s, .receive⟩ : SlotOp (ZMod 7))]
  obtain ⟨r, hr⟩ := h1.2 ⟨by decide, fun s => by cases s <;> decide⟩
  exact ⟨r, hr, (h2 r hr).2 fun s => by cases s <;> decide⟩

end Ragu.Props

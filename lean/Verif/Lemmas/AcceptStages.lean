/-
The gadgets of the stages that polynomials hold.
-/
import Verif.Spec.Accept
import Verif.Props.Stages

set_option linter.unusedSectionVars false

namespace Ragu.Props
open Ragu Ragu.Circuit Ragu.Registry Ragu.Spec Ragu.Gadget Ragu.Pcd Ragu.Unif
variable {F G HC : Type} [Field F] [DecidableEq F] [Field G] [DecidableEq G]

theorem stageValues_length (n : ℕ) (d : Chain) (r : Sparse.Poly F) :
    (stageValues n d r).length = d.values := by simp [stageValues]

/-- Some gadgets have the values that the polynomials hold. -/
theorem stages_exist (n N T : ℕ) (rx : RxIndex → Sparse.Poly F) :
    ∃ S, StageTypes N T S ∧ StagesOf n N T rx S := by
  let el := fun (d : Chain) (i : RxIndex) =>
    (stageValues n d (rx i)).map fun x => (⟨x, x⟩ : Element F)
  have hl : ∀ d i, (el d i).length = d.values := by
    intro d i
    rw [List.length_map, stageValues_length]
  have hw : ∀ d i, (el d i).map (·.wire) = stageValues n d (rx i) := fun d i => (wires_both _).1
  have l1 : (el (preambleStage N) .preamble).length = 2 * (3 * N + 1 + 29) := hl _ _
  have l2 : (el (outerErrorStage N T) .outerError).length =
    numErrorTerms NUM_GROUPS + NUM_GROUPS + 6 + T := hl _ _
  have l3 : (el (innerErrorStage N T) .innerError).length =
    NUM_GROUPS * numErrorTerms GROUP_SIZE := hl _ _
  have l4 : (el (queryStage N) .query).length = 46 := hl _ _
  have l5 : (el (evalStage N) .eval).length = 36 := hl _ _
  obtain ⟨i1, i2, i3⟩ := inner_elems_ofElems _ _ l3
  have e1 : numErrorTerms NUM_GROUPS = NUM_GROUPS * NUM_GROUPS - NUM_GROUPS := rfl
  refine ⟨⟨.ofElems N (el (preambleStage N) .preamble),
    .ofElems NUM_GROUPS T (el (outerErrorStage N T) .outerError),
    innerErrorOfElems (numErrorTerms GROUP_SIZE) NUM_GROUPS (el (innerErrorStage N T) .innerError),
    .ofElems (el (queryStage N) .query), .ofElems (el (evalStage N) .eval)⟩, ?_, ?_⟩
  · refine ⟨child_ofElems_lengths (by omega),
      child_ofElems_lengths (by simp only [List.length_drop, NUM_WIRES]; omega), ?_, ?_, i2, i3, ?_⟩
      <;> simp only [OuterErrorOutput.ofElems, List.length_take, List.length_drop] <;> omega
  · refine ⟨?_, ?_, ?_, ?_, ?_⟩
    · exact (congrArg _ (pre_elems_ofElems l1)).trans (hw _ _)
    · exact (congrArg _ (outer_elems_ofElems l2)).trans (hw _ _)
    · exact (congrArg _ i1).trans (hw _ _)
    · exact (congrArg _ (query_elems_ofElems _ l4)).trans (hw _ _)
    · exact (congrArg _ (eval_elems_ofElems _ l5)).trans (hw _ _)

/-- The wires of the stage `d` among `es` are those of the polynomial. -/
def WiresOf (n : ℕ) (d : Chain) (r : Sparse.Poly F) (es : List F) : Prop :=
  (es.drop (firstWire d)).take d.values = stageValues n d r ∧ firstWire d + d.values ≤ es.length

theorem wires_stageValues {n : ℕ} {d : Chain} {r : Sparse.Poly F} {es : List F}
    (h0 : 0 < d.values) (h : ∀ j < 2 * d.numGates, es[firstWire d + j]? =
      some (wireOf n r (stageWire d.skipGates j).1 (stageWire d.skipGates j).2)) :
    WiresOf n d r es := by
  have hv : d.values ≤ 2 * d.numGates := by rw [Chain.numGates]; omega
  have hle : firstWire d + d.values ≤ es.length := by
    have := h (d.values - 1) (by omega)
    have := (List.getElem?_eq_some_iff.1 this).1
    omega
  refine ⟨?_, hle⟩
  refine List.ext_getElem? fun j => ?_
  rw [List.getElem?_take, stageValues, List.getElem?_map, List.getElem?_drop]
  by_cases hj : j < d.values
  · rw [if_pos hj, h j (by omega), List.getElem?_range hj]
    rfl
  · rw [if_neg hj, List.getElem?_eq_none (by simpa using hj)]
    rfl

section
variable {n N T : ℕ} {S : StepStages F} {rx : RxIndex → Sparse.Poly F} {es : List F}
  (hS : StageTypes N T S) (hO : StagesOf n N T rx S)
include hS hO

theorem preambleGuard_own (h : WiresOf n (preambleStage N) (rx .preamble) es) :
    preambleGuard N S.preamble es = .ret S.preamble := by
  obtain ⟨o, h1, h2, -, -, h3⟩ := C69_preambleGuard hS h.2
  rw [h1, h3 (by rw [h2, hO.preamble, h.1])]

theorem outerErrorGuard_own (h : WiresOf n (outerErrorStage N T) (rx .outerError) es) :
    outerErrorGuard N T S.outerError es = .ret S.outerError := by
  obtain ⟨o, h1, h2, -, -, h3⟩ := C69_outerErrorGuard hS h.2
  rw [h1, h3 (by rw [h2, hO.outerError, h.1])]

theorem innerErrorGuard_own (h : WiresOf n (innerErrorStage N T) (rx .innerError) es) :
    innerErrorGuard N T S.innerError es = .ret S.innerError := by
  obtain ⟨o, h1, h2, -, -, h3⟩ := C69_innerErrorGuard hS h.2
  rw [h1, h3 (by rw [h2, hO.innerError, h.1])]

omit hS in
theorem queryGuard_own (h : WiresOf n (queryStage N) (rx .query) es) :
    queryGuard N S.query es = .ret S.query := by
  obtain ⟨o, h1, h2, -, h3⟩ := C69_queryGuard (S := S) h.2
  rw [h1, h3 (by rw [h2, hO.query, h.1])]

omit hS in
theorem evalGuard_own (h : WiresOf n (evalStage N) (rx .eval) es) :
    evalGuard N S.eval es = .ret S.eval := by
  obtain ⟨o, h1, h2, -, h3⟩ := C69_evalGuard (S := S) h.2
  rw [h1, h3 (by rw [h2, hO.eval, h.1])]
end

end Ragu.Props

/-
The gadgets that the internal circuits get from the stages, and the circuits as compiled programs.
-/
import Verif.Lemmas.Compile
import Verif.Lemmas.UnifComputeV
import Verif.Model.Pcd.Stages
import Mathlib.Tactic.IntervalCases

set_option linter.unusedSectionVars false

namespace Ragu.Unif
open Ragu Ragu.Circuit Ragu.Registry Ragu.Gadget Ragu.Spec Ragu.Pcd
variable {W F α β γ : Type} [Field F] [DecidableEq F] {m : ℕ}

/-! ### Lists of fixed length -/

theorem ListN.take [Gad W F α] {n : ℕ} (k : ℕ) {l : Fam W F (List α)} (h : ListN n m l)
    (hk : k ≤ n) : ListN k m fun w σ => (l w σ).take k := by
  obtain ⟨ls, rfl, r, e⟩ := h
  exact ⟨ls.take k, by simpa using hk, fun b hb => r b (List.mem_of_mem_take hb),
    fun w σ => by simp only [e, List.map_take]⟩

theorem ListN.drop [Gad W F α] {n : ℕ} (k : ℕ) {l : Fam W F (List α)} (h : ListN n m l) :
    ListN (n - k) m fun w σ => (l w σ).drop k := by
  obtain ⟨ls, rfl, r, e⟩ := h
  exact ⟨ls.drop k, by simp, fun b hb => r b (List.mem_of_mem_drop hb),
    fun w σ => by simp only [e, List.map_drop]⟩

theorem ListN.getD [Gad W F α] {n i : ℕ} {l : Fam W F (List α)} (h : ListN n m l) (hi : i < n)
    (d : α) : Unif.rel m fun w σ => (l w σ).getD i d := by
  obtain ⟨a, ha, e⟩ := h.getElem? hi
  have : (fun w σ => (l w σ).getD i d) = a := by
    funext w σ
    rw [List.getD_eq_getElem?_getD, e]
    rfl
  rwa [this]

theorem ListN.cast [Gad W F α] {n n' : ℕ} {l : Fam W F (List α)} (h : ListN n m l) (e : n = n') :
    ListN n' m l := e ▸ h

/-! ### Gadgets from lists -/

theorem slot_offset (s : SlotId) : s.offset + s.kind.width ≤ 29 := by cases s <;> decide

theorem UR.ofElems {n : ℕ} {l : Fam W F (List (Element F))} (h : ListN n m l) (hn : 29 ≤ n) :
    UR m fun w σ => UnifiedOutput.ofElems (l w σ) := by
  intro s
  have hs := slot_offset s
  simp only [UnifiedOutput.ofElems]
  generalize s.offset = i at *
  generalize s.kind = k at *
  cases k
  · simp only [Kind.width] at hs
    exact ⟨h.getD (i := i) (by omega) _, h.getD (i := i + 1) (by omega) _⟩
  · simp only [Kind.width] at hs
    exact h.getD (i := i) (by omega) _

theorem ChildR.ofElems {N n : ℕ} {l : Fam W F (List (Element F))} (h : ListN n m l)
    (hn : 3 * N + 1 + 29 ≤ n) : ChildR N m fun w σ => ChildInputs.ofElems N (l w σ) where
  left := (h.take N (by omega)).rel
  right := ((h.drop N).take N (by omega)).rel
  output := (h.drop (2 * N)).take N (by omega)
  circuitId := h.getD (by omega) _
  unified := UR.ofElems (h.drop (3 * N + 1)) (by omega)

theorem PreR.ofElems {N : ℕ} {l : Fam W F (List (Element F))}
    (h : ListN (2 * (3 * N + 1 + NUM_WIRES)) m l) :
    PreR N m fun w σ => PreambleOutput.ofElems N (l w σ) where
  left := ChildR.ofElems h (by simp only [NUM_WIRES]; omega)
  right := ChildR.ofElems (h.drop (3 * N + 1 + NUM_WIRES)) (by simp only [NUM_WIRES]; omega)

theorem KyR.ofElems {n : ℕ} {l : Fam W F (List (Element F))} (h : ListN n m l) (hn : 3 ≤ n) :
    KyR m fun w σ => ChildKyOutputs.ofElems (l w σ) :=
  ⟨h.getD (by omega) _, h.getD (by omega) _, h.getD (by omega) _⟩

theorem OuterR.ofElems {g T : ℕ} {l : Fam W F (List (Element F))}
    (h : ListN (numErrorTerms g + g + 6 + T) m l) :
    OuterR g T m fun w σ => OuterErrorOutput.ofElems g T (l w σ) where
  errorTerms := (h.take (numErrorTerms g) (by omega)).cast (by simp [numErrorTerms, Nat.mul_sub])
  collapsed := (h.drop (numErrorTerms g)).take g (by omega)
  left := KyR.ofElems (h.drop (numErrorTerms g + g)) (by omega)
  right := KyR.ofElems (h.drop (numErrorTerms g + g + 3)) (by omega)
  spongeState := (h.drop (numErrorTerms g + g + 6)).take T (by omega)

theorem inner_ofElems {k : ℕ} : ∀ (g : ℕ) {n : ℕ} {l : Fam W F (List (Element F))},
    ListN n m l → g * k ≤ n → ∃ ls : List (Fam W F (List (Element F))), ls.length = g ∧
      (∀ l ∈ ls, ListN k m l) ∧ ∀ w σ, innerErrorOfElems k g (l w σ) = ls.map fun l => l w σ
  | 0, n, l, _, _ => ⟨[], rfl, by simp, fun w σ => rfl⟩
  | g + 1, n, l, h, hn => by
    rw [Nat.succ_mul] at hn
    obtain ⟨ls, h1, h2, h3⟩ := inner_ofElems (k := k) g (h.drop k) (by omega)
    refine ⟨(fun w σ => (l w σ).take k) :: ls, by simp [h1], ?_, fun w σ => ?_⟩
    · intro l' hl'
      rcases List.mem_cons.1 hl' with rfl | hl'
      · exact h.take k (by omega)
      · exact h2 l' hl'
    · rw [innerErrorOfElems, h3]
      rfl

theorem QChildR.ofElems {n : ℕ} {l : Fam W F (List (Element F))} (h : ListN n m l) (hn : 16 ≤ n) :
    QChildR m fun w σ => QueryChild.ofElems (l w σ) where
  rx i := h.getD (lt_of_lt_of_le (by cases i <;> decide : _ < 16) hn) _
  a := h.getD (by omega) _
  b := h.getD (by omega) _
  xyw := h.getD (by omega) _
  xyc := h.getD (by omega) _
  wyx := h.getD (by omega) _

theorem QueryR.ofElems {l : Fam W F (List (Element F))}
    (h : ListN (NUM_INTERNAL_CIRCUITS + 1 + 2 * 16) m l) :
    QueryR m fun w σ => QueryOutput.ofElems (l w σ) where
  fixed i := h.getD (lt_of_lt_of_le (by cases i <;> decide : _ < 14) (by decide)) _
  wxy := h.getD (by decide) _
  left := QChildR.ofElems (h.drop 14) (by decide)
  right := QChildR.ofElems (h.drop 30) (by decide)

theorem EChildR.ofElems {n : ℕ} {l : Fam W F (List (Element F))} (h : ListN n m l) (hn : 15 ≤ n) :
    EChildR m fun w σ => EvalChild.ofElems (l w σ) where
  rx i := h.getD (lt_of_lt_of_le (by cases i <;> decide : _ < 15) hn) _
  a := h.getD (by omega) _
  b := h.getD (by omega) _
  xy := h.getD (by omega) _
  p := h.getD (by omega) _

theorem EvalR.ofElems {l : Fam W F (List (Element F))} (h : ListN (2 * 15 + 6) m l) :
    EvalR m fun w σ => EvalOutput.ofElems (l w σ) where
  left := EChildR.ofElems h (by decide)
  right := EChildR.ofElems (h.drop 15) (by decide)
  wx0 := h.getD (by decide) _
  wx1 := h.getD (by decide) _
  wy := h.getD (by decide) _
  a := h.getD (by decide) _
  b := h.getD (by decide) _
  xy := h.getD (by decide) _

/-! ### Guards -/

/-- The elements on the wires from `f` on. -/
def injected (f n : ℕ) (elems : W → List (Element F)) : Fam W F (List (Element F)) :=
  fun w σ => (List.range n).map fun j => ⟨σ (f + j), ((elems w).getD j Element.zero).value⟩

theorem injected_listN {f n : ℕ} (h : f + n ≤ m) (elems : W → List (Element F)) :
    ListN n m (injected f n elems) := by
  refine ⟨(List.range n).map fun j w σ => ⟨σ (f + j), ((elems w).getD j Element.zero).value⟩,
    by simp, ?_, fun w σ => by simp [injected]⟩
  intro b hb
  obtain ⟨j, hj, rfl⟩ := List.mem_map.1 hb
  rw [List.mem_range] at hj
  exact ⟨Aff.wire (by omega), fun w σ τ _ => rfl⟩

theorem inject_ok {V : Type} : ∀ (ws : List V) (k : ℕ), k ≤ ws.length →
    inject k ws = .ok (ws.take k)
  | _, 0, _ => by simp [inject]
  | w :: ws, k + 1, h => by
    rw [inject, inject_ok ws k (by simpa using h)]
    rfl

theorem injectElems_eq {f n : ℕ} {elems : W → List (Element F)} (hn : ∀ w, (elems w).length = n)
    {es : List F} (he : f + n ≤ es.length) (w : W) :
    injectElems (elems w) ((es.drop f).take n) = .ret (injected f n elems w (vals es)) := by
  unfold injectElems
  rw [inject_ok _ _ (by rw [hn]; simp; omega)]
  simp only [hn]
  show Syn.ret _ = _
  congr 1
  apply List.ext_getElem
  · simp [injected, hn]; omega
  · intro j h1 h2
    have hj : j < n := by simpa [injected] using h2
    simp only [List.getElem_zipWith, injected, List.getElem_map, List.getElem_range,
      List.getElem_take, List.getElem_drop]
    rw [List.getD_eq_getElem _ _ (by rw [hn]; exact hj)]
    congr 1
    simp [vals, List.getElem?_eq_getElem (show f + j < es.length by omega)]

/-! ### Outputs -/

theorem UnifR.outs {n : ℕ} {x : Fam W F (Syn F (List (Element F) × UnifiedInstance F))}
    (h : UnifR (OutR n) m x) : UnifR (OutsR n) m fun w σ => do
      let r ← x w σ
      return r.1.map (·.wire) := by
  refine h.bindR (fun _ _ _ _ => rfl) fun m' a hm r => UnifR.pure ?_
  obtain ⟨ls, h1, h2, h3⟩ := r.1
  refine ⟨ls.map fun b w σ => (b w σ).wire, by simpa using h1, ?_, fun w σ => ?_⟩
  · intro f hf
    obtain ⟨b, hb, rfl⟩ := List.mem_map.1 hf
    exact (h2 b hb).1
  · simp only [] at h3
    simp only [h3, List.map_map]
    rfl

/-! ### Positions of the stages -/

theorem values_stage (p : Chain) (n : ℕ) : (stage p n).numGates = (n + 1) / 2 := rfl

theorem stagesFit_stage {p : Chain} (h : StagesFit p) (n : ℕ) : StagesFit (stage p n) := ⟨h, le_rfl⟩

theorem preamble_fit (N : ℕ) : StagesFit (preambleStage N) :=
  stagesFit_stage (p := .base) trivial _
theorem outerError_fit (N T : ℕ) : StagesFit (outerErrorStage N T) :=
  stagesFit_stage (preamble_fit N) _
theorem innerError_fit (N T : ℕ) : StagesFit (innerErrorStage N T) :=
  stagesFit_stage (outerError_fit N T) _
theorem query_fit (N : ℕ) : StagesFit (queryStage N) := stagesFit_stage (preamble_fit N) _
theorem eval_fit (N : ℕ) : StagesFit (evalStage N) := stagesFit_stage (query_fit N) _

theorem firstWire_stage (p : Chain) (n : ℕ) : firstWire (stage p n) = firstWire p + 2 * p.numGates :=
  rfl

end Ragu.Unif

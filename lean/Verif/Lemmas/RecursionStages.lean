/-
The stages that a proof's polynomials hold are unique, and a run of `fuse` puts its own there.
-/
import Verif.Lemmas.ProverClaims

set_option linter.unusedSectionVars false

namespace Ragu.Props
open Ragu Ragu.Circuit Ragu.Registry Ragu.Spec Ragu.Gadget Ragu.Pcd Finset

section
variable {F : Type} [Field F] [DecidableEq F]

theorem flatten_inj {α : Type} {k : ℕ} : ∀ {a b : List (List α)}, a.length = b.length →
    (∀ l ∈ a, l.length = k) → (∀ l ∈ b, l.length = k) → a.flatten = b.flatten → a = b
  | [], [], _, _, _, _ => rfl
  | x :: a, y :: b, hl, ha, hb, h => by
    rw [List.flatten_cons, List.flatten_cons] at h
    obtain ⟨rfl, h'⟩ := List.append_inj h
      (by rw [ha x List.mem_cons_self, hb y List.mem_cons_self])
    rw [flatten_inj (by simpa using hl) (fun l hl => ha l (List.mem_cons_of_mem _ hl))
      (fun l hl => hb l (List.mem_cons_of_mem _ hl)) h']

theorem child_public_inj {N : ℕ} {c d : ChildInputs F}
    (hc : c.leftHeader.length = N ∧ c.rightHeader.length = N ∧ c.outputHeader.length = N)
    (hd : d.leftHeader.length = N ∧ d.rightHeader.length = N ∧ d.outputHeader.length = N)
    (h : c.elems.map (·.wire) = d.elems.map (·.wire)) : c.public = d.public := by
  obtain ⟨c1, c2, c3⟩ := hc
  obtain ⟨d1, d2, d3⟩ := hd
  simp only [ChildInputs.elems, List.map_append, write_public] at h
  obtain ⟨h, h5⟩ := List.append_inj' h rfl
  obtain ⟨h, h4⟩ := List.append_inj' h rfl
  obtain ⟨h, h3⟩ := List.append_inj' h (by simp [c3, d3])
  obtain ⟨h1, h2⟩ := List.append_inj' h (by simp [c2, d2])
  simp only [List.map_cons, List.map_nil, List.cons.injEq, and_true] at h4
  rw [ChildInputs.public, ChildInputs.public, h1, h2, h3, h4, toList_inj h5]

/-- The stages that polynomials hold are unique, up to the values that do not reach the wires. -/
theorem stages_unique {n N T : ℕ} {rx : RxIndex → Sparse.Poly F} {S S' : StepStages F}
    (hS : StageTypes N T S) (hO : StagesOf n N T rx S) (hS' : StageTypes N T S')
    (hO' : StagesOf n N T rx S') :
    S.preamble.left.public = S'.preamble.left.public ∧
    S.preamble.right.public = S'.preamble.right.public ∧
    (S.innerError.map fun l => l.map (·.wire)) = (S'.innerError.map fun l => l.map (·.wire)) ∧
    S.outerError.errorTerms.map (·.wire) = S'.outerError.errorTerms.map (·.wire) ∧
    QueryOutput.map (·.wire) S.query = QueryOutput.map (·.wire) S'.query ∧
    EvalOutput.map (·.wire) S.eval = EvalOutput.map (·.wire) S'.eval := by
  have h1 := hO.preamble.trans hO'.preamble.symm
  have h2 := hO.outerError.trans hO'.outerError.symm
  have h3 := hO.innerError.trans hO'.innerError.symm
  have h4 := hO.query.trans hO'.query.symm
  have h5 := hO.eval.trans hO'.eval.symm
  refine ⟨?_, ?_, ?_, ?_, ?_, ?_⟩
  · simp only [PreambleOutput.elems, List.map_append] at h1
    refine child_public_inj hS.left hS'.left (List.append_inj h1 ?_).1
    obtain ⟨a1, a2, a3⟩ := hS.left
    obtain ⟨b1, b2, b3⟩ := hS'.left
    simp only [ChildInputs.elems, List.map_append, write_public, List.length_append, List.length_map,
      a1, a2, a3, b1, b2, b3]
    rfl
  · simp only [PreambleOutput.elems, List.map_append] at h1
    refine child_public_inj hS.right hS'.right (List.append_inj' h1 ?_).2
    obtain ⟨a1, a2, a3⟩ := hS.right
    obtain ⟨b1, b2, b3⟩ := hS'.right
    simp only [ChildInputs.elems, List.map_append, write_public, List.length_append, List.length_map,
      a1, a2, a3, b1, b2, b3]
    rfl
  · rw [List.map_flatten, List.map_flatten] at h3
    refine flatten_inj (k := GROUP_SIZE * GROUP_SIZE - GROUP_SIZE)
      (by rw [List.length_map, List.length_map, hS.innerErrors, hS'.innerErrors]) ?_ ?_ h3
    · intro l hl
      obtain ⟨e, he, rfl⟩ := List.mem_map.1 hl
      rw [List.length_map, hS.innerError e he]
    · intro l hl
      obtain ⟨e, he, rfl⟩ := List.mem_map.1 hl
      rw [List.length_map, hS'.innerError e he]
  · simp only [OuterErrorOutput.elems, List.map_append, List.append_assoc] at h2
    exact (List.append_inj h2 (by rw [List.length_map, List.length_map, hS.outerErrors,
      hS'.outerErrors])).1
  · revert h4
    generalize S.query = q
    generalize S'.query = q'
    obtain ⟨f, w, ⟨l, l1, l2, l3, l4, l5⟩, ⟨r, r1, r2, r3, r4, r5⟩⟩ := q
    obtain ⟨f', w', ⟨l', l1', l2', l3', l4', l5'⟩, ⟨r', r1', r2', r3', r4', r5'⟩⟩ := q'
    intro h4
    simp only [QueryOutput.elems, QueryChild.elems, NativeId.all, RxIndex.all, List.map_cons,
      List.map_nil, List.cons_append, List.nil_append, List.cons.injEq] at h4
    simp only [QueryOutput.map, QueryChild.map]
    congr 1
    · funext id; cases id <;> simp only [h4]
    · simp only [h4]
    · congr 1
      · funext id; cases id <;> simp only [h4]
      all_goals simp only [h4]
    · congr 1
      · funext id; cases id <;> simp only [h4]
      all_goals simp only [h4]
  · revert h5
    generalize S.eval = q
    generalize S'.eval = q'
    obtain ⟨⟨l, l1, l2, l3, l4⟩, ⟨r, r1, r2, r3, r4⟩, a1, a2, a3, a4, a5, a6⟩ := q
    obtain ⟨⟨l', l1', l2', l3', l4'⟩, ⟨r', r1', r2', r3', r4'⟩, b1, b2, b3, b4, b5, b6⟩ := q'
    intro h5
    simp only [EvalOutput.elems, EvalOutput.write, EvalChild.write, RxIndex.all, List.map_cons,
      List.map_nil, List.cons_append, List.nil_append, List.cons.injEq] at h5
    simp only [EvalOutput.map, EvalChild.map]
    congr 1
    · congr 1
      · funext id; cases id <;> simp only [h5]
      all_goals simp only [h5]
    · congr 1
      · funext id; cases id <;> simp only [h5]
      all_goals simp only [h5]
    all_goals simp only [h5]

/-- A stage's polynomial holds the values that it was made of. -/
theorem stageValues_rx {n : ℕ} {d : Chain} {alpha : F} {vs : List F} {p : Sparse.Poly F}
    (h : d.rx n alpha vs = .ok p) (hl : vs.length = d.values) : stageValues n d p = vs := by
  obtain ⟨h1, -, -⟩ := C28_rx d alpha vs h
  refine List.ext_getElem (by rw [stageValues, List.length_map, List.length_range, hl]) fun j h2 h3 => ?_
  simp only [stageValues, List.getElem_map, List.getElem_range]
  rw [h1 j h3, List.getD_eq_getElem?_getD, List.getElem?_eq_getElem h3]
  rfl

end

section
variable {F G HC : Type} [Field F] [DecidableEq F] [Field G] [DecidableEq G]
  [AddCommGroup HC] [DecidableEq HC] [Module F HC]
  {C : CycleEnv F G HC} {n : ℕ} {P : StepParams F}

/-- The stages of a run are the ones that its polynomials hold. -/
theorem run_stagesOf {left right : Proof F G HC} {ch : Challenges F} {fused : FuseAB F HC}
    {state : List F} {s : FuseState F G HC} {t : FuseTraces F G} {S : StepStages F}
    (hS : StagesRun C n P left right ch fused state s t S)
    (hT : StageTypes P.headerSize P.poseidon.T S) :
    StagesOf n P.headerSize P.poseidon.T t.rx S := by
  obtain ⟨-, ap, hp⟩ := hS.preamble
  obtain ⟨_, _, _, -, -, ao, ho⟩ := hS.outerError
  obtain ⟨-, ai, hi⟩ := hS.innerError
  obtain ⟨-, aq, hq⟩ := hS.query
  obtain ⟨-, ae, he⟩ := hS.eval
  exact ⟨(stageValues_rx hp (by rw [List.length_map, preamble_elems_length hT]; rfl)).symm,
    (stageValues_rx ho (by rw [List.length_map, outerError_elems_length hT]; rfl)).symm,
    (stageValues_rx hi (by rw [List.length_map, innerError_elems_length hT]; rfl)).symm,
    (stageValues_rx hq (by rw [List.length_map, query_elems_length]; rfl)).symm,
    (stageValues_rx he (by rw [List.length_map, eval_elems_length]; rfl)).symm⟩

end
end Ragu.Props

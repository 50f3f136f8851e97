/-
Property C96: the closed forms of a stage mask are those of a circuit.
-/
import Verif.Lemmas.MaskCircuit
import Verif.Props.Staging

set_option linter.unusedSectionVars false

namespace Ragu.Props
open Ragu Ragu.Circuit Ragu.Spec Finset
variable {F : Type} [Field F] [DecidableEq F]

/-- The circuit of a mask that can be made is processed without error. -/
theorem maskCircuit_ok {n skip num : ℕ} {m : StageMask} (h : StageMask.new n skip num = .ok m) :
    0 < n ∧ m = ⟨skip, num⟩ ∧ ∃ o, circuitObject n (m.circuit (F := F) n) = .ok o := by
  rw [(C26_new n skip num).1] at h
  split_ifs at h with h1 h2
  cases h
  have hn : 0 < n := by omega
  refine ⟨hn, rfl, ?_⟩
  obtain ⟨i, hi⟩ := ((C22_limits n _ (mask_wellUsed (F := F) n ⟨skip, num⟩)).2.2).2 (by
    rw [mask_counts hn]
    simp only [totalGates, totalCons, List.map_cons, List.map_nil, List.sum_cons, List.sum_nil]
    omega)
  exact ⟨intoRawCircuitObject n _ i, by rw [circuitObject, hi]; rfl⟩

/-- C96: the circuit that creates every gate of the rank and forces the wires of all gates outside the
stage to zero is accepted by the circuit pipeline. It has as many gates and constraints as the mask
object says. The wiring polynomial that the pipeline evaluates for it, at the floor plan of its own
segments, is the polynomial of the mask's closed form and the monomial of the constraint on the constant
wire. All three evaluators agree on this. -/
theorem C96_circuit {n skip num : ℕ} {m : StageMask} (h : StageMask.new n skip num = .ok m) :
    ∃ o, circuitObject n (m.circuit (F := F) n) = .ok o ∧
      o.constraintCounts = (m.object (F := F) n).constraintCounts ∧ o.constraintCounts = (n, 4 * n - 1) ∧
      ∀ x y, ∃ v, (m.object n).sxy x y [] = some v ∧
        o.sxy x y (floorPlan o.segmentRecords) = some (v + x ^ (2 * n)) ∧
        (∃ p q, o.sx x (floorPlan o.segmentRecords) = some p ∧ (m.object n).sx x [] = some q ∧
          Sparse.eval (4 * n) p y = Sparse.eval (4 * n) q y + x ^ (2 * n)) ∧
        (∃ p q, o.sy y (floorPlan o.segmentRecords) = some p ∧ (m.object n).sy y [] = some q ∧
          Sparse.eval (4 * n) p x = Sparse.eval (4 * n) q x + x ^ (2 * n)) := by
  obtain ⟨hn, rfl, o, ho⟩ := maskCircuit_ok (F := F) h
  have hu := mask_wellUsed (F := F) n ⟨skip, num⟩
  have hI := circuit_implements hu ho
  obtain ⟨i, hi, rfl⟩ := circuitObject_ok ho
  obtain ⟨-, -, hseg⟩ := registered hu hi
  have hc : (intoRawCircuitObject n ((⟨skip, num⟩ : StageMask).circuit (F := F) n) i).constraintCounts =
      (n, 4 * n - 1) := by
    have hi' := hi
    simp only [intoCircuitObject, metricsEval_eq _ hu, bind_ok, capacityCheck, mask_counts hn, totalGates,
      totalCons, List.map_cons, List.map_nil, List.sum_cons, List.sum_nil, Nat.add_zero] at hi'
    rw [if_neg (by omega), if_neg (by omega)] at hi'
    obtain rfl := Except.ok.inj hi'
    rfl
  refine ⟨_, ho, hc, hc, fun x y => ?_⟩
  obtain ⟨e1, ⟨q, q1, -, q2⟩, ⟨r, r1, -, r2⟩⟩ := C26_evaluators h x y []
  have hw := mask_wiring hn ⟨skip, num⟩ x y
  have hseg' : (intoRawCircuitObject n ((⟨skip, num⟩ : StageMask).circuit (F := F) n) i).segmentRecords =
      ((⟨skip, num⟩ : StageMask).circuit (F := F) n).counts := hseg
  obtain ⟨p, p1, -, p2⟩ := hI.sx x
  obtain ⟨p', p1', -, p2'⟩ := hI.sy y
  refine ⟨_, e1, ?_, ⟨p, q, p1, q1, ?_⟩, ⟨p', r, p1', r1, ?_⟩⟩
  · rw [hI.sxy, hseg', hw]
  · rw [p2, hseg', hw, q2]
  · rw [p2', hseg', hw, r2]

/-- C96: the constraints of this circuit, other than the one on the constant wire, hold of an assignment of
the wires exactly when all four wires of every gate outside the stage are zero. -/
theorem C96_meaning {n skip num : ℕ} {m : StageMask} (h : StageMask.new n skip num = .ok m)
    (φ : Base → F) :
    (∀ r ∈ bondRows φ (m.circuit (F := F) n), r.val = 0) ↔
      ∀ j < n, Masked skip num j → ∀ k, φ ⟨k, 0, j⟩ = 0 := by
  obtain ⟨hn, rfl, -⟩ := maskCircuit_ok (F := F) h
  rw [bondRows, mask_constraints hn, List.dropLast_concat]
  have hrow : ∀ (vs : List F) a b, (∀ r ∈ rowsFrom a b vs, r.val = 0) ↔ ∀ v ∈ vs, v = 0 := by
    intro vs
    induction vs with
    | nil => intro a b; simp [rowsFrom]
    | cons v vs ih => intro a b; simp [rowsFrom, ih]
  rw [hrow]
  constructor
  · intro hz j hj hm k
    have := hz (maskVal φ ⟨skip, num⟩ (k, j)) (List.mem_map.2 ⟨(k, j), ?_, rfl⟩)
    · rwa [maskVal, if_pos hm] at this
    · have hj0 := hm.1
      have hd : j ∈ (List.range n).drop 1 := by
        obtain ⟨n, rfl⟩ : ∃ k, n = k + 1 := ⟨n - 1, by omega⟩
        rw [List.range_succ_eq_map, List.drop_one, List.tail_cons, List.mem_map]
        exact ⟨j - 1, List.mem_range.2 (by omega), by omega⟩
      simp only [StageMask.wireOrder, List.mem_append, List.mem_map, List.mem_reverse]
      cases k
      · exact .inl (.inr ⟨j, List.mem_range.2 hj, rfl⟩)
      · exact .inl (.inl (.inr ⟨j, List.mem_range.2 hj, rfl⟩))
      · exact .inl (.inl (.inl ⟨j, hd, rfl⟩))
      · exact .inr ⟨j, hd, rfl⟩
  · intro hz v hv
    obtain ⟨w, hw, rfl⟩ := List.mem_map.1 hv
    rw [maskVal]
    split_ifs with hm
    · exact hz w.2 (wireOrder_lt w hw) hm w.1
    · rfl

-- the mask of gates 2, 3 and 4 of 8
example : StageMask.new 8 2 3 = .ok ⟨2, 3⟩ := by decide
example : ∃ o, circuitObject 8 ((StageMask.mk 2 3).circuit (F := ZMod 97) 8) = .ok o ∧
    o.constraintCounts = (8, 31) :=
  let ⟨o, h, _, h2, _⟩ := C96_circuit (F := ZMod 97) (n := 8) (skip := 2) (num := 3) rfl
  ⟨o, h, h2⟩
-- ones on the wires of the stage and of gate 0 satisfy it; a one elsewhere does not
example : (∀ r ∈ bondRows (fun b => if b.loc ∈ [0, 2, 3, 4] then (1 : ZMod 97) else 0)
    ((StageMask.mk 2 3).circuit 8), r.val = 0) ∧
    ¬∀ r ∈ bondRows (fun b => if b.loc = 5 ∧ b.kind = .d then (1 : ZMod 97) else 0)
      ((StageMask.mk 2 3).circuit 8), r.val = 0 := by
  constructor
  · rw [C96_meaning (n := 8) (skip := 2) (num := 3) rfl]
    intro j _ hj k
    have : j ∉ [0, 2, 3, 4] := by
      intro h
      simp only [List.mem_cons, List.not_mem_nil, or_false] at h
      obtain ⟨h1, h2⟩ := hj
      omega
    exact if_neg this
  · rw [C96_meaning (n := 8) (skip := 2) (num := 3) rfl]
    intro h
    exact absurd (h 5 (by decide) (by decide) .d) (by decide)

/-- C29: the counts that a bonding object reports are the gates of its circuit and the constraints other
than the one on the constant wire; its segments are those of the circuit. -/
theorem C29_counts {n : ℕ} {c : Circ F} (hu : c.WellUsed) {o : CircuitObject F}
    (ho : intoBondingObject n c = .ok o) :
    o.constraintCounts = (totalGates c.counts, totalCons c.counts - 1) ∧ 0 < totalCons c.counts ∧
      o.segmentRecords = c.counts := by
  obtain ⟨-, i, m, -, hm, rfl, rfl, hs, hg, hN⟩ := bonding_ok hu ho
  have e : intoCircuitObject n c = .ok ⟨totalCons c.counts, totalGates c.counts, c.outs.length,
      c.counts⟩ := by
    simp only [intoCircuitObject, metricsEval_eq c hu, bind_ok, capacityCheck]
    rw [if_neg (by omega), if_neg (by omega)]
    rfl
  rw [hm, Except.ok.injEq] at e
  obtain ⟨_, _, _, -, -, -, -, hp, -⟩ := log_parts (fun _ => (0 : F)) hu
  refine ⟨by rw [e]; rfl, ?_, hs⟩
  simp only [totalCons, Circ.counts, List.map_cons, List.sum_cons]
  omega

example : ∃ o, intoBondingObject 8 demoBond = .ok o ∧
    o.constraintCounts = (totalGates demoBond.counts, totalCons demoBond.counts - 1) ∧
    (totalGates demoBond.counts, totalCons demoBond.counts) = (3, 2) := by
  obtain ⟨o, ho⟩ := (C29_accepts (n := 8) demoBond_wellUsed).2.2 ⟨demoBond_free, by decide, by decide⟩
  exact ⟨o, ho, (C29_counts demoBond_wellUsed ho).1, by decide⟩

end Ragu.Props

/-
Lemmas for histories: circuits that realize code, the circuits of steps, and counting runs.
-/
import Verif.Spec.Derivation
import Verif.Props.Build
import Verif.Props.Realize
import Verif.Lemmas.ProverClaims

set_option linter.unusedSectionVars false

namespace Ragu.Props
open Ragu Ragu.Circuit Ragu.Registry Ragu.Spec Ragu.Gadget Ragu.Pcd Finset Function
variable {F : Type} [Field F] [DecidableEq F]

/-! ### From circuits to code -/

/-- An assignment that satisfies a registered circuit satisfies the code that the circuit realizes. -/
theorem holds_sat {E : Env F} {n : ℕ} {R : Registry F} {i : ℕ} {c : Circ F} (h : Holds E n R i c)
    {x : Syn F (List F)} (hx : Realizes .base c fun _ => x) {r : Sparse.Poly F} (hg : GatesHold n r)
    {inst : List F} (hs : Satisfies (assignment n (floorPlan c.counts) r) c inst) : x.sat inst := by
  obtain ⟨k, hb, hk⟩ := hx
  obtain ⟨s, env, hrun, hz, hout, hone⟩ := hs
  obtain ⟨hn, hN, -⟩ := circuitY_coeff h (0 : F)
  have hfit : StagesFit .base := ((C28_exact .base k).2.1).1 ⟨_, hb⟩
  have hb' := hb
  rw [multiStage_eq .base k hfit, Except.ok.injEq] at hb'
  have hfits := fits_seq _ _ _ (circ_fits c hn hN.le).2
  have hk0 : c.body = k := hb'.symm
  rw [hk0] at hfits hrun
  have hsat := sem_sat (N := 4 * n) hg hone k _ _ _ _ hrun hfits hz
  obtain ⟨r', s1, s2⟩ := (hk [] rfl).sound hsat
  rw [hone] at hout
  rw [hout, Except.ok.injEq] at s2
  rw [s2]
  exact s1

variable {N : ℕ}

theorem encoding_length (hN : 0 < N) {E : Type} (z s : E) {vs : List E} (h : vs.length ≤ N - 1) :
    (headerEncoding N z s vs).length = N := by
  simp [headerEncoding]; omega

theorem padded_wires (hN : 0 < N) {D O : Type} {H : Header F D O} {g : O} {es : List (Element F)}
    (h : (Encoded.gadget g : Encoded F O N).write H = .ok es) : HeaderWires N H g (es.map (·.wire)) := by
  rw [Encoded.write, padded_eq hN] at h
  split at h
  · next hl =>
    cases h
    refine ⟨hl, ?_⟩
    simp [headerEncoding, Element.zero, Element.constant, Coeff.value]
  · cases h

theorem append₃_inj {α : Type} {a b c a' b' c' : List α} (h : a ++ b ++ c = a' ++ b' ++ c')
    (h1 : a.length = a'.length) (h2 : b.length = b'.length) : a = a' ∧ b = b' ∧ c = c' := by
  obtain ⟨h3, h4⟩ := List.append_inj h (by simp [h1, h2])
  exact ⟨(List.append_inj h3 h1).1, (List.append_inj h3 h1).2, h4⟩

/-- The code of an application's step in its adapter. -/
theorem program_sat (hN : 0 < N) {s : StepProgram F} {w : s.W} {l r h : List F} (hl : l.length = N)
    (hr : r.length = N) (hs : (adapterWires (s.adapter N w)).sat (l ++ r ++ h)) : StepSat N s l r h := by
  simp only [adapterWires, StepProgram.adapter, Syn.sat_bind, Syn.sat_pure] at hs
  obtain ⟨x, ⟨g, hg, rfl⟩, hs⟩ := hs
  split at hs
  · next o ho =>
    obtain ⟨ls, rs, os, e1, e2, e3, h1, h2, h3, e4, -⟩ := (C62_adapter hN s.left s.right s.output
      (l := .gadget g.1) (r := .gadget g.2.1) (o := .gadget g.2.2.1) trivial trivial trivial g.2.2.2 o).1 ho
    simp only [Syn.sat_pure] at hs
    rw [e4, List.map_append, List.map_append] at hs
    obtain ⟨rfl, rfl, rfl⟩ := append₃_inj hs (by simp [hl, h1]) (by simp [hr, h2])
    exact ⟨w, g.1, g.2.1, g.2.2.1, g.2.2.2, hg, padded_wires hN e1, padded_wires hN e2, padded_wires hN e3⟩
  · exact hs.elim

/-- The code of a step whose headers always fit, in its adapter. -/
theorem adapter_wires (hN : 0 < N) (s : StepProgram F) (w : s.W)
    (h1 : ∀ g, (s.left.write g).length ≤ N - 1) (h2 : ∀ g, (s.right.write g).length ≤ N - 1)
    (h3 : ∀ g, (s.output.write g).length ≤ N - 1) :
    adapterWires (s.adapter N w) = (s.code w).bind fun g => .ret
      (headerEncoding N 0 (s.left.suffix.get : F) ((s.left.write g.1).map (·.wire)) ++
       headerEncoding N 0 (s.right.suffix.get : F) ((s.right.write g.2.1).map (·.wire)) ++
       headerEncoding N 0 (s.output.suffix.get : F) ((s.output.write g.2.2.1).map (·.wire))) := by
  show ((s.code w).bind _).bind _ = _
  rw [bind_assoc_syn]
  congr 1
  funext g
  obtain ⟨ls, l1, -, l2, -⟩ := (C39_encode hN s.left g.1).1 (h1 g.1)
  obtain ⟨rs, r1, -, r2, -⟩ := (C39_encode hN s.right g.2.1).1 (h2 g.2.1)
  obtain ⟨os, o1, -, o2, -⟩ := (C39_encode hN s.output g.2.2.1).1 (h3 g.2.2.1)
  have := finishAdapter hN (l := .gadget g.1) (r := .gadget g.2.1) (o := .gadget g.2.2.1) trivial trivial
    trivial g.2.2.2 l1 r1 o1
  show adapterWires (.ret (adapterFinish _ _ _ _ _ _ _)) = _
  rw [this, ← l2, ← r2, ← o2]
  show Syn.ret _ = Syn.ret _
  simp only [List.map_append]

theorem headerWires_last {D O : Type} {H : Header F D O} {g : O} {h : List F} (hh : HeaderWires N H g h) :
    h.getLastD 0 = (H.suffix.get : F) := by
  rw [hh.2]; simp

theorem pipeAll_length : ∀ (vs : List (Element F)) {raw : List (Element F)}, (pipeAll vs).sat raw →
    raw.length = vs.length
  | [], raw, h => by
    simp only [pipeAll, Syn.sat_pure] at h
    rw [h]
  | v :: vs, raw, h => by
    simp only [pipeAll, Syn.sat_bind, Syn.sat_pure] at h
    obtain ⟨a, -, r, hr, rfl⟩ := h
    simp [pipeAll_length vs hr]

/-- The library's step for rerandomization outputs its left header. -/
theorem rerandomize_sat (hN : 0 < N) {l r h : List F} (hl : l.length = N) (hr : r.length = N)
    (hs : (adapterWires (rerandomize N (Header.unit (F := F)) ())).sat (l ++ r ++ h)) : h = l := by
  obtain ⟨vs, h1, h2⟩ := rerandomize_wires (N := N) hN (H := Header.unit (F := F)) (d := ()) (g := ()) rfl
    (Nat.zero_le _)
  rw [h2] at hs
  simp only [rerandomizeWires, Syn.sat_bind, Syn.sat_pure] at hs
  obtain ⟨raw, g1, g2⟩ := hs
  have := pipeAll_length vs g1
  obtain ⟨rfl, -, rfl⟩ := append₃_inj g2 (by simp [hl, this, h1])
    (by rw [hr, unitEncoding, encoding_length hN _ _ (Nat.zero_le _)])
  rfl

/-- The library's trivial step outputs the trivial header. -/
theorem trivial_sat (hN : 0 < N) {l r h : List F} (hl : l.length = N) (hr : r.length = N)
    (hs : (adapterWires (trivialStep (F := F) N)).sat (l ++ r ++ h)) : h = unitEncoding F N := by
  rw [trivial_wires hN, Syn.sat_ret] at hs
  have hu : (unitEncoding F N).length = N := encoding_length hN _ _ (Nat.zero_le _)
  exact (append₃_inj hs (by rw [hl, hu]) (by rw [hr, hu])).2.2

theorem unit_marked : (unitEncoding F N)[N - 1]? = some 1 := by
  rw [unitEncoding, headerEncoding]
  simp

/-! ### Counting runs -/

open Classical in
/-- A fibrewise bound for tuples: whatever the other entries, at most `d` values of entry `i` are bad. -/
theorem count_entry {α : Type} [Inhabited α] {k : ℕ} {T : Finset α} (Q : (Fin k → α) → Prop) (i : Fin k)
    (d : ℕ) (h : ∀ c, (T.filter fun a => Q (update c i a)).card ≤ d) :
    ((Fintype.piFinset fun _ : Fin k => T).filter Q).card ≤ d * T.card ^ (k - 1) := by
  have := Finset.card_le_mul_card_image_of_maps_to (f := fun c : Fin k → α => update c i default)
    (s := (Fintype.piFinset fun _ => T).filter Q)
    (t := Fintype.piFinset (update (fun _ => T) i {default})) (by
      intro c hc
      rw [mem_filter, Fintype.mem_piFinset] at hc
      rw [Fintype.mem_piFinset]
      intro j
      by_cases hj : j = i
      · subst hj; simp
      · simp only [update_of_ne hj]; exact hc.1 j) d (by
      intro b _
      refine le_trans (card_le_card_of_injOn (fun c => c i) ?_ ?_) (h b)
      · intro c hc
        simp only [coe_filter, mem_filter, Fintype.mem_piFinset, Set.mem_ofPred_eq] at hc
        simp only [coe_filter, Set.mem_ofPred_eq]
        refine ⟨hc.1.1 i, ?_⟩
        rw [← hc.2]
        simpa using hc.1.2
      · intro c hc c' hc' he
        simp only [coe_filter, mem_filter, Set.mem_ofPred_eq] at hc hc'
        have h1 := hc.2.trans hc'.2.symm
        funext j
        by_cases hj : j = i
        · subst hj; exact he
        · have := congrFun h1 j
          simpa only [update_of_ne hj] using this)
  refine this.trans (le_of_eq ?_)
  rw [Fintype.card_piFinset, ← mul_prod_erase univ _ (mem_univ i)]
  simp only [update_self, card_singleton, one_mul]
  congr 1
  rw [prod_congr rfl fun j hj => by rw [update_of_ne (ne_of_mem_erase hj)], prod_const,
    card_erase_of_mem (mem_univ i), card_univ, Fintype.card_fin]

/-- The draws before fuse `i` of a run. -/
theorem before_update {α : Type} {k : ℕ} (c : Fin k → α) (i : Fin k) (a : α) :
    (List.ofFn (update c i a)).take i = (List.ofFn c).take i := by
  apply List.ext_getElem
  · simp
  · intro j h1 h2
    have hj : j < i := by
      simp only [List.length_take, List.length_ofFn] at h1
      omega
    simp only [List.getElem_take, List.getElem_ofFn]
    rw [update_of_ne]
    intro he
    have := congrArg Fin.val he
    simp only at this
    omega

end Ragu.Props

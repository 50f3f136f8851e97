/-
The library's own steps as circuits.
-/
import Verif.Lemmas.UnifEndo
import Verif.Props.Step

set_option linter.unusedSectionVars false

namespace Ragu.Props
open Ragu Ragu.Circuit Ragu.Gadget Ragu.Spec Ragu.Pcd Ragu.Unif
variable {W F Data Out : Type} [Field F] [DecidableEq F] {m N : ℕ}

theorem unif_pipeAll : ∀ (n : ℕ) {m : ℕ} {v : W → List (Element F)}, (∀ w, (v w).length = n) →
    UnifR (ListN n) m fun w (_ : ℕ → F) => pipeAll (v w)
  | 0, m, v, h => by
    have e : ∀ w, v w = [] := fun w => List.length_eq_zero_iff.1 (h w)
    simp only [e, pipeAll]
    exact UnifR.pure ListN.nil
  | n + 1, m, v, h => by
    have e : ∀ w, v w = ((v w).headD Element.zero) :: (v w).tail := fun w => by
      rcases hv : v w with _ | ⟨a, l⟩
      · have := h w; rw [hv] at this; simp at this
      · rfl
    refine UnifR.congr (y := fun w _ => do
      let a ← Element.alloc ((v w).headD Element.zero).value
      let r ← pipeAll (v w).tail
      return a :: r) ?_ fun w σ => by rw [e w]; rfl
    refine Unif.bind (unif_alloc (fun _ _ _ _ => rfl)) (fun _ _ _ _ => rfl) ?_
    intro m' a hm ha
    refine UnifR.bindR (unif_pipeAll n fun w => by rw [List.length_tail, h w]; rfl) ?_ ?_
    · intro w σ τ ag
      simp only [rel_loc ha w ag]
    · intro m'' r hm' hr
      exact UnifR.pure (ListN.cons (rel_up hm' ha) hr)

theorem sized_pipeAll : ∀ (v : List (Element F)),
    Sized (fun r => r.length = v.length) (pipeAll v) ⟨0, v.length, 0⟩
  | [] => .pure rfl
  | _ :: v => ((Element.sized_alloc _).bind' fun _ => (sized_pipeAll v).bind fun _ h =>
      .pure (by simp [h])).cast (by size_eq)

/-- The wires of the rerandomization step for a header with the elements `vs`. -/
def rerandomizeWires (N : ℕ) (vs : List (Element F)) : Syn F (List F) := do
  let raw ← pipeAll vs
  return raw.map (·.wire) ++ unitEncoding F N ++ raw.map (·.wire)

theorem pipeAll_congr {α : Type} {n : ℕ} (vs : List (Element F)) (hn : vs.length = n)
    {f g : List (Element F) → Syn F α} (h : ∀ raw, raw.length = n → f raw = g raw) :
    (pipeAll vs).bind f = (pipeAll vs).bind g := by
  induction vs generalizing n f g with
  | nil => exact h [] hn
  | cons v vs ih =>
    subst hn
    show Syn.alloc _ _ = Syn.alloc _ _
    congr 1
    funext x
    show ((pipeAll vs).bind fun r => Syn.ret (_ :: r)).bind f =
      ((pipeAll vs).bind fun r => Syn.ret (_ :: r)).bind g
    rw [bind_assoc_syn, bind_assoc_syn]
    exact ih rfl fun raw hr => h _ (by simp [hr])

theorem rerandomize_wires (hN : 0 < N) {H : Header F Data Out} {d : Data} {g : Out}
    (hg : Pcd.emulate (H.encode d) = .ok g) (hfit : (H.write g).length ≤ N - 1) :
    ∃ vs : List (Element F), vs.length = N ∧
      adapterWires (rerandomize N H d) = rerandomizeWires N vs := by
  obtain ⟨vs, h1, -, h3⟩ := rerandomize_eq (N := N) hN hg hfit
  refine ⟨vs, h1, ?_⟩
  rw [h3]
  show ((pipeAll vs).bind fun raw => .ret (rerandomizeRest N H d raw)).bind _ = (pipeAll vs).bind _
  rw [bind_assoc_syn]
  refine pipeAll_congr vs h1 fun raw hr => ?_
  obtain ⟨us, u1, -, u3⟩ := rerandomizeRest_eq (N := N) hN H d hr
  rw [u3]
  show Syn.ret _ = Syn.ret _
  simp [u1]

theorem outsR_const (l : List F) : OutsR l.length m fun (_ : W) (_ : ℕ → F) => l :=
  ⟨l.map fun c _ _ => c, by simp, fun f hf => by
    obtain ⟨c, -, rfl⟩ := List.mem_map.1 hf; exact Aff.const m c,
    fun w σ => by simp [Function.comp_def]⟩

theorem OutsR.append {n n' : ℕ} {a b : Fam W F (List F)} (ha : OutsR n m a) (hb : OutsR n' m b) :
    OutsR (n + n') m fun w σ => a w σ ++ b w σ := by
  obtain ⟨l, rfl, h1, h2⟩ := ha
  obtain ⟨l', rfl, h1', h2'⟩ := hb
  refine ⟨l ++ l', by simp, ?_, fun w σ => by simp [h2, h2']⟩
  intro f hf
  rcases List.mem_append.1 hf with hf | hf
  exacts [h1 f hf, h1' f hf]

theorem outsR_wires {n : ℕ} {l : Fam W F (List (Element F))} (h : ListN n m l) :
    OutsR n m fun w σ => (l w σ).map (·.wire) := by
  obtain ⟨ls, h1, h2, h3⟩ := h
  refine ⟨ls.map fun b w σ => (b w σ).wire, by simpa using h1, ?_, fun w σ => by simp [h3]⟩
  intro f hf
  obtain ⟨b, hb, rfl⟩ := List.mem_map.1 hf
  exact (h2 b hb).1

theorem unif_rerandomize (hN : 0 < N) :
    UnifR (OutsR (3 * N)) m fun (w : {vs : List (Element F) // vs.length = N}) (_ : ℕ → F) =>
      rerandomizeWires N w.1 := by
  unfold rerandomizeWires
  refine UnifR.bindR (unif_pipeAll N fun w => w.2) (fun _ _ _ _ => rfl) ?_
  intro m' r hm hr
  refine UnifR.pure ?_
  have hu : (unitEncoding F N).length = N := by
    simp [unitEncoding, headerEncoding]; omega
  have := OutsR.append (OutsR.append (outsR_wires hr) (outsR_const (unitEncoding F N))) (outsR_wires hr)
  rw [hu] at this
  rwa [show 3 * N = N + N + N by omega]

theorem sized_rerandomize (vs : List (Element F)) :
    Sized (fun _ => True) (rerandomizeWires N vs) ⟨0, vs.length, 0⟩ :=
  ((sized_pipeAll vs).bind' fun _ => .pure trivial).cast (by size_eq)

end Ragu.Props

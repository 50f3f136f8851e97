/-
The wiring polynomials a finalised registry supplies to the claim builder.
-/
import Verif.Lemmas.ClaimBuilder
import Verif.Props.Registry

set_option linter.unusedSectionVars false
namespace Ragu.Pcd
open Ragu Ragu.Circuit Ragu.Registry Ragu.Spec Ragu.Sparse Ragu.Props Finset
variable {F : Type} [Field F] [DecidableEq F]

/-- The coefficients of the wiring polynomial of a registered object at `y` in a registry with the
given key. -/
def WiringCoeffs (n : ℕ) (o : CircuitObject F) (key y : F) (c : ℕ → F) : Prop :=
  ∃ p, o.sy y (floorPlan o.segmentRecords) = some p ∧
    ∀ a, c a = coeff p a + if a = 4 * n - 1 then key * y ^ (4 * n - 1) else 0

theorem supplies_of_ready {E : Env F} {n q : ℕ} {b : Builder F} {ss : List (F → F → F)}
    (h : Ready E n q b ss) {r : Registry F} (hr : b.finalize E n = .ok r) (y : F) :
    ∃ s, Supplies E n r y s ∧
      (∀ i x, Sparse.eval (4 * n) (s i) x =
        registryAt n r.domain.n (omegaJ E) ss r.key (omegaJ E i) x y) ∧
      ∀ (i : ℕ) o, r.circuits[i]? = some o → WiringCoeffs n o r.key y (coeff (s i)) := by
  obtain ⟨_, hg, hc⟩ := finalize_cases h hr
  have hs : AllImplement n r.circuits ss := by rw [hc]; exact h.objects
  have hex : ∀ i : ℕ, ∃ p : Sparse.Poly F, ∀ o : CircuitObject F, r.circuits[i]? = some o →
      o.sy y (floorPlan o.segmentRecords) = some p ∧ WellFormed (4 * n) p := by
    intro i
    rcases ho : r.circuits[i]? with _ | o
    · exact ⟨[], fun o ho => by cases ho⟩
    · obtain ⟨s, h1, h2⟩ := allImplement_get hs ho
      obtain ⟨p, g1, g2, g3⟩ := h2.sy y
      refine ⟨p, fun o' ho' => ?_⟩
      cases ho'
      exact ⟨g1, g2⟩
  choose ps hps using hex
  choose s h1 h2 h3 using fun i => wy_spec hg (omegaJ E i) y ps fun i o ho => hps i o ho
  refine ⟨s, fun i => ⟨h1 i, h2 i⟩, fun i x => ?_, fun i o ho => ⟨ps i, (hps i o ho).1, fun a => ?_⟩⟩
  · obtain ⟨-, ⟨p, g1, -, g2⟩, -, -⟩ := C23_restrictions h hr (omegaJ E i) x y
    rw [h1 i] at g1
    cases g1
    exact g2
  · rw [h3]
    have hi := (List.getElem?_eq_some_iff.1 ho).1
    have hl := hg.len
    congr 1
    rw [sum_eq_single_of_mem i (mem_range.2 hi)]
    · rw [weight_node hg.env hg.hk (by omega) (by omega), if_pos rfl, one_mul]
    · intro j hj hne
      rw [weight_node hg.env hg.hk (by have := mem_range.1 hj; omega) (by omega), if_neg hne, zero_mul]

end Ragu.Pcd

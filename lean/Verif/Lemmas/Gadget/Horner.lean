/-
The Horner gadget computes `k(y)`.
-/
import Verif.Lemmas.Gadget.Element
import Verif.Model.Gadget.Horner
import Verif.Model.Ky

set_option linter.unusedSectionVars false

namespace Ragu.Gadget.Horner
open Ragu Ragu.Circuit Ragu.Gadget
variable {F : Type} [Field F] [DecidableEq F]

/-- The state of the native evaluation that a gadget state stands for. -/
def wiresOf (s : Option (Element F)) : Option F := s.map (·.wire)
def valuesOf (s : Option (Element F)) : Option F := s.map (·.value)

def HonestState (s : Option (Element F)) : Prop := ∀ e, s = some e → e.Honest

theorem write_sat {p : Element F} {s : Option (Element F)} {v : Element F}
    {r : Option (Element F)} (h : (write p s v).sat r) :
    wiresOf r = Ky.write p.wire (wiresOf s) v.wire ∧
    valuesOf r = Ky.write p.value (valuesOf s) v.value := by
  rcases s with _ | acc
  · rw [write, Syn.sat_pure] at h
    subst h; exact ⟨rfl, rfl⟩
  · rw [write, Syn.sat_bind] at h
    obtain ⟨m, hm, h⟩ := h
    rw [Element.mul_sat] at hm
    rw [Syn.sat_pure] at h
    subst h hm
    simp [wiresOf, valuesOf, Ky.write]

theorem write_sim {p : Element F} (hp : p.Honest) {s : Option (Element F)} (hs : HonestState s)
    {v : Element F} (hv : v.Honest) : ∃ r, (write p s v).sim = .ok r ∧ HonestState r := by
  rcases s with _ | acc
  · exact ⟨some v, rfl, fun e he => by cases he; exact hv⟩
  · refine ⟨some (Element.add ⟨acc.wire * p.wire, acc.value * p.value⟩ v), ?_, fun e he => ?_⟩
    · rw [write, Syn.sim_bind_ok (Element.mul_sim (hs _ rfl) hp)]
      have h1 : acc.value = acc.wire := hs _ rfl
      have h2 : p.value = p.wire := hp
      rw [← h1, ← h2]
      rfl
    · cases he
      have h1 : acc.value = acc.wire := hs _ rfl
      have h2 : p.value = p.wire := hp
      have h3 : v.value = v.wire := hv
      show (Element.add _ _).value = (Element.add _ _).wire
      rw [Element.add_value, Element.add_wire, h1, h2, h3]

theorem writeAll_sat {p : Element F} : ∀ {vs : List (Element F)} {s r : Option (Element F)},
    (writeAll p s vs).sat r →
    wiresOf r = (vs.map (·.wire)).foldl (Ky.write p.wire) (wiresOf s) ∧
    valuesOf r = (vs.map (·.value)).foldl (Ky.write p.value) (valuesOf s)
  | [], s, r, h => by
    rw [writeAll, Syn.sat_pure] at h
    subst h; exact ⟨rfl, rfl⟩
  | v :: vs, s, r, h => by
    rw [writeAll, Syn.sat_bind] at h
    obtain ⟨m, hm, h⟩ := h
    obtain ⟨h1, h2⟩ := write_sat hm
    obtain ⟨h3, h4⟩ := writeAll_sat h
    rw [h3, h4, h1, h2]
    exact ⟨rfl, rfl⟩

theorem writeAll_sim {p : Element F} (hp : p.Honest) : ∀ {vs : List (Element F)}
    {s : Option (Element F)}, HonestState s → (∀ v ∈ vs, v.Honest) →
    ∃ r, (writeAll p s vs).sim = .ok r ∧ HonestState r
  | [], s, hs, _ => ⟨s, rfl, hs⟩
  | v :: vs, s, hs, hv => by
    obtain ⟨m, h1, h2⟩ := write_sim hp hs (hv v List.mem_cons_self)
    obtain ⟨r, h3, h4⟩ := writeAll_sim hp h2 fun w hw => hv w (List.mem_cons_of_mem _ hw)
    exact ⟨r, by rw [writeAll, Syn.sim_bind_ok h1, h3], h4⟩

theorem finishKy_sat {p : Element F} {s : Option (Element F)} {r : Element F}
    (h : (finishKy p s).sat r) : r.wire = Ky.finishKy p.wire (wiresOf s) ∧
    r.value = Ky.finishKy p.value (valuesOf s) := by
  rw [finishKy, Syn.sat_bind] at h
  obtain ⟨m, hm, h⟩ := h
  obtain ⟨h1, h2⟩ := write_sat hm
  rw [Syn.sat_pure] at h
  subst h
  rw [Ky.finishKy, Ky.finishKy, ← Element.one_wire, ← h1, Element.one_wire, ← Element.one_value, ← h2]
  rcases m with _ | m
  · rcases s with _ | s <;> simp [wiresOf, Ky.write] at h1
  · exact ⟨rfl, rfl⟩

theorem finishKy_sim {p : Element F} (hp : p.Honest) {s : Option (Element F)} (hs : HonestState s) :
    ∃ r, (finishKy p s).sim = .ok r ∧ r.Honest := by
  obtain ⟨m, h1, h2⟩ := write_sim hp hs (v := Element.one) rfl
  refine ⟨finish m, by rw [finishKy, Syn.sim_bind_ok h1]; rfl, ?_⟩
  rcases m with _ | m
  · show (Element.zero : Element F).value = _
    rw [Element.zero_value]; exact (Element.zero_wire).symm
  · exact h2 m rfl

end Ragu.Gadget.Horner

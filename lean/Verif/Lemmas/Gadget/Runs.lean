/-
Reasoning about gadget code step by step, for arbitrary satisfying assignments and for the honest
run at the same time.
-/
import Verif.Lemmas.Gadget.Gives

set_option linter.unusedSectionVars false

namespace Ragu.Gadget
open Ragu Ragu.Circuit
variable {F : Type} [Field F] [DecidableEq F] {α β : Type}

/-- For `m` false: every satisfying assignment has the property.  For `m` true: the simulator
succeeds with a result that has it. -/
structure Runs (m : Prop) (x : Syn F α) (P : α → Prop) : Prop where
  sound : ¬ m → ∀ r, x.sat r → P r
  complete : m → ∃ r, x.sim = .ok r ∧ P r

namespace Runs
variable {m c h : Prop} {P Q : α → Prop}

theorem bind {x : Syn F α} {f : α → Syn F β} {Q : β → Prop} (hx : Runs m x P)
    (hf : ∀ a, P a → Runs m (f a) Q) : Runs m (x >>= f) Q := by
  refine ⟨fun hm r hr => ?_, fun hm => ?_⟩
  · obtain ⟨a, h1, h2⟩ := (Syn.sat_bind _ _ _).1 hr
    exact (hf a (hx.sound hm a h1)).sound hm r h2
  · obtain ⟨a, h1, h2⟩ := hx.complete hm
    obtain ⟨r, h3, h4⟩ := (hf a h2).complete hm
    exact ⟨r, by rw [Syn.sim_bind_ok h1, h3], h4⟩

/-- Two steps proved together. -/
theorem bind2 {γ : Type} {x : Syn F α} {f : α → Syn F β} {P : β → Prop} {g : β → Syn F γ}
    {Q : γ → Prop} (hx : Runs m (x >>= f) P) (hg : ∀ a, P a → Runs m (g a) Q) :
    Runs m (x >>= fun a => f a >>= g) Q := by
  have := hx.bind hg
  rwa [Syn.bind_assoc] at this

theorem pure {a : α} (hP : P a) : Runs m (Pure.pure a : Syn F α) P :=
  ⟨fun _ r hr => by rw [show r = a from hr]; exact hP, fun _ => ⟨a, rfl, hP⟩⟩

theorem mono {x : Syn F α} (hx : Runs m x P) (hq : ∀ r, P r → Q r) : Runs m x Q :=
  ⟨fun hm r hr => hq r (hx.sound hm r hr), fun hm => by
    obtain ⟨r, h1, h2⟩ := hx.complete hm
    exact ⟨r, h1, hq r h2⟩⟩

theorem of_gives {x : Syn F α} {H : α → Prop} (g : Gives c h x P H) (hh : m → h ∧ c) :
    Runs m x (fun r => c ∧ P r ∧ (m → H r)) :=
  ⟨fun hm r hr => ⟨(g.sound r hr).1, (g.sound r hr).2, fun k => (hm k).elim⟩, fun hm => by
    obtain ⟨r, h1, h2⟩ := g.complete (hh hm).1 (hh hm).2
    have := g.sound r (Syn.sim_sat h1)
    exact ⟨r, h1, this.1, this.2, fun _ => h2⟩⟩

theorem of_computes {x : Syn F α} {a : α} (hx : Computes m x a) : Runs m x (fun r => r = a) :=
  ⟨fun _ r hr => (hx.1 r).1 hr, fun hm => ⟨a, hx.2 hm, rfl⟩⟩

theorem mul {a b : Element F} (ha : m → a.Honest) (hb : m → b.Honest) :
    Runs m (a.mul b) (fun r => r.wire = a.wire * b.wire ∧ (m → r.Honest)) :=
  (of_gives (Gives.mul rfl rfl id) fun k => ⟨⟨ha k, hb k⟩, trivial⟩).mono fun _ h => h.2

theorem square {a : Element F} (ha : m → a.Honest) :
    Runs m a.square (fun r => r.wire = a.wire * a.wire ∧ (m → r.Honest)) := mul ha ha

theorem invertWith {a : Element F} {i : F} (ha : m → a.Honest ∧ i = a.wire⁻¹ ∧ a.wire ≠ 0) :
    Runs m (a.invertWith i) (fun r => a.wire ≠ 0 ∧ r.wire = a.wire⁻¹ ∧ (m → r.Honest)) :=
  of_gives (Gives.invertWith rfl id) fun k => ⟨⟨(ha k).1, (ha k).2.1⟩, (ha k).2.2⟩

theorem invert {a : Element F} (ha : m → a.Honest ∧ a.wire ≠ 0) :
    Runs m a.invert (fun r => a.wire ≠ 0 ∧ r.wire = a.wire⁻¹ ∧ (m → r.Honest)) :=
  of_gives (Gives.invert rfl id) ha

theorem fold {s : Element F} {es : List (Element F)} (hs : m → s.Honest)
    (he : m → ∀ e ∈ es, e.Honest) :
    Runs m (Element.fold es s)
      (fun r => r.wire = hornerVal s.wire (es.map (·.wire)) ∧ (m → r.Honest)) :=
  (of_gives (Gives.fold rfl rfl id) fun k => ⟨⟨hs k, he k⟩, trivial⟩).mono fun _ h => h.2

theorem alloc (v : F) : Runs m (Element.alloc (F := F) v) (fun r => m → r = ⟨v, v⟩) :=
  ⟨fun hm _ _ k => (hm k).elim, fun _ => ⟨_, Element.alloc_sim v, fun _ => rfl⟩⟩

theorem enforceEqual {a b : F} (hab : m → a = b) :
    Runs m (Gadget.enforceEqual (F := F) a b) (fun _ => a = b) :=
  ⟨fun _ r hr => (enforceEqual_sat a b r).1 hr, fun hm => ⟨(), by
    rw [enforceEqual_sim, if_pos (hab hm)], hab hm⟩⟩

end Runs
end Ragu.Gadget

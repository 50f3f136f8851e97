/-
Gadget code with conditions: what a satisfied circuit implies, and when the simulator succeeds.
-/
import Verif.Lemmas.Gadget.Computes

set_option linter.unusedSectionVars false

namespace Ragu.Gadget
open Ragu Ragu.Circuit
variable {F : Type} [Field F] [DecidableEq F] {α β : Type}

instance : LawfulMonad (Syn F) := LawfulMonad.mk'
  (id_map := fun x => Syn.bind_pure x)
  (pure_bind := fun a f => Syn.pure_bind a f)
  (bind_assoc := fun x f g => Syn.bind_assoc x f g)

/-- If the circuit `x` is satisfied with result `r` then `c` and `P r` hold; and if `h` and `c` hold
the simulator succeeds, with a result that has the property `H`. -/
structure Gives (c h : Prop) (x : Syn F α) (P H : α → Prop) : Prop where
  sound : ∀ r, x.sat r → c ∧ P r
  complete : h → c → ∃ r, x.sim = .ok r ∧ H r

namespace Gives
variable {c c' h h' : Prop} {P H : α → Prop}

theorem mono {x : Syn F α} (g : Gives c h x P H) (hh : h' → h) : Gives c h' x P H :=
  ⟨g.sound, fun k => g.complete (hh k)⟩

theorem congr {x : Syn F α} {P' H' : α → Prop} (g : Gives c h x P H) (hc : c ↔ c')
    (hP : ∀ r, P r → P' r) (hH : ∀ r, P r → H r → H' r) : Gives c' h x P' H' :=
  ⟨fun r hr => ⟨hc.1 (g.sound r hr).1, hP r (g.sound r hr).2⟩, fun k hc' => by
    obtain ⟨r, h1, h2⟩ := g.complete k (hc.2 hc')
    exact ⟨r, h1, hH r (g.sound r (Syn.sim_sat h1)).2 h2⟩⟩

theorem pure {a : α} (hc : c) (hP : P a) (hH : h → H a) :
    Gives c h (Pure.pure a : Syn F α) P H :=
  ⟨fun r hr => by rw [show r = a from hr]; exact ⟨hc, hP⟩, fun k _ => ⟨a, rfl, hH k⟩⟩

theorem bind {x : Syn F α} {f : α → Syn F β} {Q J : β → Prop} (hx : Gives c h x P H)
    (hf : ∀ a, P a → Gives c' (h ∧ H a) (f a) Q J) : Gives (c ∧ c') h (x >>= f) Q J := by
  refine ⟨fun r hr => ?_, fun hh hc => ?_⟩
  · obtain ⟨a, h1, h2⟩ := (Syn.sat_bind _ _ _).1 hr
    have g := hx.sound a h1
    have g' := (hf a g.2).sound r h2
    exact ⟨⟨g.1, g'.1⟩, g'.2⟩
  · obtain ⟨a, h1, h2⟩ := hx.complete hh hc.1
    obtain ⟨r, h3, h4⟩ := (hf a (hx.sound a (Syn.sim_sat h1)).2).complete ⟨hh, h2⟩ hc.2
    exact ⟨r, by rw [Syn.sim_bind_ok h1, h3], h4⟩

/-- A step without conditions. -/
theorem step {x : Syn F α} {f : α → Syn F β} {Q J : β → Prop} (hx : Gives True h x P H)
    (hf : ∀ a, P a → Gives c (h ∧ H a) (f a) Q J) : Gives c h (x >>= f) Q J :=
  (hx.bind hf).congr ⟨fun k => k.2, fun k => ⟨trivial, k⟩⟩ (fun _ k => k) fun _ _ k => k

theorem of_computes {x : Syn F α} {a : α} (hx : Computes h x a) (hP : P a) (hH : h → H a) :
    Gives True h x P H :=
  ⟨fun r hr => by rw [(hx.1 r).1 hr]; exact ⟨trivial, hP⟩, fun k _ => ⟨a, hx.2 k, hH k⟩⟩

theorem mul {a b : Element F} {va vb : F} (ha : a.wire = va) (hb : b.wire = vb)
    (hh : h → a.Honest ∧ b.Honest) :
    Gives True h (a.mul b) (fun r => r.wire = va * vb) Element.Honest :=
  of_computes (Computes.mul (fun k => (hh k).1) fun k => (hh k).2) (by rw [ha, hb]) fun k => by
    show a.value * b.value = a.wire * b.wire
    rw [show a.value = a.wire from (hh k).1, show b.value = b.wire from (hh k).2]

theorem square {a : Element F} {v : F} (ha : a.wire = v) (hh : h → a.Honest) :
    Gives True h a.square (fun r => r.wire = v * v) Element.Honest :=
  mul ha ha fun k => ⟨hh k, hh k⟩

theorem squareLoop (k : ℕ) {a : Element F} {v : F} (ha : a.wire = v) (hh : h → a.Honest) :
    Gives True h (Element.squareLoop k a) (fun r => r.wire = v ^ 2 ^ k) Element.Honest :=
  ⟨fun r hr => ⟨trivial, by rw [(Element.squareLoop_sat k a r).1 hr, ha]⟩, fun hk _ =>
    ⟨_, Element.squareLoop_sim k a (hh hk), rfl⟩⟩

theorem invertWith {a : Element F} {v i : F} (ha : a.wire = v) (hh : h → a.Honest ∧ i = v⁻¹) :
    Gives (v ≠ 0) h (a.invertWith i) (fun r => r.wire = v⁻¹) Element.Honest := by
  refine ⟨fun r hr => ?_, fun hk hc => ⟨⟨i, i⟩, ?_, rfl⟩⟩
  · have := ((Element.invertWith_sat a i r).1 hr).1
    rw [ha] at this
    exact ⟨fun h0 => by rw [h0, zero_mul] at this; exact zero_ne_one this,
      eq_inv_of_mul_eq_one_right this⟩
  · obtain ⟨h1, h2⟩ := hh hk
    have h3 : a.value * i = 1 := by
      rw [show a.value = a.wire from h1, ha, h2, mul_inv_cancel₀ hc]
    rw [Element.invertWith_sim_eq, if_pos ⟨h3, h1⟩]

theorem invert {a : Element F} {v : F} (ha : a.wire = v) (hh : h → a.Honest) :
    Gives (v ≠ 0) h a.invert (fun r => r.wire = v⁻¹) Element.Honest := by
  refine ⟨fun r hr => ?_, fun hk hc => ⟨⟨a.value⁻¹, a.value⁻¹⟩, by
    rw [Element.invert_sim_eq, if_pos ⟨by rw [show a.value = a.wire from hh hk, ha]; exact hc,
      hh hk⟩], rfl⟩⟩
  have := ((Element.invert_sat a r).1 hr).1
  rw [ha] at this
  exact ⟨fun h0 => by rw [h0, zero_mul] at this; exact zero_ne_one this,
    eq_inv_of_mul_eq_one_right this⟩

/-- A witness check that holds whenever `h` does. -/
theorem tryJust {b : Bool} (hh : h → b = true) :
    Gives True h (Gadget.tryJust (F := F) b) (fun _ => True) fun _ => True :=
  ⟨fun _ _ => ⟨trivial, trivial⟩, fun hk _ => ⟨(), by simp [hh hk],
    trivial⟩⟩

theorem fold {s : Element F} {vs : F} (hs : s.wire = vs) {es : List (Element F)} {ves : List F}
    (hes : es.map (·.wire) = ves) (hh : h → s.Honest ∧ ∀ e ∈ es, e.Honest) :
    Gives True h (Element.fold es s) (fun r => r.wire = hornerVal vs ves) Element.Honest :=
  of_computes (fold_computes (fun k => (hh k).1) fun k => (hh k).2)
    (by rw [← hs, ← hes]; rfl) fun k => hornerE_honest (hh k).1 (hh k).2

end Gives
end Ragu.Gadget

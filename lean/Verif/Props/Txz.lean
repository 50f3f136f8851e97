/-
C14: the in-circuit evaluation of `t(x, z)`.
-/
import Verif.Model.Gadget.Txz
import Verif.Lemmas.Gadget.Gives
import Verif.Props.Tpoly
import Verif.Lemmas.TestField

set_option linter.unusedSectionVars false

namespace Ragu.Props
open Ragu Ragu.Gadget Ragu.Gadget.Syn Ragu.Spec Ragu.Tpoly
variable {F : Type} [Field F] [DecidableEq F]

theorem txz_loop_gives (k : ℕ) : ∀ {h : Prop} {l r s t : Element F} {vl vr vs vt : F},
    l.wire = vl → r.wire = vr → s.wire = vs → t.wire = vt →
    (h → l.Honest ∧ r.Honest ∧ s.Honest ∧ t.Honest) →
    Gives True h (Txz.loop k l r s t)
      (fun p => (p.1.wire, p.2.wire) = txzLoop k vl vr vs vt)
      fun p => p.1.Honest ∧ p.2.Honest := by
  induction k with
  | zero =>
    intro h l r s t vl vr vs vt hl hr hs ht hh
    exact Gives.pure trivial (by rw [hl, hr]; rfl) fun k => ⟨(hh k).1, (hh k).2.1⟩
  | succ k ih =>
    intro h l r s t vl vr vs vt hl hr hs ht hh
    rw [Txz.loop, txzLoop]
    refine (Gives.mul hl hs fun k => ⟨(hh k).1, (hh k).2.2.1⟩).step fun lm hlm => ?_
    refine (Gives.mul hr ht fun k => ⟨(hh k.1).2.1, (hh k.1).2.2.2⟩).step fun rm hrm => ?_
    refine (Gives.square hs fun k => (hh k.1.1).2.2.1).step fun s' hs' => ?_
    refine (Gives.square ht fun k => (hh k.1.1.1).2.2.2).step fun t' ht' => ?_
    refine ih (by rw [add_eq, hl, hlm]) (by rw [add_eq, hr, hrm]) (by rw [hs', sq])
      (by rw [ht', sq]) fun k => ?_
    obtain ⟨⟨⟨⟨k0, k1⟩, k2⟩, k3⟩, k4⟩ := k
    obtain ⟨h1, h2, h3, h4⟩ := hh k0
    refine ⟨?_, ?_, k3, k4⟩
    · rw [add_eq]; show l.value + lm.value = l.wire + lm.wire
      rw [show l.value = l.wire from h1, show lm.value = lm.wire from k1]
    · rw [add_eq]; show r.value + rm.value = r.wire + rm.wire
      rw [show r.value = r.wire from h2, show rm.value = rm.wire from k2]

theorem txz_execute_gives (k : ℕ) {h : Prop} {x z : Element F} {vx vz : F} (hx : x.wire = vx)
    (hz : z.wire = vz) {aux : F × F}
    (hh : h → (x.Honest ∧ z.Honest) ∧ aux.1 = vx⁻¹ ∧ aux.2 = vz⁻¹) :
    Gives (vx ≠ 0 ∧ vz ≠ 0) h (Txz.execute k x z aux)
      (fun r => vx ≠ 0 → vz ≠ 0 → some r.wire = txzPredict k vx vz) Element.Honest := by
  rw [Txz.execute]
  refine (Gives.squareLoop k hx fun h => (hh h).1.1).step fun xn hxn => ?_
  refine (Gives.square hxn fun h => h.2).step fun x2n hx2n => ?_
  refine (Gives.square hx2n fun h => h.2).step fun x4n hx4n => ?_
  refine (Gives.squareLoop k hz fun h => (hh h.1.1.1).1.2).step fun zn hzn => ?_
  refine (Gives.square hzn fun h => h.2).step fun z2n hz2n => ?_
  refine (Gives.invertWith hx fun h => ⟨(hh h.1.1.1.1.1).1.1, (hh h.1.1.1.1.1).2.1⟩).bind
    fun xi hxi => ?_
  refine ((Gives.invertWith hz fun h => ⟨(hh h.1.1.1.1.1.1).1.2, (hh h.1.1.1.1.1.1).2.2⟩).bind
    (c' := True) fun zi hzi => ?_).congr ⟨fun h => h.1, fun h => ⟨h, trivial⟩⟩ (fun _ h => h)
    fun _ _ h => h
  refine (Gives.mul hx4n hxi fun h => ⟨h.1.1.1.1.2, h.1.2⟩).step fun a ha => ?_
  refine (Gives.mul ha hz2n fun h => ⟨h.2, h.1.1.1.2⟩).step fun l hl => ?_
  refine (Gives.mul hxi hz fun h => ⟨h.1.1.1.2, (hh h.1.1.1.1.1.1.1.1.1).1.2⟩).step fun s hs => ?_
  refine (Gives.mul hxi hzi fun h => ⟨h.1.1.1.1.2, h.1.1.1.2⟩).step fun t ht => ?_
  refine (txz_loop_gives k hl hl hs ht fun h => ⟨h.1.1.2, h.1.1.2, h.1.2, h.2⟩).step
    fun lr hlr => ?_
  obtain ⟨l', r'⟩ := lr
  refine (Gives.mul rfl hzi fun h => ⟨h.2.2, h.1.1.1.1.1.2⟩).step fun rz hrz => ?_
  refine Gives.pure trivial (fun h1 h2 => ?_) fun h => ?_
  · have e1 : l'.wire = (txzLoop k (vx ^ 2 ^ k * vx ^ 2 ^ k * (vx ^ 2 ^ k * vx ^ 2 ^ k) * vx⁻¹ *
        (vz ^ 2 ^ k * vz ^ 2 ^ k)) (vx ^ 2 ^ k * vx ^ 2 ^ k * (vx ^ 2 ^ k * vx ^ 2 ^ k) * vx⁻¹ *
        (vz ^ 2 ^ k * vz ^ 2 ^ k)) (vx⁻¹ * vz) (vx⁻¹ * vz⁻¹)).1 := by rw [← hlr]
    have e2 : r'.wire = (txzLoop k (vx ^ 2 ^ k * vx ^ 2 ^ k * (vx ^ 2 ^ k * vx ^ 2 ^ k) * vx⁻¹ *
        (vz ^ 2 ^ k * vz ^ 2 ^ k)) (vx ^ 2 ^ k * vx ^ 2 ^ k * (vx ^ 2 ^ k * vx ^ 2 ^ k) * vx⁻¹ *
        (vz ^ 2 ^ k * vz ^ 2 ^ k)) (vx⁻¹ * vz) (vx⁻¹ * vz⁻¹)).2 := by rw [← hlr]
    have e3 : vx ^ 2 ^ k * vx ^ 2 ^ k * (vx ^ 2 ^ k * vx ^ 2 ^ k) * vx⁻¹ *
        (vz ^ 2 ^ k * vz ^ 2 ^ k) = vx ^ (4 * 2 ^ k - 1) * vz ^ (2 * 2 ^ k) := by
      have hn : 0 < 2 ^ k := by positivity
      have : vx ^ 2 ^ k * vx ^ 2 ^ k * (vx ^ 2 ^ k * vx ^ 2 ^ k) = vx ^ (4 * 2 ^ k - 1) * vx := by
        rw [← pow_succ, ← pow_add, ← pow_add]; congr 1; omega
      rw [this, mul_assoc _ vx, mul_inv_cancel₀ h1, mul_one, ← pow_add]
      congr 2; omega
    rw [e3] at e1 e2
    rw [txzPredict, if_neg h1, if_neg h2]
    simp only [Option.some.injEq, Element.negate_wire, Element.add_wire]
    rw [hrz, e1, e2]
  · have h1 := h.1.2.1
    have h2 := h.2
    show _ = _
    rw [Element.negate_wire, Element.negate_value, Element.add_wire, Element.add_value,
      show l'.value = l'.wire from h1, show rz.value = rz.wire from h2]

/-- C14: whatever the witness, a satisfied evaluation circuit has nonzero `x` and `z` and its
result is `t(x, z)`; with honest inputs the circuit succeeds for all nonzero `x` and `z`. -/
theorem C14_circuit (k : ℕ) (x z : Element F) :
    (∀ r, (Txz.evaluate k x z).sat r →
      x.wire ≠ 0 ∧ z.wire ≠ 0 ∧ r.wire = tDef (2 ^ k) x.wire z.wire) ∧
    (x.Honest → z.Honest → x.wire ≠ 0 → z.wire ≠ 0 →
      ∃ r, (Txz.evaluate k x z).sim = .ok r ∧ r.Honest ∧ r.wire = tDef (2 ^ k) x.wire z.wire) := by
  have key : x.wire ≠ 0 → z.wire ≠ 0 → ∀ r : Element F,
      some r.wire = txzPredict k x.wire z.wire → r.wire = tDef (2 ^ k) x.wire z.wire := by
    intro h1 h2 r hr
    have := C14_txz k x.wire z.wire
    rw [txz, if_neg (by tauto), ← hr] at this
    exact Option.some.inj this
  have g : Gives (x.wire ≠ 0 ∧ z.wire ≠ 0) ((x.Honest ∧ z.Honest) ∧ x.wire ≠ 0 ∧ z.wire ≠ 0)
      (Txz.evaluate k x z) (fun r => x.wire ≠ 0 → z.wire ≠ 0 →
        some r.wire = txzPredict k x.wire z.wire) Element.Honest := by
    rw [Txz.evaluate]
    refine (Gives.tryJust fun h => ?_).step fun _ _ => (Gives.tryJust fun h => ?_).step fun _ _ =>
      (txz_execute_gives k rfl rfl fun h => ?_)
    · simpa [show x.value = x.wire from h.1.1] using h.2.1
    · simpa [show z.value = z.wire from h.1.1.2] using h.1.2.2
    · obtain ⟨⟨⟨⟨h1, h2⟩, h3⟩, -⟩, -⟩ := h
      exact ⟨⟨h1, h2⟩, by rw [show x.value = x.wire from h1], by rw [show z.value = z.wire from h2]⟩
  refine ⟨fun r hr => ?_, fun h1 h2 h3 h4 => ?_⟩
  · obtain ⟨⟨h1, h2⟩, h3⟩ := g.sound r hr
    exact ⟨h1, h2, key h1 h2 r (h3 h1 h2)⟩
  · obtain ⟨r, h5, h6⟩ := g.complete ⟨⟨h1, h2⟩, h3, h4⟩ ⟨h3, h4⟩
    exact ⟨r, h5, h6, key h3 h4 r ((g.sound r (Syn.sim_sat h5)).2 h3 h4)⟩

/-- C14: the prediction that a prover continues with is the value that the executed circuit
computes, and it is refused exactly when the circuit cannot be satisfied. -/
theorem C14_prediction (k : ℕ) (x z : Element F) (hx : x.Honest) (hz : z.Honest) :
    (∀ v, txzPredict k x.value z.value = some v ↔ (Txz.evaluate k x z).sim = .ok ⟨v, v⟩) ∧
    (txzPredict k x.value z.value = none ↔ ∀ r, ¬ (Txz.evaluate k x z).sat r) := by
  have hx' : x.value = x.wire := hx
  have hz' : z.value = z.wire := hz
  by_cases h : x.wire = 0 ∨ z.wire = 0
  · have hn : txzPredict k x.value z.value = none := by
      rw [hx', hz', txzPredict]
      rcases h with h | h
      · rw [if_pos h]
      · rw [if_pos h]; split <;> rfl
    have hs : ∀ r, ¬ (Txz.evaluate k x z).sat r := fun r hr => by
      have := (C14_circuit k x z).1 r hr
      tauto
    refine ⟨fun v => ?_, iff_of_true hn hs⟩
    rw [hn]
    refine ⟨fun h => ?_, fun h => (hs _ (Syn.sim_sat h)).elim⟩
    cases h
  · push Not at h
    obtain ⟨r, h1, h2, h3⟩ := (C14_circuit k x z).2 hx hz h.1 h.2
    have hp : txzPredict k x.value z.value = some r.wire := by
      have := C14_txz k x.wire z.wire
      rw [txz, if_neg (by tauto)] at this
      rw [hx', hz', this, h3]
    refine ⟨fun v => ?_, iff_of_false (by rw [hp]; simp) fun hs => hs r (Syn.sim_sat h1)⟩
    rw [hp, h1]
    have hr : r = ⟨r.wire, r.wire⟩ := by ext; rfl; exact h2
    constructor
    · intro h; cases h; rw [← hr]
    · intro h
      have := Except.ok.inj h
      rw [this]

example : ∃ r, (Txz.evaluate 1 (⟨3, 3⟩ : Element (ZMod 13)) ⟨5, 5⟩).sim = .ok r ∧ r.Honest ∧
    r.wire = 8 := by
  obtain ⟨r, h1, h2, h3⟩ := (C14_circuit 1 (⟨3, 3⟩ : Element (ZMod 13)) ⟨5, 5⟩).2 rfl rfl
    (by decide +kernel) (by decide +kernel)
  exact ⟨r, h1, h2, h3.trans (by decide +kernel)⟩

end Ragu.Props

import Verif.Model.Gadget.Element
import Verif.Lemmas.Exec
import Mathlib.Tactic.LinearCombination
import Mathlib.Tactic.FieldSimp
import Mathlib.Algebra.BigOperators.Fin

set_option linter.unusedSectionVars false

namespace Ragu.Gadget
open Ragu Ragu.Circuit
variable {F : Type} [Field F] [DecidableEq F] {α β : Type}

namespace Syn

@[simp] theorem sat_pure (a r : α) : (pure a : Syn F α).sat r ↔ r = a := Iff.rfl
@[simp] theorem sat_ret (a r : α) : (ret a : Syn F α).sat r ↔ r = a := Iff.rfl
@[simp] theorem sim_pure (a : α) : (pure a : Syn F α).sim = .ok a := rfl
@[simp] theorem sim_ret (a : α) : (ret a : Syn F α).sim = .ok a := rfl

theorem sat_bind' (x : Syn F α) (f : α → Syn F β) (r : β) :
    (x.bind f).sat r ↔ ∃ a, x.sat a ∧ (f a).sat r := by
  induction x with
  | ret a => simp [bind]
  | gate w k ih =>
    simp only [bind, sat, ih]
    constructor
    · rintro ⟨a, b, c, d, h1, h2, x, h3, h4⟩
      exact ⟨x, ⟨a, b, c, d, h1, h2, h3⟩, h4⟩
    · rintro ⟨x, ⟨a, b, c, d, h1, h2, h3⟩, h4⟩
      exact ⟨a, b, c, d, h1, h2, x, h3, h4⟩
  | alloc w k ih =>
    simp only [bind, sat, ih]
    exact ⟨fun ⟨v, x, h⟩ => ⟨x, ⟨v, h.1⟩, h.2⟩, fun ⟨x, ⟨v, h⟩, h'⟩ => ⟨v, x, h, h'⟩⟩
  | enforce v k ih =>
    simp only [bind, sat, ih]
    exact ⟨fun ⟨h, x, h'⟩ => ⟨x, ⟨h, h'.1⟩, h'.2⟩, fun ⟨x, ⟨h, h'⟩, h''⟩ => ⟨h, x, h', h''⟩⟩
  | check e k ih => simpa [bind, sat] using ih
  | panic => simp [bind, sat]

@[simp] theorem sat_bind (x : Syn F α) (f : α → Syn F β) (r : β) :
    (x >>= f).sat r ↔ ∃ a, x.sat a ∧ (f a).sat r := sat_bind' x f r

theorem sim_bind' (x : Syn F α) (f : α → Syn F β) :
    (x.bind f).sim = (x.sim.bind fun a => (f a).sim) := by
  induction x with
  | ret a => rfl
  | gate w k ih =>
    simp only [bind, sim]
    split
    · rfl
    · split
      · rfl
      · exact ih _ _ _ _
  | alloc w k ih => exact ih _
  | enforce v k ih =>
    simp only [bind, sim]
    split
    · rfl
    · exact ih
  | check e k ih =>
    cases e with
    | none => exact ih
    | some e => rfl
  | panic => rfl

@[simp] theorem sim_bind (x : Syn F α) (f : α → Syn F β) :
    (x >>= f).sim = (x.sim.bind fun a => (f a).sim) := sim_bind' x f

theorem sim_bind_ok {x : Syn F α} {f : α → Syn F β} {a : α} (h : x.sim = .ok a) :
    (x >>= f).sim = (f a).sim := by rw [sim_bind, h]; rfl

/-- Whatever the simulator accepts is a satisfying assignment. -/
theorem sim_sat {g : Syn F α} {r : α} (h : g.sim = .ok r) : g.sat r := by
  induction g with
  | ret a => simpa [sim, eq_comm] using h
  | gate w k ih =>
    simp only [sim] at h
    split at h
    · cases h
    · split at h
      · cases h
      · rename_i h1 h2
        push Not at h1 h2
        exact ⟨_, _, _, _, h1, h2, ih _ _ _ _ h⟩
  | alloc w k ih => exact ⟨_, ih _ h⟩
  | enforce v k ih =>
    simp only [sim] at h
    split at h
    · cases h
    · rename_i h1
      push Not at h1
      exact ⟨h1, ih h⟩
  | check e k ih =>
    cases e with
    | none => exact ih h
    | some e => cases h
  | panic => cases h

end Syn
open Syn

@[simp] theorem bind_ok' {ε : Type} (a : α) (f : α → Except ε β) :
    (Except.ok a : Except ε α).bind f = f a := rfl
@[simp] theorem bind_error' {ε : Type} (e : ε) (f : α → Except ε β) :
    (Except.error e : Except ε α).bind f = .error e := rfl

theorem lin_eq (lc : List (LcStep F F)) : lin lc = lcVal 1 lc := directSum_eq lc

@[simp] theorem lin_add (a : F) : lin [.add a] = a := by
  simp [lin_eq, lcVal, LcStep.add, Coeff.value]
@[simp] theorem lin_add_add (a b : F) : lin [.add a, .add b] = a + b := by
  simp [lin_eq, lcVal, LcStep.add, Coeff.value]
@[simp] theorem lin_add_sub (a b : F) : lin [.add a, .sub b] = a - b := by
  simp [lin_eq, lcVal, LcStep.add, LcStep.sub, Coeff.value]; ring
@[simp] theorem lin_term (a : F) (c : Coeff F) : lin [.term a c] = a * c.value := by
  simp [lin_eq, lcVal]; ring
@[simp] theorem lin_add_term (a b : F) (c : Coeff F) :
    lin [.add a, .term b c] = a + b * c.value := by
  simp [lin_eq, lcVal, LcStep.add, Coeff.value]; ring
@[simp] theorem constantWire_eq (c : Coeff F) : constantWire c = c.value := by
  simp [constantWire, ONE]
@[simp] theorem ONE_eq : (ONE : F) = 1 := rfl

@[simp] theorem mulGate_sat (a b c : F) (r : F × F × F) :
    (mulGate a b c).sat r ↔ r.1 * r.2.1 = r.2.2 := by
  constructor
  · rintro ⟨a, b, c, d, h1, h2, h3⟩
    rw [sat_ret] at h3
    subst h3; exact h1
  · intro h
    exact ⟨r.1, r.2.1, r.2.2, 0, h, by ring, rfl⟩

theorem mulGate_sim {a b c : F} (h : a * b = c) : (mulGate a b c).sim = .ok (a, b, c) := by
  simp [mulGate, sim, h]

@[simp] theorem mulGate_sim_eq (a b c : F) :
    (mulGate a b c).sim = if a * b = c then .ok (a, b, c) else .error .invalidWitness := by
  by_cases h : a * b = c <;> simp [mulGate, sim, h]

@[simp] theorem allocWire_sat (v r : F) : (allocWire v).sat r ↔ True := by
  simp [allocWire, sat]
@[simp] theorem allocWire_sim (v : F) : (allocWire v).sim = .ok v := rfl

@[simp] theorem enforceZero_sat (lc : List (LcStep F F)) (r : Unit) :
    (Gadget.enforceZero lc).sat r ↔ lin lc = 0 := by
  simp [Gadget.enforceZero, sat]
@[simp] theorem enforceZero_sim (lc : List (LcStep F F)) :
    (Gadget.enforceZero lc).sim = if lin lc = 0 then .ok () else .error .invalidWitness := by
  by_cases h : lin lc = 0 <;> simp [Gadget.enforceZero, sim, h]

@[simp] theorem enforceEqual_sat (a b : F) (r : Unit) :
    (enforceEqual a b).sat r ↔ a = b := by
  simp [enforceEqual, sub_eq_zero]
@[simp] theorem enforceEqual_sim (a b : F) :
    (enforceEqual a b).sim = if a = b then .ok () else .error .invalidWitness := by
  simp [enforceEqual, sub_eq_zero]

@[simp] theorem tryJust_sat (b : Bool) (r : Unit) : (tryJust (F := F) b).sat r ↔ True := by
  simp [tryJust, sat]
@[simp] theorem tryJust_sim (b : Bool) :
    (tryJust (F := F) b).sim = if b then .ok () else .error .invalidWitness := by
  cases b <;> rfl

/-- The witness value of an element is the value on its wire. -/
def Element.Honest (e : Element F) : Prop := e.value = e.wire

/-- The witness value of a boolean is the value on its wire. -/
def Boolean.Honest (b : Boolean F) : Prop := fe b.value = b.wire

namespace Element

@[simp] theorem alloc_sat (v : F) (r : Element F) : (alloc v).sat r ↔ r.value = v := by
  simp only [alloc, sat_bind, allocWire_sat, true_and, sat_pure]
  constructor
  · rintro ⟨a, rfl⟩; rfl
  · rintro rfl; exact ⟨r.wire, rfl⟩

@[simp] theorem alloc_sim (v : F) : (alloc v).sim = .ok ⟨v, v⟩ := rfl

theorem allocSquare_sat (v : F) (r : Element F × Element F) :
    (allocSquare v).sat r ↔ r.1.value = v ∧ r.2 = ⟨r.1.wire * r.1.wire, v ^ 2⟩ := by
  simp only [allocSquare, sat_bind, mulGate_sat, enforceEqual_sat, sat_pure, exists_const]
  constructor
  · rintro ⟨⟨a, b, c⟩, h1, h2, h3⟩
    subst h3
    simp only at h1 h2 ⊢
    subst h2
    simp [← h1]
  · rintro ⟨h1, h2⟩
    refine ⟨⟨r.1.wire, r.1.wire, r.1.wire * r.1.wire⟩, rfl, rfl, ?_⟩
    ext <;> simp [h1, h2]

@[simp] theorem allocSquare_sim (v : F) : (allocSquare v).sim = .ok (⟨v, v⟩, ⟨v ^ 2, v ^ 2⟩) := by
  simp [allocSquare, pow_two]

@[simp] theorem one_wire : (one : Element F).wire = 1 := rfl
@[simp] theorem one_value : (one : Element F).value = 1 := rfl
@[simp] theorem zero_wire : (zero : Element F).wire = 0 := by simp [zero, Coeff.value]
@[simp] theorem zero_value : (zero : Element F).value = 0 := rfl
@[simp] theorem constant_wire (v : F) : (constant v).wire = v := by simp [constant, Coeff.value]
@[simp] theorem constant_value (v : F) : (constant v).value = v := rfl

theorem mul_sat (a b r : Element F) :
    (a.mul b).sat r ↔ r = ⟨a.wire * b.wire, a.value * b.value⟩ := by
  simp only [mul, sat_bind, mulGate_sat, enforceEqual_sat, sat_pure, exists_const]
  constructor
  · rintro ⟨⟨x, y, z⟩, h1, h2, h3, h4⟩
    simp only at h1 h2 h3 h4
    rw [h4, ← h1, h2, h3]
  · rintro rfl
    exact ⟨⟨a.wire, b.wire, a.wire * b.wire⟩, rfl, rfl, rfl, rfl⟩

theorem mul_sim_eq (a b : Element F) : (a.mul b).sim =
    if a.value = a.wire ∧ b.value = b.wire then .ok ⟨a.value * b.value, a.value * b.value⟩
    else .error .invalidWitness := by
  by_cases h1 : a.value = a.wire <;> by_cases h2 : b.value = b.wire <;> simp [mul, h1, h2]

theorem mul_sim {a b : Element F} (ha : a.Honest) (hb : b.Honest) :
    (a.mul b).sim = .ok ⟨a.wire * b.wire, a.wire * b.wire⟩ := by
  rw [mul_sim_eq, if_pos ⟨ha, hb⟩, ha, hb]

theorem square_sat (a r : Element F) :
    (a.square).sat r ↔ r = ⟨a.wire * a.wire, a.value * a.value⟩ := mul_sat a a r

@[simp] theorem enforceZero_sat (a : Element F) (r : Unit) : a.enforceZero.sat r ↔ a.wire = 0 := by
  simp [Element.enforceZero]
@[simp] theorem enforceZero_sim (a : Element F) :
    a.enforceZero.sim = if a.wire = 0 then .ok () else .error .invalidWitness := by
  simp [Element.enforceZero]

theorem coeff_mul_value (a c : Coeff F) : (Coeff.mul a c).value = a.value * c.value := by
  cases a <;> cases c <;> simp [Coeff.mul, Coeff.value] <;> ring

@[simp] theorem scale_wire (a : Element F) (c : Coeff F) :
    (a.scale c).wire = a.wire * c.value := by simp [scale]
@[simp] theorem scale_value (a : Element F) (c : Coeff F) :
    (a.scale c).value = a.value * c.value := by
  simp only [scale, coeff_mul_value]; rfl
@[simp] theorem negate_wire (a : Element F) : a.negate.wire = -a.wire := by
  simp [negate, Coeff.value]
@[simp] theorem negate_value (a : Element F) : a.negate.value = -a.value := by
  simp [negate, Coeff.value]
@[simp] theorem add_wire (a b : Element F) : (a.add b).wire = a.wire + b.wire := by simp [add]
@[simp] theorem add_value (a b : Element F) : (a.add b).value = a.value + b.value := rfl
@[simp] theorem sub_wire (a b : Element F) : (a.sub b).wire = a.wire - b.wire := by simp [sub]
@[simp] theorem sub_value (a b : Element F) : (a.sub b).value = a.value - b.value := rfl
@[simp] theorem addCoeff_wire (a b : Element F) (c : Coeff F) :
    (a.addCoeff b c).wire = a.wire + b.wire * c.value := by simp [addCoeff]
@[simp] theorem addCoeff_value (a b : Element F) (c : Coeff F) :
    (a.addCoeff b c).value = a.value + b.value * c.value := by
  simp only [addCoeff, coeff_mul_value]; rfl
@[simp] theorem double_wire (a : Element F) : a.double.wire = a.wire + a.wire := by simp [double]
@[simp] theorem double_value (a : Element F) : a.double.value = a.value + a.value := rfl

theorem invertWith_sat (a : Element F) (i : F) (r : Element F) :
    (a.invertWith i).sat r ↔ a.wire * r.wire = 1 ∧ r.value = i := by
  simp only [invertWith, sat_bind, mulGate_sat, enforceEqual_sat, sat_pure, exists_const, ONE_eq]
  constructor
  · rintro ⟨⟨x, y, z⟩, h1, h2, h3, h4⟩
    simp only at h1 h2 h3 h4
    subst h4
    exact ⟨by rw [← h2, h1, h3], rfl⟩
  · rintro ⟨h1, h2⟩
    exact ⟨⟨a.wire, r.wire, 1⟩, h1, rfl, rfl, by ext <;> simp [h2]⟩

theorem invertWith_sim_eq (a : Element F) (i : F) : (a.invertWith i).sim =
    if a.value * i = 1 ∧ a.value = a.wire then .ok ⟨i, i⟩ else .error .invalidWitness := by
  by_cases h1 : a.value * i = 1 <;> by_cases h2 : a.value = a.wire
  · rw [invertWith]
    rw [sim_bind_ok (mulGate_sim h1)]
    simp [← h2, h1]
  · rw [invertWith]
    rw [sim_bind_ok (mulGate_sim h1)]
    simp [h2]
  · rw [invertWith, sim_bind, mulGate_sim_eq, if_neg h1]; simp [h1]
  · rw [invertWith, sim_bind, mulGate_sim_eq, if_neg h1]; simp [h1]

theorem invert_sat (a : Element F) (r : Element F) :
    a.invert.sat r ↔ a.wire * r.wire = 1 ∧ r.value = a.value⁻¹ := by
  simp [invert, invertWith_sat]

theorem invert_sim_eq (a : Element F) : a.invert.sim =
    if a.value ≠ 0 ∧ a.value = a.wire then .ok ⟨a.value⁻¹, a.value⁻¹⟩
    else .error .invalidWitness := by
  by_cases h1 : a.value = 0
  · simp [invert, h1]
  · simp [invert, invertWith_sim_eq, h1, mul_inv_cancel₀ h1]

theorem divNonzero_sat (a b r : Element F) :
    (a.divNonzero b).sat r ↔ r.wire * b.wire = a.wire ∧ r.value = a.value * b.value⁻¹ := by
  simp only [divNonzero, sat_bind, mulGate_sat, enforceEqual_sat, sat_pure, exists_const,
    tryJust_sat, true_and]
  constructor
  · rintro ⟨⟨x, y, z⟩, h1, h2, h3, h4⟩
    simp only at h1 h2 h3 h4
    subst h4
    exact ⟨by rw [h3, h2, h1], rfl⟩
  · rintro ⟨h1, h2⟩
    exact ⟨⟨r.wire, b.wire, a.wire⟩, h1, rfl, rfl, by ext <;> simp [h2]⟩

theorem divNonzero_sim_eq (a b : Element F) : (a.divNonzero b).sim =
    if b.value ≠ 0 ∧ a.value = a.wire ∧ b.value = b.wire then
      .ok ⟨a.value * b.value⁻¹, a.value * b.value⁻¹⟩
    else .error .invalidWitness := by
  by_cases h0 : b.value = 0
  · simp [divNonzero, h0]
  · have h1 : a.value * b.value⁻¹ * b.value = a.value := by field_simp
    rw [divNonzero, sim_bind, tryJust_sim]
    simp only [h0, ne_eq, not_false_eq_true, decide_true, if_true, bind_ok', true_and]
    rw [sim_bind_ok (mulGate_sim h1)]
    by_cases h2 : a.wire = a.value <;> by_cases h3 : b.wire = b.value <;>
      simp [h2, h3, eq_comm]

end Element
end Ragu.Gadget

namespace Ragu.Gadget
open Ragu Ragu.Circuit Syn
variable {F : Type} [Field F] [DecidableEq F] {α β : Type}

namespace Element

theorem foldFrom_sat (s : Element F) : ∀ (es : List (Element F)) (acc r : Element F),
    (foldFrom s acc es).sat r ↔
      r = ⟨es.foldl (fun x e => x * s.wire + e.wire) acc.wire,
        es.foldl (fun x e => x * s.value + e.value) acc.value⟩
  | [], acc, r => by simp [foldFrom]
  | e :: es, acc, r => by
    simp only [foldFrom, sat_bind, mul_sat, exists_eq_left, foldFrom_sat s es, add_wire, add_value,
      List.foldl_cons]

theorem foldFrom_sim {s : Element F} (hs : s.Honest) : ∀ (es : List (Element F))
    (acc : Element F), acc.Honest → (∀ e ∈ es, e.Honest) →
    (foldFrom s acc es).sim =
      .ok ⟨es.foldl (fun x e => x * s.wire + e.wire) acc.wire,
        es.foldl (fun x e => x * s.wire + e.wire) acc.wire⟩
  | [], acc, ha, _ => by
    simp only [foldFrom, sim_pure, List.foldl_nil]
    rw [show acc = ⟨acc.wire, acc.wire⟩ from by ext; rfl; exact ha]
  | e :: es, acc, ha, he => by
    rw [foldFrom, sim_bind_ok (mul_sim ha hs),
      foldFrom_sim hs es _ (by simp [Honest, Honest.eq_1 e ▸ he e List.mem_cons_self])
        fun x hx => he x (List.mem_cons_of_mem _ hx)]
    simp

theorem squareLoop_sat : ∀ (k : ℕ) (v r : Element F),
    (squareLoop k v).sat r ↔ r = ⟨v.wire ^ 2 ^ k, v.value ^ 2 ^ k⟩
  | 0, v, r => by simp [squareLoop]
  | k + 1, v, r => by
    simp only [squareLoop, sat_bind, square_sat, exists_eq_left, squareLoop_sat k]
    simp only [← pow_two, ← pow_mul, pow_succ' 2 k]

theorem squareLoop_sim : ∀ (k : ℕ) (v : Element F), v.Honest →
    (squareLoop k v).sim = .ok ⟨v.wire ^ 2 ^ k, v.wire ^ 2 ^ k⟩
  | 0, v, h => by
    simp only [squareLoop, sim_pure, pow_zero, pow_one]
    rw [show v = ⟨v.wire, v.wire⟩ from by ext; rfl; exact h]
  | k + 1, v, h => by
    rw [squareLoop, square, sim_bind_ok (mul_sim h h), squareLoop_sim k _ (by rfl)]
    simp only [← pow_two, ← pow_mul, pow_succ' 2 k]

theorem sum_foldl (es : List (Element F)) : ∀ acc : Element F,
    es.foldl (fun acc e => acc.add e) acc =
      ⟨acc.wire + (es.map (·.wire)).sum, acc.value + (es.map (·.value)).sum⟩ := by
  induction es with
  | nil => intro acc; simp
  | cons e es ih => intro acc; simp [ih, add_assoc]

end Element

theorem multiadd_lin (vs : List (Element F)) : ∀ cs : List F,
    lin (List.zipWith (fun v c => LcStep.term v.wire (.arbitrary c)) vs cs) =
      (List.zipWith (fun (v : Element F) c => v.wire * c) vs cs).sum := by
  induction vs with
  | nil => intro cs; simp [lin_eq, lcVal]
  | cons v vs ih =>
    intro cs
    cases cs with
    | nil => simp [lin_eq, lcVal]
    | cons c cs =>
      have := ih cs
      simp only [lin_eq] at this ⊢
      simp only [List.zipWith_cons_cons, lcVal, this, List.sum_cons, Coeff.value]
      ring

theorem multiadd_val (vs : List (Element F)) : ∀ (cs : List F) (s : F),
    (List.zip vs cs).foldl (fun sum p => sum + p.1.value * p.2) s =
      s + (List.zipWith (fun (v : Element F) c => v.value * c) vs cs).sum := by
  induction vs with
  | nil => intro cs; simp
  | cons v vs ih =>
    intro cs s
    cases cs with
    | nil => simp
    | cons c cs => simp [ih, add_assoc]

@[simp] theorem fe_mul_self (b : Bool) : (fe b : F) * fe b = fe b := by cases b <;> simp [fe]
theorem fe_and (a b : Bool) : (fe a : F) * fe b = fe (a && b) := by
  cases a <;> cases b <;> simp [fe]
theorem fe_not (a : Bool) : (fe (!a) : F) = 1 - fe a := by cases a <;> simp [fe]
theorem fe_inj {a b : Bool} : (fe a : F) = fe b ↔ a = b := by
  cases a <;> cases b <;> simp [fe]

namespace Boolean

theorem alloc_sat (v : Bool) (r : Boolean F) :
    (alloc v).sat r ↔ r.value = v ∧ (r.wire = 0 ∨ r.wire = 1) := by
  simp only [alloc, sat_bind, mulGate_sat, enforceEqual_sat, sat_pure, exists_const]
  constructor
  · rintro ⟨⟨a, b, c⟩, h1, h2, h3, h4⟩
    simp only at h1 h2 h3 h4
    subst h4
    subst h2
    subst h3
    refine ⟨rfl, ?_⟩
    have : a * (a - 1) = 0 := by linear_combination h1
    rcases mul_eq_zero.1 this with h | h
    · exact .inl h
    · exact .inr (sub_eq_zero.1 h)
  · rintro ⟨h1, h2⟩
    refine ⟨⟨r.wire, r.wire, r.wire⟩, ?_, rfl, rfl, by ext <;> simp [h1]⟩
    rcases h2 with h | h <;> simp [h]

@[simp] theorem alloc_sim (v : Bool) : (alloc (F := F) v).sim = .ok ⟨fe v, v⟩ := by
  simp [alloc]

@[simp] theorem not_wire (a : Boolean F) : a.not.wire = 1 - a.wire := by simp [not]
@[simp] theorem not_value (a : Boolean F) : a.not.value = !a.value := rfl

theorem and_sat (a b r : Boolean F) :
    (a.and b).sat r ↔ r = ⟨a.wire * b.wire, a.value && b.value⟩ := by
  simp only [and, sat_bind, mulGate_sat, enforceEqual_sat, sat_pure, exists_const]
  constructor
  · rintro ⟨⟨x, y, z⟩, h1, h2, h3, h4⟩
    simp only at h1 h2 h3 h4
    rw [h4, ← h1, h2, h3]
  · rintro rfl
    exact ⟨⟨a.wire, b.wire, a.wire * b.wire⟩, rfl, rfl, rfl, rfl⟩

theorem and_sim {a b : Boolean F} (ha : a.Honest) (hb : b.Honest) :
    (a.and b).sim = .ok ⟨a.wire * b.wire, a.value && b.value⟩ := by
  have h : (fe a.value : F) * fe b.value = fe (a.value && b.value) := fe_and _ _
  rw [and, sim_bind_ok (mulGate_sim h)]
  simp [show (fe a.value : F) = a.wire from ha, show (fe b.value : F) = b.wire from hb, ← h]

@[simp] theorem element_wire (a : Boolean F) : a.element.wire = a.wire := rfl
@[simp] theorem element_value (a : Boolean F) : a.element.value = fe a.value := rfl

theorem conditionalSelect_sat (s : Boolean F) (a b r : Element F) :
    (s.conditionalSelect a b).sat r ↔
      r = ⟨a.wire + s.wire * (b.wire - a.wire), a.value + fe s.value * (b.value - a.value)⟩ := by
  simp only [conditionalSelect, sat_bind, Element.mul_sat, exists_eq_left, sat_pure]
  simp only [Element.add, lin_add_add, element_wire, element_value, Element.sub_wire,
    Element.sub_value]

theorem conditionalSelect_sim {s : Boolean F} {a b : Element F} (hs : s.Honest) (ha : a.Honest)
    (hb : b.Honest) : (s.conditionalSelect a b).sim =
      .ok ⟨a.wire + s.wire * (b.wire - a.wire), a.wire + s.wire * (b.wire - a.wire)⟩ := by
  have h1 : s.element.Honest := hs
  have h2 : (b.sub a).Honest := by
    rw [Element.Honest, Element.sub_value, Element.sub_wire, show a.value = a.wire from ha,
      show b.value = b.wire from hb]
  rw [conditionalSelect, sim_bind_ok (Element.mul_sim h1 h2), sim_pure]
  simp only [Element.add, lin_add_add, element_wire, Element.sub_wire]
  rw [show a.value = a.wire from ha]

theorem conditionalEnforceEqual_sat (s : Boolean F) (a b : Element F) (r : Unit) :
    (s.conditionalEnforceEqual a b).sat r ↔ s.wire = 0 ∨ a.wire = b.wire := by
  simp only [conditionalEnforceEqual, sat_bind, Element.mul_sat, exists_eq_left,
    Element.enforceZero_sat, element_wire, Element.sub_wire, mul_eq_zero, sub_eq_zero]

end Boolean

theorem isZero_sat (x : Element F) (r : Boolean F) :
    (isZero x).sat r ↔ r = ⟨if x.wire = 0 then 1 else 0, decide (x.value = 0)⟩ := by
  simp only [isZero, sat_bind, mulGate_sat, enforceEqual_sat, enforceZero_sat, sat_pure,
    exists_const]
  constructor
  · rintro ⟨⟨a, z, c⟩, h1, h2, h3, ⟨a', i, n⟩, h4, h5, h6, h7⟩
    simp only [lin_add] at h1 h2 h3 h4 h5 h6 h7
    have h6' : n - 1 + z = 0 := by
      rw [← h6]; simp [lin_eq, lcVal, LcStep.add, LcStep.sub, Coeff.value]; ring
    subst h2
    subst h5
    rw [h7]
    ext
    · simp only
      split
      · rename_i h
        rw [h, zero_mul] at h4
        rw [← h4] at h6'
        linear_combination h6'
      · rename_i h
        exact (mul_eq_zero.1 (h1.trans h3)).resolve_left h
    · rfl
  · rintro rfl
    by_cases h : x.wire = 0
    · refine ⟨⟨0, 1, 0⟩, by simp, by simp [h], by simp, ⟨0, 0, 0⟩, by simp, by simp [h], ?_, ?_⟩
      · simp [lin_eq, lcVal, LcStep.add, LcStep.sub, Coeff.value]
      · simp [h]
    · refine ⟨⟨x.wire, 0, 0⟩, by simp, by simp, by simp, ⟨x.wire, x.wire⁻¹, 1⟩, ?_, by simp, ?_, ?_⟩
      · simp [h]
      · simp [lin_eq, lcVal, LcStep.add, LcStep.sub, Coeff.value]
      · simp [h]

theorem isZero_sim {x : Element F} (hx : x.Honest) :
    (isZero x).sim = .ok ⟨fe (decide (x.wire = 0)), decide (x.wire = 0)⟩ := by
  have hx' : x.value = x.wire := hx
  by_cases h : x.wire = 0
  · have h1 : (0 : F) * fe true = 0 := by simp
    simp [isZero, hx', h, fe, lin_eq, lcVal, LcStep.add, LcStep.sub, Coeff.value]
  · simp [isZero, hx', h, fe, lin_eq, lcVal, LcStep.add, LcStep.sub, Coeff.value]

/-! multipack -/

theorem leSum_cons (f : Boolean F → F) (b : Boolean F) (bs : List (Boolean F)) :
    (∑ i : Fin (b :: bs).length, 2 ^ (i : ℕ) * f (b :: bs)[i]) =
      f b + 2 * ∑ i : Fin bs.length, 2 ^ (i : ℕ) * f bs[i] := by
  rw [Finset.mul_sum]
  refine (Fin.sum_univ_succ (n := bs.length) _).trans ?_
  congr 1
  · simp
  · refine Finset.sum_congr rfl fun i _ => ?_
    simp [pow_succ]; ring

theorem packChunk_lin (bits : List (Boolean F)) : ∀ g : F,
    lcVal g (bits.flatMap fun bit => [.add bit.wire, .gain .two]) =
      g * ∑ i : Fin bits.length, 2 ^ (i : ℕ) * bits[i].wire := by
  induction bits with
  | nil => intro g; simp [lcVal]
  | cons b bs ih =>
    intro g
    rw [leSum_cons (fun b => b.wire), List.flatMap_cons]
    simp only [List.cons_append, List.nil_append, lcVal, LcStep.add, Coeff.value]
    have := ih (g * (1 + 1))
    simp only [LcStep.add] at this
    rw [this]
    ring

theorem packValue_eq (bits : List (Boolean F)) : ∀ v g : F,
    packValue bits v g = v + g * ∑ i : Fin bits.length, 2 ^ (i : ℕ) * fe bits[i].value := by
  induction bits with
  | nil => intro v g; simp [packValue]
  | cons b bs ih =>
    intro v g
    rw [leSum_cons (fun b => fe b.value), packValue, ih]
    cases b.value <;> simp [fe] <;> ring

end Ragu.Gadget

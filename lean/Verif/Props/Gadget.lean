/-
Properties C30–C33: field element and boolean gadgets.

`g.sat r`: some assignment of the wires `g` creates satisfies every constraint, and
`r` is the result.  `g.sim`: what `Simulator` does with the witness code.
Soundness statements place no condition on the witness values carried by the
inputs: a prover may choose them freely.
-/
import Verif.Lemmas.Gadget.Element
import Verif.Lemmas.TestField
import Mathlib.RingTheory.RootsOfUnity.PrimitiveRoots

set_option linter.unusedSectionVars false

namespace Ragu.Props
open Ragu Ragu.Circuit Ragu.Gadget Ragu.Gadget.Syn
variable {F : Type} [Field F] [DecidableEq F]

/-- C30: whatever the simulator accepts satisfies the circuit (any gadget). -/
theorem C30_simulated_is_satisfying {α : Type} {g : Syn F α} {r : α} (h : g.sim = .ok r) :
    g.sat r := Syn.sim_sat h

/-- C30, `mul`/`square`: the output wire is forced to the product, and honest operands
always produce it. -/
theorem C30_mul (a b : Element F) :
    (∀ r, (a.mul b).sat r → r.wire = a.wire * b.wire) ∧
    (a.Honest → b.Honest → ∃ r, (a.mul b).sim = .ok r ∧ r.wire = a.wire * b.wire ∧ r.Honest) ∧
    (∀ r, a.square.sat r → r.wire = a.wire ^ 2) ∧
    (a.Honest → ∃ r, a.square.sim = .ok r ∧ r.wire = a.wire ^ 2 ∧ r.Honest) := by
  refine ⟨fun r h => ?_, fun ha hb => ⟨_, Element.mul_sim ha hb, rfl, rfl⟩, fun r h => ?_,
    fun ha => ⟨_, Element.mul_sim ha ha, (pow_two _).symm, rfl⟩⟩
  · rw [(Element.mul_sat a b r).1 h]
  · rw [(Element.square_sat a r).1 h, pow_two]

/-- C30: allocations. `alloc` leaves the wire free; `alloc_square` forces the second wire to
be the square of the first; both carry the given value when run honestly. -/
theorem C30_alloc (v : F) :
    (Element.alloc v).sim = .ok ⟨v, v⟩ ∧
    (∀ w, ∃ r, (Element.alloc v).sat r ∧ r.wire = w) ∧
    (Element.allocSquare v).sim = .ok (⟨v, v⟩, ⟨v ^ 2, v ^ 2⟩) ∧
    (∀ r, (Element.allocSquare v).sat r → r.2.wire = r.1.wire ^ 2) ∧
    (∀ w, ∃ r, (Element.allocSquare v).sat r ∧ r.1.wire = w) := by
  refine ⟨rfl, fun w => ⟨⟨w, v⟩, by simp, rfl⟩, by simp, fun r h => ?_, fun w => ?_⟩
  · rw [((Element.allocSquare_sat v r).1 h).2]; exact (pow_two _).symm
  · exact ⟨(⟨w, v⟩, ⟨w * w, v ^ 2⟩), (Element.allocSquare_sat v _).2 ⟨rfl, rfl⟩, rfl⟩

/-- C30, linear operations: they create no gates, and carry the value on wire and witness
alike. -/
theorem C30_linear (a b : Element F) (c : Coeff F) (v : F) :
    (Element.one : Element F).wire = 1 ∧ (Element.zero : Element F).wire = 0 ∧
    (Element.constant v).wire = v ∧
    (a.add b).wire = a.wire + b.wire ∧ (a.sub b).wire = a.wire - b.wire ∧
    a.negate.wire = -a.wire ∧ a.double.wire = 2 * a.wire ∧
    (a.scale c).wire = c.value * a.wire ∧ (a.addCoeff b c).wire = a.wire + c.value * b.wire ∧
    (Element.one : Element F).Honest ∧ (Element.zero : Element F).Honest ∧
    (Element.constant v).Honest ∧
    (a.Honest → a.negate.Honest ∧ a.double.Honest ∧ (a.scale c).Honest) ∧
    (a.Honest → b.Honest → (a.add b).Honest ∧ (a.sub b).Honest ∧ (a.addCoeff b c).Honest) := by
  refine ⟨rfl, by simp, by simp, by simp, by simp, by simp, by simp; ring, by simp [mul_comm],
    by simp [mul_comm], rfl, by simp [Element.Honest], by simp [Element.Honest], ?_, ?_⟩
  · intro ha
    simp only [Element.Honest] at ha
    simp [Element.Honest, ha]
  · intro ha hb
    simp only [Element.Honest] at ha hb
    simp [Element.Honest, ha, hb]

/-- C30, `invert`: it can be satisfied exactly when the operand is nonzero, the output is
then the inverse, and the honest prover succeeds exactly in that case. -/
theorem C30_invert (a : Element F) :
    (∀ r, a.invert.sat r → a.wire ≠ 0 ∧ r.wire = a.wire⁻¹) ∧
    (a.wire ≠ 0 → ∃ r, a.invert.sat r) ∧
    (a.Honest → a.wire ≠ 0 → a.invert.sim = .ok ⟨a.wire⁻¹, a.wire⁻¹⟩) ∧
    (a.Honest → a.wire = 0 → a.invert.sim = .error .invalidWitness) := by
  refine ⟨fun r h => ?_, fun h => ?_, fun ha h => ?_, fun ha h => ?_⟩
  · have h1 := ((Element.invert_sat a r).1 h).1
    exact ⟨left_ne_zero_of_mul_eq_one h1, eq_inv_of_mul_eq_one_right h1⟩
  · exact ⟨⟨a.wire⁻¹, a.value⁻¹⟩, (Element.invert_sat a _).2 ⟨mul_inv_cancel₀ h, rfl⟩⟩
  · rw [Element.invert_sim_eq, show a.value = a.wire from ha, if_pos ⟨h, rfl⟩]
  · rw [Element.invert_sim_eq, if_neg]
    rw [show a.value = a.wire from ha]
    exact fun h' => h'.1 h

/-- C30, `invert_with`: the supplied value is only a hint; the wire is the inverse whatever
the hint says, and the honest run succeeds exactly with the right hint. -/
theorem C30_invert_with (a : Element F) (hint : F) :
    (∀ r, (a.invertWith hint).sat r → a.wire ≠ 0 ∧ r.wire = a.wire⁻¹) ∧
    (a.Honest → ((∃ r, (a.invertWith hint).sim = .ok r) ↔ a.wire * hint = 1)) := by
  refine ⟨fun r h => ?_, fun ha => ?_⟩
  · have h1 := ((Element.invertWith_sat a hint r).1 h).1
    exact ⟨left_ne_zero_of_mul_eq_one h1, eq_inv_of_mul_eq_one_right h1⟩
  · rw [Element.invertWith_sim_eq, show a.value = a.wire from ha]
    by_cases h : a.wire * hint = 1 <;> simp [h]

/-- C30, `div_nonzero`: with a nonzero divisor the quotient is forced; with a zero divisor the
circuit is satisfiable only for a zero dividend, and then *any* quotient passes; the honest
prover fails exactly on a zero divisor. -/
theorem C30_div_nonzero (a b : Element F) :
    (b.wire ≠ 0 → ∀ r, (a.divNonzero b).sat r → r.wire = a.wire / b.wire) ∧
    (b.wire ≠ 0 → ∃ r, (a.divNonzero b).sat r) ∧
    (b.wire = 0 → a.wire ≠ 0 → ∀ r, ¬ (a.divNonzero b).sat r) ∧
    (b.wire = 0 → a.wire = 0 → ∀ q, ∃ r, (a.divNonzero b).sat r ∧ r.wire = q) ∧
    (a.Honest → b.Honest → b.wire ≠ 0 →
      (a.divNonzero b).sim = .ok ⟨a.wire / b.wire, a.wire / b.wire⟩) ∧
    (b.Honest → b.wire = 0 → (a.divNonzero b).sim = .error .invalidWitness) := by
  refine ⟨fun hb r h => ?_, fun hb => ?_, fun hb ha r h => ?_, fun hb ha q => ?_,
    fun ha hb h => ?_, fun hb h => ?_⟩
  · exact (eq_div_iff hb).2 ((Element.divNonzero_sat a b r).1 h).1
  · exact ⟨⟨a.wire / b.wire, a.value * b.value⁻¹⟩,
      (Element.divNonzero_sat a b _).2 ⟨div_mul_cancel₀ _ hb, rfl⟩⟩
  · have := ((Element.divNonzero_sat a b r).1 h).1
    rw [hb, mul_zero] at this
    exact ha this.symm
  · exact ⟨⟨q, a.value * b.value⁻¹⟩, (Element.divNonzero_sat a b _).2 ⟨by simp [hb, ha], rfl⟩, rfl⟩
  · rw [Element.divNonzero_sim_eq, show a.value = a.wire from ha, show b.value = b.wire from hb,
      if_pos ⟨h, rfl, rfl⟩, div_eq_mul_inv]
  · rw [Element.divNonzero_sim_eq, show b.value = b.wire from hb, if_neg]
    exact fun h' => h'.1 h

theorem horner_eq (s : F) (es : List F) : ∀ acc : F,
    es.foldl (fun x e => x * s + e) acc =
      acc * s ^ es.length + ∑ i : Fin es.length, es[i] * s ^ (es.length - 1 - i) := by
  induction es with
  | nil => intro acc; simp
  | cons e es ih =>
    intro acc
    rw [List.foldl_cons, ih]
    have : (∑ i : Fin (e :: es).length, (e :: es)[i] * s ^ ((e :: es).length - 1 - i)) =
        e * s ^ es.length + ∑ i : Fin es.length, es[i] * s ^ (es.length - 1 - i) := by
      refine (Fin.sum_univ_succ (n := es.length) _).trans ?_
      congr 1
      refine Finset.sum_congr rfl fun i _ => ?_
      simp only [Fin.getElem_fin, Fin.val_succ, List.getElem_cons_succ, List.length_cons]
      congr 2
      omega
    rw [this, List.length_cons, pow_succ]
    ring

/-- C30, `fold`: Horner evaluation, the first element getting the highest power. -/
theorem C30_fold (es : List (Element F)) (s : Element F) :
    (∀ r, (Element.fold es s).sat r →
      r.wire = ∑ i : Fin es.length, es[i].wire * s.wire ^ (es.length - 1 - i)) ∧
    ((∀ e ∈ es, e.Honest) → s.Honest →
      ∃ r, (Element.fold es s).sim = .ok r ∧ r.Honest) := by
  have key : ∀ (e : Element F) (es : List (Element F)),
      es.foldl (fun x e => x * s.wire + e.wire) e.wire =
        ∑ i : Fin (e :: es).length, (e :: es)[i].wire * s.wire ^ ((e :: es).length - 1 - i) := by
    intro e es
    have h1 : es.foldl (fun x e => x * s.wire + e.wire) e.wire =
        (es.map (·.wire)).foldl (fun x e => x * s.wire + e) e.wire := by
      rw [List.foldl_map]
    rw [h1, horner_eq]
    refine Eq.trans ?_ (Fin.sum_univ_succ (n := es.length) _).symm
    congr 1
    · simp
    · rw [← Fin.sum_congr' _ (List.length_map (as := es) (·.wire)).symm]
      refine Finset.sum_congr rfl fun i _ => ?_
      simp only [Fin.getElem_fin, Fin.val_succ, List.getElem_cons_succ, List.length_cons,
        Fin.val_cast, List.getElem_map, List.length_map]
      congr 2
      omega
  cases es with
  | nil => exact ⟨fun r h => by simp [Element.fold] at h; simp [h], fun _ _ =>
      ⟨_, rfl, by simp [Element.Honest]⟩⟩
  | cons e es =>
    refine ⟨fun r h => ?_, fun he hs => ?_⟩
    · rw [Element.fold, Element.foldFrom_sat] at h
      rw [h, ← key]
    · exact ⟨_, Element.foldFrom_sim hs es e (he e List.mem_cons_self)
        fun x hx => he x (List.mem_cons_of_mem _ hx), rfl⟩

/-- C30, `sum`. -/
theorem C30_sum (es : List (Element F)) :
    (Element.sum es).wire = (es.map (·.wire)).sum ∧
    ((∀ e ∈ es, e.Honest) → (Element.sum es).Honest) := by
  rw [Element.sum, Element.sum_foldl]
  refine ⟨by simp, fun h => ?_⟩
  simp only [Element.Honest, Element.zero_value, Element.zero_wire]
  congr 2
  exact List.map_congr_left fun e he => h e he

/-- C30, `multiadd`: the dot product; different lengths panic. -/
theorem C30_multiadd (vs : List (Element F)) (cs : List F) :
    (vs.length ≠ cs.length → (multiadd vs cs).sim = .error .panic ∧ ∀ r, ¬ (multiadd vs cs).sat r) ∧
    (vs.length = cs.length → ∃ r, (multiadd vs cs).sim = .ok r ∧
      (∀ r', (multiadd vs cs).sat r' → r' = r) ∧
      r.wire = (List.zipWith (fun v c => v * c) (vs.map (·.wire)) cs).sum ∧
      ((∀ v ∈ vs, v.Honest) → r.Honest)) := by
  refine ⟨fun h => ?_, fun h => ?_⟩
  · simp [multiadd, h, sat, sim]
  · refine ⟨_, by simp only [multiadd, h, ne_eq, not_true_eq_false, if_false]; rfl, ?_, ?_, ?_⟩
    · intro r' hr
      simpa [multiadd, h] using hr
    · simp only [multiadd_lin]
      rw [List.zipWith_map_left]
    · intro hv
      simp only [Element.Honest, multiadd_lin, multiadd_val, zero_add]
      congr 1
      clear h
      induction vs generalizing cs with
      | nil => simp
      | cons v vs ih =>
        cases cs with
        | nil => simp
        | cons c cs =>
          simp only [List.zipWith_cons_cons]
          rw [ih cs fun x hx => hv x (List.mem_cons_of_mem _ hx),
            show v.value = v.wire from hv v List.mem_cons_self]

example : (Element.invert (⟨5, 5⟩ : Element (ZMod 97))).sim = .ok ⟨39, 39⟩ := by decide +kernel
example : (Element.divNonzero (⟨6, 6⟩ : Element (ZMod 97)) ⟨5, 5⟩).sim = .ok ⟨40, 40⟩ := by
  decide +kernel
/-- Both operands zero: two satisfying assignments with different quotients (the
documented "may be unconstrained"). -/
example : ((Element.divNonzero (⟨0, 0⟩ : Element (ZMod 97)) ⟨0, 0⟩).sat ⟨3, 0⟩) ∧
    ((Element.divNonzero (⟨0, 0⟩ : Element (ZMod 97)) ⟨0, 0⟩).sat ⟨4, 0⟩) := by
  simp [Element.divNonzero_sat]
example : (Element.fold [(⟨1, 1⟩ : Element (ZMod 97)), ⟨2, 2⟩, ⟨3, 3⟩] ⟨10, 10⟩).sim =
    .ok ⟨26, 26⟩ := by decide +kernel
example : (multiadd [(⟨1, 1⟩ : Element (ZMod 97)), ⟨2, 2⟩] [5, 7]).sim = .ok ⟨19, 19⟩ := by
  decide +kernel
/-- A wrong witness value is caught by the simulator. -/
example : ((⟨1, 2⟩ : Element (ZMod 97)).mul ⟨3, 3⟩).sim = .error .invalidWitness := by
  decide +kernel

/-! ### C31 -/

/-- A wire holds a bit. -/
def IsBit (w : F) : Prop := w = 0 ∨ w = 1

/-- C31: an allocated boolean is 0 or 1 in every satisfying assignment, both values are
possible whatever the witness says, and the honest wire is the witness bit. -/
theorem C31_alloc (v : Bool) :
    (∀ r, (Boolean.alloc (F := F) v).sat r → IsBit r.wire) ∧
    (∀ w : F, IsBit w → ∃ r, (Boolean.alloc v).sat r ∧ r.wire = w) ∧
    (Boolean.alloc (F := F) v).sim = .ok ⟨if v then 1 else 0, v⟩ :=
  ⟨fun r h => ((Boolean.alloc_sat v r).1 h).2,
    fun w h => ⟨⟨w, v⟩, (Boolean.alloc_sat v _).2 ⟨rfl, h⟩, rfl⟩, Boolean.alloc_sim v⟩

/-- C31: `not` of a bit is the other bit. -/
theorem C31_not (a : Boolean F) (ha : IsBit a.wire) :
    (a.not.wire = 1 ↔ a.wire = 0) ∧ (a.not.wire = 0 ↔ a.wire = 1) ∧
    (a.Honest → a.not.Honest) := by
  refine ⟨?_, ?_, ?_⟩
  · rcases ha with h | h <;> simp [h]
  · rcases ha with h | h <;> simp [h]
  · intro h
    simp only [Boolean.Honest] at h
    simp [Boolean.Honest, fe_not, h]

/-- C31: `and` of bits is a bit and is 1 exactly when both are. -/
theorem C31_and (a b : Boolean F) (ha : IsBit a.wire) (hb : IsBit b.wire) :
    (∀ r, (a.and b).sat r → IsBit r.wire ∧ (r.wire = 1 ↔ a.wire = 1 ∧ b.wire = 1)) ∧
    (a.Honest → b.Honest → ∃ r, (a.and b).sim = .ok r ∧ r.Honest ∧
      r.value = (a.value && b.value)) := by
  refine ⟨fun r h => ?_, fun ha hb => ⟨_, Boolean.and_sim ha hb, ?_, rfl⟩⟩
  · rw [(Boolean.and_sat a b r).1 h]
    rcases ha with h1 | h1 <;> rcases hb with h2 | h2 <;> simp [h1, h2, IsBit]
  · simp only [Boolean.Honest] at ha hb ⊢
    rw [← fe_and, ha, hb]

/-- C31: `conditional_select(a, b)` is `b` when the condition is 1 and `a` when it is 0. -/
theorem C31_conditional_select (s : Boolean F) (a b : Element F) :
    (∀ r, (s.conditionalSelect a b).sat r →
      (s.wire = 1 → r.wire = b.wire) ∧ (s.wire = 0 → r.wire = a.wire)) ∧
    (s.Honest → a.Honest → b.Honest → ∃ r, (s.conditionalSelect a b).sim = .ok r ∧ r.Honest ∧
      r.wire = if s.value then b.wire else a.wire) := by
  refine ⟨fun r h => ?_, fun hs ha hb => ⟨_, Boolean.conditionalSelect_sim hs ha hb, rfl, ?_⟩⟩
  · rw [(Boolean.conditionalSelect_sat s a b r).1 h]
    constructor <;> intro h <;> simp [h]
  · have : fe s.value = s.wire := hs
    simp only [← this]
    cases s.value <;> simp [fe]

/-- C31: `conditional_enforce_equal` enforces equality exactly when the condition is 1. -/
theorem C31_conditional_enforce_equal (s : Boolean F) (hs : IsBit s.wire) (a b : Element F) :
    ((s.conditionalEnforceEqual a b).sat () ↔ (s.wire = 1 → a.wire = b.wire)) ∧
    (s.Honest → a.Honest → b.Honest →
      ((s.conditionalEnforceEqual a b).sim = .ok () ↔ (s.value = true → a.wire = b.wire))) := by
  constructor
  · rw [Boolean.conditionalEnforceEqual_sat]
    rcases hs with h | h <;> simp [h]
  · intro h1 ha hb
    have h2 : s.element.Honest := h1
    have h3 : (a.sub b).Honest := by
      rw [Element.Honest, Element.sub_value, Element.sub_wire, show a.value = a.wire from ha,
        show b.value = b.wire from hb]
    rw [Boolean.conditionalEnforceEqual, sim_bind_ok (Element.mul_sim h2 h3),
      Element.enforceZero_sim]
    have : fe s.value = s.wire := h1
    simp only [Boolean.element_wire, Element.sub_wire, ← this]
    cases s.value <;> simp [fe, sub_eq_zero]

/-- C31: `enforce_consistent` accepts exactly bits. -/
theorem C31_consistent (a : Boolean F) : a.enforceConsistent.sat () ↔ IsBit a.wire := by
  simp only [Boolean.enforceConsistent, sat_bind, Boolean.alloc_sat, enforceEqual_sat]
  constructor
  · rintro ⟨r, ⟨_, h⟩, h'⟩
    rwa [h'] at h
  · intro h
    exact ⟨⟨a.wire, a.value⟩, ⟨rfl, h⟩, rfl⟩

theorem chunks_spec {α : Type} {cap : ℕ} (hc : 0 < cap) (l : List α) :
    (chunks cap l).length = (l.length + cap - 1) / cap ∧
    ∀ j, (chunks cap l)[j]? = if j * cap < l.length then some ((l.drop (j * cap)).take cap)
      else none := by
  induction hn : l.length using Nat.strong_induction_on generalizing l with
  | _ n ih =>
    rw [chunks]
    by_cases h : l = []
    · subst h
      simp only [List.length_nil] at hn
      subst hn
      refine ⟨?_, fun j => ?_⟩
      · rw [dif_pos (Or.inl rfl), List.length_nil]
        exact (Nat.div_eq_of_lt (by omega)).symm
      · simp
    · have hl : l.length ≠ 0 := by simpa using h
      rw [dif_neg (by push Not; exact ⟨h, hc.ne'⟩)]
      obtain ⟨h1, h2⟩ := ih (l.drop cap).length (by simp; omega) (l.drop cap) rfl
      refine ⟨?_, fun j => ?_⟩
      · rw [List.length_cons, h1, List.length_drop, ← hn]
        by_cases h3 : l.length ≤ cap
        · rw [Nat.sub_eq_zero_of_le h3, Nat.div_eq_of_lt (by omega)]
          symm
          rw [Nat.div_eq_iff (by omega)]
          omega
        · rw [show l.length + cap - 1 = (l.length - cap + cap - 1) + cap from by omega,
            Nat.add_div_right _ hc]
      · cases j with
        | zero => simp [← hn, Nat.pos_of_ne_zero hl]
        | succ j =>
          rw [List.getElem?_cons_succ, h2, List.length_drop, List.drop_drop, ← hn]
          have e : (j + 1) * cap = cap + j * cap := by ring
          rw [e]
          congr 1
          simp only [eq_iff_iff]
          omega

/-- The number written by the bits, least significant first. -/
def leNat : List Bool → ℕ
  | [] => 0
  | b :: bs => (if b then 1 else 0) + 2 * leNat bs

theorem leNat_sum (bs : List (Boolean F)) (f : Boolean F → Bool) :
    ((leNat (bs.map f) : ℕ) : F) = ∑ i : Fin bs.length, 2 ^ (i : ℕ) * fe (f bs[i]) := by
  induction bs with
  | nil => simp [leNat]
  | cons b bs ih =>
    rw [leSum_cons (fun b => fe (f b))]
    simp only [List.map_cons, leNat, Nat.cast_add, Nat.cast_mul, ih, fe]
    split <;> simp

theorem leNat_wires : ∀ (c : List (Boolean F)) (w : List Bool),
    w.map (fe (F := F)) = c.map (·.wire) →
    ∑ i : Fin c.length, 2 ^ (i : ℕ) * c[i].wire = (leNat w : F)
  | [], w, h => by
    have : w = [] := by simpa using h
    simp [this, leNat]
  | b :: c, [], h => by simp at h
  | b :: c, x :: w, h => by
    simp only [List.map_cons, List.cons.injEq] at h
    rw [leSum_cons (fun b => b.wire), leNat_wires c w h.2, ← h.1]
    simp only [leNat, fe, Nat.cast_add, Nat.cast_mul]
    split <;> simp

/-- C31: `multipack` with capacity `cap` gives ⌈n/cap⌉ elements; the j-th packs bits
`j*cap, …` (at most `cap` of them), least significant first, in every assignment.  When the
wires are bits the value is the number those bits write. -/
theorem C31_multipack (cap : ℕ) (hc : 0 < cap) (bits : List (Boolean F)) :
    ∃ r, (multipack cap bits).sim = .ok r ∧ (∀ r', (multipack cap bits).sat r' ↔ r' = r) ∧
      r.length = (bits.length + cap - 1) / cap ∧
      (∀ j (hj : j < r.length),
        (∀ w : List Bool, w.map (fe (F := F)) = (bits.drop (j * cap)).map (·.wire) →
          r[j].wire = (leNat (w.take cap) : F)) ∧
        ((∀ b ∈ bits, b.Honest) → r[j].Honest)) := by
  obtain ⟨h1, h2⟩ := chunks_spec hc bits
  refine ⟨_, by simp only [multipack, hc.ne', if_false]; rfl, ?_, by simp [h1], ?_⟩
  · intro r'
    simp [multipack, hc.ne']
  · intro j hj
    have hj' : j < (chunks cap bits).length := by simpa using hj
    have h3 := h2 j
    rw [List.getElem?_eq_getElem hj'] at h3
    split at h3
    swap
    · cases h3
    have h4 : (chunks cap bits)[j] = (bits.drop (j * cap)).take cap := Option.some.inj h3
    rw [List.getElem_map, h4]
    set c := (bits.drop (j * cap)).take cap with hcdef
    have hw : (packChunk c).wire = ∑ i : Fin c.length, 2 ^ (i : ℕ) * c[i].wire := by
      simp only [packChunk, lin_eq, packChunk_lin, one_mul]
    constructor
    · intro w hwm
      rw [hw]
      refine leNat_wires c _ ?_
      rw [hcdef, List.map_take, hwm, List.map_take]
    · intro hb
      rw [Element.Honest, hw]
      simp only [packChunk, packValue_eq, one_mul, zero_add]
      refine Finset.sum_congr rfl fun i _ => ?_
      rw [hb c[i] (List.mem_of_mem_drop (List.mem_of_mem_take (List.getElem_mem _)))]

example : (multipack 3 [(⟨1, true⟩ : Boolean (ZMod 97)), ⟨0, false⟩, ⟨1, true⟩, ⟨1, true⟩]).sim =
    .ok [⟨5, 5⟩, ⟨1, 1⟩] := by
  simp only [multipack]
  rw [chunks, chunks, chunks]
  decide +kernel
example : IsBit (⟨1, true⟩ : Boolean (ZMod 97)).wire := .inr rfl
example : (Boolean.conditionalSelect (⟨1, true⟩ : Boolean (ZMod 97)) ⟨4, 4⟩ ⟨9, 9⟩).sim =
    .ok ⟨9, 9⟩ := by decide +kernel

/-! ### C32 -/

/-- C32: `is_zero` is 1 exactly when the operand is zero and 0 otherwise, for every
satisfying assignment; a satisfying assignment always exists; and the honest run gives it. -/
theorem C32_is_zero (x : Element F) :
    (∀ r, x.isZero.sat r → IsBit r.wire ∧ (r.wire = 1 ↔ x.wire = 0)) ∧
    (∃ r, x.isZero.sat r) ∧
    (x.Honest → ∃ r, x.isZero.sim = .ok r ∧ r.Honest ∧ (r.value = true ↔ x.wire = 0)) := by
  refine ⟨fun r h => ?_, ⟨_, (isZero_sat x _).2 rfl⟩, fun hx => ⟨_, isZero_sim hx, rfl, by simp⟩⟩
  rw [(isZero_sat x r).1 h]
  by_cases h : x.wire = 0 <;> simp [h, IsBit]

/-- C32: `is_equal`. -/
theorem C32_is_equal (x y : Element F) :
    (∀ r, (x.isEqual y).sat r → IsBit r.wire ∧ (r.wire = 1 ↔ x.wire = y.wire)) ∧
    (∃ r, (x.isEqual y).sat r) ∧
    (x.Honest → y.Honest →
      ∃ r, (x.isEqual y).sim = .ok r ∧ r.Honest ∧ (r.value = true ↔ x.wire = y.wire)) := by
  obtain ⟨h1, h2, h3⟩ := C32_is_zero (x.sub y)
  refine ⟨fun r h => ?_, h2, fun hx hy => ?_⟩
  · have := h1 r h
    rwa [Element.sub_wire, sub_eq_zero] at this
  · have h4 : (x.sub y).Honest := by
      rw [Element.Honest, Element.sub_value, Element.sub_wire, show x.value = x.wire from hx,
        show y.value = y.wire from hy]
    have := h3 h4
    rwa [Element.sub_wire, sub_eq_zero] at this

example : (Element.isZero (⟨0, 0⟩ : Element (ZMod 97))).sim = .ok ⟨1, true⟩ := by decide +kernel
example : (Element.isZero (⟨3, 3⟩ : Element (ZMod 97))).sim = .ok ⟨0, false⟩ := by decide +kernel

/-! ### C33 -/

/-- C33: `enforce_root_of_unity(k)` can be satisfied exactly for the 2^k-th roots of unity,
and the honest run succeeds exactly on them. -/
theorem C33_root_of_unity (x : Element F) (k : ℕ) :
    ((x.enforceRootOfUnity k).sat () ↔ x.wire ^ 2 ^ k = 1) ∧
    (x.Honest → ((x.enforceRootOfUnity k).sim = .ok () ↔ x.wire ^ 2 ^ k = 1)) := by
  constructor
  · simp [Element.enforceRootOfUnity, Element.squareLoop_sat, sub_eq_zero]
  · intro hx
    rw [Element.enforceRootOfUnity, sim_bind_ok (Element.squareLoop_sim k x hx)]
    simp [sub_eq_zero]

/-- C33: hence it accepts exactly the elements of the size-2^k domain generated by a
primitive root. -/
theorem C33_domain (x : Element F) (k : ℕ) {ω : F} (hω : IsPrimitiveRoot ω (2 ^ k)) :
    (x.enforceRootOfUnity k).sat () ↔ ∃ i < 2 ^ k, x.wire = ω ^ i := by
  rw [(C33_root_of_unity x k).1]
  have : NeZero (2 ^ k) := ⟨by positivity⟩
  constructor
  · intro h
    obtain ⟨i, hi, h⟩ := hω.eq_pow_of_pow_eq_one h
    exact ⟨i, hi, h.symm⟩
  · rintro ⟨i, _, h⟩
    rw [h, ← pow_mul, mul_comm, pow_mul, hω.pow_eq_one, one_pow]

/-- 22 has order 4 modulo 97. -/
example : ((⟨22, 22⟩ : Element (ZMod 97)).enforceRootOfUnity 2).sim = .ok () := by decide +kernel
example : ((⟨22, 22⟩ : Element (ZMod 97)).enforceRootOfUnity 1).sim = .error .invalidWitness := by
  decide +kernel

end Ragu.Props

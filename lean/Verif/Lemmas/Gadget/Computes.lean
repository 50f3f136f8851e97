/-
Gadget code that determines its result: the circuit is satisfied by exactly one
result, and the simulator produces it from honest inputs.
-/
import Verif.Lemmas.Gadget.Horner

set_option linter.unusedSectionVars false

namespace Ragu.Gadget
open Ragu Ragu.Circuit
variable {F : Type} [Field F] [DecidableEq F] {α β : Type}

/-- The circuit `x` is satisfied by `a` and nothing else, and, under `h`, the simulator
returns `a`. -/
def Computes (h : Prop) (x : Syn F α) (a : α) : Prop := (∀ r, x.sat r ↔ r = a) ∧ (h → x.sim = .ok a)

namespace Computes
variable {h : Prop}

theorem pure (a : α) : Computes h (Pure.pure a : Syn F α) a := ⟨fun _ => Iff.rfl, fun _ => rfl⟩

theorem bind {x : Syn F α} {a : α} {f : α → Syn F β} {b : β} (hx : Computes h x a)
    (hf : Computes h (f a) b) : Computes h (x >>= f) b := by
  refine ⟨fun r => ?_, fun hh => by rw [Syn.sim_bind_ok (hx.2 hh), hf.2 hh]⟩
  rw [Syn.sat_bind]
  constructor
  · rintro ⟨a', h1, h2⟩
    rw [(hx.1 a').1 h1] at h2
    exact (hf.1 r).1 h2
  · intro hr
    exact ⟨a, (hx.1 a).2 rfl, (hf.1 r).2 hr⟩

theorem map {x : Syn F α} {a : α} (f : α → β) (hx : Computes h x a) :
    Computes h (x >>= fun a => Pure.pure (f a)) (f a) := hx.bind (pure _)

theorem mul {a b : Element F} (ha : h → a.Honest) (hb : h → b.Honest) :
    Computes h (a.mul b) ⟨a.wire * b.wire, a.value * b.value⟩ := by
  refine ⟨fun r => Element.mul_sat a b r, fun hh => ?_⟩
  have h1 : a.value = a.wire := ha hh
  have h2 : b.value = b.wire := hb hh
  rw [Element.mul_sim (ha hh) (hb hh), h1, h2]

theorem mono {h' : Prop} {x : Syn F α} {a : α} (hh : h' → h) (hx : Computes h x a) :
    Computes h' x a := ⟨hx.1, fun k => hx.2 (hh k)⟩

end Computes

/-- Bind on `Syn` is associative. -/
theorem Syn.bind_assoc {γ : Type} (x : Syn F α) (f : α → Syn F β) (g : β → Syn F γ) :
    (x >>= f) >>= g = x >>= fun a => f a >>= g := by
  show (x.bind f).bind g = x.bind fun a => (f a).bind g
  induction x with
  | ret a => rfl
  | gate w k ih => simp only [Syn.bind]; congr 1; funext a b c d; exact ih _ _ _ _
  | alloc w k ih => simp only [Syn.bind]; congr 1; funext a; exact ih _
  | enforce v k ih => simp only [Syn.bind]; congr 1
  | check e k ih => simp only [Syn.bind]; congr 1
  | panic => rfl

theorem Syn.pure_bind (a : α) (f : α → Syn F β) : (Pure.pure a : Syn F α) >>= f = f a := rfl

theorem Syn.bind_pure (x : Syn F α) : (x >>= Pure.pure) = x := by
  show x.bind Syn.ret = x
  induction x with
  | ret a => rfl
  | gate w k ih => simp only [Syn.bind]; congr 1; funext a b c d; exact ih _ _ _ _
  | alloc w k ih => simp only [Syn.bind]; congr 1; funext a; exact ih _
  | enforce v k ih => simp only [Syn.bind]; congr 1
  | check e k ih => simp only [Syn.bind]; congr 1
  | panic => rfl

/-! ### Horner evaluation -/

/-- `(…((l₀ s) + l₁) s + …) + lₙ`. -/
def hornerVal (s : F) (l : List F) : F := l.foldl (fun acc x => acc * s + x) 0

theorem hornerVal_foldl (s : F) : ∀ (l : List F) (acc : F),
    l.foldl (fun acc x => acc * s + x) acc = acc * s ^ l.length + hornerVal s l
  | [], acc => by simp [hornerVal]
  | x :: l, acc => by
    rw [List.foldl_cons, hornerVal_foldl s l, show hornerVal s (x :: l) =
      l.foldl (fun acc x => acc * s + x) (0 * s + x) from rfl, hornerVal_foldl s l]
    rw [List.length_cons, pow_succ]
    ring

@[simp] theorem hornerVal_nil (s : F) : hornerVal s [] = 0 := rfl

theorem hornerVal_cons (s : F) (x : F) (l : List F) :
    hornerVal s (x :: l) = x * s ^ l.length + hornerVal s l := by
  rw [hornerVal, List.foldl_cons, hornerVal_foldl, zero_mul, zero_add]

theorem hornerVal_append (s : F) (l l' : List F) :
    hornerVal s (l ++ l') = hornerVal s l * s ^ l'.length + hornerVal s l' := by
  rw [hornerVal, List.foldl_append, hornerVal_foldl]; rfl

theorem hornerVal_concat (s : F) (l : List F) (x : F) :
    hornerVal s (l ++ [x]) = hornerVal s l * s + x := by
  rw [hornerVal_append, hornerVal_cons]; simp

open Finset in
/-- A Horner evaluation as a sum: the last element has weight one. -/
theorem hornerVal_eq_sum (s : F) (l : List F) :
    hornerVal s l = ∑ i ∈ range l.length, s ^ (l.length - 1 - i) * l.getD i 0 := by
  induction l with
  | nil => simp
  | cons x l ih =>
    rw [hornerVal_cons, ih, List.length_cons, sum_range_succ']
    simp only [List.getD_cons_succ, List.getD_cons_zero, Nat.add_sub_cancel, Nat.sub_zero]
    rw [add_comm, mul_comm x]
    congr 1
    refine sum_congr rfl fun i hi => ?_
    congr 2
    omega

theorem hornerVal_replicate_zero (s : F) (n : ℕ) : hornerVal s (List.replicate n 0) = 0 := by
  induction n with
  | zero => rfl
  | succ n ih => rw [List.replicate_succ, hornerVal_cons, ih]; simp

/-- The element a Horner evaluation over elements determines. -/
def hornerE (p : Element F) (l : List (Element F)) : Element F :=
  ⟨hornerVal p.wire (l.map (·.wire)), hornerVal p.value (l.map (·.value))⟩

theorem hornerE_honest {p : Element F} (hp : p.Honest) {l : List (Element F)}
    (hl : ∀ e ∈ l, e.Honest) : (hornerE p l).Honest := by
  show hornerVal _ _ = hornerVal _ _
  have : l.map (·.value) = l.map (·.wire) := List.map_congr_left fun e he => hl e he
  rw [show p.value = p.wire from hp, this]

theorem zero_honest : (Element.zero : Element F).Honest := by
  show (Element.zero : Element F).value = (Element.zero : Element F).wire
  rw [Element.zero_wire, Element.zero_value]

theorem zero_eq : (Element.zero : Element F) = ⟨0, 0⟩ := by
  have h1 := Element.zero_wire (F := F)
  have h2 := Element.zero_value (F := F)
  cases h : (Element.zero : Element F)
  rw [h] at h1 h2
  simp only at h1 h2
  rw [h1, h2]

theorem add_eq (a b : Element F) : a.add b = ⟨a.wire + b.wire, a.value + b.value⟩ := by
  have h1 := Element.add_wire a b
  have h2 := Element.add_value a b
  cases h : a.add b
  rw [h] at h1 h2
  simp only at h1 h2
  rw [h1, h2]

namespace Horner

/-- One write, as a function. -/
def writeE (p : Element F) (s : Option (Element F)) (v : Element F) : Option (Element F) :=
  match s with
  | some acc => some ⟨acc.wire * p.wire + v.wire, acc.value * p.value + v.value⟩
  | none => some v

theorem writeE_honest {p : Element F} (hp : p.Honest) {s : Option (Element F)} (hs : HonestState s)
    {v : Element F} (hv : v.Honest) : HonestState (writeE p s v) := by
  intro e he
  rcases s with _ | acc
  · cases he; exact hv
  · cases he
    show acc.value * p.value + v.value = acc.wire * p.wire + v.wire
    rw [show acc.value = acc.wire from hs _ rfl, show p.value = p.wire from hp,
      show v.value = v.wire from hv]

theorem write_computes {h : Prop} {p : Element F} (hp : h → p.Honest) {s : Option (Element F)}
    (hs : h → HonestState s) (v : Element F) : Computes h (write p s v) (writeE p s v) := by
  rcases s with _ | acc
  · exact Computes.pure _
  · have := (Computes.mul (h := h) (a := acc) (b := p) (fun hh => hs hh _ rfl) hp).map
      fun m => some (m.add v)
    rwa [add_eq] at this

theorem writeAll_computes {h : Prop} {p : Element F} (hp : h → p.Honest) :
    ∀ {vs : List (Element F)} {s : Option (Element F)}, (h → HonestState s) →
    (h → ∀ v ∈ vs, v.Honest) → Computes h (writeAll p s vs) (vs.foldl (writeE p) s)
  | [], s, _, _ => Computes.pure _
  | v :: vs, s, hs, hv => by
    rw [writeAll, List.foldl_cons]
    exact (write_computes hp hs v).bind (writeAll_computes hp
      (fun hh => writeE_honest (hp hh) (hs hh) (hv hh v List.mem_cons_self))
      fun hh w hw => hv hh w (List.mem_cons_of_mem _ hw))

theorem foldl_writeE_some (p : Element F) : ∀ (vs : List (Element F)) (acc : Element F),
    vs.foldl (writeE p) (some acc) = some ⟨(vs.map (·.wire)).foldl (fun a x => a * p.wire + x) acc.wire,
      (vs.map (·.value)).foldl (fun a x => a * p.value + x) acc.value⟩
  | [], acc => rfl
  | v :: vs, acc => by rw [List.foldl_cons, writeE, foldl_writeE_some p vs]; rfl

theorem finish_foldl (p : Element F) (vs : List (Element F)) :
    finish (vs.foldl (writeE p) none) = hornerE p vs := by
  cases vs with
  | nil => exact zero_eq
  | cons v vs =>
    rw [List.foldl_cons, writeE, foldl_writeE_some]
    show (⟨_, _⟩ : Element F) = ⟨_, _⟩
    rw [List.map_cons, List.map_cons, hornerVal, hornerVal, List.foldl_cons, List.foldl_cons]
    simp

theorem foldl_writeE_honest {p : Element F} (hp : p.Honest) : ∀ {vs : List (Element F)}
    {s : Option (Element F)}, HonestState s → (∀ v ∈ vs, v.Honest) →
    HonestState (vs.foldl (writeE p) s)
  | [], _, hs, _ => hs
  | v :: vs, s, hs, hv => foldl_writeE_honest hp (vs := vs) (s := writeE p s v)
      (writeE_honest hp hs (hv v List.mem_cons_self)) fun w hw => hv w (List.mem_cons_of_mem _ hw)

theorem writeAll_append (p : Element F) : ∀ (l l' : List (Element F)) (s : Option (Element F)),
    writeAll p s (l ++ l') = writeAll p s l >>= fun r => writeAll p r l'
  | [], _, _ => rfl
  | v :: l, l', s => by
    simp only [List.cons_append, writeAll, Syn.bind_assoc, writeAll_append p l l']

end Horner

theorem fold_computes {h : Prop} {s : Element F} (hs : h → s.Honest) {es : List (Element F)}
    (he : h → ∀ e ∈ es, e.Honest) : Computes h (Element.fold es s) (hornerE s es) := by
  cases es with
  | nil =>
    refine (Computes.pure Element.zero).bind (f := Pure.pure) ?_ |>.mono id
    rw [zero_eq]; exact Computes.pure _
  | cons e es =>
    have key : hornerE s (e :: es) =
        ⟨es.foldl (fun x e => x * s.wire + e.wire) e.wire,
          es.foldl (fun x e => x * s.value + e.value) e.value⟩ := by
      simp only [hornerE, hornerVal, List.map_cons, List.foldl_cons, List.foldl_map, zero_mul,
        zero_add]
    rw [key]
    refine ⟨fun r => Element.foldFrom_sat s es e r, fun hh => ?_⟩
    have h1 := Element.foldFrom_sim (hs hh) es e (he hh e List.mem_cons_self)
      fun x hx => he hh x (List.mem_cons_of_mem _ hx)
    have h2 := (Element.foldFrom_sat s es e _).1 (Syn.sim_sat h1)
    show (Element.foldFrom s e es).sim = _
    rw [h1, h2]

end Ragu.Gadget

/-
The gadgets of `ragu_primitives` make the same calls whatever their wires and witness values are.
-/
import Verif.Lemmas.Unif
import Verif.Model.Gadget.Point
import Verif.Model.Gadget.Horner
import Verif.Model.Gadget.Sponge
import Verif.Model.Gadget.Endoscalar
import Verif.Model.Gadget.Txz

set_option linter.unusedSectionVars false

namespace Ragu.Unif
open Ragu Ragu.Circuit Ragu.Gadget Ragu.Spec
variable {W F α β γ : Type} [Field F] [DecidableEq F] {m : ℕ}

theorem rel_loc [Gad W F α] {a : Fam W F α} (r : rel m a) (w : W) {σ τ : ℕ → F}
    (ag : Agree m σ τ) : a w σ = a w τ := Gad.loc r w σ τ ag

theorem Loc.loc {a : Fam W F α} (r : Loc m a) (w : W) {σ τ : ℕ → F}
    (ag : Agree m σ τ) : a w σ = a w τ := r w σ τ ag

section Tactics
open Lean Meta Elab Tactic

/-- The lemma about the relation of a hypothesis: `gad` for gadgets, and `R.suffix` for a relation `R`
of this namespace. -/
def relLemma (ty : Expr) (gad suffix : Name) : MetaM (Option Name) := do
  if ty.isAppOf ``rel || ty.isAppOf ``Gad.rel then return some gad
  let .const n _ := ty.getAppFn | return none
  if (`Ragu.Unif).isPrefixOf n && (← getEnv).contains (n ++ suffix) && n != ``Agree then
    return some (n ++ suffix)
  return none

/-- Replaces every hypothesis about families at level `m` by the one at level `m'`, for
`h : m ≤ m'`. -/
elab "lift_rels" h:ident : tactic => withMainContext do
  let he ← elabTerm h none
  let t ← instantiateMVars (← inferType he)
  let some (_, _, l, _) := t.app4? ``LE.le | throwError "not an inequality"
  for d in (← getLCtx) do
    unless d.isImplementationDetail do
      let ty ← instantiateMVars d.type
      let lem? ← relLemma ty ``rel_up `mono
      if let some lem := lem? then
        if ty.getAppArgs.any (· == l) then
          let pf ← mkAppM lem #[he, d.toExpr]
          liftMetaTactic fun g => do
            let g ← g.assert d.userName (← inferType pf) pf
            let (_, g) ← g.intro d.userName
            return [← g.tryClear d.fvarId]

/-- Proves that a family built from local families is local. -/
elab "loc" : tactic => do
  let (w, σ, τ, ag) ← withMainContext do
    let g ← getMainGoal
    let (fs, g) ← g.introN 4
    replaceMainGoal [g]
    return (fs[0]!, fs[1]!, fs[2]!, fs[3]!)
  withMainContext do
    if ← (try withReducible (evalTactic (← `(tactic| rfl))); pure true catch _ => pure false) then
      return
    let mut ts : Array (TSyntax `Lean.Parser.Tactic.simpLemma) := #[]
    for d in (← getLCtx) do
      unless d.isImplementationDetail do
        let ty ← instantiateMVars d.type
        let lem? ← relLemma ty ``rel_loc `loc
        if let some lem := lem? then
          try
            let pf ← mkAppM lem #[d.toExpr, .fvar w, .fvar ag]
            let s ← Term.exprToSyntax pf
            ts := ts.push (← `(Lean.Parser.Tactic.simpLemma| $s:term))
          catch _ => pure ()
    let _ := σ; let _ := τ
    evalTactic (← `(tactic| simp only [$ts,*]))

end Tactics

/-- One lemma about gadgets whose wires are fixed combinations; extended below. -/
syntax "rel_lem" : tactic

/-- Proves that a gadget's wires are fixed combinations. -/
macro "rels" : tactic => `(tactic| repeat' first
  | with_reducible assumption
  | with_reducible rel_lem
  | exact trivial
  | (refine And.intro ?_ ?_)
  | (show Loc _ _; loc))

/-! ### Wires and linear combinations -/

theorem rel_const (c : F) : rel m (fun (_ : W) (_ : ℕ → F) => c) := Aff.const m c
theorem rel_wire {e : Fam W F (Element F)} (h : rel m e) : rel m fun w σ => (e w σ).wire := h.1
theorem rel_bwire {e : Fam W F (Boolean F)} (h : rel m e) : rel m fun w σ => (e w σ).wire := h.1
theorem rel_mk {a v : Fam W F F} (h : rel m a) (hv : Loc m v) :
    rel m fun w σ => Element.mk (a w σ) (v w σ) := ⟨h, hv⟩
theorem rel_bmk {a : Fam W F F} {v : Fam W F Bool} (h : rel m a) (hv : Loc m v) :
    rel m fun w σ => Boolean.mk (a w σ) (v w σ) := ⟨h, hv⟩
theorem rel_pair [Gad W F α] [Gad W F β] {a : Fam W F α} {b : Fam W F β} (ha : rel m a)
    (hb : rel m b) : rel m fun w σ => (a w σ, b w σ) := ⟨ha, hb⟩

theorem rel_lc_nil (g : F) : rel m (fun (_ : W) (_ : ℕ → F) => lcVal (F := F) g []) :=
  Aff.const m 0
theorem rel_lc_term (g : F) (c : Coeff F) {a : Fam W F F} {l : Fam W F (List (LcStep F F))}
    (ha : rel m a) (hl : rel m fun w σ => lcVal g (l w σ)) :
    rel m fun w σ => lcVal g (LcStep.term (a w σ) c :: l w σ) := by
  refine Aff.congr ((Aff.mul (c.value * g) ha).add hl) fun w σ => ?_
  simp only [lcVal]; ring
theorem rel_lc_add (g : F) {a : Fam W F F} {l : Fam W F (List (LcStep F F))}
    (ha : rel m a) (hl : rel m fun w σ => lcVal g (l w σ)) :
    rel m fun w σ => lcVal g (LcStep.add (a w σ) :: l w σ) := rel_lc_term g .one ha hl
theorem rel_lc_sub (g : F) {a : Fam W F F} {l : Fam W F (List (LcStep F F))}
    (ha : rel m a) (hl : rel m fun w σ => lcVal g (l w σ)) :
    rel m fun w σ => lcVal g (LcStep.sub (a w σ) :: l w σ) := rel_lc_term g .negativeOne ha hl
theorem rel_lin {l : Fam W F (List (LcStep F F))} (h : rel m fun w σ => lcVal 1 (l w σ)) :
    rel m fun w σ => lin (l w σ) := Aff.congr h fun w σ => lin_eq _

macro_rules | `(tactic| rel_lem) => `(tactic| exact rel_const _)
macro_rules | `(tactic| rel_lem) => `(tactic| apply rel_wire)
macro_rules | `(tactic| rel_lem) => `(tactic| apply rel_bwire)
macro_rules | `(tactic| rel_lem) => `(tactic| apply rel_mk)
macro_rules | `(tactic| rel_lem) => `(tactic| apply rel_bmk)
macro_rules | `(tactic| rel_lem) => `(tactic| apply rel_pair)
macro_rules | `(tactic| rel_lem) => `(tactic| apply rel_lc_nil)
macro_rules | `(tactic| rel_lem) => `(tactic| apply rel_lc_term)
macro_rules | `(tactic| rel_lem) => `(tactic| apply rel_lc_add)
macro_rules | `(tactic| rel_lem) => `(tactic| apply rel_lc_sub)
macro_rules | `(tactic| rel_lem) => `(tactic| apply rel_lin)

theorem rel_one : rel m (fun (_ : W) (_ : ℕ → F) => (Element.one : Element F)) :=
  ⟨Aff.const m 1, fun _ _ _ _ => rfl⟩
theorem rel_constant (c : F) : rel m (fun (_ : W) (_ : ℕ → F) => Element.constant c) :=
  ⟨Aff.const m _, fun _ _ _ _ => rfl⟩
theorem rel_zero : rel m (fun (_ : W) (_ : ℕ → F) => (Element.zero : Element F)) :=
  ⟨Aff.const m _, fun _ _ _ _ => rfl⟩
macro_rules | `(tactic| rel_lem) => `(tactic| exact rel_one)
macro_rules | `(tactic| rel_lem) => `(tactic| exact rel_zero)
macro_rules | `(tactic| rel_lem) => `(tactic| exact rel_constant _)

section
variable {a b : Fam W F (Element F)} (ha : rel m a) (hb : rel m b)
include ha

theorem rel_scale (c : Coeff F) : rel m fun w σ => (a w σ).scale c := by
  unfold Element.scale; rels
theorem rel_negate : rel m fun w σ => (a w σ).negate := rel_scale ha _
include hb
theorem rel_add : rel m fun w σ => (a w σ).add (b w σ) := by
  unfold Element.add; rels
theorem rel_sub : rel m fun w σ => (a w σ).sub (b w σ) := by
  unfold Element.sub; rels
theorem rel_addCoeff (c : Coeff F) : rel m fun w σ => (a w σ).addCoeff (b w σ) c := by
  unfold Element.addCoeff; rels
omit hb
theorem rel_double : rel m fun w σ => (a w σ).double := rel_add ha ha
end
macro_rules | `(tactic| rel_lem) => `(tactic| apply rel_scale)
macro_rules | `(tactic| rel_lem) => `(tactic| apply rel_negate)
macro_rules | `(tactic| rel_lem) => `(tactic| apply rel_add)
macro_rules | `(tactic| rel_lem) => `(tactic| apply rel_sub)
macro_rules | `(tactic| rel_lem) => `(tactic| apply rel_addCoeff)
macro_rules | `(tactic| rel_lem) => `(tactic| apply rel_double)

theorem rel_not {a : Fam W F (Boolean F)} (ha : rel m a) : rel m fun w σ => (a w σ).not := by
  unfold Boolean.not; refine rel_bmk ?_ ?_
  · have : rel m fun (_ : W) (_ : ℕ → F) => (ONE : F) := rel_const _
    rels
  · loc
theorem rel_element {a : Fam W F (Boolean F)} (ha : rel m a) :
    rel m fun w σ => (a w σ).element := by
  unfold Boolean.element; rels
macro_rules | `(tactic| rel_lem) => `(tactic| apply rel_not)
macro_rules | `(tactic| rel_lem) => `(tactic| apply rel_element)

/-! ### Driver calls -/

/-- One step of a program; extended below. -/
syntax "unif_lem" : tactic

/-- Solves goals about one program or one gadget. -/
macro "unif" : tactic => `(tactic| (first | with_reducible unif_lem | with_reducible refine UnifR.pure ?_) <;> rels)

/-- The first step of a program. -/
macro "unif_step" : tactic => `(tactic| first
  | (with_reducible refine Unif.then ?_ ?_ ?_) <;> [(unif; done); loc; (intro _ hm; lift_rels hm)]
  | (with_reducible refine Unif.bind3 ?_ ?_ ?_) <;>
      [(unif; done); loc; (intro _ _ _ _ hm _ _ _; lift_rels hm)]
  | (with_reducible refine Unif.bind2 ?_ ?_ ?_) <;>
      [(unif; done); loc; (intro _ _ _ hm _ _; lift_rels hm)]
  | (with_reducible refine Unif.bind ?_ ?_ ?_) <;>
      [(unif; done); loc; (intro _ _ hm _; lift_rels hm)]
  | ((with_reducible apply UnifR.bind2R)
     on_goal 1 => (unif; done)
     on_goal 1 => loc
     on_goal 1 => (intro _ _ _ hm _ _; lift_rels hm))
  | ((with_reducible apply UnifR.bindR)
     on_goal 1 => (unif; done)
     on_goal 1 => loc
     on_goal 1 => (intro _ _ hm _; lift_rels hm)))

/-- Goes through a program step by step. -/
macro "unifs" : tactic => `(tactic| repeat (first
  | unif_step
  | (unif; done)))

theorem unif_mulGate {a b c : Fam W F F} :
    Unif m fun w σ => mulGate (a w σ) (b w σ) (c w σ) := by
  refine .mul (h := fun w σ => (a w σ, b w σ, c w σ)) (k := fun _ _ a b c => .ret (a, b, c))
    (fun _ _ => rfl) (fun _ _ _ _ => rfl) ?_
  exact .ret (a := fun w σ => (σ m, σ (m + 1), σ (m + 2))) (fun _ _ => rfl)
    ⟨Aff.wire (by omega), Aff.wire (by omega), Aff.wire (by omega)⟩

theorem unif_allocWire {a : Fam W F F} : Unif m fun w σ => allocWire (a w σ) := by
  refine .alloc (h := a) (k := fun _ _ a => .ret a) (fun _ _ => rfl) (fun _ _ _ _ => rfl) ?_
  exact .ret (a := fun w σ => σ m) (fun _ _ => rfl) (Aff.wire (by omega))

theorem unif_enforceZero {l : Fam W F (List (LcStep F F))} (h : rel m fun w σ => lcVal 1 (l w σ)) :
    Unif m fun w σ => enforceZero (l w σ) :=
  .enforce (v := fun w σ => lin (l w σ)) (k := fun _ _ => .ret ()) (fun _ _ => rfl) (rel_lin h)
    (.ret (a := fun _ _ => ()) (fun _ _ => rfl) trivial)

theorem unif_enforceEqual {a b : Fam W F F} (ha : rel m a) (hb : rel m b) :
    Unif m fun w σ => enforceEqual (a w σ) (b w σ) := unif_enforceZero (by rels)

theorem unif_check {x : Fam W F (Syn F α)} [Gad W F α] {e : Fam W F (Option Err)} (h : Unif m x) :
    Unif m fun w σ => Syn.check (e w σ) (x w σ) := .check (fun _ _ => .inr ⟨_, rfl⟩) h

theorem unif_tryJust {e : Fam W F Bool} : Unif m fun w σ => (tryJust (e w σ) : Syn F Unit) :=
  unif_check (.ret (a := fun _ _ => ()) (fun _ _ => rfl) trivial)

macro_rules | `(tactic| unif_lem) => `(tactic| apply unif_mulGate)
macro_rules | `(tactic| unif_lem) => `(tactic| apply unif_allocWire)
macro_rules | `(tactic| unif_lem) => `(tactic| apply unif_enforceZero)
macro_rules | `(tactic| unif_lem) => `(tactic| apply unif_enforceEqual)
macro_rules | `(tactic| unif_lem) => `(tactic| apply unif_tryJust)

/-! ### Elements -/

theorem unif_alloc {v : Fam W F F} (hv : Loc m v) : Unif m fun w σ => Element.alloc (v w σ) := by
  unfold Element.alloc
  unifs
macro_rules | `(tactic| unif_lem) => `(tactic| apply unif_alloc)

theorem unif_allocSquare {v : Fam W F F} (hv : Loc m v) :
    Unif m fun w σ => Element.allocSquare (v w σ) := by
  unfold Element.allocSquare
  unifs
macro_rules | `(tactic| unif_lem) => `(tactic| apply unif_allocSquare)

section
variable {a b : Fam W F (Element F)} (ha : rel m a) (hb : rel m b)
include ha

theorem unif_eEnforceZero : Unif m fun w σ => (a w σ).enforceZero := by
  unfold Element.enforceZero
  unifs

theorem rel_ONE : rel m (fun (_ : W) (_ : ℕ → F) => (ONE : F)) := rel_const _
macro_rules | `(tactic| rel_lem) => `(tactic| exact rel_ONE)

theorem unif_invertWith {i : Fam W F F} (hi : Loc m i) :
    Unif m fun w σ => (a w σ).invertWith (i w σ) := by
  unfold Element.invertWith
  unifs
macro_rules | `(tactic| unif_lem) => `(tactic| apply unif_invertWith)

theorem unif_invert : Unif m fun w σ => (a w σ).invert := by
  unfold Element.invert
  unifs

include hb

theorem unif_mul : Unif m fun w σ => (a w σ).mul (b w σ) := by
  unfold Element.mul
  unifs

theorem unif_divNonzero : Unif m fun w σ => (a w σ).divNonzero (b w σ) := by
  unfold Element.divNonzero
  unifs

omit hb
theorem unif_square : Unif m fun w σ => (a w σ).square := unif_mul ha ha
end
macro_rules | `(tactic| unif_lem) => `(tactic| apply unif_eEnforceZero)
macro_rules | `(tactic| unif_lem) => `(tactic| apply unif_invert)
macro_rules | `(tactic| unif_lem) => `(tactic| apply unif_mul)
macro_rules | `(tactic| unif_lem) => `(tactic| apply unif_divNonzero)
macro_rules | `(tactic| unif_lem) => `(tactic| apply unif_square)

/-! ### Lists and options -/

theorem rel_nil [Gad W F α] : rel m (fun (_ : W) (_ : ℕ → F) => ([] : List α)) :=
  ⟨[], by simp, by simp⟩
theorem rel_cons [Gad W F α] {a : Fam W F α} {l : Fam W F (List α)} (ha : rel m a) (hl : rel m l) :
    rel m fun w σ => a w σ :: l w σ := by
  obtain ⟨ls, r, e⟩ := hl
  exact ⟨a :: ls, by simpa using ⟨ha, r⟩, fun w σ => by simp [e]⟩
theorem rel_append [Gad W F α] {k l : Fam W F (List α)} (hk : rel m k) (hl : rel m l) :
    rel m fun w σ => k w σ ++ l w σ := by
  obtain ⟨ks, r, e⟩ := hk
  obtain ⟨ls, r', e'⟩ := hl
  refine ⟨ks ++ ls, ?_, fun w σ => by simp [e, e']⟩
  intro b hb
  rcases List.mem_append.1 hb with hb | hb
  exacts [r b hb, r' b hb]
theorem rel_map [Gad W F α] [Gad W F β] {l : Fam W F (List α)} {f : Fam W F (α → β)}
    (hl : rel m l) (hf : ∀ a, rel m a → rel m fun w σ => f w σ (a w σ)) :
    rel m fun w σ => (l w σ).map (f w σ) := by
  obtain ⟨ls, r, e⟩ := hl
  refine ⟨ls.map fun a w σ => f w σ (a w σ), ?_, fun w σ => by simp [e]⟩
  intro b hb
  obtain ⟨a, ha, rfl⟩ := List.mem_map.1 hb
  exact hf a (r a ha)
/-- A list indexed by a fixed list. -/
theorem rel_mapConst {ι : Type} [Gad W F β] (l : List ι) {f : Fam W F (ι → β)}
    (hf : ∀ i, rel m fun w σ => f w σ i) : rel m fun w σ => l.map (f w σ) := by
  refine ⟨l.map fun i w σ => f w σ i, ?_, fun w σ => by simp⟩
  intro b hb
  obtain ⟨i, -, rfl⟩ := List.mem_map.1 hb
  exact hf i
theorem rel_replicate [Gad W F α] (n : ℕ) {a : Fam W F α} (ha : rel m a) :
    rel m fun w σ => List.replicate n (a w σ) :=
  ⟨List.replicate n a, fun b hb => by rw [List.eq_of_mem_replicate hb]; exact ha, by simp⟩
theorem rel_take [Gad W F α] (n : ℕ) {l : Fam W F (List α)} (hl : rel m l) :
    rel m fun w σ => (l w σ).take n := by
  obtain ⟨ls, r, e⟩ := hl
  exact ⟨ls.take n, fun b hb => r b (List.mem_of_mem_take hb), fun w σ => by simp only [e, List.map_take]⟩
theorem rel_drop [Gad W F α] (n : ℕ) {l : Fam W F (List α)} (hl : rel m l) :
    rel m fun w σ => (l w σ).drop n := by
  obtain ⟨ls, r, e⟩ := hl
  exact ⟨ls.drop n, fun b hb => r b (List.mem_of_mem_drop hb), fun w σ => by simp only [e, List.map_drop]⟩
theorem rel_reverse [Gad W F α] {l : Fam W F (List α)} (hl : rel m l) :
    rel m fun w σ => (l w σ).reverse := by
  obtain ⟨ls, r, e⟩ := hl
  exact ⟨ls.reverse, fun b hb => r b (by simpa using hb), fun w σ => by simp only [e, List.map_reverse]⟩
theorem rel_dropLast [Gad W F α] {l : Fam W F (List α)} (hl : rel m l) :
    rel m fun w σ => (l w σ).dropLast := by
  obtain ⟨ls, r, e⟩ := hl
  exact ⟨ls.dropLast, fun b hb => r b (List.mem_of_mem_dropLast hb),
    fun w σ => by simp only [e, List.map_dropLast]⟩
theorem rel_getElem? [Gad W F α] (i : ℕ) {l : Fam W F (List α)} (hl : rel m l) :
    rel m fun w σ => (l w σ)[i]? := by
  obtain ⟨ls, r, e⟩ := hl
  rcases h : ls[i]? with _ | b
  · exact .inl fun w σ => by simp [e, h]
  · exact .inr ⟨b, r b (List.mem_of_getElem? h), fun w σ => by simp [e, h]⟩
theorem rel_getLast? [Gad W F α] {l : Fam W F (List α)} (hl : rel m l) :
    rel m fun w σ => (l w σ).getLast? := by
  obtain ⟨ls, r, e⟩ := hl
  rcases h : ls.getLast? with _ | b
  · exact .inl fun w σ => by simp [e, h]
  · exact .inr ⟨b, r b (List.mem_of_getLast? h), fun w σ => by simp [e, h]⟩
theorem rel_getD [Gad W F α] {o : Fam W F (Option α)} {a : Fam W F α} (ho : rel m o)
    (ha : rel m a) : rel m fun w σ => (o w σ).getD (a w σ) := by
  rcases ho with h | ⟨b, r, h⟩
  · simpa only [h, Option.getD_none] using ha
  · simpa only [h, Option.getD_some] using r
theorem rel_lgetD [Gad W F α] (i : ℕ) {l : Fam W F (List α)} {a : Fam W F α} (hl : rel m l)
    (ha : rel m a) : rel m fun w σ => (l w σ).getD i (a w σ) := by
  simpa only [List.getD_eq_getElem?_getD] using rel_getD (rel_getElem? i hl) ha
theorem rel_none [Gad W F α] : rel m (fun (_ : W) (_ : ℕ → F) => (none : Option α)) :=
  .inl fun _ _ => rfl
theorem rel_some [Gad W F α] {a : Fam W F α} (ha : rel m a) : rel m fun w σ => some (a w σ) :=
  .inr ⟨a, ha, fun _ _ => rfl⟩

/-- The length of a list does not depend on the wires. -/
theorem length_const [Gad W F α] {l : Fam W F (List α)} (hl : rel m l) :
    ∃ n, ∀ w σ, (l w σ).length = n := by
  obtain ⟨ls, r, e⟩ := hl
  exact ⟨ls.length, fun w σ => by simp [e]⟩

macro_rules | `(tactic| rel_lem) => `(tactic| exact rel_nil)
macro_rules | `(tactic| rel_lem) => `(tactic| apply rel_cons)
macro_rules | `(tactic| rel_lem) => `(tactic| apply rel_append)
macro_rules | `(tactic| rel_lem) => `(tactic| apply rel_take)
macro_rules | `(tactic| rel_lem) => `(tactic| apply rel_replicate)
macro_rules | `(tactic| rel_lem) => `(tactic| apply rel_drop)
macro_rules | `(tactic| rel_lem) => `(tactic| apply rel_reverse)
macro_rules | `(tactic| rel_lem) => `(tactic| apply rel_dropLast)
macro_rules | `(tactic| rel_lem) => `(tactic| apply rel_getElem?)
macro_rules | `(tactic| rel_lem) => `(tactic| apply rel_getLast?)
macro_rules | `(tactic| rel_lem) => `(tactic| apply rel_getD)
macro_rules | `(tactic| rel_lem) => `(tactic| apply rel_lgetD)
macro_rules | `(tactic| rel_lem) => `(tactic| exact rel_none)
macro_rules | `(tactic| rel_lem) => `(tactic| apply rel_some)

theorem unif_foldFrom {s acc : Fam W F (Element F)} {l : Fam W F (List (Element F))}
    (hs : rel m s) (ha : rel m acc) (hl : rel m l) :
    Unif m fun w σ => Element.foldFrom (s w σ) (acc w σ) (l w σ) := by
  obtain ⟨ls, r, e⟩ := hl
  simp only [e]
  clear e l
  induction ls generalizing m acc with
  | nil => exact Unif.pure ha
  | cons b ls ih =>
    have hb := r b (by simp)
    have hls : rel m fun w σ => ls.map fun b => b w σ := ⟨ls, fun b hb => r b (by simp [hb]), by simp⟩
    simp only [List.map_cons, Element.foldFrom]
    refine Unif.bind (by unif) (by loc) ?_
    intro m' x hm hx
    lift_rels hm
    exact ih (by rels) (by rels) fun b hb => rel_up hm (r b (by simp [hb]))
macro_rules | `(tactic| unif_lem) => `(tactic| apply unif_foldFrom)

theorem unif_fold {s : Fam W F (Element F)} {l : Fam W F (List (Element F))}
    (hs : rel m s) (hl : rel m l) : Unif m fun w σ => Element.fold (l w σ) (s w σ) := by
  obtain ⟨ls, r, e⟩ := hl
  simp only [e]
  cases ls with
  | nil => exact Unif.pure rel_zero
  | cons b ls => exact unif_foldFrom hs (r b (by simp)) ⟨ls, fun b hb => r b (by simp [hb]), by simp⟩
macro_rules | `(tactic| unif_lem) => `(tactic| apply unif_fold)

theorem unif_squareLoop (k : ℕ) {a : Fam W F (Element F)} (ha : rel m a) :
    Unif m fun w σ => Element.squareLoop k (a w σ) := by
  induction k generalizing m a with
  | zero => exact Unif.pure ha
  | succ k ih =>
    simp only [Element.squareLoop]
    refine Unif.bind (by unif) (by loc) ?_
    intro m' x hm hx
    lift_rels hm
    exact ih hx
macro_rules | `(tactic| unif_lem) => `(tactic| apply unif_squareLoop)

theorem unif_enforceRootOfUnity (k : ℕ) {a : Fam W F (Element F)} (ha : rel m a) :
    Unif m fun w σ => (a w σ).enforceRootOfUnity k := by
  unfold Element.enforceRootOfUnity
  unifs
macro_rules | `(tactic| unif_lem) => `(tactic| apply unif_enforceRootOfUnity)

theorem unif_multiadd {l : Fam W F (List (Element F))} (hl : rel m l) (cs : List F)
    (hlen : ∀ w σ, (l w σ).length = cs.length) : Unif m fun w σ => multiadd (l w σ) cs := by
  unfold multiadd
  simp only [hlen, ne_eq, not_true_eq_false, if_false]
  refine Unif.pure (rel_mk (rel_lin ?_) ?_)
  · obtain ⟨ls, r, e⟩ := hl
    simp only [e] at hlen ⊢
    clear hlen e l
    induction ls generalizing cs with
    | nil => simpa using rel_lc_nil _
    | cons b ls ih =>
      cases cs with
      | nil => simpa using rel_lc_nil _
      | cons c cs =>
        simp only [List.map_cons, List.zipWith_cons_cons]
        exact rel_lc_term _ _ (rel_wire (r b (by simp))) (ih cs fun b hb => r b (by simp [hb]))
  · loc

/-! ### Booleans -/

theorem unif_balloc {v : Fam W F Bool} (hv : Loc m v) : Unif m fun w σ => Boolean.alloc (F := F) (v w σ) := by
  unfold Boolean.alloc
  unifs
macro_rules | `(tactic| unif_lem) => `(tactic| apply unif_balloc)

section
variable {a b : Fam W F (Boolean F)} (ha : rel m a) (hb : rel m b) {x y : Fam W F (Element F)}
  (hx : rel m x) (hy : rel m y)
include ha
theorem unif_band (hb : rel m b) : Unif m fun w σ => (a w σ).and (b w σ) := by
  unfold Boolean.and
  unifs
include hx hy
theorem unif_conditionalSelect : Unif m fun w σ => (a w σ).conditionalSelect (x w σ) (y w σ) := by
  unfold Boolean.conditionalSelect
  unifs
theorem unif_conditionalEnforceEqual :
    Unif m fun w σ => (a w σ).conditionalEnforceEqual (x w σ) (y w σ) := by
  unfold Boolean.conditionalEnforceEqual
  unifs
omit ha hy
theorem unif_isZero : Unif m fun w σ => isZero (x w σ) := by
  unfold isZero
  unifs
include hy
theorem unif_isEqual : Unif m fun w σ => (x w σ).isEqual (y w σ) := by
  unfold Element.isEqual Element.isZero
  exact unif_isZero (by rels)
end
macro_rules | `(tactic| unif_lem) => `(tactic| apply unif_band)
macro_rules | `(tactic| unif_lem) => `(tactic| apply unif_conditionalSelect)
macro_rules | `(tactic| unif_lem) => `(tactic| apply unif_conditionalEnforceEqual)
macro_rules | `(tactic| unif_lem) => `(tactic| apply unif_isZero)
macro_rules | `(tactic| unif_lem) => `(tactic| apply unif_isEqual)

/-! ### Points -/

instance : Gad W F (Point F) where
  rel m a := rel m (fun w σ => (a w σ).x) ∧ rel m (fun w σ => (a w σ).y)
  mono h r := ⟨Gad.mono h r.1, Gad.mono h r.2⟩
  loc r w σ τ ag := Point.ext (Gad.loc r.1 w σ τ ag) (Gad.loc r.2 w σ τ ag)

theorem rel_px {p : Fam W F (Point F)} (h : rel m p) : rel m fun w σ => (p w σ).x := h.1
theorem rel_py {p : Fam W F (Point F)} (h : rel m p) : rel m fun w σ => (p w σ).y := h.2
theorem rel_pmk {a b : Fam W F (Element F)} (ha : rel m a) (hb : rel m b) :
    rel m fun w σ => Point.mk (a w σ) (b w σ) := ⟨ha, hb⟩
macro_rules | `(tactic| rel_lem) => `(tactic| apply rel_px)
macro_rules | `(tactic| rel_lem) => `(tactic| apply rel_py)
macro_rules | `(tactic| rel_lem) => `(tactic| apply rel_pmk)

theorem unif_palloc (b : F) {v : Fam W F (Option (F × F))} (hv : Loc m v) :
    Unif m fun w σ => Point.alloc b (v w σ) := by
  unfold Point.alloc
  unifs
macro_rules | `(tactic| unif_lem) => `(tactic| apply unif_palloc)

theorem unif_enforceConsistent (b : F) {p : Fam W F (Point F)} (hp : rel m p) :
    Unif m fun w σ => (p w σ).enforceConsistent b := by
  unfold Point.enforceConsistent
  unifs
macro_rules | `(tactic| unif_lem) => `(tactic| apply unif_enforceConsistent)

/-! ### Horner's rule -/

theorem unif_hwrite {p v : Fam W F (Element F)} {r : Fam W F (Option (Element F))} (hp : rel m p)
    (hr : rel m r) (hv : rel m v) : Unif m fun w σ => Horner.write (p w σ) (r w σ) (v w σ) := by
  rcases hr with h | ⟨b, hb, h⟩
  · simp only [h, Horner.write]
    unifs
  · simp only [h, Horner.write]
    unifs
macro_rules | `(tactic| unif_lem) => `(tactic| apply unif_hwrite)

theorem unif_hwriteAll {p : Fam W F (Element F)} {r : Fam W F (Option (Element F))}
    {l : Fam W F (List (Element F))} (hp : rel m p) (hr : rel m r) (hl : rel m l) :
    Unif m fun w σ => Horner.writeAll (p w σ) (r w σ) (l w σ) := by
  obtain ⟨ls, q, e⟩ := hl
  simp only [e]
  clear e l
  induction ls generalizing m r with
  | nil => exact Unif.pure hr
  | cons b ls ih =>
    have hb := q b (by simp)
    have hls : rel m fun w σ => ls.map fun b => b w σ := ⟨ls, fun b hb => q b (by simp [hb]), by simp⟩
    simp only [List.map_cons, Horner.writeAll]
    refine Unif.bind (by unif) (by loc) ?_
    intro m' x hm hx
    lift_rels hm
    exact ih (by rels) hx fun b hb => rel_up hm (q b (by simp [hb]))
macro_rules | `(tactic| unif_lem) => `(tactic| apply unif_hwriteAll)

theorem rel_hfinish {r : Fam W F (Option (Element F))} (hr : rel m r) :
    rel m fun w σ => Horner.finish (r w σ) := rel_getD hr rel_zero
macro_rules | `(tactic| rel_lem) => `(tactic| apply rel_hfinish)

theorem unif_finishKy {p : Fam W F (Element F)} {r : Fam W F (Option (Element F))} (hp : rel m p)
    (hr : rel m r) : Unif m fun w σ => Horner.finishKy (p w σ) (r w σ) := by
  unfold Horner.finishKy
  unifs
macro_rules | `(tactic| unif_lem) => `(tactic| apply unif_finishKy)

/-! ### `t(X, Z)` -/

theorem unif_txzLoop (k : ℕ) {l r a b : Fam W F (Element F)} (hl : rel m l) (hr : rel m r)
    (ha : rel m a) (hb : rel m b) :
    Unif m fun w σ => Txz.loop k (l w σ) (r w σ) (a w σ) (b w σ) := by
  induction k generalizing m l r a b with
  | zero => exact Unif.pure (by rels)
  | succ k ih =>
    simp only [Txz.loop]
    unif_step; unif_step; unif_step; unif_step
    apply ih <;> rels
macro_rules | `(tactic| unif_lem) => `(tactic| apply unif_txzLoop)

theorem unif_txz (k : ℕ) {x z : Fam W F (Element F)} (hx : rel m x) (hz : rel m z) :
    Unif m fun w σ => Txz.evaluate k (x w σ) (z w σ) := by
  unfold Txz.evaluate Txz.execute
  unifs
macro_rules | `(tactic| unif_lem) => `(tactic| apply unif_txz)

end Ragu.Unif

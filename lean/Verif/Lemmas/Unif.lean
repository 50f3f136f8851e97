/-
Gadget code whose driver calls do not depend on the values of its wires or on the witness.

A family of gadgets or programs is indexed by a witness `w` and by the values `σ` of the wires that
exist. `UnifR R m x` says that the programs `x w σ` make the same calls for all `w` and `σ`, when
`m` wires exist at the start: their constraints are fixed linear combinations of the wires so far,
and their results are related by `R`. Such a family is compiled into one list of driver calls.
-/
import Verif.Spec.Realize
import Verif.Lemmas.Calls
import Verif.Lemmas.Wiring
import Verif.Lemmas.MultiStage
import Verif.Lemmas.Gadget.Element

set_option linter.unusedSectionVars false

namespace Ragu.Unif
open Ragu Ragu.Circuit Ragu.Gadget Ragu.Spec

variable {W F α β γ : Type}

abbrev Fam (W F α : Type) := W → (ℕ → F) → α

/-- Two assignments agree on the first `m` wires. -/
def Agree (m : ℕ) (σ τ : ℕ → F) : Prop := ∀ i < m, σ i = τ i

theorem Agree.mono {m m' : ℕ} {σ τ : ℕ → F} (h : m ≤ m') (a : Agree m' σ τ) : Agree m σ τ :=
  fun i hi => a i (by omega)

/-- A family that depends on the first `m` wires only. -/
def Loc (m : ℕ) (f : Fam W F α) : Prop := ∀ w σ τ, Agree m σ τ → f w σ = f w τ

theorem Loc.mono {m m' : ℕ} {f : Fam W F α} (h : m ≤ m') (a : Loc m f) : Loc m' f :=
  fun w σ τ ag => a w σ τ (ag.mono h)

variable [Field F] [DecidableEq F]

/-- A wire: the same affine combination of the first `m` wires for all witnesses. -/
def Aff (m : ℕ) (f : Fam W F F) : Prop :=
  ∃ (c : F) (l : List (F × ℕ)), (∀ p ∈ l, p.2 < m) ∧
    ∀ w σ, f w σ = c + (l.map fun p => p.1 * σ p.2).sum

theorem Aff.mono {m m' : ℕ} {f : Fam W F F} (h : m ≤ m') : Aff m f → Aff m' f := by
  rintro ⟨c, l, h1, h2⟩
  exact ⟨c, l, fun p hp => lt_of_lt_of_le (h1 p hp) h, h2⟩

theorem Aff.loc {m : ℕ} {f : Fam W F F} : Aff m f → Loc m f := by
  rintro ⟨c, l, h1, h2⟩ w σ τ ag
  rw [h2, h2]
  congr 2
  exact List.map_congr_left fun p hp => by rw [ag _ (h1 p hp)]

theorem Aff.const (m : ℕ) (c : F) : Aff m (fun (_ : W) _ => c) :=
  ⟨c, [], by simp, by simp⟩

theorem Aff.wire {m i : ℕ} (h : i < m) : Aff m (fun (_ : W) (σ : ℕ → F) => σ i) :=
  ⟨0, [(1, i)], by simpa using h, by simp⟩

theorem Aff.add {m : ℕ} {f g : Fam W F F} : Aff m f → Aff m g → Aff m fun w σ => f w σ + g w σ := by
  rintro ⟨c, l, h1, h2⟩ ⟨c', l', h1', h2'⟩
  refine ⟨c + c', l ++ l', ?_, ?_⟩
  · intro p hp
    rcases List.mem_append.1 hp with hp | hp
    exacts [h1 p hp, h1' p hp]
  · intro w σ
    simp only [h2, h2', List.map_append, List.sum_append]
    ring

theorem Aff.mul {m : ℕ} {f : Fam W F F} (a : F) : Aff m f → Aff m fun w σ => f w σ * a := by
  rintro ⟨c, l, h1, h2⟩
  refine ⟨c * a, l.map fun p => (p.1 * a, p.2), ?_, ?_⟩
  · intro p hp
    obtain ⟨q, hq, rfl⟩ := List.mem_map.1 hp
    exact h1 q hq
  · intro w σ
    simp only [h2, List.map_map, add_mul, ← List.sum_map_mul_right]
    congr 2
    exact List.map_congr_left fun p _ => by simp only [Function.comp]; ring

theorem Aff.sub {m : ℕ} {f g : Fam W F F} (hf : Aff m f) (hg : Aff m g) :
    Aff m fun w σ => f w σ - g w σ := by
  have := hf.add (hg.mul (-1))
  simpa [sub_eq_add_neg] using this

theorem Aff.congr {m : ℕ} {f g : Fam W F F} (h : Aff m g) (e : ∀ w σ, f w σ = g w σ) : Aff m f := by
  have : f = g := by funext w σ; exact e w σ
  rwa [this]

/-- Types of gadgets: their families whose wires are fixed combinations. -/
class Gad (W F : Type) [Field F] [DecidableEq F] (α : Type) where
  rel : ℕ → Fam W F α → Prop
  mono : ∀ {m m' a}, m ≤ m' → rel m a → rel m' a
  loc : ∀ {m a}, rel m a → Loc m a

abbrev rel [Gad W F α] (m : ℕ) (a : Fam W F α) : Prop := Gad.rel m a

theorem rel_up [Gad W F α] {m m' : ℕ} {a : Fam W F α} (h : m ≤ m') (r : rel m a) : rel m' a :=
  Gad.mono h r

theorem rel_eq [Gad W F α] {m m' : ℕ} {a : Fam W F α} (r : rel m a) {σ τ : ℕ → F}
    (ag : Agree m' σ τ) (w : W) (h : m ≤ m' := by omega) : a w σ = a w τ :=
  Gad.loc r w σ τ (ag.mono h)

/-- Programs with the same calls for all witnesses and all values of the wires. -/
inductive UnifR (R : ℕ → Fam W F α → Prop) : ℕ → Fam W F (Syn F α) → Prop
  | ret {m x a} : (∀ w σ, x w σ = .ret (a w σ)) → R m a → UnifR R m x
  | mul {m x} {h : Fam W F (F × F × F)} {k : Fam W F (F → F → F → Syn F α)} :
      (∀ w σ, x w σ = .gate ((h w σ).1, (h w σ).2.1, (h w σ).2.2, 0) fun a b c _ => k w σ a b c) →
      Loc m k → UnifR R (m + 3) (fun w σ => k w σ (σ m) (σ (m + 1)) (σ (m + 2))) → UnifR R m x
  | alloc {m x} {h : Fam W F F} {k : Fam W F (F → Syn F α)} :
      (∀ w σ, x w σ = .alloc (h w σ) (k w σ)) →
      Loc m k → UnifR R (m + 1) (fun w σ => k w σ (σ m)) → UnifR R m x
  | enforce {m x v k} : (∀ w σ, x w σ = .enforce (v w σ) (k w σ)) → Aff m v → UnifR R m k →
      UnifR R m x
  | check {m x k} : (∀ w σ, x w σ = k w σ ∨ ∃ e, x w σ = .check e (k w σ)) → UnifR R m k →
      UnifR R m x

abbrev Unif [Gad W F α] (m : ℕ) (x : Fam W F (Syn F α)) : Prop := UnifR rel m x

theorem UnifR.congr {R : ℕ → Fam W F α → Prop} {m : ℕ} {x y : Fam W F (Syn F α)} (h : UnifR R m y)
    (e : ∀ w σ, x w σ = y w σ) : UnifR R m x := by
  have : x = y := by funext w σ; exact e w σ
  rwa [this]

theorem UnifR.bindR {R : ℕ → Fam W F α → Prop} {R' : ℕ → Fam W F β → Prop} {m : ℕ}
    {x : Fam W F (Syn F α)} {f : Fam W F (α → Syn F β)} (hx : UnifR R m x) (hf : Loc m f)
    (hk : ∀ m' a, m ≤ m' → R m' a → UnifR R' m' fun w σ => f w σ (a w σ)) :
    UnifR R' m fun w σ => x w σ >>= f w σ := by
  induction hx with
  | @ret m x a e r =>
    exact (hk m a le_rfl r).congr fun w σ => by rw [e]; rfl
  | @mul m x h k e l _ ih =>
    refine .mul (h := h) (k := fun w σ a b c => (k w σ a b c) >>= f w σ) ?_ ?_
      (ih (hf.mono (by omega)) fun m' a hm => hk m' a (by omega))
    · intro w σ; rw [e]; rfl
    · intro w σ τ ag; simp only [l w σ τ ag, hf w σ τ ag]
  | @alloc m x h k e l _ ih =>
    refine .alloc (h := h) (k := fun w σ a => (k w σ a) >>= f w σ) ?_ ?_
      (ih (hf.mono (by omega)) fun m' a hm => hk m' a (by omega))
    · intro w σ; rw [e]; rfl
    · intro w σ τ ag; simp only [l w σ τ ag, hf w σ τ ag]
  | @enforce m x v k e l _ ih =>
    refine .enforce (v := v) (k := fun w σ => (k w σ) >>= f w σ) ?_ l (ih hf hk)
    intro w σ; rw [e]; rfl
  | @check m x k e _ ih =>
    refine .check (k := fun w σ => (k w σ) >>= f w σ) ?_ (ih hf hk)
    intro w σ
    rcases e w σ with h | ⟨e, h⟩ <;> rw [h]
    · exact .inl rfl
    · exact .inr ⟨e, rfl⟩

theorem UnifR.weaken {R R' : ℕ → Fam W F α → Prop} {m : ℕ} {x : Fam W F (Syn F α)}
    (hx : UnifR R m x) (h : ∀ m' a, R m' a → R' m' a) : UnifR R' m x := by
  induction hx with
  | ret e r => exact .ret e (h _ _ r)
  | mul e l _ ih => exact .mul e l ih
  | alloc e l _ ih => exact .alloc e l ih
  | enforce e l _ ih => exact .enforce e l ih
  | check e _ ih => exact .check e ih

/-- Pairs of families related by `R` and `R'`. -/
def PairR (R : ℕ → Fam W F α → Prop) (R' : ℕ → Fam W F β → Prop) (m : ℕ)
    (a : Fam W F (α × β)) : Prop :=
  R m (fun w σ => (a w σ).1) ∧ R' m (fun w σ => (a w σ).2)

theorem UnifR.bind2R {R : ℕ → Fam W F α → Prop} {R₂ : ℕ → Fam W F β → Prop}
    {R' : ℕ → Fam W F γ → Prop} {m : ℕ} {x : Fam W F (Syn F (α × β))}
    {f : Fam W F (α × β → Syn F γ)} (hx : UnifR (PairR R R₂) m x) (hf : Loc m f)
    (hk : ∀ m' a b, m ≤ m' → R m' a → R₂ m' b → UnifR R' m' fun w σ => f w σ (a w σ, b w σ)) :
    UnifR R' m fun w σ => x w σ >>= f w σ :=
  hx.bindR hf fun m' a hm r => hk m' (fun w σ => (a w σ).1) (fun w σ => (a w σ).2) hm r.1 r.2

theorem Unif.bind [Gad W F α] {R : ℕ → Fam W F β → Prop} {m : ℕ} {x : Fam W F (Syn F α)}
    {f : Fam W F (α → Syn F β)} (hx : Unif m x) (hf : Loc m f)
    (hk : ∀ m' a, m ≤ m' → rel m' a → UnifR R m' fun w σ => f w σ (a w σ)) :
    UnifR R m fun w σ => x w σ >>= f w σ := hx.bindR hf hk

theorem UnifR.pure {R : ℕ → Fam W F α → Prop} {m : ℕ} {a : Fam W F α} (h : R m a) :
    UnifR R m fun w σ => (Pure.pure (a w σ) : Syn F α) := .ret (fun _ _ => rfl) h

theorem Unif.pure [Gad W F α] {m : ℕ} {a : Fam W F α} (h : rel m a) :
    Unif m fun w σ => (Pure.pure (a w σ) : Syn F α) := .ret (fun _ _ => rfl) h

/-! ### Gadget types -/

/-- Wires. -/
instance : Gad W F F := ⟨Aff, Aff.mono, Aff.loc⟩

instance : Gad W F Unit := ⟨fun _ _ => True, fun _ _ => trivial, fun _ _ _ _ _ => rfl⟩

/-- Naturals only occur in witnesses. -/
instance : Gad W F ℕ := ⟨Loc, Loc.mono, id⟩

instance [Gad W F α] [Gad W F β] : Gad W F (α × β) where
  rel m a := rel m (fun w σ => (a w σ).1) ∧ rel m (fun w σ => (a w σ).2)
  mono h r := ⟨Gad.mono h r.1, Gad.mono h r.2⟩
  loc r w σ τ ag := Prod.ext (Gad.loc r.1 w σ τ ag) (Gad.loc r.2 w σ τ ag)

instance : Gad W F (Element F) where
  rel m a := Aff m (fun w σ => (a w σ).wire) ∧ Loc m (fun w σ => (a w σ).value)
  mono h r := ⟨r.1.mono h, r.2.mono h⟩
  loc r w σ τ ag := Element.ext (r.1.loc w σ τ ag) (r.2 w σ τ ag)

instance : Gad W F (Boolean F) where
  rel m a := Aff m (fun w σ => (a w σ).wire) ∧ Loc m (fun w σ => (a w σ).value)
  mono h r := ⟨r.1.mono h, r.2.mono h⟩
  loc r w σ τ ag := Boolean.ext (r.1.loc w σ τ ag) (r.2 w σ τ ag)

/-- Lists have a fixed length. -/
instance [Gad W F α] : Gad W F (List α) where
  rel m a := ∃ ls : List (Fam W F α), (∀ b ∈ ls, rel m b) ∧ ∀ w σ, a w σ = ls.map fun b => b w σ
  mono h := fun ⟨ls, r, e⟩ => ⟨ls, fun b hb => Gad.mono h (r b hb), e⟩
  loc := by
    rintro m a ⟨ls, r, e⟩ w σ τ ag
    rw [e, e]
    exact List.map_congr_left fun b hb => Gad.loc (r b hb) w σ τ ag

/-- Options are always `some` or always `none`. -/
instance [Gad W F α] : Gad W F (Option α) where
  rel m a := (∀ w σ, a w σ = none) ∨ ∃ b, rel m b ∧ ∀ w σ, a w σ = some (b w σ)
  mono h := fun r => r.imp_right fun ⟨b, r, e⟩ => ⟨b, Gad.mono h r, e⟩
  loc := by
    rintro m a (r | ⟨b, r, e⟩) w σ τ ag
    · rw [r, r]
    · rw [e, e, Gad.loc r w σ τ ag]

theorem Unif.bind2 [Gad W F α] [Gad W F β] {R : ℕ → Fam W F γ → Prop} {m : ℕ}
    {x : Fam W F (Syn F (α × β))}
    {f : Fam W F (α × β → Syn F γ)} (hx : Unif m x) (hf : Loc m f)
    (hk : ∀ m' a b, m ≤ m' → rel m' a → rel m' b → UnifR R m' fun w σ => f w σ (a w σ, b w σ)) :
    UnifR R m fun w σ => x w σ >>= f w σ :=
  hx.bind hf fun m' a hm r => hk m' (fun w σ => (a w σ).1) (fun w σ => (a w σ).2) hm r.1 r.2

theorem Unif.bind3 {δ : Type} [Gad W F α] [Gad W F β] [Gad W F γ] {R : ℕ → Fam W F δ → Prop}
    {m : ℕ} {x : Fam W F (Syn F (α × β × γ))} {f : Fam W F (α × β × γ → Syn F δ)} (hx : Unif m x)
    (hf : Loc m f)
    (hk : ∀ m' a b c, m ≤ m' → rel m' a → rel m' b → rel m' c →
      UnifR R m' fun w σ => f w σ (a w σ, b w σ, c w σ)) :
    UnifR R m fun w σ => x w σ >>= f w σ :=
  hx.bind hf fun m' a hm r => hk m' (fun w σ => (a w σ).1) (fun w σ => (a w σ).2.1)
    (fun w σ => (a w σ).2.2) hm r.1 r.2.1 r.2.2

theorem Unif.then {R : ℕ → Fam W F β → Prop} {m : ℕ} {x : Fam W F (Syn F Unit)}
    {f : Fam W F (Unit → Syn F β)} (hx : Unif m x) (hf : Loc m f)
    (hk : ∀ m', m ≤ m' → UnifR R m' fun w σ => f w σ ()) :
    UnifR R m fun w σ => x w σ >>= f w σ := hx.bind hf fun m' _ hm _ => hk m' hm

end Ragu.Unif

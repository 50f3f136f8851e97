/-
The size calculus, and the sizes of the gadgets.
-/
import Verif.Spec.Size
import Verif.Spec.Calls
import Verif.Model.Gadget.Endoscalar
import Verif.Model.Gadget.Horner
import Verif.Model.Gadget.Sponge
import Verif.Model.Gadget.Txz

set_option linter.unusedSectionVars false

namespace Ragu.Gadget
open Ragu Ragu.Circuit

@[simp] theorem Size.zero_gates : (0 : Size).gates = 0 := rfl
@[simp] theorem Size.zero_allocs : (0 : Size).allocs = 0 := rfl
@[simp] theorem Size.zero_cons : (0 : Size).cons = 0 := rfl
@[simp] theorem Size.add_gates (s t : Size) : (s + t).gates = s.gates + t.gates := rfl
@[simp] theorem Size.add_allocs (s t : Size) : (s + t).allocs = s.allocs + t.allocs := rfl
@[simp] theorem Size.add_cons (s t : Size) : (s + t).cons = s.cons + t.cons := rfl
@[simp] theorem Size.times_gates (k : ℕ) (s : Size) : (s.times k).gates = k * s.gates := rfl
@[simp] theorem Size.times_allocs (k : ℕ) (s : Size) : (s.times k).allocs = k * s.allocs := rfl
@[simp] theorem Size.times_cons (k : ℕ) (s : Size) : (s.times k).cons = k * s.cons := rfl

theorem Size.add_zero (s : Size) : s + 0 = s := by ext <;> simp
theorem Size.zero_add (s : Size) : 0 + s = s := by ext <;> simp
theorem Size.add_assoc (s t u : Size) : s + t + u = s + (t + u) := by ext <;> simp <;> omega

namespace Sized
variable {F α β : Type} {Q R : α → Prop}

theorem cast {x : Syn F α} {s t : Size} (h : Sized Q x s) (e : s = t) : Sized Q x t := e ▸ h

theorem mono {x : Syn F α} {s : Size} (h : Sized Q x s) (i : ∀ a, Q a → R a) : Sized R x s := by
  induction h with
  | ret q => exact .ret (i _ q)
  | gate _ ih => exact .gate ih
  | alloc _ ih => exact .alloc ih
  | enforce _ ih => exact .enforce ih
  | check _ ih => exact .check ih

theorem any {x : Syn F α} {s : Size} (h : Sized Q x s) : Sized (fun _ => True) x s :=
  h.mono fun _ _ => trivial

theorem pure {a : α} (q : Q a) : Sized Q (Pure.pure a : Syn F α) 0 := .ret q

theorem bind {x : Syn F α} {f : α → Syn F β} {R : β → Prop} {s t : Size} (h : Sized Q x s)
    (k : ∀ a, Q a → Sized R (f a) t) : Sized R (x >>= f) (s + t) := by
  change Sized R (x.bind f) _
  induction h with
  | ret q => rw [Size.zero_add]; exact k _ q
  | gate _ ih => rw [Size.add_assoc]; exact .gate ih
  | alloc _ ih => rw [Size.add_assoc]; exact .alloc ih
  | enforce _ ih => rw [Size.add_assoc]; exact .enforce ih
  | check _ ih => exact .check ih

theorem bind' {x : Syn F α} {f : α → Syn F β} {R : β → Prop} {s t : Size}
    (h : Sized Q x s) (k : ∀ a, Sized R (f a) t) : Sized R (x >>= f) (s + t) :=
  h.bind fun a _ => k a

end Sized

/-- Finish a size computation. -/
macro "size_eq" : tactic => `(tactic| (apply Size.ext <;> simp <;> omega))

section
variable {F : Type} [Field F] [DecidableEq F]

theorem sized_mulGate (a b c : F) : Sized (fun _ => True) (mulGate a b c) ⟨1, 0, 0⟩ :=
  Sized.cast (.gate fun _ _ _ _ => .ret trivial) rfl

theorem sized_allocWire (v : F) : Sized (fun _ => True) (allocWire v) ⟨0, 1, 0⟩ :=
  Sized.cast (.alloc fun _ => .ret trivial) rfl

theorem sized_enforceZero (lc : List (LcStep F F)) :
    Sized (fun _ => True) (enforceZero lc) ⟨0, 0, 1⟩ := Sized.cast (.enforce (.ret trivial)) rfl

theorem sized_enforceEqual (a b : F) : Sized (fun _ => True) (enforceEqual a b) ⟨0, 0, 1⟩ :=
  sized_enforceZero _

theorem sized_tryJust (b : Bool) : Sized (fun _ => True) (tryJust b : Syn F Unit) 0 :=
  .check (.ret trivial)

namespace Element

theorem sized_alloc (v : F) : Sized (fun _ => True) (alloc v) ⟨0, 1, 0⟩ :=
  ((sized_allocWire v).bind' fun _ => .pure trivial).cast rfl

theorem sized_allocSquare (v : F) : Sized (fun _ => True) (allocSquare v) ⟨1, 0, 1⟩ :=
  ((sized_mulGate _ _ _).bind' fun _ => (sized_enforceEqual _ _).bind' fun _ =>
    .pure trivial).cast rfl

theorem sized_mul (a b : Element F) : Sized (fun _ => True) (a.mul b) ⟨1, 0, 2⟩ :=
  ((sized_mulGate _ _ _).bind' fun _ => (sized_enforceEqual _ _).bind' fun _ =>
    (sized_enforceEqual _ _).bind' fun _ => .pure trivial).cast rfl

theorem sized_square (a : Element F) : Sized (fun _ => True) a.square ⟨1, 0, 2⟩ := sized_mul a a

theorem sized_zero (a : Element F) : Sized (fun _ => True) a.enforceZero ⟨0, 0, 1⟩ :=
  sized_enforceZero _

theorem sized_invertWith (a : Element F) (i : F) :
    Sized (fun _ => True) (a.invertWith i) ⟨1, 0, 2⟩ :=
  ((sized_mulGate _ _ _).bind' fun _ => (sized_enforceEqual _ _).bind' fun _ =>
    (sized_enforceEqual _ _).bind' fun _ => .pure trivial).cast rfl

theorem sized_invert (a : Element F) : Sized (fun _ => True) a.invert ⟨1, 0, 2⟩ :=
  ((sized_tryJust _).bind' fun _ => sized_invertWith _ _).cast rfl

theorem sized_divNonzero (a b : Element F) : Sized (fun _ => True) (a.divNonzero b) ⟨1, 0, 2⟩ :=
  ((sized_tryJust _).bind' fun _ => (sized_mulGate _ _ _).bind' fun _ =>
    (sized_enforceEqual _ _).bind' fun _ => (sized_enforceEqual _ _).bind' fun _ =>
    .pure trivial).cast rfl

theorem sized_foldFrom (s : Element F) : ∀ (l : List (Element F)) (acc : Element F),
    Sized (fun _ => True) (foldFrom s acc l) ⟨l.length, 0, 2 * l.length⟩
  | [], _ => .pure trivial
  | _ :: l, _ => ((sized_mul _ _).bind' fun _ => sized_foldFrom s l _).cast (by size_eq)

theorem sized_fold (l : List (Element F)) (s : Element F) :
    Sized (fun _ => True) (fold l s) ⟨l.length - 1, 0, 2 * (l.length - 1)⟩ := by
  cases l with
  | nil => exact .pure trivial
  | cons e l => exact sized_foldFrom s l e

theorem sized_squareLoop : ∀ (k : ℕ) (v : Element F),
    Sized (fun _ => True) (squareLoop k v) ⟨k, 0, 2 * k⟩
  | 0, _ => .pure trivial
  | k + 1, _ => ((sized_square _).bind' fun _ => sized_squareLoop k _).cast (by size_eq)

theorem sized_root (v : Element F) (k : ℕ) :
    Sized (fun _ => True) (v.enforceRootOfUnity k) ⟨k, 0, 2 * k + 1⟩ :=
  (sized_squareLoop k v).bind' fun _ => sized_zero _

end Element

theorem sized_isZero (x : Element F) : Sized (fun _ => True) (isZero x) ⟨2, 0, 4⟩ :=
  ((sized_mulGate _ _ _).bind' fun _ => (sized_enforceEqual _ _).bind' fun _ =>
    (sized_enforceZero _).bind' fun _ => (sized_mulGate _ _ _).bind' fun _ =>
    (sized_enforceEqual _ _).bind' fun _ => (sized_enforceZero _).bind' fun _ =>
    .pure trivial).cast rfl

theorem sized_multiadd {v : List (Element F)} {c : List F} (h : v.length = c.length) :
    Sized (fun _ => True) (multiadd v c) 0 := by
  rw [multiadd, if_neg (by simp [h])]
  exact .pure trivial

namespace Boolean

theorem sized_alloc (v : Bool) : Sized (fun _ => True) (alloc (F := F) v) ⟨1, 0, 2⟩ :=
  ((sized_mulGate _ _ _).bind' fun _ => (sized_enforceEqual _ _).bind' fun _ =>
    (sized_enforceEqual _ _).bind' fun _ => .pure trivial).cast rfl

theorem sized_and (a b : Boolean F) : Sized (fun _ => True) (a.and b) ⟨1, 0, 2⟩ :=
  ((sized_mulGate _ _ _).bind' fun _ => (sized_enforceEqual _ _).bind' fun _ =>
    (sized_enforceEqual _ _).bind' fun _ => .pure trivial).cast rfl

theorem sized_conditionalSelect (c : Boolean F) (a b : Element F) :
    Sized (fun _ => True) (c.conditionalSelect a b) ⟨1, 0, 2⟩ :=
  ((Element.sized_mul _ _).bind' fun _ => .pure trivial).cast rfl

theorem sized_conditionalEnforceEqual (c : Boolean F) (a b : Element F) :
    Sized (fun _ => True) (c.conditionalEnforceEqual a b) ⟨1, 0, 3⟩ :=
  ((Element.sized_mul _ _).bind' fun _ => Element.sized_zero _).cast rfl

theorem sized_enforceConsistent (c : Boolean F) :
    Sized (fun _ => True) c.enforceConsistent ⟨1, 0, 3⟩ :=
  ((sized_alloc _).bind' fun _ => sized_enforceEqual _ _).cast rfl

end Boolean

theorem sized_multipack {cap : ℕ} (h : cap ≠ 0) (bits : List (Boolean F)) :
    Sized (fun _ => True) (multipack cap bits) 0 := by
  rw [multipack, if_neg h]
  exact .pure trivial

namespace Point

theorem sized_alloc (b : F) (p : Option (F × F)) :
    Sized (fun _ => True) (alloc b p) ⟨3, 0, 5⟩ :=
  ((sized_tryJust _).bind' fun _ => (Element.sized_allocSquare _).bind' fun _ =>
    (Element.sized_mul _ _).bind' fun _ => (Element.sized_allocSquare _).bind' fun _ =>
    (sized_enforceZero _).bind' fun _ => .pure trivial).cast rfl

theorem sized_enforceConsistent (b : F) (p : Point F) :
    Sized (fun _ => True) (enforceConsistent b p) ⟨3, 0, 7⟩ :=
  ((sized_alloc _ _).bind' fun _ => (sized_enforceEqual _ _).bind' fun _ =>
    sized_enforceEqual _ _).cast rfl

theorem sized_conditionalEndo (z : F) (p : Point F) (c : Boolean F) :
    Sized (fun _ => True) (conditionalEndo z p c) ⟨1, 0, 2⟩ :=
  ((Boolean.sized_conditionalSelect _ _ _).bind' fun _ => .pure trivial).cast rfl

theorem sized_conditionalNegate (p : Point F) (c : Boolean F) :
    Sized (fun _ => True) (conditionalNegate p c) ⟨1, 0, 2⟩ :=
  ((Boolean.sized_conditionalSelect _ _ _).bind' fun _ => .pure trivial).cast rfl

theorem sized_double (p : Point F) : Sized (fun _ => True) p.double ⟨4, 0, 8⟩ :=
  ((Element.sized_square _).bind' fun _ => (Element.sized_divNonzero _ _).bind' fun _ =>
    (Element.sized_square _).bind' fun _ => (Element.sized_mul _ _).bind' fun _ =>
    .pure trivial).cast rfl

theorem sized_addIncomplete_none (p q : Point F) :
    Sized (fun _ => True) (p.addIncomplete q none) ⟨3, 0, 6⟩ :=
  ((Sized.pure (Q := fun _ => True) trivial).bind' fun _ => (Element.sized_divNonzero _ _).bind' fun _ =>
    (Element.sized_square _).bind' fun _ => (Element.sized_mul _ _).bind' fun _ =>
    .pure trivial).cast rfl

theorem sized_addIncomplete_some (p q : Point F) (n : Element F) :
    Sized (fun _ => True) (p.addIncomplete q (some n)) ⟨4, 0, 8⟩ :=
  (((Element.sized_mul _ _).bind' fun _ => .pure (Q := fun _ => True) trivial).bind' fun _ =>
    (Element.sized_divNonzero _ _).bind' fun _ =>
    (Element.sized_square _).bind' fun _ => (Element.sized_mul _ _).bind' fun _ =>
    .pure trivial).cast rfl

theorem sized_doubleAndAdd (p q : Point F) :
    Sized (fun _ => True) (p.doubleAndAddIncomplete q) ⟨5, 0, 10⟩ :=
  ((Element.sized_divNonzero _ _).bind' fun _ => (Element.sized_square _).bind' fun _ =>
    (Element.sized_divNonzero _ _).bind' fun _ => (Element.sized_square _).bind' fun _ =>
    (Element.sized_mul _ _).bind' fun _ => .pure trivial).cast rfl

end Point

namespace Endoscalar

theorem sized_allocLoop (v : ℕ) : ∀ (k i : ℕ),
    Sized (fun l => l.length = k) (allocLoop (F := F) v i k) ⟨k, 0, 2 * k⟩
  | 0, _ => .pure rfl
  | k + 1, i => ((Boolean.sized_alloc _).bind' fun _ => (sized_allocLoop v k (i + 1)).bind fun _ h =>
      .pure (by simp [h])).cast (by size_eq)

theorem sized_alloc (nbits v : ℕ) :
    Sized (fun e => e.bits.length = nbits) (alloc (F := F) nbits v) ⟨nbits, 0, 2 * nbits⟩ :=
  ((sized_allocLoop v nbits 0).bind fun _ h => .pure h).cast (by size_eq)

theorem sized_extractLoop (sqrt : F → Option F) (gen : F) (e : Element F) : ∀ (k i : ℕ)
    (c c0 c1 : F) (v : ℕ), Sized (fun r => r.1.length = k) (extractLoop sqrt gen e i k c c0 c1 v)
      ⟨3 * k, 0, 6 * k⟩
  | 0, _, _, _, _, _ => .pure rfl
  | k + 1, i, c, c0, c1, v =>
    ((Sized.check (.ret (Q := fun _ => True) trivial)).bind' fun _ =>
      (Boolean.sized_alloc _).bind' fun _ => (Element.sized_allocSquare _).bind' fun _ =>
      (Element.sized_mul _ _).bind' fun _ => (sized_enforceZero _).bind' fun _ =>
      (sized_extractLoop sqrt gen e k (i + 1) _ _ _ _).bind fun _ h =>
      .pure (by simp [h])).cast (by size_eq)

theorem sized_extract (nbits : ℕ) (sqrt : F → Option F) (gen : F) (e : Element F) :
    Sized (fun e => e.bits.length = nbits) (extract nbits sqrt gen e) ⟨3 * nbits, 0, 6 * nbits⟩ :=
  ((sized_extractLoop sqrt gen e nbits 0 0 0 0 0).bind fun _ h => .pure h).cast (by size_eq)

theorem sized_groupLoop (z : F) (p : Point F) : ∀ (k : ℕ) (l : List (Boolean F)) (acc : Point F),
    2 * k ≤ l.length → Sized (fun _ => True) (groupLoop z p k l acc) ⟨7 * k, 0, 14 * k⟩
  | 0, _, _, _ => .pure trivial
  | k + 1, n :: e :: l, acc, h =>
    ((Point.sized_conditionalNegate _ _).bind' fun _ => (Point.sized_conditionalEndo _ _ _).bind' fun _ =>
      (Point.sized_doubleAndAdd _ _).bind' fun _ => sized_groupLoop z p k l _ (by
        simp at h; omega)).cast (by size_eq)
  | k + 1, [], _, h => absurd h (by simp)
  | k + 1, [_], _, h => absurd h (by simp; omega)

theorem toBits_length (e : Endoscalar F) : e.toBits.length = e.bits.length := by simp [toBits]

theorem sized_groupScale {nbits : ℕ} (z : F) {e : Endoscalar F} (h : nbits ≤ e.bits.length)
    (p : Point F) : Sized (fun _ => True) (groupScale nbits z e p)
      ⟨7 * (1 + nbits / 2), 0, 14 * (1 + nbits / 2)⟩ :=
  ((Point.sized_addIncomplete_none _ _).bind' fun _ => (Point.sized_double _).bind' fun _ =>
    sized_groupLoop z p _ _ _ (by rw [toBits_length]; omega)).cast (by size_eq)

theorem sized_liftLoop (z : F) : ∀ (k : ℕ) (l : List (Boolean F)) (acc : Element F) (c : F),
    2 * k ≤ l.length → Sized (fun _ => True) (liftLoop z k l acc c) ⟨k, 0, 2 * k⟩
  | 0, _, _, _, _ => .pure trivial
  | k + 1, n :: e :: l, acc, c, h =>
    ((Boolean.sized_and _ _).bind' fun _ => sized_liftLoop z k l _ _ (by
        simp at h; omega)).cast (by size_eq)
  | k + 1, [], _, _, h => absurd h (by simp)
  | k + 1, [_], _, _, h => absurd h (by simp; omega)

theorem sized_lift {nbits : ℕ} (z : F) {e : Endoscalar F} (h : nbits ≤ e.bits.length) :
    Sized (fun _ => True) (lift nbits z e) ⟨nbits / 2, 0, 2 * (nbits / 2)⟩ :=
  ((sized_liftLoop z _ _ _ _ (by rw [toBits_length]; omega)).bind' fun _ =>
    .pure trivial).cast (by size_eq)

end Endoscalar

namespace Horner

theorem sized_write (pt : Element F) (r : Option (Element F)) (v : Element F) :
    Sized (fun r => r.isSome) (write pt r v) ⟨r.toList.length, 0, 2 * r.toList.length⟩ := by
  cases r with
  | none => exact .pure rfl
  | some a => exact ((Element.sized_mul a pt).bind' fun m => .pure (a := some (m.add v)) rfl).cast rfl

theorem sized_write_none (pt : Element F) (v : Element F) :
    Sized (fun r => r.isSome) (write pt none v) 0 := .pure rfl

theorem sized_write_some (pt : Element F) {r : Option (Element F)} (h : r.isSome) (v : Element F) :
    Sized (fun r => r.isSome) (write pt r v) ⟨1, 0, 2⟩ := by
  obtain ⟨a, rfl⟩ := Option.isSome_iff_exists.1 h
  exact ((Element.sized_mul a pt).bind' fun m => .pure (a := some (m.add v)) rfl).cast rfl

theorem sized_writeAll_some (pt : Element F) : ∀ (l : List (Element F)) {r : Option (Element F)},
    r.isSome → Sized (fun r => r.isSome) (writeAll pt r l) ⟨l.length, 0, 2 * l.length⟩
  | [], _, h => .pure h
  | v :: l, _, h => ((sized_write_some pt h v).bind fun _ h => sized_writeAll_some pt l h).cast
      (by size_eq)

/-- Writing to an empty buffer: the first element is free. -/
theorem sized_writeAll_none (pt : Element F) (l : List (Element F)) :
    Sized (fun r => r.isSome = !l.isEmpty) (writeAll pt none l)
      ⟨l.length - 1, 0, 2 * (l.length - 1)⟩ := by
  cases l with
  | nil => exact .pure rfl
  | cons v l =>
    exact ((sized_write_none pt v).bind fun _ h => (sized_writeAll_some pt l h).mono
      fun _ h => by simpa using h).cast (by size_eq)

theorem sized_finishKy (pt : Element F) {r : Option (Element F)} (h : r.isSome) :
    Sized (fun _ => True) (finishKy pt r) ⟨1, 0, 2⟩ :=
  ((sized_write_some pt h _).bind' fun _ => .pure trivial).cast rfl

end Horner

namespace Txz

theorem sized_loop : ∀ (k : ℕ) (l r s t : Element F),
    Sized (fun _ => True) (loop k l r s t) ⟨4 * k, 0, 8 * k⟩
  | 0, _, _, _, _ => .pure trivial
  | k + 1, _, _, _, _ => ((Element.sized_mul _ _).bind' fun _ => (Element.sized_mul _ _).bind' fun _ =>
      (Element.sized_square _).bind' fun _ => (Element.sized_square _).bind' fun _ =>
      sized_loop k _ _ _ _).cast (by size_eq)

theorem sized_execute (k : ℕ) (x z : Element F) (a : F × F) :
    Sized (fun _ => True) (execute k x z a) ⟨6 * k + 10, 0, 12 * k + 20⟩ :=
  ((Element.sized_squareLoop _ _).bind' fun _ => (Element.sized_square _).bind' fun _ =>
    (Element.sized_square _).bind' fun _ => (Element.sized_squareLoop _ _).bind' fun _ =>
    (Element.sized_square _).bind' fun _ => (Element.sized_invertWith _ _).bind' fun _ =>
    (Element.sized_invertWith _ _).bind' fun _ => (Element.sized_mul _ _).bind' fun _ =>
    (Element.sized_mul _ _).bind' fun _ => (Element.sized_mul _ _).bind' fun _ =>
    (Element.sized_mul _ _).bind' fun _ => (sized_loop _ _ _ _ _).bind' fun _ =>
    (Element.sized_mul _ _).bind' fun _ => .pure trivial).cast (by size_eq)

theorem sized_evaluate (k : ℕ) (x z : Element F) :
    Sized (fun _ => True) (evaluate k x z) ⟨6 * k + 10, 0, 12 * k + 20⟩ :=
  ((sized_tryJust _).bind' fun _ => (sized_tryJust _).bind' fun _ => sized_execute _ _ _ _).cast
    (by size_eq)

end Txz

end
end Ragu.Gadget

/-
C101: a gadget writes its elements to a buffer from left to right, and nothing else.
-/
import Verif.Spec.Write

namespace Ragu.Props
open Ragu Ragu.Circuit Ragu.Write

section
variable {E σ : Type}

/-- Two outputs in a row. -/
def seqOut (p q : List E × Option Err) : List E × Option Err :=
  match p.2 with
  | none => (p.1 ++ q.1, q.2)
  | some x => (p.1, some x)

/-- An output to a buffer that takes `n` elements. -/
def capOut (n : ℕ) (p : List E × Option Err) : List E × Option Err :=
  if p.1.length ≤ n then p else (p.1.take n, some .malformedEncoding)

/-- An output to padded content. -/
def padOut (size : ℕ) (zero : E) (p : List E × Option Err) : List E × Option Err :=
  if size = 0 then ([], some (if p.1 = [] then p.2.getD .panic else .panic))
  else seqOut (capOut (size - 1) p) (List.replicate (size - 1 - p.1.length) zero, none)

mutual
/-- The elements that a gadget writes, and the error it then ends with, if any. -/
def emit : Gadget E → List E × Option Err
  | .unit => ([], none)
  | .element e => ([e], none)
  | .array l => emitList l
  | .pair a b => seqOut (emit a) (emit b)
  | .box g => emit g
  | .struct fs => emitFields fs
  | .withSuffix g e => seqOut (emit g) ([e], none)
  | .padded size zero g => padOut size zero (emit g)
def emitList : List (Gadget E) → List E × Option Err
  | [] => ([], none)
  | g :: l => seqOut (emit g) (emitList l)
def emitFields : List (Write.Field E) → List E × Option Err
  | [] => ([], none)
  | .mk skip phantom g :: l => if skip || phantom then emitFields l else seqOut (emit g) (emitFields l)
end

/-- Go on if the result is good. -/
def goOn (r : σ × Except Err Unit) (f : σ → σ × Except Err Unit) : σ × Except Err Unit :=
  match r with
  | (s, .error x) => (s, .error x)
  | (s, .ok ()) => f s

theorem feed_seqOut (buf : Buf E σ) (p q : List E × Option Err) (s : σ) :
    feed buf (seqOut p q).2 (seqOut p q).1 s =
      goOn (feed buf p.2 p.1 s) (fun s => feed buf q.2 q.1 s) := by
  obtain ⟨es, x⟩ := p
  cases x with
  | some x =>
    simp only [seqOut]
    induction es generalizing s with
    | nil => rfl
    | cons e es ih =>
      simp only [feed]
      rcases h : (buf e s).2 with y | ⟨⟩
      · simp [goOn]
      · exact ih _
  | none =>
    simp only [seqOut]
    induction es generalizing s with
    | nil => rfl
    | cons e es ih =>
      simp only [List.cons_append, feed]
      rcases h : (buf e s).2 with y | ⟨⟩
      · simp [goOn]
      · exact ih _

theorem feed_counting {size : ℕ} (hs : size ≠ 0) (buf : Buf E σ) (x : Option Err) (es : List E) (s : σ)
    (n : ℕ) (hn : n ≤ size - 1) :
    ((feed (counting size buf) x es (s, n)).1.1, (feed (counting size buf) x es (s, n)).2) =
      feed buf (capOut (size - 1 - n) (es, x)).2 (capOut (size - 1 - n) (es, x)).1 s ∧
    ((feed (counting size buf) x es (s, n)).2 = .ok () →
      (feed (counting size buf) x es (s, n)).1.2 = n + es.length ∧ n + es.length ≤ size - 1) := by
  induction es generalizing s n with
  | nil => simp [feed, capOut, hn]
  | cons e es ih =>
    by_cases hlt : n ≥ size - 1
    · have h0 : size - 1 - n = 0 := by omega
      have hc : counting size buf e (s, n) = ((s, n), .error .malformedEncoding) := by
        simp [counting, hs, hlt]
      simp [feed, hc, capOut, h0]
    · have hcap : capOut (size - 1 - n) (e :: es, x) =
          (e :: (capOut (size - 1 - (n + 1)) (es, x)).1, (capOut (size - 1 - (n + 1)) (es, x)).2) := by
        obtain ⟨k, hk⟩ : ∃ k, size - 1 - n = k + 1 := ⟨size - 1 - n - 1, by omega⟩
        have hk' : size - 1 - (n + 1) = k := by omega
        simp only [capOut, hk, hk', List.length_cons, Nat.add_le_add_iff_right, List.take_succ_cons]
        split <;> rfl
      rw [hcap]
      simp only [feed]
      rcases hb : buf e s with ⟨t, y | ⟨⟩⟩
      · have hc : counting size buf e (s, n) = ((t, n), .error y) := by
          simp [counting, hs, hlt, hb]
        simp [hc]
      · have hc : counting size buf e (s, n) = ((t, n + 1), .ok ()) := by
          simp [counting, hs, hlt, hb]
        simp only [hc, List.length_cons]
        have := ih t (n + 1) (by omega)
        refine ⟨this.1, fun h => ?_⟩
        have := this.2 h
        omega

theorem feed_counting_zero (buf : Buf E σ) (x : Option Err) (es : List E) (s : σ) :
    goOn ((feed (counting 0 buf) x es (s, 0)).1.1, (feed (counting 0 buf) x es (s, 0)).2)
        (fun s => (s, .error .panic)) =
      (s, .error (if es = [] then x.getD .panic else .panic)) := by
  cases es with
  | nil => cases x <;> simp [feed, goOn]
  | cons e es => simp [feed, counting, goOn]

theorem padLoop_feed {size : ℕ} (hs : size ≠ 0) (zero : E) (buf : Buf E σ) (fuel : ℕ) (s : σ) (n : ℕ) :
    ((padLoop size zero buf fuel (s, n)).1.1, (padLoop size zero buf fuel (s, n)).2) =
      feed buf none (List.replicate (min fuel (size - 1 - n)) zero) s := by
  induction fuel generalizing s n with
  | zero => simp [padLoop, feed]
  | succ fuel ih =>
    by_cases hlt : n < size - 1
    · have : min (fuel + 1) (size - 1 - n) = min fuel (size - 1 - (n + 1)) + 1 := by omega
      rw [this, List.replicate_succ]
      simp only [padLoop, hlt, if_true, feed]
      rcases hb : buf zero s with ⟨t, y | ⟨⟩⟩
      · have hc : counting size buf zero (s, n) = ((t, n), .error y) := by
          simp [counting, hs, hb, Nat.not_le.2 hlt]
        simp [hc]
      · have hc : counting size buf zero (s, n) = ((t, n + 1), .ok ()) := by
          simp [counting, hs, hb, Nat.not_le.2 hlt]
        simp only [hc]
        exact ih t (n + 1)
    · have : min (fuel + 1) (size - 1 - n) = 0 := by omega
      simp [padLoop, hlt, this, feed]

mutual
theorem write_emit : ∀ (g : Gadget E) {σ : Type} (buf : Buf E σ) (s : σ),
    g.write buf s = feed buf (emit g).2 (emit g).1 s
  | .unit, _, buf, s => rfl
  | .element e, _, buf, s => by
    simp only [Gadget.write, emit, feed]
    rcases h : buf e s with ⟨t, x | ⟨⟩⟩ <;> simp
  | .array l, _, buf, s => by
    simp only [Gadget.write, emit, writeList_emit l]
  | .pair a b, _, buf, s => by
    simp only [Gadget.write, emit, feed_seqOut, write_emit a, write_emit b, goOn] <;> rfl
  | .box g, _, buf, s => by
    simp only [Gadget.write, emit, write_emit g]
  | .struct fs, _, buf, s => by
    simp only [Gadget.write, emit, writeFields_emit fs]
  | .withSuffix g e, _, buf, s => by
    have : ∀ s, buf e s = feed buf none [e] s := by
      intro s
      simp only [feed]
      rcases h : buf e s with ⟨t, x | ⟨⟩⟩ <;> simp
    simp only [Gadget.write, emit, feed_seqOut, write_emit g, goOn, this] <;> rfl
  | .padded size zero g, σ, buf, s => by
    simp only [Gadget.write, emit, write_emit g]
    by_cases hs : size = 0
    · subst hs
      have := feed_counting_zero buf (emit g).2 (emit g).1 s
      simp only [padOut, if_true, feed, ← this, goOn]
      rcases feed (counting 0 buf) (emit g).2 (emit g).1 (s, 0) with ⟨⟨t, n⟩, x | ⟨⟩⟩ <;> simp
    · obtain ⟨h1, h2⟩ := feed_counting hs buf (emit g).2 (emit g).1 s 0 (by omega)
      simp only [padOut, hs, if_false, feed_seqOut]
      rw [Nat.sub_zero] at h1
      rw [← h1]
      rcases h : feed (counting size buf) (emit g).2 (emit g).1 (s, 0) with ⟨⟨t, n⟩, x | ⟨⟩⟩
      · simp [goOn]
      · rw [h] at h2
        simp only [forall_const, Nat.zero_add] at h2
        simp only [goOn, padLoop_feed hs, h2.1]
        rw [Nat.min_eq_right (by omega)]
theorem writeList_emit : ∀ (l : List (Gadget E)) {σ : Type} (buf : Buf E σ) (s : σ),
    writeList l buf s = feed buf (emitList l).2 (emitList l).1 s
  | [], _, buf, s => rfl
  | g :: l, _, buf, s => by
    simp only [writeList, emitList, feed_seqOut, write_emit g, writeList_emit l, goOn] <;> rfl
theorem writeFields_emit : ∀ (l : List (Write.Field E)) {σ : Type} (buf : Buf E σ) (s : σ),
    writeFields l buf s = feed buf (emitFields l).2 (emitFields l).1 s
  | [], _, buf, s => rfl
  | .mk skip phantom g :: l, _, buf, s => by
    simp only [writeFields, emitFields]
    split
    · exact writeFields_emit l buf s
    · simp only [feed_seqOut, write_emit g, writeFields_emit l, goOn] <;> rfl
end

/-- What the theorems need to know of an output. -/
def GoodOut (out : List E × Option Err) (elems : List E) (fits sized : Prop) : Prop :=
  out.1 <+: elems ∧ (out.2 = none → fits) ∧ (fits → out = (elems, none)) ∧
    ∀ x, out.2 = some x → (sized → x = .malformedEncoding) ∧ (x = .malformedEncoding ∨ x = .panic)

theorem GoodOut.seq {p q : List E × Option Err} {es es' : List E} {f f' z z' : Prop}
    (h : GoodOut p es f z) (h' : GoodOut q es' f' z') : GoodOut (seqOut p q) (es ++ es') (f ∧ f') (z ∧ z') := by
  obtain ⟨ps, px⟩ := p
  obtain ⟨qs, qx⟩ := q
  obtain ⟨a1, a2, a3, a4⟩ := h
  obtain ⟨b1, b2, b3, b4⟩ := h'
  cases px with
  | some x =>
    refine ⟨a1.trans (List.prefix_append _ _), fun h => (nomatch h), fun h => ?_, fun y hy => ?_⟩
    · have := a3 h.1
      simp at this
    · have := a4 y hy
      exact ⟨fun h => this.1 h.1, this.2⟩
  | none =>
    have hf := a2 rfl
    have he := a3 hf
    simp only [Prod.mk.injEq, and_true] at he
    subst he
    refine ⟨List.prefix_append_right_inj _ |>.2 b1, fun h => ⟨hf, b2 h⟩, fun h => ?_, fun y hy => ?_⟩
    · have := b3 h.2
      simp only [Prod.mk.injEq] at this
      simp [seqOut, this]
    · have := b4 y hy
      exact ⟨fun h => this.1 h.2, this.2⟩

theorem GoodOut.pad {p : List E × Option Err} {es : List E} {f z : Prop} (h : GoodOut p es f z) (size : ℕ)
    (zero : E) : GoodOut (padOut size zero p) (es ++ List.replicate (size - 1 - es.length) zero)
      (es.length + 1 ≤ size ∧ f) (size ≠ 0 ∧ z) := by
  obtain ⟨ps, px⟩ := p
  obtain ⟨a1, a2, a3, a4⟩ := h
  by_cases hs : size = 0
  · subst hs
    refine ⟨by simp [padOut], by simp [padOut], by simp, fun x hx => ⟨by simp, ?_⟩⟩
    simp only [padOut, if_true, Option.some.injEq] at hx
    subst hx
    split
    · cases px with
      | none => simp
      | some y => simpa using (a4 y rfl).2
    · simp
  · by_cases hl : ps.length ≤ size - 1
    · have hq : GoodOut ((List.replicate (size - 1 - ps.length) zero, none) : List E × Option Err)
          (List.replicate (size - 1 - ps.length) zero) True True :=
        ⟨List.prefix_refl _, fun _ => trivial, fun _ => rfl, fun x hx => (nomatch hx)⟩
      have hp : padOut size zero (ps, px) =
          seqOut (ps, px) (List.replicate (size - 1 - ps.length) zero, none) := by
        simp [padOut, hs, capOut, hl]
      rw [hp]
      cases px with
      | some x =>
        refine ⟨a1.trans (List.prefix_append _ _), fun h => (nomatch h), fun h => ?_, fun y hy => ?_⟩
        · have := a3 h.2
          simp at this
        · have := a4 y hy
          exact ⟨fun h => this.1 h.2, this.2⟩
      | none =>
        have hf := a2 rfl
        have he := a3 hf
        simp only [Prod.mk.injEq, and_true] at he
        subst he
        exact ⟨List.prefix_refl _, fun _ => ⟨by omega, hf⟩, fun _ => rfl, fun x hx => (nomatch hx)⟩
    · have hp : padOut size zero (ps, px) = (ps.take (size - 1), some .malformedEncoding) := by
        simp [padOut, hs, capOut, hl, seqOut]
      rw [hp]
      refine ⟨(List.take_prefix _ _).trans (a1.trans (List.prefix_append _ _)), fun h => (nomatch h),
        fun h => ?_, fun x hx => ?_⟩
      · have : ps.length ≤ es.length := a1.length_le
        omega
      · cases hx
        simp

mutual
theorem good_emit : ∀ g : Gadget E, GoodOut (emit g) g.elems
    (g.All fun size c => c.elems.length + 1 ≤ size) (g.All fun size _ => size ≠ 0)
  | .unit => ⟨List.prefix_refl _, fun _ => trivial, fun _ => rfl, fun x hx => (nomatch hx)⟩
  | .element e => ⟨List.prefix_refl _, fun _ => trivial, fun _ => rfl, fun x hx => (nomatch hx)⟩
  | .array l => by simpa only [emit, Gadget.elems, Gadget.All] using good_emitList l
  | .pair a b => by simpa only [emit, Gadget.elems, Gadget.All] using (good_emit a).seq (good_emit b)
  | .box g => by simpa only [emit, Gadget.elems, Gadget.All] using good_emit g
  | .struct fs => by simpa only [emit, Gadget.elems, Gadget.All] using good_emitFields fs
  | .withSuffix g e => by
    have he : GoodOut (([e], none) : List E × Option Err) [e] True True :=
      ⟨List.prefix_refl _, fun _ => trivial, fun _ => rfl, fun x hx => (nomatch hx)⟩
    simpa only [emit, Gadget.elems, Gadget.All, and_true] using (good_emit g).seq he
  | .padded size zero g => by
    simpa only [emit, Gadget.elems, Gadget.All] using (good_emit g).pad size zero
theorem good_emitList : ∀ l : List (Gadget E), GoodOut (emitList l) (elemsList l)
    (AllList (fun size c => c.elems.length + 1 ≤ size) l) (AllList (fun size _ => size ≠ 0) l)
  | [] => ⟨List.prefix_refl _, fun _ => trivial, fun _ => rfl, fun x hx => (nomatch hx)⟩
  | g :: l => by simpa only [emitList, elemsList, AllList] using (good_emit g).seq (good_emitList l)
theorem good_emitFields : ∀ l : List (Write.Field E), GoodOut (emitFields l) (elemsFields l)
    (AllFields (fun size c => c.elems.length + 1 ≤ size) l) (AllFields (fun size _ => size ≠ 0) l)
  | [] => ⟨List.prefix_refl _, fun _ => trivial, fun _ => rfl, fun x hx => (nomatch hx)⟩
  | .mk skip phantom g :: l => by
    have h1 := good_emit g
    have h2 := good_emitFields l
    cases skip <;> cases phantom <;>
      simp only [emitFields, elemsFields, AllFields, Bool.or_true, Bool.or_false, Bool.true_or, Bool.false_or,
        if_true, List.nil_append, Bool.false_eq_true, if_false, forall_const, true_and, reduceCtorEq,
        false_implies]
    · exact h1.seq h2
    · exact h2
    · exact h2
    · exact h2
end

/-- C101: a gadget whose padded content fits gives its elements to any buffer from left to right, each once
and nothing else, and stops at the first one that the buffer refuses, with its error. -/
theorem C101_write (g : Gadget E) (hg : g.Fits) (buf : Buf E σ) (s : σ) :
    g.write buf s = feed buf none g.elems s := by
  rw [write_emit, (good_emit g).2.2.1 hg]

/-- C101: a gadget with padded content that does not fit fails with every buffer, after it has written a
part of its elements that does not depend on the buffer. The error is `MalformedEncoding`, unless
content is padded to size 0. -/
theorem C101_too_long (g : Gadget E) (hg : ¬ g.Fits) : ∃ es x, es <+: g.elems ∧
    (x = .malformedEncoding ∨ x = .panic) ∧ (g.Sized → x = .malformedEncoding) ∧
    ∀ {σ : Type} (buf : Buf E σ) (s : σ), g.write buf s = feed buf (some x) es s := by
  obtain ⟨h1, h2, h3, h4⟩ := good_emit g
  rcases he : (emit g).2 with _ | x
  · exact absurd (h2 he) hg
  · exact ⟨(emit g).1, x, h1, (h4 x he).2, (h4 x he).1, fun buf s => by rw [write_emit, he]⟩

mutual
theorem sameKind_elems : ∀ g g' : Gadget E, g.SameKind g' →
    g.elems.length = g'.elems.length ∧ (g.Fits ↔ g'.Fits) ∧ (g.elems = g'.elems → g.Agrees g')
  | g, g', h => by
    cases g <;> cases g' <;> simp only [Gadget.SameKind] at h
    case unit.unit => simp [Gadget.Agrees]
    case element.element => simp [Gadget.elems, Gadget.Fits, Gadget.All, Gadget.Agrees]
    case array.array l l' =>
      simpa only [Gadget.elems, Gadget.Fits, Gadget.All, Gadget.Agrees] using sameKindList_elems l l' h
    case pair.pair a b a' b' =>
      have ha := sameKind_elems a a' h.1
      have hb := sameKind_elems b b' h.2
      simp only [Gadget.Fits] at ha hb
      simp only [Gadget.elems, Gadget.Fits, Gadget.All, Gadget.Agrees, List.length_append, ha.1, hb.1,
        ha.2.1, hb.2.1, true_and]
      intro he
      have := List.append_inj he ha.1
      exact ⟨ha.2.2 this.1, hb.2.2 this.2⟩
    case box.box a a' =>
      simpa only [Gadget.elems, Gadget.Fits, Gadget.All, Gadget.Agrees] using sameKind_elems a a' h
    case struct.struct l l' =>
      simpa only [Gadget.elems, Gadget.Fits, Gadget.All, Gadget.Agrees] using sameKindFields_elems l l' h
    case withSuffix.withSuffix a e a' e' =>
      have ha := sameKind_elems a a' h
      simp only [Gadget.Fits] at ha
      simp only [Gadget.elems, Gadget.Fits, Gadget.All, Gadget.Agrees, List.length_append, ha.1, ha.2.1,
        List.length_cons, List.length_nil, true_and]
      intro he
      have := List.append_inj he ha.1
      exact ⟨ha.2.2 this.1, by simpa using this.2⟩
    case padded.padded n z a n' z' a' =>
      obtain ⟨rfl, rfl, h⟩ := h
      have ha := sameKind_elems a a' h
      simp only [Gadget.Fits] at ha
      simp only [Gadget.elems, Gadget.Fits, Gadget.All, Gadget.Agrees, List.length_append, ha.1, ha.2.1,
        List.length_replicate, true_and]
      intro he
      exact ha.2.2 (List.append_inj he ha.1).1
theorem sameKindList_elems : ∀ l l' : List (Gadget E), SameKindList l l' →
    (elemsList l).length = (elemsList l').length ∧
      (AllList (fun size c => c.elems.length + 1 ≤ size) l ↔
        AllList (fun size c => c.elems.length + 1 ≤ size) l') ∧
      (elemsList l = elemsList l' → AgreesList l l')
  | [], [], _ => by simp [AgreesList]
  | g :: l, g' :: l', h => by
    simp only [SameKindList] at h
    have ha := sameKind_elems g g' h.1
    have hb := sameKindList_elems l l' h.2
    simp only [Gadget.Fits] at ha
    simp only [elemsList, AllList, AgreesList, List.length_append, ha.1, hb.1, ha.2.1, hb.2.1, true_and]
    intro he
    have := List.append_inj he ha.1
    exact ⟨ha.2.2 this.1, hb.2.2 this.2⟩
  | [], _ :: _, h => by simp [SameKindList] at h
  | _ :: _, [], h => by simp [SameKindList] at h
theorem sameKindFields_elems : ∀ l l' : List (Write.Field E), SameKindFields l l' →
    (elemsFields l).length = (elemsFields l').length ∧
      (AllFields (fun size c => c.elems.length + 1 ≤ size) l ↔
        AllFields (fun size c => c.elems.length + 1 ≤ size) l') ∧
      (elemsFields l = elemsFields l' → AgreesFields l l')
  | [], [], _ => by simp [AgreesFields]
  | .mk skip phantom g :: l, .mk skip' phantom' g' :: l', h => by
    simp only [SameKindFields] at h
    obtain ⟨rfl, rfl, h1, h2⟩ := h
    have hb := sameKindFields_elems l l' h2
    by_cases hs : skip = false ∧ phantom = false
    · obtain ⟨rfl, rfl⟩ := hs
      have ha := sameKind_elems g g' (h1 rfl rfl)
      simp only [Gadget.Fits] at ha
      simp only [elemsFields, AllFields, AgreesFields, Bool.or_self, Bool.false_eq_true, if_false,
        List.length_append, ha.1, hb.1, ha.2.1, hb.2.1, true_and, forall_const]
      intro he
      have := List.append_inj he ha.1
      exact ⟨ha.2.2 this.1, hb.2.2 this.2⟩
    · have ho : (skip || phantom) = true := by
        cases skip <;> cases phantom <;> simp_all
      have hn : ∀ p : Prop, (skip = false → phantom = false → p) := fun p a b => absurd ⟨a, b⟩ hs
      simp only [elemsFields, AllFields, AgreesFields, ho, if_true, List.nil_append, hb.1, hb.2.1, true_and]
      exact ⟨and_congr_left fun _ => ⟨fun _ => hn _, fun _ => hn _⟩, fun he => ⟨hn _, hb.2.2 he⟩⟩
  | [], _ :: _, h => by simp [SameKindFields] at h
  | _ :: _, [], h => by simp [SameKindFields] at h
end

/-- C101: how much is written, and whether it fits, depends on the kind of the gadget alone. -/
theorem C101_fixed_length {g g' : Gadget E} (h : g.SameKind g') :
    g.elems.length = g'.elems.length ∧ (g.Fits ↔ g'.Fits) :=
  ⟨(sameKind_elems g g' h).1, (sameKind_elems g g' h).2.1⟩

/-- C101: two gadgets of one kind that write the same to a vector agree in all that is written. -/
theorem C101_injective {g g' : Gadget E} (h : g.SameKind g') (hg : g.Fits)
    (hw : g.write vecBuf [] = g'.write vecBuf []) : g.Agrees g' := by
  have hv : ∀ (es l : List E), feed vecBuf none es l = (l ++ es, .ok ()) := by
    intro es
    induction es with
    | nil => intro l; simp [feed]
    | cons e es ih => intro l; simp [feed, vecBuf, ih]
  rw [C101_write g hg, C101_write g' ((C101_fixed_length h).2.1 hg), hv, hv] at hw
  exact (sameKind_elems g g' h).2.2 (by simpa using hw)

/-- C101: a vector collects the elements, a number counts them, and `()` takes them all. -/
theorem C101_buffers {g : Gadget E} (hg : g.Fits) (l : List E) (n : ℕ) :
    g.write vecBuf l = (l ++ g.elems, .ok ()) ∧ g.write countBuf n = (n + g.elems.length, .ok ()) ∧
      g.write unitBuf () = ((), .ok ()) := by
  simp only [C101_write g hg]
  refine ⟨?_, ?_, ?_⟩
  · induction g.elems generalizing l with
    | nil => simp [feed]
    | cons e es ih => simp [feed, vecBuf, ih]
  · induction g.elems generalizing n with
    | nil => simp [feed]
    | cons e es ih =>
      simp only [feed, countBuf, List.length_cons, ih]
      rw [Nat.add_assoc, Nat.add_comm 1]
  · induction g.elems with
    | nil => rfl
    | cons e es ih => simp only [feed, unitBuf, ih]

/-- C101: through a pipe to a vector, each element is allocated on the destination driver, in order and once,
with the value it has on the source driver, and the vector gets what was allocated. -/
theorem C101_pipe {F E' δ : Type} (value : E → F) (value' : E' → F) (alloc : F → δ → δ × Except Err E')
    (halloc : ∀ v d, ∃ e', (alloc v d).2 = .ok e' ∧ value' e' = v) {g : Gadget E} (hg : g.Fits) (d : δ)
    (l : List E') : ∃ es', g.write (pipe value alloc vecBufOn) (d, l) =
      ((g.elems.foldl (fun d e => (alloc (value e) d).1) d, l ++ es'), .ok ()) ∧
      es'.map value' = g.elems.map value := by
  rw [C101_write g hg]
  induction g.elems generalizing d l with
  | nil => exact ⟨[], by simp [feed], rfl⟩
  | cons e es ih =>
    obtain ⟨e', h1, h2⟩ := halloc (value e) d
    obtain ⟨es', h3, h4⟩ := ih (alloc (value e) d).1 (l ++ [e'])
    refine ⟨e' :: es', ?_, by simp [h2, h4]⟩
    have : pipe value alloc vecBufOn e (d, l) = (((alloc (value e) d).1, l ++ [e']), .ok ()) := by
      simp only [pipe, vecBufOn]
      rcases hx : alloc (value e) d with ⟨d', r⟩
      rw [hx] at h1
      simp only at h1
      subst h1
      rfl
    simp only [feed, this, h3, List.foldl_cons, List.append_assoc, List.singleton_append]

end

/-- A header of two elements and a skipped field in padded content of size 5, with a suffix. -/
def exHeader (a b c : ℕ) : Gadget ℕ :=
  .withSuffix (.padded 5 0 (.struct [.mk false false (.element a), .mk true false (.element c),
    .mk false false (.box (.array [.element b, .pair (.element a) .unit])), .mk false true .unit])) 42

example : (exHeader 1 2 3).Fits ∧ (exHeader 1 2 3).elems = [1, 2, 1, 0, 42] := by
  simp [exHeader, Gadget.Fits, Gadget.All, AllFields, AllList, Gadget.elems, elemsFields, elemsList]

example : (exHeader 1 2 3).write vecBuf [7] = ([7, 1, 2, 1, 0, 42], .ok ()) := by decide +kernel

example : (exHeader 1 2 3).SameKind (exHeader 4 5 6) := by
  simp [exHeader, Gadget.SameKind, SameKindFields, SameKindList]

example : ¬ (Gadget.padded 3 0 (exHeader 1 2 3)).Fits ∧
    (Gadget.padded 3 0 (exHeader 1 2 3)).write vecBuf [] = ([1, 2], .error .malformedEncoding) := by
  refine ⟨?_, by decide +kernel⟩
  simp [exHeader, Gadget.Fits, Gadget.All, AllFields, AllList, Gadget.elems, elemsFields, elemsList]

example : (exHeader 1 2 3).write (pipe (· + 10) (fun v (d : List ℕ) => (d ++ [v], .ok (v, d.length))) vecBufOn)
    ([], []) = (([11, 12, 11, 10, 52], [(11, 0), (12, 1), (11, 2), (10, 3), (52, 4)]), .ok ()) := by
  decide +kernel

end Ragu.Props

/-
Properties C39, C40, C53, C55 and C62: headers, suffixes, steps and their public inputs.
-/
import Mathlib.Algebra.Polynomial.Roots
import Verif.Lemmas.Gadget.Horner
import Verif.Lemmas.TestField
import Verif.Model.Pcd.Header
import Verif.Props.FixedVec
import Verif.Props.Revdot

set_option linter.unusedSectionVars false

namespace Ragu.Props
open Ragu Ragu.Pcd Ragu.Gadget Finset
variable {F : Type} [Field F] [DecidableEq F] {Data Out Data' Out' : Type} {N : ℕ}

/-! ### C40: suffixes -/

/-- The suffixes the API can produce: two internal ones, and any `usize` for an application. -/
def Suffix.Valid : Suffix → Prop
  | .internal i => i < 2
  | .application i => i < 2 ^ 64

/-- The suffix is not one of the two application suffixes that wrap around. -/
def Suffix.Safe : Suffix → Prop
  | .internal _ => True
  | .application i => i < 2 ^ 64 - 2

/-- C40: any application suffix can be made; an internal one only below the reserved count. -/
theorem C40_constructors (v : ℕ) :
    (v < 2 ^ 64 → Suffix.Valid (Suffix.new v)) ∧
    (v < 2 → Suffix.mkInternal v = some (.internal v) ∧ Suffix.Valid (.internal v)) ∧
    (¬ v < 2 → Suffix.mkInternal v = none) :=
  ⟨fun h => h, fun h => ⟨if_pos h, h⟩, fun h => if_neg h⟩

/-- C40: different suffixes have different labels; in particular no application suffix has the
label of an internal one. The two largest application suffixes are excluded, see
`C40_wraps_fails`. -/
theorem C40_distinct {s t : Suffix} (hs : Suffix.Valid s) (ht : Suffix.Valid t)
    (hs' : Suffix.Safe s) (ht' : Suffix.Safe t) (h : s.get = t.get) : s = t := by
  rcases s with i | i <;> rcases t with j | j <;>
    simp only [Suffix.get, Suffix.Valid, Suffix.Safe, NUM_INTERNAL_SUFFIXES] at * <;>
    first
      | (exfalso; omega)
      | (congr 1; omega)
      | (rw [h])

/-- C40: the labels are `u64` values; in a field where different `u64` values are different
elements, different suffixes have different field labels. -/
theorem C40_field_labels {s t : Suffix} (hF : ∀ a b : ℕ, a < 2 ^ 64 → b < 2 ^ 64 →
      (a : F) = (b : F) → a = b)
    (hs : Suffix.Valid s) (ht : Suffix.Valid t) (hs' : Suffix.Safe s) (ht' : Suffix.Safe t)
    (hne : s ≠ t) : (s.get : F) ≠ (t.get : F) := by
  have hb : ∀ u : Suffix, Suffix.Valid u → u.get < 2 ^ 64 := by
    intro u hu
    rcases u with i | i <;> simp only [Suffix.get, Suffix.Valid] at *
    · omega
    · exact Nat.mod_lt _ (by decide)
  exact fun h => hne (C40_distinct hs ht hs' ht' (hF _ _ (hb s hs) (hb t ht) h))

/-- C40 fails at the end of the range: the largest two application suffixes have the labels of the
two internal suffixes. -/
theorem C40_wraps_fails :
    Suffix.Valid (Suffix.new (2 ^ 64 - 2)) ∧
    (Suffix.new (2 ^ 64 - 2)).get = (Suffix.internal 0).get ∧
    (Suffix.new (2 ^ 64 - 1)).get = (Suffix.internal 1).get := by
  refine ⟨by show 2 ^ 64 - 2 < 2 ^ 64; decide, by decide, by decide⟩

example : Suffix.Valid (Suffix.new 7) ∧ Suffix.Safe (Suffix.new 7) ∧ (Suffix.new 7).get = 9 := by
  refine ⟨?_, ?_, by decide⟩
  · show 7 < 2 ^ 64; decide
  · show 7 < 2 ^ 64 - 2; decide

/-! ### C39: header encodings -/

/-- The documented encoding: the data, zeros, and the suffix last. -/
def headerEncoding {E : Type} (N : ℕ) (zero suffix : E) (data : List E) : List E :=
  data ++ List.replicate (N - 1 - data.length) zero ++ [suffix]

theorem countingWriteAll_eq {E : Type} (hN : 0 < N) : ∀ (vs : List E) (k : ℕ) (l : List E),
    countingWriteAll N (k, l) vs =
      if vs = [] ∨ k + vs.length ≤ N - 1 then .ok (k + vs.length, l ++ vs)
      else .error .malformedEncoding
  | [], k, l => by simp [countingWriteAll]
  | v :: vs, k, l => by
    rw [countingWriteAll, countingWrite, if_neg (by omega)]
    by_cases hk : k ≥ N - 1
    · rw [if_pos hk, if_neg (by simp; omega)]
      rfl
    · rw [if_neg hk]
      show countingWriteAll N (k + 1, l ++ [v]) vs = _
      rw [countingWriteAll_eq hN]
      simp only [List.length_cons, reduceCtorEq, false_or, List.append_assoc, List.cons_append,
        List.nil_append]
      by_cases hv : vs = []
      · subst hv
        rw [if_pos (.inl rfl), if_pos (by simp; omega)]
        simp
      · have h1 : (vs = [] ∨ k + 1 + vs.length ≤ N - 1) ↔ (k + (vs.length + 1) ≤ N - 1) := by
          simp only [hv, false_or]; omega
        simp only [h1]
        split_ifs <;> first | rfl | (rw [show k + 1 + vs.length = k + (vs.length + 1) by omega])

theorem padLoop_eq {E : Type} (hN : 0 < N) (z : E) : ∀ (fuel k : ℕ) (l : List E),
    N - 1 - k ≤ fuel → k ≤ N - 1 →
    padLoop N z fuel (k, l) = .ok (N - 1, l ++ List.replicate (N - 1 - k) z)
  | 0, k, l, h, hk => by
    have : k = N - 1 := by omega
    subst this
    simp [padLoop]
  | fuel + 1, k, l, h, hk => by
    rw [padLoop]
    by_cases hlt : k < N - 1
    · rw [if_pos hlt, countingWrite, if_neg (by omega), if_neg (by simp; omega)]
      show padLoop N z fuel (k + 1, l ++ [z]) = _
      rw [padLoop_eq hN z fuel (k + 1) _ (by omega) (by omega),
        show N - 1 - k = (N - 1 - (k + 1)) + 1 by omega, List.replicate_succ]
      simp
    · have : k = N - 1 := by omega
      subst this
      rw [if_neg hlt]
      simp

theorem padded_eq (hN : 0 < N) (s : Suffix) (vs : List (Element F)) : padded N s vs =
    if vs.length ≤ N - 1 then
      .ok (headerEncoding N Element.zero (Element.constant (s.get : F)) vs)
    else .error .malformedEncoding := by
  rw [padded, paddedContent, countingWriteAll_eq hN]
  have h1 : (vs = [] ∨ 0 + vs.length ≤ N - 1) ↔ vs.length ≤ N - 1 := by
    rw [Nat.zero_add]
    constructor
    · rintro (h | h)
      · subst h; simp
      · exact h
    · exact .inr
  have hN' : N ≠ 0 := by omega
  simp only [h1, hN', if_false]
  by_cases h : vs.length ≤ N - 1
  · simp only [h, if_true, bind, Except.bind]
    rw [padLoop_eq hN Element.zero N _ _ (by omega) (by omega)]
    simp [headerEncoding]
  · simp only [h, if_false, bind, Except.bind]

theorem headerEncoding_length {E : Type} (hN : 0 < N) (z s : E) (vs : List E)
    (h : vs.length ≤ N - 1) : (headerEncoding N z s vs).length = N := by
  simp [headerEncoding]; omega

theorem headerEncoding_map {E E' : Type} (f : E → E') (z s : E) (vs : List E) :
    (headerEncoding N z s vs).map f = headerEncoding N (f z) (f s) (vs.map f) := by
  simp [headerEncoding]

/-- C39: encoding writes the header's elements, then zeros, then the suffix, `N` elements in all,
and fails exactly when the elements do not fit in `N - 1` places. -/
theorem C39_encode (hN : 0 < N) (H : Header F Data Out) (g : Out) :
    ((H.write g).length ≤ N - 1 → ∃ es, (Encoded.gadget g : Encoded F Out N).write H = .ok es ∧
      es.length = N ∧
      es.map (·.wire) = headerEncoding N 0 (H.suffix.get : F) ((H.write g).map (·.wire)) ∧
      es.map (·.value) = headerEncoding N 0 (H.suffix.get : F) ((H.write g).map (·.value))) ∧
    (¬ (H.write g).length ≤ N - 1 →
      (Encoded.gadget g : Encoded F Out N).write H = .error .malformedEncoding) := by
  constructor
  · intro h
    refine ⟨headerEncoding N Element.zero (Element.constant (H.suffix.get : F)) (H.write g), ?_,
      headerEncoding_length hN _ _ _ h, ?_, ?_⟩
    · rw [Encoded.write, padded_eq hN, if_pos h]
    · rw [headerEncoding_map, Element.zero_wire, Element.constant_wire]
    · rw [headerEncoding_map, Element.zero_value, Element.constant_value]
  · intro h
    rw [Encoded.write, padded_eq hN, if_neg h]

theorem headerEncoding_last {E : Type} (z s z' s' : E) {a b : List E}
    (h : headerEncoding N z s a = headerEncoding N z' s' b) : s = s' := by
  rw [headerEncoding, headerEncoding] at h
  exact (List.append_inj' h rfl).2 |> List.cons.inj |>.1

theorem write_wires {H : Header F Data Out} {g : Out} {es : List (Element F)} (hN : 0 < N)
    (h : (Encoded.gadget g : Encoded F Out N).write H = .ok es) :
    (H.write g).length ≤ N - 1 ∧
    es.map (·.wire) = headerEncoding N 0 (H.suffix.get : F) ((H.write g).map (·.wire)) := by
  obtain ⟨h1, h2⟩ := C39_encode (N := N) hN H g
  by_cases hl : (H.write g).length ≤ N - 1
  · obtain ⟨es', e1, -, e3, -⟩ := h1 hl
    rw [h] at e1
    cases e1
    exact ⟨hl, e3⟩
  · rw [h2 hl] at h; cases h

/-- C39: encodings under different suffixes differ, whatever the data. -/
theorem C39_suffix_separates (hN : 0 < N) {H : Header F Data Out} {H' : Header F Data' Out'}
    (hne : (H.suffix.get : F) ≠ (H'.suffix.get : F)) {g : Out} {g' : Out'}
    {es es' : List (Element F)} (h : (Encoded.gadget g : Encoded F Out N).write H = .ok es)
    (h' : (Encoded.gadget g' : Encoded F Out' N).write H' = .ok es') :
    es.map (·.wire) ≠ es'.map (·.wire) := by
  rw [(write_wires hN h).2, (write_wires hN h').2]
  exact fun e => hne (headerEncoding_last _ _ _ _ e)

/-- C39: for one header type, the encoding determines data of a given length. -/
theorem C39_injective (hN : 0 < N) {H : Header F Data Out} {g g' : Out}
    (hl : (H.write g).length = (H.write g').length)
    {es es' : List (Element F)} (h : (Encoded.gadget g : Encoded F Out N).write H = .ok es)
    (h' : (Encoded.gadget g' : Encoded F Out N).write H = .ok es')
    (he : es.map (·.wire) = es'.map (·.wire)) :
    (H.write g).map (·.wire) = (H.write g').map (·.wire) := by
  rw [(write_wires hN h).2, (write_wires hN h').2, headerEncoding, headerEncoding,
    List.append_assoc, List.append_assoc] at he
  exact (List.append_inj he (by simpa using hl)).1

/-- A header whose data is a list of elements. -/
def listHeader (F : Type) [Field F] [DecidableEq F] (s : Suffix) :
    Header F (List F) (List (Element F)) where
  suffix := s
  typeId := 1
  encode vs := pipeAll (vs.map fun v => ⟨v, v⟩)
  write := id

/-- C39, what is not injective: data of different lengths, where the longer has zeros at the end,
has the same encoding. -/
theorem C39_trailing_zeros (hN : 0 < N) (s : Suffix) (vs : List (Element F)) (k : ℕ)
    (h : vs.length + k ≤ N - 1) :
    (Encoded.gadget (vs ++ List.replicate k Element.zero) : Encoded F _ N).write (listHeader F s) =
    (Encoded.gadget vs : Encoded F _ N).write (listHeader F s) := by
  show padded N s (vs ++ List.replicate k Element.zero) = padded N s vs
  rw [padded_eq hN, padded_eq hN, if_pos (by simpa using h), if_pos (by omega)]
  simp only [headerEncoding, List.length_append, List.length_replicate, List.append_assoc]
  rw [← List.append_assoc (List.replicate k _), ← List.replicate_add]
  congr 5
  omega

theorem emulate_of_sim {α : Type} : ∀ {p : Syn F α} {r : α}, p.sim = .ok r → emulate p = .ok r
  | .ret a, r, h => by cases h; rfl
  | .gate w k, r, h => by
    rw [Syn.sim] at h
    split_ifs at h
    exact emulate_of_sim (p := k w.1 w.2.1 w.2.2.1 w.2.2.2) h
  | .alloc w k, r, h => emulate_of_sim (p := k w) h
  | .enforce v k, r, h => by
    rw [Syn.sim] at h
    split_ifs at h
    exact emulate_of_sim (p := k) h
  | .check (some e) k, r, h => by cases h
  | .check none k, r, h => emulate_of_sim (p := k) h
  | .panic, r, h => by cases h

theorem pipeAll_sim : ∀ es : List (Element F),
    (pipeAll es).sim = .ok (es.map fun e => ⟨e.value, e.value⟩)
  | [] => rfl
  | e :: es => by
    rw [pipeAll, Syn.sim_bind_ok (Element.alloc_sim e.value), Syn.sim_bind_ok (pipeAll_sim es)]
    rfl

theorem pipeAll_sat : ∀ {es r : List (Element F)}, (pipeAll es).sat r ↔
    r.map (·.value) = es.map (·.value)
  | [], r => by simp [pipeAll]
  | e :: es, r => by
    rw [pipeAll, Syn.sat_bind]
    constructor
    · rintro ⟨a, ha, h⟩
      rw [Syn.sat_bind] at h
      obtain ⟨t, ht, h⟩ := h
      rw [Syn.sat_pure] at h
      subst h
      rw [List.map_cons, List.map_cons, pipeAll_sat.1 ht, (Element.alloc_sat _ _).1 ha]
    · intro h
      rcases r with _ | ⟨a, t⟩
      · cases h
      rw [List.map_cons, List.map_cons, List.cons.injEq] at h
      refine ⟨a, (Element.alloc_sat _ _).2 h.1, ?_⟩
      rw [Syn.sat_bind]
      exact ⟨t, pipeAll_sat.2 h.2, rfl⟩

/-- C39: the uniform encoder accepts exactly the same data as the standard one, and publishes the
same values. -/
theorem C39_uniform (hN : 0 < N) {H : Header F Data Out} {d : Data} {g : Out}
    (hg : (H.encode d).sim = .ok g) :
    (Encoded.new (N := N) H d).sim = .ok (.gadget g) ∧
    (∀ es, (Encoded.gadget g : Encoded F Out N).write H = .ok es →
      ∃ v, (Encoded.newUniform (N := N) H d).sim = .ok (.ok (.uniform v)) ∧ v.v.length = N ∧
        ∃ es', (Encoded.uniform v : Encoded F Out N).write H = .ok es' ∧
          es'.map (·.value) = es.map (·.value) ∧ ∀ e ∈ es', e.Honest) ∧
    (∀ e, (Encoded.gadget g : Encoded F Out N).write H = .error e →
      (Encoded.newUniform (N := N) H d).sim = .ok (.error e)) := by
  have hem := emulate_of_sim hg
  refine ⟨by rw [Encoded.new, Syn.sim_bind_ok hg]; rfl, ?_, ?_⟩
  · intro es h
    obtain ⟨hl, -⟩ := write_wires hN h
    have hp : padded N H.suffix (H.write g) = .ok es := h
    have hlen : es.length = N := by
      rw [padded_eq hN, if_pos hl] at hp
      cases hp
      exact headerEncoding_length hN _ _ _ hl
    refine ⟨⟨es.map fun e => ⟨e.value, e.value⟩⟩, ?_, by simpa using hlen,
      es.map fun e => ⟨e.value, e.value⟩, ?_, by simp, ?_⟩
    · rw [Encoded.newUniform, hem]
      show (match padded N H.suffix (H.write g) with
        | .error e => (pure (.error e) : Syn F (Except Err (Encoded F Out N)))
        | .ok vs => _).sim = _
      rw [hp]
      show (pipeAll es >>= _).sim = _
      rw [Syn.sim_bind_ok (pipeAll_sim es)]
      have : FixedVec.tryFrom N (es.map fun e => (⟨e.value, e.value⟩ : Element F)) =
          .ok ⟨es.map fun e => ⟨e.value, e.value⟩⟩ := by
        rw [FixedVec.tryFrom, if_neg (by simpa using hlen)]
      rw [this]
      rfl
    · rw [Encoded.write, FixedVec.intoInner, if_pos (by simpa using hlen)]
    · intro e he
      obtain ⟨x, -, rfl⟩ := List.mem_map.1 he
      rfl
  · intro e h
    have hp : padded N H.suffix (H.write g) = .error e := h
    rw [Encoded.newUniform, hem]
    show (match padded N H.suffix (H.write g) with
        | .error e => (pure (.error e) : Syn F (Except Err (Encoded F Out N)))
        | .ok vs => _).sim = _
    rw [hp]
    rfl

example : (Encoded.gadget [⟨3, 3⟩, ⟨5, 5⟩] : Encoded (ZMod 97) _ 4).write
      (listHeader (ZMod 97) (Suffix.new 7)) =
    .ok [⟨3, 3⟩, ⟨5, 5⟩, Element.zero, Element.constant 9] := by decide +kernel
example : ((listHeader (ZMod 97) (Suffix.new 7)).encode [3, 5]).sim = .ok [⟨3, 3⟩, ⟨5, 5⟩] := by
  decide +kernel
-- one element too many
example : (Encoded.gadget [⟨3, 3⟩, ⟨5, 5⟩] : Encoded (ZMod 97) _ 2).write
      (listHeader (ZMod 97) (Suffix.new 7)) = .error .malformedEncoding := by decide +kernel

end Ragu.Props

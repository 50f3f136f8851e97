/-
Properties C53, C55 and C62: the step adapter, rerandomization, and the public inputs of internal
and application circuits.
-/
import Verif.Props.Header

set_option linter.unusedSectionVars false

namespace Ragu.Props
open Ragu Ragu.Pcd Ragu.Gadget Finset
variable {F : Type} [Field F] [DecidableEq F] {N : ℕ}

/-! ### C62: the adapter -/

/-- An encoded header as the API produces it: a uniform encoding holds `N` elements (C58). -/
def EncodedOk {Out : Type} : Encoded F Out N → Prop
  | .gadget _ => True
  | .uniform v => v.v.length = N

theorem write_length {Data Out : Type} (hN : 0 < N) {H : Header F Data Out} {e : Encoded F Out N}
    (he : EncodedOk e) {es : List (Element F)} (h : e.write H = .ok es) : es.length = N := by
  rcases e with g | v
  · obtain ⟨hl, hw⟩ := write_wires hN h
    have := congrArg List.length hw
    rwa [List.length_map, headerEncoding_length hN _ _ _ (by simpa using hl)] at this
  · have he : v.v.length = N := he
    rw [Encoded.write, FixedVec.intoInner, if_pos he] at h
    cases h
    exact he

theorem finishAdapter {Out1 Out2 Out3 D1 D2 D3 : Type} (hN : 0 < N) {HL : Header F D1 Out1}
    {HR : Header F D2 Out2} {HO : Header F D3 Out3} {l : Encoded F Out1 N} {r : Encoded F Out2 N}
    {o : Encoded F Out3 N} (hl : EncodedOk l) (hr : EncodedOk r) (ho : EncodedOk o) (data : D3)
    {ls rs os : List (Element F)} (h1 : l.write HL = .ok ls) (h2 : r.write HR = .ok rs)
    (h3 : o.write HO = .ok os) :
    adapterFinish HL HR HO l r o data =
      .ok ⟨ls ++ rs ++ os, ls.map (·.value), rs.map (·.value), data⟩ := by
  have l1 := write_length hN hl h1
  have l2 := write_length hN hr h2
  have l3 := write_length hN ho h3
  rw [adapterFinish, h1, h2, h3]
  simp only [bind, Except.bind]
  have e1 : (ls ++ rs ++ os).take N = ls := by
    rw [List.append_assoc, ← l1, List.take_left']; rfl
  have e2 : ((ls ++ rs ++ os).drop N).take N = rs := by
    rw [List.append_assoc, List.drop_left' l1, ← l2, List.take_left']; rfl
  rw [e1, e2, FixedVec.collectFixed, FixedVec.tryFrom, if_neg (by simpa using l1)]
  simp only
  rw [FixedVec.collectFixed, FixedVec.tryFrom, if_neg (by simpa using l2)]
  simp only
  rw [FixedVec.tryFrom, if_neg (by simp [l1, l2, l3]; omega)]

/-- C62: the circuit of a step publishes the left, right and output headers, in that order,
`3 * HEADER_SIZE` elements in all, and records exactly the values of the published left and right
headers. It succeeds exactly when the three headers fit. -/
theorem C62_adapter {Out1 Out2 Out3 D1 D2 D3 : Type} (hN : 0 < N) (HL : Header F D1 Out1)
    (HR : Header F D2 Out2) (HO : Header F D3 Out3) {l : Encoded F Out1 N} {r : Encoded F Out2 N}
    {o : Encoded F Out3 N} (hl : EncodedOk l) (hr : EncodedOk r) (ho : EncodedOk o) (data : D3)
    (out : AdapterOut F D3) :
    adapterFinish HL HR HO l r o data = .ok out ↔
    ∃ ls rs os, l.write HL = .ok ls ∧ r.write HR = .ok rs ∧ o.write HO = .ok os ∧
      ls.length = N ∧ rs.length = N ∧ os.length = N ∧ out.output = ls ++ rs ++ os ∧
      out.left = ls.map (·.value) ∧ out.right = rs.map (·.value) ∧ out.data = data := by
  constructor
  · intro h
    rcases e1 : l.write HL with e | ls
    · rw [adapterFinish, e1] at h; cases h
    rcases e2 : r.write HR with e | rs
    · rw [adapterFinish, e1, e2] at h; cases h
    rcases e3 : o.write HO with e | os
    · rw [adapterFinish, e1, e2, e3] at h; cases h
    rw [finishAdapter hN hl hr ho data e1 e2 e3] at h
    cases h
    exact ⟨ls, rs, os, rfl, rfl, rfl, write_length hN hl e1, write_length hN hr e2,
      write_length hN ho e3, rfl, rfl, rfl, rfl⟩
  · rintro ⟨ls, rs, os, h1, h2, h3, -, -, -, h4, h5, h6, h7⟩
    rw [finishAdapter hN hl hr ho data h1 h2 h3, ← h4, ← h5, ← h6, ← h7]

/-- C62: if a header does not fit, the circuit reports it, the left header first. -/
theorem C62_adapter_errors {Out1 Out2 Out3 D1 D2 D3 : Type} (HL : Header F D1 Out1)
    (HR : Header F D2 Out2) (HO : Header F D3 Out3) {l : Encoded F Out1 N} {r : Encoded F Out2 N}
    {o : Encoded F Out3 N} (data : D3) (e : Err) :
    (l.write HL = .error e → adapterFinish HL HR HO l r o data = .error e) ∧
    (∀ ls, l.write HL = .ok ls → r.write HR = .error e →
      adapterFinish HL HR HO l r o data = .error e) ∧
    (∀ ls rs, l.write HL = .ok ls → r.write HR = .ok rs → o.write HO = .error e →
      adapterFinish HL HR HO l r o data = .error e) := by
  refine ⟨fun h => ?_, fun ls h h' => ?_, fun ls rs h h' h'' => ?_⟩
  · rw [adapterFinish, h]; rfl
  · rw [adapterFinish, h, h']; rfl
  · rw [adapterFinish, h, h', h'']; rfl

/-- The trivial header has no data. -/
def unitEncoding (F : Type) [Field F] (N : ℕ) : List F := headerEncoding N 0 1 []

theorem unit_write (hN : 0 < N) : ∃ es : List (Element F),
    (Encoded.gadget () : Encoded F Unit N).write Header.unit = .ok es ∧ es.length = N ∧
    es.map (·.wire) = unitEncoding F N ∧ es.map (·.value) = unitEncoding F N := by
  obtain ⟨es, h1, h2, h3, h4⟩ := (C39_encode (F := F) (N := N) hN Header.unit ()).1 (Nat.zero_le _)
  refine ⟨es, h1, h2, ?_, ?_⟩
  · rw [h3]; simp [Header.unit, Suffix.get, unitEncoding]
  · rw [h4]; simp [Header.unit, Suffix.get, unitEncoding]

/-- C62: the trivial step publishes three trivial headers and allocates nothing that could differ. -/
theorem C62_trivial (hN : 0 < N) (r : Except Err (AdapterOut F Unit)) :
    (trivialStep (F := F) N).sat r ↔ ∃ out, r = .ok out ∧ (trivialStep (F := F) N).sim = .ok r ∧
      out.output.map (·.wire) = unitEncoding F N ++ unitEncoding F N ++ unitEncoding F N := by
  obtain ⟨es, h1, h2, h3, h4⟩ := unit_write (F := F) hN
  have hf := finishAdapter (N := N) hN (HL := Header.unit) (HR := Header.unit) (HO := Header.unit)
    (l := .gadget ()) (r := .gadget ()) (o := .gadget ()) trivial trivial trivial () h1 h1 h1
  have hs : trivialStep (F := F) N = .ret (adapterFinish Header.unit Header.unit Header.unit
    (.gadget () : Encoded F Unit N) (.gadget () : Encoded F Unit N)
    (.gadget () : Encoded F Unit N) ()) := rfl
  rw [hs, hf]
  constructor
  · intro h
    rw [Syn.sat_ret] at h
    subst h
    exact ⟨_, rfl, rfl, by simp [h3]⟩
  · rintro ⟨out, rfl, h, -⟩
    cases h
    rfl

/-! ### C55: rerandomization -/

/-- What is written when a header's data is encoded natively and padded. -/
theorem uniform_shape {Data Out : Type} (hN : 0 < N) {H : Header F Data Out} {d : Data} {g : Out}
    (hg : emulate (H.encode d) = .ok g) (hfit : (H.write g).length ≤ N - 1) :
    ∃ vs : List (Element F), vs.length = N ∧
      vs.map (·.value) = headerEncoding N 0 (H.suffix.get : F) ((H.write g).map (·.value)) ∧
      Encoded.newUniform (N := N) H d = (pipeAll vs >>= fun raw =>
        pure (do let v ← FixedVec.tryFrom N raw
                 .ok (.uniform v))) := by
  refine ⟨headerEncoding N Element.zero (Element.constant (H.suffix.get : F)) (H.write g),
    headerEncoding_length hN _ _ _ hfit, ?_, ?_⟩
  · rw [headerEncoding_map, Element.zero_value, Element.constant_value]
  · rw [Encoded.newUniform, hg]
    show (match padded N H.suffix (H.write g) with
      | .error e => (pure (.error e) : Syn F (Except Err (Encoded F Out N)))
      | .ok vs => _) = _
    rw [padded_eq hN, if_pos hfit]

/-- The rest of the rerandomization circuit, once the left header is allocated. -/
def rerandomizeRest {Data Out : Type} (N : ℕ) (H : Header F Data Out) (data : Data)
    (raw : List (Element F)) : Except Err (AdapterOut F Data) := do
  let v ← FixedVec.tryFrom N raw
  adapterFinish H Header.unit H (.uniform v) (.gadget () : Encoded F Unit N) (.uniform v) data

theorem bind_assoc_syn {α β γ : Type} : ∀ (x : Syn F α) (f : α → Syn F β) (g : β → Syn F γ),
    (x.bind f).bind g = x.bind fun a => (f a).bind g
  | .ret a, f, g => rfl
  | .gate w k, f, g => by
    simp only [Syn.bind]
    congr 1
    funext a b c d
    exact bind_assoc_syn _ _ _
  | .alloc w k, f, g => by
    simp only [Syn.bind]
    congr 1
    funext a
    exact bind_assoc_syn _ _ _
  | .enforce v k, f, g => by
    simp only [Syn.bind]; rw [bind_assoc_syn]
  | .check e k, f, g => by
    simp only [Syn.bind]; rw [bind_assoc_syn]
  | .panic, f, g => rfl

theorem rerandomize_eq {Data Out : Type} (hN : 0 < N) {H : Header F Data Out} {d : Data} {g : Out}
    (hg : emulate (H.encode d) = .ok g) (hfit : (H.write g).length ≤ N - 1) :
    ∃ vs : List (Element F), vs.length = N ∧
      vs.map (·.value) = headerEncoding N 0 (H.suffix.get : F) ((H.write g).map (·.value)) ∧
      rerandomize N H d = (pipeAll vs).bind fun raw => .ret (rerandomizeRest N H d raw) := by
  obtain ⟨vs, h1, h2, h3⟩ := uniform_shape (N := N) hN hg hfit
  refine ⟨vs, h1, h2, ?_⟩
  rw [rerandomize, h3]
  show ((pipeAll vs).bind _).bind _ = _
  rw [bind_assoc_syn]
  congr 1
  funext raw
  rw [rerandomizeRest]
  rcases FixedVec.tryFrom N raw with e | v <;> rfl

theorem rerandomizeRest_eq {Data Out : Type} (hN : 0 < N) (H : Header F Data Out) (d : Data)
    {raw : List (Element F)} (hl : raw.length = N) : ∃ us : List (Element F),
    us.map (·.wire) = unitEncoding F N ∧ us.map (·.value) = unitEncoding F N ∧
    rerandomizeRest N H d raw =
      .ok ⟨raw ++ us ++ raw, raw.map (·.value), us.map (·.value), d⟩ := by
  obtain ⟨us, h1, -, h3, h4⟩ := unit_write (F := F) hN
  refine ⟨us, h3, h4, ?_⟩
  rw [rerandomizeRest, FixedVec.tryFrom, if_neg (by simp [hl])]
  have hw : (Encoded.uniform ⟨raw⟩ : Encoded F Out N).write H = .ok raw := by
    rw [Encoded.write, FixedVec.intoInner, if_pos hl]
  exact finishAdapter hN (HL := H) (HR := Header.unit) (HO := H) (l := .uniform ⟨raw⟩)
    (r := .gadget ()) (o := .uniform ⟨raw⟩) hl trivial hl d hw h1 hw

/-- C55: rerandomizing carries the data over unchanged; the published left and output headers are
both the encoding of the input's header, and the right header is the trivial one. -/
theorem C55_data {Data Out : Type} (hN : 0 < N) {H : Header F Data Out} {d : Data} {g : Out}
    (hg : emulate (H.encode d) = .ok g) (hfit : (H.write g).length ≤ N - 1) :
    ∃ out, (rerandomize N H d).sim = .ok (.ok out) ∧ out.data = d ∧
      out.left = headerEncoding N 0 (H.suffix.get : F) ((H.write g).map (·.value)) ∧
      out.right = unitEncoding F N ∧
      out.output.map (·.wire) = out.left ++ out.right ++ out.left := by
  obtain ⟨vs, h1, h2, h3⟩ := rerandomize_eq (N := N) hN hg hfit
  obtain ⟨us, u1, u2, u3⟩ := rerandomizeRest_eq (N := N) hN H d
    (raw := vs.map fun e => ⟨e.value, e.value⟩) (by simpa using h1)
  have hv : (vs.map fun e => (⟨e.value, e.value⟩ : Element F)).map (·.value) = vs.map (·.value) := by
    simp
  have hw : (vs.map fun e => (⟨e.value, e.value⟩ : Element F)).map (·.wire) = vs.map (·.value) := by
    simp
  set raw := vs.map fun e => (⟨e.value, e.value⟩ : Element F)
  refine ⟨⟨raw ++ us ++ raw, raw.map (·.value), us.map (·.value), d⟩, ?_, rfl, ?_, u2, ?_⟩
  · rw [h3]
    show (pipeAll vs >>= fun raw => (.ret (rerandomizeRest N H d raw) : Syn F _)).sim = _
    rw [Syn.sim_bind_ok (pipeAll_sim vs), u3]
    rfl
  · rw [hv, h2]
  · rw [List.map_append, List.map_append, hw, hv, u1, u2]

/-- C55: as a relation, the rerandomization circuit says exactly that the output header equals the
left header, whatever that is, and that the right header is trivial. -/
theorem C55_relation {Data Out : Type} (hN : 0 < N) {H : Header F Data Out} {d : Data} {g : Out}
    (hg : emulate (H.encode d) = .ok g) (hfit : (H.write g).length ≤ N - 1) (ws : List F) :
    (∃ out, (rerandomize N H d).sat (.ok out) ∧ out.output.map (·.wire) = ws) ↔
    ∃ h : List F, h.length = N ∧ ws = h ++ unitEncoding F N ++ h := by
  obtain ⟨vs, h1, h2, h3⟩ := rerandomize_eq (N := N) hN hg hfit
  have hsat : ∀ r, (rerandomize N H d).sat r ↔
      ∃ raw, (pipeAll vs).sat raw ∧ r = rerandomizeRest N H d raw := by
    intro r
    rw [h3]
    show (pipeAll vs >>= fun raw => (.ret (rerandomizeRest N H d raw) : Syn F _)).sat r ↔ _
    rw [Syn.sat_bind]
    simp only [Syn.sat_ret]
  constructor
  · rintro ⟨out, ho, rfl⟩
    obtain ⟨raw, hr, he⟩ := (hsat _).1 ho
    have hl : raw.length = N := by
      have := congrArg List.length (pipeAll_sat.1 hr)
      simpa [h1] using this
    obtain ⟨us, u1, -, u3⟩ := rerandomizeRest_eq (N := N) hN H d hl
    rw [u3] at he
    cases he
    exact ⟨raw.map (·.wire), by simpa using hl, by simp [u1]⟩
  · rintro ⟨h, hl, rfl⟩
    let raw : List (Element F) := List.zipWith (fun w e => ⟨w, e.value⟩) h vs
    have hz : ∀ (a : List F) (b : List (Element F)), a.length = b.length →
        (List.zipWith (fun w e => (⟨w, e.value⟩ : Element F)) a b).map (·.wire) = a ∧
        (List.zipWith (fun w e => (⟨w, e.value⟩ : Element F)) a b).map (·.value) =
          b.map (·.value) := by
      intro a
      induction a with
      | nil => intro b hb; rcases b with _ | ⟨x, b⟩ <;> simp at hb ⊢
      | cons x a ih =>
        intro b hb
        rcases b with _ | ⟨y, b⟩
        · simp at hb
        · obtain ⟨i1, i2⟩ := ih b (by simpa using hb)
          simp [i1, i2]
    obtain ⟨r1, r2⟩ := hz h vs (by rw [hl, h1])
    have hrl : raw.length = N := by
      have := congrArg List.length r1
      simpa [raw, hl] using this
    obtain ⟨us, u1, -, u3⟩ := rerandomizeRest_eq (N := N) hN H d hrl
    refine ⟨⟨raw ++ us ++ raw, raw.map (·.value), us.map (·.value), d⟩,
      (hsat _).2 ⟨raw, pipeAll_sat.2 r2, u3.symm⟩, ?_⟩
    rw [List.map_append, List.map_append, u1]
    rw [show raw.map (·.wire) = h from r1]

/-- Two pieces of gadget code make the same calls on the driver, with the same constraints, however
the wires are assigned; the witness values may differ. -/
def SameCircuit {α β : Type} (R : α → β → Prop) : Syn F α → Syn F β → Prop
  | .ret a, .ret b => R a b
  | .gate _ k, .gate _ k' => ∀ a b c d, SameCircuit R (k a b c d) (k' a b c d)
  | .alloc _ k, .alloc _ k' => ∀ v, SameCircuit R (k v) (k' v)
  | .enforce v k, .enforce v' k' => v = v' ∧ SameCircuit R k k'
  | _, _ => False

theorem pipeAll_same {α β : Type} (R : α → β → Prop) : ∀ (vs vs' : List (Element F))
    (f : List (Element F) → Syn F α) (f' : List (Element F) → Syn F β), vs.length = vs'.length →
    (∀ r r' : List (Element F), r.length = vs.length → r.map (·.wire) = r'.map (·.wire) →
      SameCircuit R (f r) (f' r')) →
    SameCircuit R ((pipeAll vs).bind f) ((pipeAll vs').bind f')
  | [], [], f, f', _, h => h [] [] rfl rfl
  | [], _ :: _, _, _, hl, _ => by simp at hl
  | _ :: _, [], _, _, hl, _ => by simp at hl
  | v :: vs, v' :: vs', f, f', hl, h => by
    intro w
    have := pipeAll_same R vs vs' (fun r => f (⟨w, v.value⟩ :: r)) (fun r => f' (⟨w, v'.value⟩ :: r))
      (by simpa using hl) fun r r' hr hrr => h _ _ (by simp [hr]) (by simp [hrr])
    have e : ∀ (γ : Type) (us : List (Element F)) (x : Element F) (q : List (Element F) → Syn F γ),
        ((pipeAll us).bind fun r => q (x :: r)) =
        ((pipeAll us).bind fun r => .ret (x :: r)).bind q := by
      intro γ us x q
      rw [bind_assoc_syn]
      rfl
    show SameCircuit R (((pipeAll vs).bind fun r => .ret (⟨w, v.value⟩ :: r)).bind f)
      (((pipeAll vs').bind fun r => .ret (⟨w, v'.value⟩ :: r)).bind f')
    rw [← e α vs _ f, ← e β vs' _ f']
    exact this

/-- C55: the rerandomization circuit is the same circuit for every header type and all data: the
same gates, allocations and constraints, and the same published wires. -/
theorem C55_same_circuit {Data Out Data' Out' : Type} (hN : 0 < N) {H : Header F Data Out}
    {H' : Header F Data' Out'} {d : Data} {d' : Data'} {g : Out} {g' : Out'}
    (hg : emulate (H.encode d) = .ok g) (hfit : (H.write g).length ≤ N - 1)
    (hg' : emulate (H'.encode d') = .ok g') (hfit' : (H'.write g').length ≤ N - 1) :
    SameCircuit (fun r r' => ∃ o o', r = .ok o ∧ r' = .ok o' ∧
        o.output.map (·.wire) = o'.output.map (·.wire))
      (rerandomize N H d) (rerandomize N H' d') := by
  obtain ⟨vs, h1, h2, h3⟩ := rerandomize_eq (N := N) hN hg hfit
  obtain ⟨vs', h1', h2', h3'⟩ := rerandomize_eq (N := N) hN hg' hfit'
  rw [h3, h3']
  refine pipeAll_same _ vs vs' _ _ (by rw [h1, h1']) fun r r' hr hrr => ?_
  have hr' : r'.length = N := by
    have := congrArg List.length hrr
    simp only [List.length_map] at this
    omega
  obtain ⟨us, u1, -, u3⟩ := rerandomizeRest_eq (N := N) hN H d (hr.trans h1)
  obtain ⟨us', u1', -, u3'⟩ := rerandomizeRest_eq (N := N) hN H' d' hr'
  exact ⟨_, _, u3, u3', by simp [hrr, u1, u1']⟩

-- a header of two elements and one of none, rerandomized with four places
example : emulate ((listHeader (ZMod 97) (Suffix.new 7)).encode [3, 5]) = .ok [⟨3, 3⟩, ⟨5, 5⟩] ∧
    emulate ((Header.unit (F := ZMod 97)).encode ()) = .ok () := by decide +kernel
example : (rerandomize 4 (listHeader (ZMod 97) (Suffix.new 7)) [3, 5]).sim.map
      (fun r => r.map fun o => (o.output.map (·.wire), o.data)) =
    .ok (.ok ([3, 5, 0, 9, 0, 0, 0, 1, 3, 5, 0, 9], [3, 5])) := by decide +kernel

/-! ### C53: internal and application public inputs -/

section
open Polynomial

/-- The public-input polynomial: the elements of the instance in order, the last one with degree
one, and constant term one. -/
noncomputable def kyPoly (inst : List F) : F[X] :=
  1 + ∑ i ∈ range inst.length, C (inst.getD i 0) * X ^ (inst.length - i)

theorem kyPoly_eval (inst : List F) (y : F) : (kyPoly inst).eval y = Ky.kyEval inst y := by
  rw [C21_ky, kyPoly, add_comm]
  simp [Polynomial.eval_finsetSum]

theorem kyPoly_linear (xs : List F) (s : F) : (kyPoly (xs ++ [s])).coeff 1 = s := by
  rw [kyPoly, coeff_add, Polynomial.coeff_one, if_neg (by decide), zero_add, Polynomial.finsetSum_coeff,
    sum_eq_single xs.length]
  · simp [coeff_C_mul, coeff_X_pow]
  · intro i hi hne
    have := mem_range.1 hi
    simp only [List.length_append, List.length_cons, List.length_nil] at this
    rw [coeff_C_mul, coeff_X_pow, if_neg (by simp; omega), mul_zero]
  · intro h
    exact absurd (mem_range.2 (by simp)) h

theorem kyPoly_degree (inst : List F) : (kyPoly inst).natDegree ≤ inst.length := by
  refine (natDegree_add_le _ _).trans (max_le (by simp) ?_)
  refine natDegree_sum_le_of_forall_le _ _ fun i hi => ?_
  exact (natDegree_C_mul_X_pow_le _ _).trans (Nat.sub_le _ _)

/-- C53: the public-input polynomial of an internal circuit, whose instance ends in zero, has no
linear term; that of an application circuit has the header's suffix as its linear coefficient. -/
theorem C53_linear (internal left right data : List F) (suffix : F) (N : ℕ) :
    (∀ y, Ky.kyEval (internal ++ [0]) y = (kyPoly (internal ++ [0])).eval y) ∧
    (kyPoly (internal ++ [0])).coeff 1 = 0 ∧
    (∀ y, Ky.kyEval (left ++ right ++ headerEncoding N 0 suffix data) y =
      (kyPoly (left ++ right ++ headerEncoding N 0 suffix data)).eval y) ∧
    (kyPoly (left ++ right ++ headerEncoding N 0 suffix data)).coeff 1 = suffix := by
  refine ⟨fun y => (kyPoly_eval _ _).symm, kyPoly_linear _ _, fun y => (kyPoly_eval _ _).symm, ?_⟩
  rw [headerEncoding, ← List.append_assoc]
  exact kyPoly_linear _ _

/-- C53: an instance ending in zero and one ending in a non-zero suffix have public-input
polynomials that agree in at most as many points as the longer instance has elements. -/
theorem C53_separated (internal left right data : List F) {suffix : F} (hs : suffix ≠ 0) (N : ℕ)
    (S : Finset F) :
    (S.filter fun y => Ky.kyEval (internal ++ [0]) y =
      Ky.kyEval (left ++ right ++ headerEncoding N 0 suffix data) y).card ≤
    max (internal.length + 1) (left ++ right ++ headerEncoding N 0 suffix data).length := by
  set a := internal ++ [0]
  set b := left ++ right ++ headerEncoding N 0 suffix data
  have hne : kyPoly a - kyPoly b ≠ 0 := by
    intro h
    have h1 := congrArg (fun p => p.coeff 1) h
    simp only [coeff_sub, coeff_zero] at h1
    obtain ⟨-, e1, -, e2⟩ := C53_linear internal left right data suffix N
    rw [e1, e2, zero_sub, neg_eq_zero] at h1
    exact hs h1
  have hd : (kyPoly a - kyPoly b).natDegree ≤ max (internal.length + 1) b.length := by
    refine (natDegree_sub_le _ _).trans (max_le_max ?_ (kyPoly_degree b))
    simpa [a] using kyPoly_degree a
  refine le_trans ?_ ((Polynomial.card_roots' _).trans hd)
  refine le_trans (Finset.card_le_card (t := (kyPoly a - kyPoly b).roots.toFinset) ?_)
    (Multiset.toFinset_card_le _)
  intro y hy
  rw [Multiset.mem_toFinset, mem_roots hne, IsRoot, eval_sub, kyPoly_eval, kyPoly_eval,
    (mem_filter.1 hy).2, sub_self]

/-- C53: so, over a field with more elements than the instances, they are equal at every point only
if the suffix is zero, which no header of the API has. -/
theorem C53_equal_only_if_zero (internal left right data : List F) (suffix : F) (N : ℕ) (S : Finset F)
    (hS : max (internal.length + 1) (left ++ right ++ headerEncoding N 0 suffix data).length < S.card)
    (h : ∀ y ∈ S, Ky.kyEval (internal ++ [0]) y =
      Ky.kyEval (left ++ right ++ headerEncoding N 0 suffix data) y) : suffix = 0 := by
  by_contra hs
  have := C53_separated internal left right data hs N S
  rw [Finset.filter_true_of_mem h] at this
  omega

end

/-- C53: no header's suffix is zero as a field element: an application suffix has a label of at
least two, and the trivial header has one. -/
theorem C53_suffix_nonzero {s : Suffix} (hF : ∀ a b : ℕ, a < 2 ^ 64 → b < 2 ^ 64 →
      (a : F) = (b : F) → a = b)
    (hs : Suffix.Valid s) (hs' : Suffix.Safe s) (hne : s ≠ .internal 0) : (s.get : F) ≠ 0 := by
  have := C40_field_labels (F := F) (t := .internal 0) hF hs (by show 0 < 2; decide) hs' trivial hne
  simpa [Suffix.get] using this

theorem ky_state (y : F) (xs : List F) : xs.foldl (Ky.write y) none = Ky.writeAll y xs := rfl

/-- C53: the recursion circuits compute exactly these values for a child proof: `k(y)` of the
unified instance and a zero, of the unified instance followed by the child's headers and a zero,
and of the three headers of the application circuit. -/
theorem C53_in_circuit (p : ProofInputs F) (y : Element F) :
    (∀ r, (p.unifiedKyValues y).sat r →
      r.1.wire = Ky.kyEval (p.unified.map (·.wire) ++ [0]) y.wire ∧
      r.2.wire = Ky.kyEval (p.unified.map (·.wire) ++ (p.left.map (·.wire) ++ p.right.map (·.wire)) ++
        [0]) y.wire) ∧
    (∀ r, (p.applicationKy y).sat r → r.wire =
      Ky.kyEval (p.left.map (·.wire) ++ p.right.map (·.wire) ++ p.output.map (·.wire)) y.wire) := by
  constructor
  · intro r h
    rw [ProofInputs.unifiedKyValues] at h
    simp only [Syn.sat_bind] at h
    obtain ⟨ky, h1, a, h2, a', h3, b1, h4, b2, h5, b3, h6, b', h7, h8⟩ := h
    rw [Syn.sat_pure] at h8
    subst h8
    have e1 := (Horner.writeAll_sat h1).1
    have e2 := (Horner.write_sat h2).1
    have e3 := (Horner.finishKy_sat h3).1
    have e4 := (Horner.writeAll_sat h4).1
    have e5 := (Horner.writeAll_sat h5).1
    have e6 := (Horner.write_sat h6).1
    have e7 := (Horner.finishKy_sat h7).1
    rw [Element.zero_wire] at e2 e6
    refine ⟨?_, ?_⟩
    · show a'.wire = _
      rw [e3, e2, e1, Ky.kyEval, Ky.writeAll, List.foldl_append]
      rfl
    · show b'.wire = _
      rw [e7, e6, e5, e4, e1, Ky.kyEval, Ky.writeAll, List.foldl_append, List.foldl_append,
        List.foldl_append]
      rfl
  · intro r h
    rw [ProofInputs.applicationKy] at h
    simp only [Syn.sat_bind] at h
    obtain ⟨b1, h1, b2, h2, b3, h3, h4⟩ := h
    have e1 := (Horner.writeAll_sat h1).1
    have e2 := (Horner.writeAll_sat h2).1
    have e3 := (Horner.writeAll_sat h3).1
    rw [(Horner.finishKy_sat h4).1, e3, e2, e1, Ky.kyEval, Ky.writeAll, List.foldl_append,
      List.foldl_append]
    rfl

/-- C53: with honest inputs these computations never fail. -/
theorem C53_in_circuit_complete (p : ProofInputs F) {y : Element F} (hy : y.Honest)
    (hl : ∀ e ∈ p.left, e.Honest) (hr : ∀ e ∈ p.right, e.Honest) (ho : ∀ e ∈ p.output, e.Honest)
    (hu : ∀ e ∈ p.unified, e.Honest) :
    (∃ r, (p.unifiedKyValues y).sim = .ok r ∧ r.1.Honest ∧ r.2.Honest) ∧
    (∃ r, (p.applicationKy y).sim = .ok r ∧ r.Honest) := by
  have h0 : Horner.HonestState (none : Option (Element F)) := fun e he => by cases he
  have hz : (Element.zero : Element F).Honest := by
    show (Element.zero : Element F).value = (Element.zero : Element F).wire
    rw [Element.zero_value, Element.zero_wire]
  constructor
  · obtain ⟨s1, a1, b1⟩ := Horner.writeAll_sim hy h0 hu
    obtain ⟨s2, a2, b2⟩ := Horner.write_sim hy b1 hz
    obtain ⟨s3, a3, b3⟩ := Horner.finishKy_sim hy b2
    obtain ⟨s4, a4, b4⟩ := Horner.writeAll_sim hy b1 hl
    obtain ⟨s5, a5, b5⟩ := Horner.writeAll_sim hy b4 hr
    obtain ⟨s6, a6, b6⟩ := Horner.write_sim hy b5 hz
    obtain ⟨s7, a7, b7⟩ := Horner.finishKy_sim hy b6
    refine ⟨(s3, s7), ?_, b3, b7⟩
    rw [ProofInputs.unifiedKyValues, Syn.sim_bind_ok a1, Syn.sim_bind_ok a2, Syn.sim_bind_ok a3,
      Syn.sim_bind_ok a4, Syn.sim_bind_ok a5, Syn.sim_bind_ok a6, Syn.sim_bind_ok a7]
    rfl
  · obtain ⟨s1, a1, b1⟩ := Horner.writeAll_sim hy h0 hl
    obtain ⟨s2, a2, b2⟩ := Horner.writeAll_sim hy b1 hr
    obtain ⟨s3, a3, b3⟩ := Horner.writeAll_sim hy b2 ho
    obtain ⟨s4, a4, b4⟩ := Horner.finishKy_sim hy b3
    exact ⟨s4, by rw [ProofInputs.applicationKy, Syn.sim_bind_ok a1, Syn.sim_bind_ok a2,
      Syn.sim_bind_ok a3, a4], b4⟩

example : (ProofInputs.applicationKy (F := ZMod 97)
      ⟨[⟨1, 1⟩], [⟨2, 2⟩], [⟨3, 3⟩], ⟨0, 0⟩, []⟩ ⟨10, 10⟩).sim.map (·.wire) =
    .ok (Ky.kyEval [1, 2, 3] 10) := by decide +kernel
example : (3 : ZMod 97) ≠ 0 ∧ Ky.kyEval ([4, 5, 0] : List (ZMod 97)) 2 ≠
    Ky.kyEval ([4] ++ [5] ++ headerEncoding 1 0 3 []) 2 := by decide +kernel

end Ragu.Props

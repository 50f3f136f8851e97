/-
Property C84: what all gadgets can do, and what the derive macros generate.
-/
import Verif.Spec.Tree
import Verif.Lemmas.Size
import Verif.Lemmas.Gadget.Element

set_option linter.unusedSectionVars false

namespace Ragu.Props
open Ragu Ragu.Circuit Ragu.Spec Ragu.Gadget
variable {S W W' W'' V : Type}

theorem convertAll_append (wm : WireMap S W W') (l l' : List W) (s : S) :
    convertAll wm (l ++ l') s = match convertAll wm l s with
      | (s', .error e) => (s', .error e)
      | (s', .ok r) => match convertAll wm l' s' with
        | (s'', .error e) => (s'', .error e)
        | (s'', .ok r') => (s'', .ok (r ++ r')) := by
  induction l generalizing s with
  | nil =>
    rw [List.nil_append]
    simp only [convertAll]
    rcases convertAll wm l' s with ⟨s', e | r⟩ <;> rfl
  | cons w l ih =>
    rw [List.cons_append, convertAll, convertAll]
    rcases wm w s with ⟨s', e | w'⟩
    · rfl
    · simp only [ih]
      rcases convertAll wm l s' with ⟨s1, e | r⟩
      · rfl
      · simp only
        rcases convertAll wm l' s1 with ⟨s2, e | r'⟩ <;> rfl

/-- C84: mapping a gadget to another driver converts every wire exactly once, in the order of the
fields, with the state of the map passed on from wire to wire. If a conversion fails, mapping fails with
its error, and the map is in the state in which that left it. Otherwise the result has the same fields
and the converted wires; it has the witness values of the original if the destination has witnesses, and
none if not. -/
theorem C84_map {src has : Bool} (wm : WireMap S W W') {t : Tree W V} (ht : Over src t)
    (hs : has = true → src = true) (s : S) :
    (t.mapGadget wm has s).1 = (convertAll wm (wiresOf t) s).1 ∧
    match (convertAll wm (wiresOf t) s).2 with
    | .error e => (t.mapGadget wm has s).2 = .error e
    | .ok ws => ∃ t', (t.mapGadget wm has s).2 = .ok t' ∧ SameKind t t' ∧ wiresOf t' = ws ∧
        Over has t' ∧ valuesOf t' = if has then valuesOf t else (valuesOf t).map fun _ => none := by
  induction t generalizing src has s with
  | unit => exact ⟨rfl, .unit, rfl, trivial, rfl, trivial, by cases has <;> rfl⟩
  | phantom => exact ⟨rfl, .phantom, rfl, trivial, rfl, trivial, by cases has <;> rfl⟩
  | wire w =>
    simp only [wiresOf, convertAll, Tree.mapGadget]
    rcases wm w s with ⟨s', e | w'⟩
    · exact ⟨rfl, rfl⟩
    · exact ⟨rfl, .wire w', rfl, trivial, rfl, trivial, by cases has <;> rfl⟩
  | value v =>
    simp only [wiresOf, convertAll, Tree.mapGadget, takeValue]
    cases has with
    | false => exact ⟨rfl, .value none, rfl, trivial, rfl, rfl, rfl⟩
    | true =>
      cases hs rfl
      obtain ⟨x, rfl⟩ := Option.isSome_iff_exists.1 ht
      exact ⟨rfl, .value (some x), rfl, trivial, rfl, rfl, rfl⟩
  | pair a b iha ihb =>
    have ha := iha ht.1 hs s
    simp only [wiresOf, convertAll_append, Tree.mapGadget]
    revert ha
    rcases convertAll wm (wiresOf a) s with ⟨s1, e | r⟩
    · rintro ⟨h1, h2⟩
      rcases hx : a.mapGadget wm has s with ⟨s2, x⟩
      rw [hx] at h1 h2
      cases h1; cases h2
      exact ⟨rfl, rfl⟩
    · rintro ⟨h1, t', h2, k1, k2, k3, k4⟩
      rcases hx : a.mapGadget wm has s with ⟨s2, x⟩
      rw [hx] at h1 h2
      cases h1; cases h2
      have hb := ihb ht.2 hs s1
      simp only
      revert hb
      rcases convertAll wm (wiresOf b) s1 with ⟨s4, e | r⟩
      · rintro ⟨h1, h2⟩
        rcases hx : b.mapGadget wm has s1 with ⟨s3, x⟩
        rw [hx] at h1 h2
        cases h1; cases h2
        exact ⟨rfl, rfl⟩
      · rintro ⟨h1, t'', h2, j1, j2, j3, j4⟩
        rcases hx : b.mapGadget wm has s1 with ⟨s3, x⟩
        rw [hx] at h1 h2
        cases h1; cases h2
        refine ⟨rfl, _, rfl, ⟨k1, j1⟩, by rw [wiresOf, k2, j2], ⟨k3, j3⟩, ?_⟩
        rw [valuesOf, valuesOf, k4, j4]
        cases has <;> simp
  | demoted t ih =>
    have h := ih (src := false) (has := false) ht (fun h => by cases h) s
    simp only [wiresOf, Tree.mapGadget]
    revert h
    rcases convertAll wm (wiresOf t) s with ⟨s1, e | r⟩
    · rintro ⟨h1, h2⟩
      rcases hx : t.mapGadget wm false s with ⟨s2, x⟩
      rw [hx] at h1 h2
      cases h1; cases h2
      exact ⟨rfl, rfl⟩
    · rintro ⟨h1, t', h2, k1, k2, k3, -⟩
      rcases hx : t.mapGadget wm false s with ⟨s2, x⟩
      rw [hx] at h1 h2
      cases h1; cases h2
      exact ⟨rfl, _, rfl, k1, k2, k3, by cases has <;> rfl⟩

theorem sameKind_lengths {t : Tree W V} {t' : Tree W' V} (h : SameKind t t') :
    (wiresOf t).length = (wiresOf t').length ∧ (valuesOf t).length = (valuesOf t').length := by
  induction t generalizing t' with
  | pair a b iha ihb =>
    cases t' <;> try exact h.elim
    simp only [wiresOf, valuesOf, List.length_append, iha h.1, ihb h.2, and_self]
  | demoted t ih =>
    cases t' <;> try exact h.elim
    exact ⟨(ih h).1, rfl⟩
  | _ => cases t' <;> first | exact h.elim | exact ⟨rfl, rfl⟩

theorem over_false_values {t : Tree W V} (h : Over false t) : ∀ v ∈ valuesOf t, v = none := by
  induction t with
  | value v =>
    intro x hx
    rw [valuesOf, List.mem_singleton] at hx
    subst hx
    exact Option.not_isSome_iff_eq_none.1 (by simpa [Over] using h)
  | pair a b iha ihb =>
    intro v hv
    rw [valuesOf, List.mem_append] at hv
    exact hv.elim (iha h.1 v) (ihb h.2 v)
  | _ => intro v hv; simp [valuesOf] at hv

/-- C84: the fields, the wires and the witness values determine a gadget. So C84_map says exactly what
mapping returns. -/
theorem C84_determined {has : Bool} {t t' : Tree W V} (hk : SameKind t t') (ht : Over has t)
    (ht' : Over has t') (hw : wiresOf t = wiresOf t') (hv : valuesOf t = valuesOf t') : t = t' := by
  induction t generalizing t' has with
  | unit => cases t' <;> first | exact hk.elim | rfl
  | phantom => cases t' <;> first | exact hk.elim | rfl
  | wire w =>
    cases t' <;> try exact hk.elim
    simp only [wiresOf, List.cons.injEq, and_true] at hw
    rw [hw]
  | value v =>
    cases t' <;> try exact hk.elim
    simp only [valuesOf, List.cons.injEq, and_true] at hv
    rw [hv]
  | pair a b iha ihb =>
    cases t' <;> try exact hk.elim
    obtain ⟨l1, l2⟩ := sameKind_lengths hk.1
    obtain ⟨w1, w2⟩ := List.append_inj hw l1
    obtain ⟨v1, v2⟩ := List.append_inj hv l2
    rw [iha hk.1 ht.1 ht'.1 w1 v1, ihb hk.2 ht.2 ht'.2 w2 v2]
  | demoted t ih =>
    cases t' <;> try exact hk.elim
    rename_i u
    refine congrArg _ (ih hk ht ht' hw ?_)
    have h1 := over_false_values (t := t) ht
    have h2 := over_false_values (t := u) ht'
    have hl := (sameKind_lengths hk).2
    rw [List.eq_replicate_of_mem h1, List.eq_replicate_of_mem h2]
    simp only [sameKind_lengths (t := t) (t' := u) hk]

theorem convertAll_pure (f : W → W') (l : List W) (s : S) :
    convertAll (fun w s => (s, .ok (f w))) l s = (s, .ok (l.map f)) := by
  induction l with
  | nil => rfl
  | cons w l ih => rw [convertAll]; simp only [ih, List.map_cons]

theorem convertAll_count (l : List W) (k : ℕ) :
    convertAll (fun _ (count : ℕ) => (count + 1, .ok ())) l k =
      (k + l.length, .ok (l.map fun _ => ())) := by
  induction l generalizing k with
  | nil => rfl
  | cons w l ih =>
    rw [convertAll]
    simp only [ih, List.map_cons, List.length_cons]
    rw [Nat.add_assoc, Nat.add_comm 1]

theorem convertAll_collect (l ws : List W) :
    convertAll (fun w (ws : List W) => (ws ++ [w], .ok ())) l ws =
      (ws ++ l, .ok (l.map fun _ => ())) := by
  induction l generalizing ws with
  | nil => rw [List.append_nil]; rfl
  | cons w l ih =>
    rw [convertAll]
    simp only [ih, List.map_cons, List.append_assoc, List.singleton_append]

/-- C84: `num_wires` is the number of wires, and `wires` lists them, in the order of the fields. -/
theorem C84_wires {src : Bool} {t : Tree W V} (ht : Over src t) :
    t.numWires = .ok (wiresOf t).length ∧ t.extract = .ok (wiresOf t) := by
  constructor
  · obtain ⟨h1, h2⟩ := C84_map (has := false) (fun _ (count : ℕ) => (count + 1, .ok ())) ht
      (fun h => by cases h) 0
    rw [convertAll_count] at h1 h2
    obtain ⟨t', h2, -⟩ := h2
    rw [Tree.numWires]
    rcases hx : t.mapGadget (fun _ (count : ℕ) => (count + 1, .ok ())) false 0 with ⟨c, r⟩
    rw [hx] at h1 h2
    subst h1 h2
    simp
  · obtain ⟨h1, h2⟩ := C84_map (has := false) (fun w (ws : List W) => (ws ++ [w], .ok ())) ht
      (fun h => by cases h) []
    rw [convertAll_collect] at h1 h2
    obtain ⟨t', h2, -⟩ := h2
    rw [Tree.extract]
    rcases hx : t.mapGadget (fun w (ws : List W) => (ws ++ [w], .ok ())) false [] with ⟨c, r⟩
    rw [hx] at h1 h2
    subst h1 h2
    simp

/-- C84: gadgets of one kind have equally many wires, over whatever drivers and in whatever state they
are. -/
theorem C84_fungible {t : Tree W V} {t' : Tree W' V} (h : SameKind t t') {src src' : Bool}
    (ht : Over src t) (ht' : Over src' t') : t.numWires = t'.numWires := by
  rw [(C84_wires ht).1, (C84_wires ht').1, (sameKind_lengths h).1]

theorem sameKind_refl (t : Tree W V) : SameKind t t := by
  induction t with
  | pair a b iha ihb => exact ⟨iha, ihb⟩
  | demoted t ih => exact ih
  | _ => trivial

theorem sameKind_symm {t : Tree W V} {t' : Tree W' V} (h : SameKind t t') : SameKind t' t := by
  induction t generalizing t' with
  | pair a b iha ihb =>
    cases t' <;> try exact h.elim
    exact ⟨iha h.1, ihb h.2⟩
  | demoted t ih =>
    cases t' <;> try exact h.elim
    exact ih (t' := _) h
  | _ => cases t' <;> first | exact h.elim | trivial

theorem sameKind_trans {t : Tree W V} {t' : Tree W' V} {t'' : Tree W'' V} (h : SameKind t t')
    (h' : SameKind t' t'') : SameKind t t'' := by
  induction t generalizing t' t'' with
  | pair a b iha ihb =>
    cases t' <;> try exact h.elim
    cases t'' <;> try exact h'.elim
    exact ⟨iha h.1 h'.1, ihb h.2 h'.2⟩
  | demoted t ih =>
    cases t' <;> try exact h.elim
    cases t'' <;> try exact h'.elim
    exact ih (t' := _) h h'
  | _ =>
    cases t' <;> first
      | exact h.elim
      | (cases t'' <;> first | exact h'.elim | trivial)

/-- Mapping with a function. -/
theorem map_pure {src has : Bool} {t : Tree W V} (ht : Over src t) (hs : has = true → src = true)
    (f : W → W') : ∃ t', t.remap (fun w s => (s, .ok (f w))) has = .ok t' ∧ SameKind t t' ∧
      wiresOf t' = (wiresOf t).map f ∧ Over has t' ∧
      valuesOf t' = if has then valuesOf t else (valuesOf t).map fun _ => none := by
  have h := (C84_map (fun w s => (s, .ok (f w))) ht hs ()).2
  rw [convertAll_pure] at h
  exact h

/-- C84: cloning a gadget, and mapping it with `CloneWires` to a driver that also has witnesses, gives the
gadget itself. -/
theorem C84_clone {has : Bool} {t : Tree W V} (ht : Over has t) :
    t.clone has = .ok t ∧ t.remap cloneWires has = .ok t := by
  constructor
  · induction t generalizing has with
    | value v =>
      cases has with
      | false =>
        have : v = none := Option.not_isSome_iff_eq_none.1 (by simpa [Over] using ht)
        subst this
        rfl
      | true =>
        obtain ⟨x, rfl⟩ := Option.isSome_iff_exists.1 ht
        rfl
    | pair a b iha ihb => rw [Tree.clone, iha ht.1, ihb ht.2]; rfl
    | demoted t ih => rw [Tree.clone, ih (has := false) ht]; rfl
    | _ => rfl
  · obtain ⟨t', h1, h2, h3, h4, h5⟩ := map_pure ht (fun h => h) (fun w : W => w)
    refine h1.trans (congrArg _ (C84_determined h2 ht h4 (by simp [h3]) ?_).symm)
    rw [h5]
    cases has with
    | true => rfl
    | false =>
      rw [if_neg (by decide)]
      conv_lhs => rw [← List.map_id (valuesOf t)]
      exact List.map_congr_left fun v hv => over_false_values ht v hv

/-- C84: mapping with one function and then with another is mapping with their composition. -/
theorem C84_compose {src has has' : Bool} {t : Tree W V} (ht : Over src t) (hs : has = true → src = true)
    (hs' : has' = true → has = true) (f : W → W') (g : W' → W'') :
    (t.remap (fun w s => (s, .ok (f w))) has).bind
      (fun t' => t'.remap (fun w s => (s, .ok (g w))) has') =
    t.remap (fun w s => (s, .ok (g (f w)))) has' := by
  obtain ⟨t1, h1, h2, h3, h4, h5⟩ := map_pure ht hs f
  obtain ⟨t2, k1, k2, k3, k4, k5⟩ := map_pure h4 hs' g
  obtain ⟨t3, j1, j2, j3, j4, j5⟩ := map_pure ht (fun h => hs (hs' h)) fun w => g (f w)
  rw [h1, j1]
  refine k1.trans (congrArg _ (C84_determined ?_ k4 j4 ?_ ?_))
  · exact sameKind_trans (sameKind_symm (sameKind_trans h2 k2)) j2
  · rw [k3, j3, h3, List.map_map]; rfl
  · rw [k5, j5, h5]
    cases has' with
    | true => rw [hs' rfl]; rfl
    | false => cases has <;> simp

/-- C84: demoting a gadget keeps its wires, in order, and drops its witness values; mapping a demoted
gadget is mapping its wires, with nothing asked of the witness. -/
theorem C84_demote {src : Bool} {t : Tree W V} (ht : Over src t) :
    ∃ d : Tree W V, t.demote = .ok (.demoted d) ∧ SameKind t d ∧ wiresOf d = wiresOf t ∧ Over false d ∧
      (∀ v ∈ valuesOf d, v = none) ∧
      ∀ (has : Bool) (f : W → W'),
        ((Tree.demoted d).remap (fun w s => (s, .ok (f w))) has) =
          (t.remap (fun w s => (s, .ok (f w))) false).map .demoted := by
  obtain ⟨d, h1, h2, h3, h4, -⟩ := map_pure (has := false) ht (fun h => by cases h) (fun w : W => w)
  refine ⟨d, ?_, h2, by rw [h3]; exact List.map_id _, h4, over_false_values h4, fun has f => ?_⟩
  · rw [Tree.demote, show t.remap cloneWires false = .ok d from h1]; rfl
  · obtain ⟨d', k1, k2, k3, k4, k5⟩ := map_pure (has := false) h4 (fun h => by cases h) f
    obtain ⟨t', j1, j2, j3, j4, j5⟩ := map_pure (has := false) ht (fun h => by cases h) f
    have e : d' = t' := C84_determined (sameKind_trans (sameKind_symm (sameKind_trans h2 k2)) j2) k4 j4
      (by rw [k3, j3, h3, List.map_map]; rfl) (by
        rw [k5, j5]
        obtain ⟨hl, hv⟩ := sameKind_lengths h2
        rw [if_neg (by decide), if_neg (by decide), List.map_const', List.map_const', hv])
    have k1' : (d.mapGadget (fun w s => (s, .ok (f w))) false ()).2 = .ok d' := k1
    rw [j1, Tree.remap, Tree.mapGadget]
    rcases hx : d.mapGadget (fun w s => (s, .ok (f w))) false () with ⟨s, r⟩
    rw [hx] at k1'
    simp only at k1'
    subst k1'
    rw [e]
    rfl

/-- C84: mapping a gadget with `StripWires` always succeeds: the result is of the same kind, has as many
wires, none of which says anything, and the same witness values; so two gadgets of one kind with the
same values look the same to `predict`. -/
theorem C84_strip {has : Bool} {t : Tree W V} (ht : Over has t) :
    (∃ t', t.remap stripWires has = .ok t' ∧ SameKind t t' ∧
      wiresOf t' = List.replicate (wiresOf t).length () ∧ valuesOf t' = valuesOf t) ∧
    ∀ {u : Tree W V}, Over has u → SameKind t u → valuesOf t = valuesOf u →
      t.remap stripWires has = u.remap stripWires has := by
  have key : ∀ {t : Tree W V}, Over has t → ∃ t', t.remap stripWires has = .ok t' ∧ SameKind t t' ∧
      wiresOf t' = List.replicate (wiresOf t).length () ∧ Over has t' ∧ valuesOf t' = valuesOf t := by
    intro t ht
    obtain ⟨t', h1, h2, h3, h4, h5⟩ := map_pure ht (fun h => h) (fun _ : W => ())
    refine ⟨t', h1, h2, by rw [h3, List.map_const'], h4, ?_⟩
    rw [h5]
    cases has with
    | true => rfl
    | false =>
      rw [if_neg (by decide)]
      conv_rhs => rw [← List.map_id (valuesOf t)]
      exact List.map_congr_left fun v hv => (over_false_values ht v hv).symm
  obtain ⟨t', h1, h2, h3, h4, h5⟩ := key ht
  refine ⟨⟨t', h1, h2, h3, h5⟩, fun {u} hu hk hv => ?_⟩
  obtain ⟨u', k1, k2, k3, k4, k5⟩ := key hu
  rw [h1, k1, C84_determined (sameKind_trans (sameKind_symm h2) (sameKind_trans hk k2)) h4 k4
    (by rw [h3, k3, (sameKind_lengths hk).1]) (by rw [h5, k5, hv])]

/-- C84: promoting a demoted boolean gives back its wire, with the witness given. -/
theorem C84_promote (w : W) (v v' : Option V) :
    ∃ d, (boolTree w v).demote = .ok d ∧ promoteBool d v' = some (boolTree w v') := by
  refine ⟨_, rfl, rfl⟩

section
variable {F : Type} [Field F] [DecidableEq F]

/-- C84: `enforce_equal` on two gadgets of one kind holds exactly if all their wires are equal, one by
one; the driver that computes accepts in exactly these cases; it takes one constraint for each wire and
nothing else, and the witness values do not matter. -/
theorem C84_equal {a b : Tree F V} (h : SameKind a b) :
    ((a.enforceEqual b).sat () ↔ wiresOf a = wiresOf b) ∧
    ((a.enforceEqual b).sim = .ok () ↔ wiresOf a = wiresOf b) ∧
    Takes (a.enforceEqual b) 0 0 (wiresOf a).length := by
  induction a generalizing b with
  | wire w =>
    cases b <;> try exact h.elim
    refine ⟨by simp [Tree.enforceEqual, wiresOf, Gadget.enforceEqual_sat], ?_, sized_enforceEqual _ _⟩
    simp only [Tree.enforceEqual, Gadget.enforceEqual_sim, wiresOf]
    split <;> simp_all
  | pair a a' iha ihb =>
    cases b <;> try exact h.elim
    rename_i c d
    obtain ⟨a1, a2, a3⟩ := iha h.1
    obtain ⟨b1, b2, b3⟩ := ihb h.2
    have hl : (wiresOf a).length = (wiresOf c).length := (sameKind_lengths h.1).1
    have hw : wiresOf (a.pair a') = wiresOf (c.pair d) ↔ wiresOf a = wiresOf c ∧ wiresOf a' = wiresOf d :=
      ⟨fun e => List.append_inj e hl, fun ⟨e, e'⟩ => by simp only [wiresOf, e, e']⟩
    refine ⟨?_, ?_, ?_⟩
    · rw [hw, ← a1, ← b1, Tree.enforceEqual, Syn.sat_bind]
      exact ⟨fun ⟨_, x, y⟩ => ⟨x, y⟩, fun ⟨x, y⟩ => ⟨_, x, y⟩⟩
    · rw [hw, ← a2, ← b2, Tree.enforceEqual, Syn.sim_bind]
      rcases (a.enforceEqual c).sim with e | _
      · simp
      · simp
    · exact (Sized.bind a3 fun _ _ => b3).cast (by ext <;> simp [wiresOf])
  | demoted t ih =>
    cases b <;> try exact h.elim
    exact ih (b := _) h
  | _ =>
    cases b <;> first
      | exact h.elim
      | exact ⟨⟨fun _ => rfl, fun _ => rfl⟩, ⟨fun _ => rfl, fun _ => rfl⟩, .ret trivial⟩

end

/-- C84: the attributes decide what a field is, and two different ones are refused. -/
theorem C84_attributes (attrs : List Attr) :
    (fieldType attrs = some .value ↔
      .value ∈ attrs ∧ .wire ∉ attrs ∧ .gadget ∉ attrs ∧ .phantom ∉ attrs) ∧
    (fieldType attrs = some .wire ↔
      .wire ∈ attrs ∧ .value ∉ attrs ∧ .gadget ∉ attrs ∧ .phantom ∉ attrs) ∧
    (fieldType attrs = some .phantom ↔
      .phantom ∈ attrs ∧ .value ∉ attrs ∧ .wire ∉ attrs ∧ .gadget ∉ attrs) ∧
    (fieldType attrs = some .gadget ↔ .value ∉ attrs ∧ .wire ∉ attrs ∧ .phantom ∉ attrs) ∧
    (fieldType attrs = none ↔ ∃ x ∈ attrs, ∃ y ∈ attrs, x ≠ y ∧ x ≠ .skip ∧ y ≠ .skip) := by
  by_cases h1 : Attr.value ∈ attrs <;> by_cases h2 : Attr.wire ∈ attrs <;>
    by_cases h3 : Attr.gadget ∈ attrs <;> by_cases h4 : Attr.phantom ∈ attrs <;>
    simp only [fieldType, List.contains_eq_mem, h1, h2, h3, h4, decide_true, decide_false] <;>
    refine ⟨by simp, by simp, by simp, by simp, ?_⟩
  all_goals first
    | exact ⟨fun _ => ⟨.value, h1, .wire, h2, by decide⟩, fun _ => trivial⟩
    | exact ⟨fun _ => ⟨.value, h1, .gadget, h3, by decide⟩, fun _ => trivial⟩
    | exact ⟨fun _ => ⟨.value, h1, .phantom, h4, by decide⟩, fun _ => trivial⟩
    | exact ⟨fun _ => ⟨.wire, h2, .gadget, h3, by decide⟩, fun _ => trivial⟩
    | exact ⟨fun _ => ⟨.wire, h2, .phantom, h4, by decide⟩, fun _ => trivial⟩
    | exact ⟨fun _ => ⟨.gadget, h3, .phantom, h4, by decide⟩, fun _ => trivial⟩
    | (refine ⟨fun h => (by cases h), fun ⟨x, hx, y, hy, h, h', h''⟩ => ?_⟩
       cases x <;> cases y <;> simp_all)

/-- C84: the `map_gadget` derived for a struct whose fields are annotated as what they are is the one of
the gadget with these fields. -/
theorem C84_derive (wm : WireMap S W W') (has : Bool) {fs : List (List Attr × Tree W V)}
    (h : ∀ f ∈ fs, Annotated f) (s : S) :
    mapFields wm has fs s = some ((Tree.fields (fs.map (·.2))).mapGadget wm has s) := by
  induction fs generalizing s with
  | nil => rfl
  | cons f fs ih =>
    obtain ⟨attrs, t⟩ := f
    obtain ⟨hf, hfs⟩ := List.forall_mem_cons.1 h
    have key : ∃ ty, fieldType attrs = some ty ∧ mapField wm has ty t s = some (t.mapGadget wm has s) := by
      cases t with
      | value v =>
        cases hf
        refine ⟨.value, rfl, ?_⟩
        simp only [mapField, Tree.mapGadget]
        rcases takeValue has v with e | v' <;> rfl
      | wire w =>
        cases hf
        refine ⟨.wire, rfl, ?_⟩
        simp only [mapField, Tree.mapGadget]
        rcases wm w s with ⟨s', e | v'⟩ <;> rfl
      | phantom => cases hf; exact ⟨.phantom, rfl, rfl⟩
      | unit => rcases hf with rfl | rfl <;> exact ⟨.gadget, rfl, rfl⟩
      | pair a b => rcases hf with rfl | rfl <;> exact ⟨.gadget, rfl, rfl⟩
      | demoted t => rcases hf with rfl | rfl <;> exact ⟨.gadget, rfl, rfl⟩
    obtain ⟨ty, h1, h2⟩ := key
    simp only [mapFields, h1, h2, List.map_cons, Tree.fields, Tree.mapGadget, Option.bind_eq_bind,
      Option.bind_some]
    rcases t.mapGadget wm has s with ⟨s', e | t'⟩
    · rfl
    · simp only [ih hfs s', Option.bind_some]
      generalize Tree.mapGadget wm has (Tree.fields (List.map (fun x => x.2) fs)) s' = x
      rcases x with ⟨s'', e | t''⟩ <;> rfl

/-- C84: the wires of a struct are those of its fields, one field after the other. -/
theorem C84_fields (l : List (Tree W V)) :
    wiresOf (.fields l) = l.flatMap wiresOf ∧ valuesOf (.fields l) = l.flatMap valuesOf := by
  induction l with
  | nil => exact ⟨rfl, rfl⟩
  | cons t l ih => exact ⟨by rw [Tree.fields, wiresOf, ih.1]; rfl, by rw [Tree.fields, valuesOf, ih.2]; rfl⟩

/-- C84: the `enforce_consistent` derived for a struct imposes what its gadget fields impose, all of
them, and nothing else. -/
theorem C84_consistent {F : Type} [Field F] [DecidableEq F] (fs : List (List Attr × Syn F Unit)) :
    (consistentFields fs).sat () ↔ ∀ f ∈ fs,
      (.gadget ∈ f.1 ∨ (.value ∉ f.1 ∧ .wire ∉ f.1 ∧ .phantom ∉ f.1)) → f.2.sat () := by
  induction fs with
  | nil => simp [consistentFields]
  | cons f fs ih =>
    obtain ⟨attrs, p⟩ := f
    rw [List.forall_mem_cons, ← ih, consistentFields]
    by_cases hc : Attr.gadget ∈ attrs ∨ (Attr.value ∉ attrs ∧ Attr.wire ∉ attrs ∧ Attr.phantom ∉ attrs)
    · rw [if_pos (by simpa [and_assoc] using hc), Syn.sat_bind]
      exact ⟨fun ⟨_, x, y⟩ => ⟨fun _ => x, y⟩, fun ⟨x, y⟩ => ⟨_, x hc, y⟩⟩
    · rw [if_neg (by simpa [and_assoc] using hc)]
      exact ⟨fun x => ⟨fun y => absurd y hc, x⟩, fun x => x.2⟩

/-- C84: the `write_gadget` derived for a struct writes what its fields write, one after the other,
without the fields annotated with `skip` or `phantom`. -/
theorem C84_write {E : Type} (fs : List (List Attr × List E)) :
    writeFields fs =
      ((fs.filter fun f => decide (.skip ∉ f.1 ∧ .phantom ∉ f.1)).map (·.2)).flatten := by
  induction fs with
  | nil => rfl
  | cons f fs ih =>
    rw [writeFields, List.flatMap_cons, ← writeFields, ih, List.filter_cons]
    by_cases h : Attr.skip ∈ f.1 <;> by_cases h' : Attr.phantom ∈ f.1 <;> simp [h, h']

/-! ### Examples -/

/-- A struct with a wire, a boolean, nothing and a demoted boolean, over a driver with witnesses. -/
def sampleTree : Tree ℕ ℕ :=
  .fields [.wire 7, boolTree 8 (some 1), .unit, .demoted (boolTree 9 none), .phantom]

example : Over true sampleTree := by simp [sampleTree, Over, Tree.fields, boolTree]
example : ¬ Over false sampleTree := by simp [sampleTree, Over, Tree.fields, boolTree]
example : wiresOf sampleTree = [7, 8, 9] ∧ valuesOf sampleTree = [some 1] := ⟨rfl, rfl⟩

-- A map that counts and fails at the second wire: the third is not seen.
example : sampleTree.mapGadget (fun w (k : ℕ) =>
    (k + w, if w = 8 then .error .panic else .ok w)) true 100 = (115, .error .panic) := by decide +kernel
-- Numbering the wires anew.
example : ∃ t, sampleTree.mapGadget (fun _ (k : ℕ) => (k + 1, .ok k)) true 20 = (23, .ok t) ∧
    wiresOf t = [20, 21, 22] ∧ valuesOf t = [some 1] := ⟨_, rfl, rfl, rfl⟩
example : ∃ t, sampleTree.mapGadget (fun _ (k : ℕ) => (k + 1, .ok k)) false 20 = (23, .ok t) ∧
    valuesOf t = [none] := ⟨_, rfl, rfl⟩
-- From a driver without witnesses there is no way to one with witnesses.
example : (boolTree 8 none : Tree ℕ ℕ).remap cloneWires true = .error .panic := rfl
example : sampleTree.numWires = .ok 3 := rfl
example : sampleTree.remap stripWires true = .ok
    (.fields [.wire (), boolTree () (some 1), .unit, .demoted (boolTree () none), .phantom]) := rfl
example : sampleTree.demote = .ok (.demoted
    (.fields [.wire 7, boolTree 8 none, .unit, .demoted (boolTree 9 none), .phantom])) := rfl
example : SameKind sampleTree (.fields [.wire 1, boolTree 2 none, .unit,
    .demoted (boolTree 3 none), .phantom] : Tree ℕ ℕ) := by simp [sampleTree, SameKind, Tree.fields, boolTree]
-- Values differ and the wires do not.
example : ((boolTree (3 : ℚ) (some 1)).enforceEqual (boolTree 3 (some 2))).sat () := by
  rw [(C84_equal (by simp [SameKind, boolTree, Tree.fields])).1]; rfl
example : ¬ ((boolTree (3 : ℚ) (some 1)).enforceEqual (boolTree 4 (some 1))).sat () := by
  rw [(C84_equal (by simp [SameKind, boolTree, Tree.fields])).1]; simp [wiresOf, boolTree, Tree.fields]
example : fieldType [.wire, .value] = none ∧ fieldType [.skip] = some .gadget ∧
    fieldType [] = some .gadget := by decide
example : ∀ f ∈ ([([.wire], .wire 3), ([], boolTree 4 (some 1)), ([.phantom], .phantom)] :
    List (List Attr × Tree ℕ ℕ)), Annotated f := by simp [Annotated, boolTree, Tree.fields]
-- A wire that is not annotated does not compile.
example : mapFields (S := Unit) cloneWires true [([], (.wire 3 : Tree ℕ ℕ))] () = none := rfl
example : writeFields [([], [1, 2]), ([.skip], [3]), ([.gadget], [4]), ([.phantom], [5])] = [1, 2, 4] := rfl

end Ragu.Props

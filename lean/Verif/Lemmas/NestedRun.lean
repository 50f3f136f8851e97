/-
The scalar field's side of a run of a fuse.
-/
import Verif.Model.Pcd.NestedRun
import Verif.Props.Endoscale
import Verif.Lemmas.ProverClaims

set_option linter.unusedSectionVars false

namespace Ragu.Props
open Ragu Ragu.Circuit Ragu.Registry Ragu.Spec Ragu.Gadget Ragu.Pcd Finset

section
variable {F : Type} [Field F] [DecidableEq F]

/-- An incomplete addition that runs has different abscissas. -/
theorem addIncomplete_runs {p q : Gadget.Point F} {nz : Option (Element F)}
    {r : Gadget.Point F × Option (Element F)}
    (h : Pcd.emulate (p.addIncomplete q nz) = .ok r) : p.x.value ≠ q.x.value := by
  unfold Gadget.Point.addIncomplete at h
  rw [emulate_bind] at h
  obtain ⟨_, -, h⟩ := h
  simp only [emulate_bind] at h
  obtain ⟨d, h, -⟩ := h
  intro he
  unfold Element.divNonzero at h
  simp only [emulate_bind] at h
  obtain ⟨_, h, -⟩ := h
  rw [Element.sub_value, he, sub_self] at h
  simp [tryJust, Pcd.emulate] at h

/-- A Horner loop that runs meets no degenerate addition. -/
theorem stepLoop_ne {b zeta : F} (hb : GoodCurve b) {n : ℕ} {l : ℤ} (hG : EndoGroup b zeta n l)
    {nbits : ℕ} (hn : 27 * 2 ^ nbits < n) {e : Endoscalar F} (he : HasBits nbits e e.value)
    {inputs : List (Gadget.Point F)} {pts : List (curve b).Point}
    (hin : ∀ i, i < inputs.length → ∃ p, inputs[i]? = some p ∧ p.Honest ∧
      Represents b p (pts.getD (i + 1) 0)) :
    ∀ (k i : ℕ) (acc : Gadget.Point F) (nz : Element F) r, i + k ≤ inputs.length → acc.Honest →
      nz.Honest → Represents b acc (pointSum (liftNative nbits l e.value : ℤ) pts i) →
      Pcd.emulate (stepLoop nbits zeta e inputs ((List.range k).map (i + ·)) acc nz) = .ok r →
      ∀ j, i ≤ j → j < i + k →
        (liftNative nbits l e.value : ℤ) • pointSum (liftNative nbits l e.value : ℤ) pts j ≠
          pts.getD (j + 1) 0 ∧
        (liftNative nbits l e.value : ℤ) • pointSum (liftNative nbits l e.value : ℤ) pts j ≠
          -pts.getD (j + 1) 0
  | 0, i, acc, nz, r, _, _, _, _, _ => fun j h1 h2 => by omega
  | k + 1, i, acc, nz, r, hk, ha, hz, hr, hrun => by
    have e1 : (List.range (k + 1)).map (i + ·) = i :: (List.range k).map (i + 1 + ·) := by
      rw [List.range_succ_eq_map, List.map_cons, List.map_map]
      congr 1
      refine List.map_congr_left fun x _ => ?_
      simp only [Function.comp_apply]
      omega
    obtain ⟨sc, h1, h2, h3⟩ := (C35_group_scale hb (hG.point hr) nbits hn he).2 ha rfl
    obtain ⟨inp, g1, g2, g3⟩ := hin i (by omega)
    rw [e1, stepLoop] at hrun
    simp only [emulate_bind] at hrun
    obtain ⟨sc', t1, inp', t2, a, t3, t4⟩ := hrun
    rw [emulate_of_sim h1] at t1
    cases t1
    rw [indexSyn, g1] at t2
    cases t2
    have hxv := addIncomplete_runs t3
    have hx : sc.x.wire ≠ inp.x.wire := by rw [← h2.1, ← g2.1]; exact hxv
    have hne := x_ne_inv h3 g3 hx
    obtain ⟨⟨a', z⟩, f1, f2, f3⟩ := Gadget.Point.addIncomplete_sim (nz := some nz) h2 g2
      (fun x hx => by cases hx; exact hz) hx
    rw [emulate_of_sim f1] at t3
    cases t3
    have hsat := Syn.sim_sat f1
    have hzz := (Gadget.Point.addIncomplete_sat hsat).2
    simp only [Option.map_some] at hzz
    have hrep := (C34_add_incomplete h3 g3 hx (some nz)).1 _ hsat
    simp only at hrep
    rw [← pointSum_succ] at hrep
    intro j hj1 hj2
    rcases Nat.eq_or_lt_of_le hj1 with rfl | hj
    · exact hne
    · exact stepLoop_ne hb hG hn he hin k (i + 1) a' (z.getD nz) r (by omega) f2
        (by rw [hzz]; exact f3 _ hzz) hrep t4 j (by omega) (by omega)

/-- The steps of an endoscaling on the honest witness: if they run without error, all constraints are
satisfied. -/
theorem steps_sim {b zeta : F} (hb : GoodCurve b) {n : ℕ} {l : ℤ} (hG : EndoGroup b zeta n l)
    {nbits : ℕ} (hn : 27 * 2 ^ nbits < n) {e : Endoscalar F} (he : HasBits nbits e e.value)
    {numPoints : ℕ} (h1 : 1 < numPoints) {g : PointsWitness (Gadget.Point F)}
    {points : List (curve b).Point} (hg : PointsRepresent b numPoints g points)
    {w : PointsWitness (curve b).Point}
    (hw : PointsWitness.new nbits l numPoints e.value points = some w)
    (hgw : List.Forall₂ (fun p P => p.Honest ∧ Represents b p P) g.interstitials w.interstitials)
    (hgi : g.initial.Honest) (hgin : ∀ p ∈ g.inputs, p.Honest) {k : ℕ}
    (hk : numSteps numPoints = some k)
    (hrun : ∀ step < k, Pcd.emulate (Pcd.stepCircuit nbits zeta numPoints step e g) = .ok ()) :
    ∀ step < k, (Pcd.stepCircuit nbits zeta numPoints step e g).sim = .ok () := by
  suffices hne : ∀ i < numPoints - 1,
      (liftNative nbits l e.value : ℤ) • pointSum (liftNative nbits l e.value : ℤ) points i ≠
        points.getD (i + 1) 0 ∧
      (liftNative nbits l e.value : ℤ) • pointSum (liftNative nbits l e.value : ℤ) points i ≠
        -points.getD (i + 1) 0 by
    obtain ⟨k', hk', h⟩ := C51_complete hb hG hn he h1 hg hw hgw hgi hgin hne
    rw [hk] at hk'
    cases hk'
    exact h
  obtain ⟨k', w', hk', hw', -, hlen, hget, -⟩ :=
    (C51_witness nbits l (by omega) e.value points).2 hg.length
  rw [hw] at hw'
  cases hw'
  rw [hk] at hk'
  cases hk'
  rw [numSteps_eq (by omega)] at hk
  cases hk
  have hint : ∀ j < max ((numPoints - 1 + 3) / 4) 1, ∃ p, g.interstitials[j]? = some p ∧ p.Honest ∧
      Represents b p (pointSum (liftNative nbits l e.value : ℤ) points
        (min (4 * (j + 1)) (numPoints - 1))) := by
    intro j hj
    have hgl := hgw.length_eq
    obtain ⟨p, hp⟩ : ∃ p, g.interstitials[j]? = some p :=
      ⟨_, List.getElem?_eq_getElem (by omega)⟩
    have hgj := hget j hj
    obtain ⟨hj1, hj2⟩ := List.getElem?_eq_some_iff.1 hp
    obtain ⟨hj3, hj4⟩ := List.getElem?_eq_some_iff.1 hgj
    have := List.Forall₂.get hgw hj1 hj3
    simp only [List.get_eq_getElem, hj2, hj4] at this
    exact ⟨p, hp, this⟩
  have hin : ∀ i, i < g.inputs.length → ∃ p, g.inputs[i]? = some p ∧ p.Honest ∧
      Represents b p (points.getD (i + 1) 0) := fun i hi =>
    ⟨_, List.getElem?_eq_getElem hi, hgin _ (List.getElem_mem hi),
      hg.inputs i _ (List.getElem?_eq_getElem hi)⟩
  intro i hi
  obtain ⟨step, hstep, hs1, hs2⟩ : ∃ step < max ((numPoints - 1 + 3) / 4) 1,
      step * 4 ≤ i ∧ i < step * 4 + 4 := ⟨i / 4, by omega, by omega, by omega⟩
  obtain ⟨acc, ha1, ha2, ha3⟩ : ∃ acc,
      (if step = 0 then Syn.ret g.initial else indexSyn (F := F) g.interstitials (step - 1)).sim =
        .ok acc ∧ acc.Honest ∧
      Represents b acc (pointSum (liftNative nbits l e.value : ℤ) points (step * 4)) := by
    by_cases h0 : step = 0
    · subst h0
      exact ⟨g.initial, rfl, hgi, by rw [Nat.zero_mul, pointSum_zero]; exact hg.initial⟩
    · obtain ⟨p, hp1, hp2, hp3⟩ := hint (step - 1) (by omega)
      refine ⟨p, by rw [if_neg h0]; exact indexSyn_sim hp1, hp2, ?_⟩
      rwa [min_eq_left (by omega), show 4 * (step - 1 + 1) = step * 4 by omega] at hp3
  have h := hrun step hstep
  have hlt : (inputRange numPoints step).1 < (inputRange numPoints step).2 := by
    simp only [inputRange, ENDOSCALINGS_PER_STEP]
    omega
  rw [Pcd.stepCircuit, emulate_bind] at h
  obtain ⟨acc', t1, h⟩ := h
  rw [emulate_of_sim ha1] at t1
  cases t1
  simp only [if_pos hlt, emulate_bind] at h
  obtain ⟨r, t2, -⟩ := h
  exact stepLoop_ne hb hG hn he hin (min (step * 4 + 4) (numPoints - 1) - step * 4) (step * 4) acc .one r
    (by rw [hg.count]; omega) ha2 (by simp [Element.Honest, Element.one]) ha3 t2 i hs1 (by omega)

/-! ### Points in stages -/

/-- The gadgets of allocated points. -/
theorem allocPoints_runs {b : F} : ∀ {vs : List (Option (F × F))} {ps : List (Gadget.Point F)},
    Pcd.emulate (allocPoints b vs) = .ok ps →
      List.Forall₂ (fun v p => ∃ x y, v = some (x, y) ∧ p = ⟨both x, both y⟩) vs ps
  | [], ps, h => by
    cases h
    exact .nil
  | v :: vs, ps, h => by
    simp only [allocPoints, emulate_bind] at h
    obtain ⟨p, h1, qs, h2, h3⟩ := h
    cases h3
    refine .cons ?_ (allocPoints_runs h2)
    cases v with
    | none => cases h1
    | some q =>
      cases h1
      exact ⟨q.1, q.2, rfl, rfl⟩

theorem pointElems_length (ps : List (Gadget.Point F)) : (pointElems ps).length = 2 * ps.length := by
  induction ps with
  | nil => rfl
  | cons p ps ih =>
    have : pointElems (p :: ps) = p.x :: p.y :: pointElems ps := rfl
    rw [this]
    simp only [List.length_cons, ih]
    ring

theorem pointsOfElems_elems (l : List (Element F)) : ∀ (ps : List (Gadget.Point F)),
    pointsOfElems ps.length (pointElems ps ++ l) = ps
  | [] => rfl
  | p :: ps => by
    show _ :: pointsOfElems ps.length (pointElems ps ++ l) = _
    rw [pointsOfElems_elems l ps]
    rfl

theorem points_ofElems_elems (w : PointsWitness (Gadget.Point F)) :
    PointsWitness.ofElems w.inputs.length w.interstitials.length w.elems = w := by
  have h1 : w.elems.drop 2 = pointElems w.inputs ++ pointElems w.interstitials := by
    simp [PointsWitness.elems, pointElems]
  have h2 : w.elems.drop (2 + 2 * w.inputs.length) = pointElems w.interstitials ++ [] := by
    rw [← List.drop_drop, h1, ← pointElems_length, List.drop_left, List.append_nil]
  rw [PointsWitness.ofElems, h1, h2, pointsOfElems_elems, pointsOfElems_elems]
  rfl

theorem points_elems_length (w : PointsWitness (Gadget.Point F)) :
    w.elems.length = 2 * (1 + w.inputs.length + w.interstitials.length) := by
  rw [PointsWitness.elems, pointElems_length]
  simp only [List.length_cons, List.length_append]
  ring

theorem zip_same : ∀ es : List (Element F),
    List.zipWith (fun (e : Element F) w => (⟨w, e.value⟩ : Element F)) es (es.map (·.wire)) = es
  | [] => rfl
  | e :: es => by
    rw [List.map_cons, List.zipWith_cons_cons, zip_same es]

theorem injectElems_same {es : List (Element F)} {ws : List F} (h : ws = es.map (·.wire)) :
    injectElems es ws = .ret es := by
  obtain ⟨l, h1, h2, h3, h4⟩ := injectElems_spec (es := es) (ws := ws) (by rw [h, List.length_map])
  rw [h1]
  congr 1
  refine elems_ext ?_ h4
  rw [h3, h, List.take_of_length_le (by rw [List.length_map])]

/-- The guard of the endoscalar stage gives the gadget whose wires the stage holds. -/
theorem endoscalar_same {e : Endoscalar F} {es : List F}
    (h1 : (es.drop (firstWire endoscalarStage)).take endoscalarStage.values =
      (endoscalarElems e).map (·.wire)) : endoscalarGuard e es = .ret e := by
  rw [endoscalarGuard, injectElems_same (by rw [guardWires]; exact h1)]
  show Syn.ret _ = _
  simp [endoscalarElems, Function.comp_def]

/-- The guard of the points stage gives the gadget whose wires the stage holds. -/
theorem points_same {w : PointsWitness (Gadget.Point F)} {es : List F}
    (hi : w.inputs.length = NUM_ENDOSCALING_POINTS - 1)
    (hs : w.interstitials.length = NUM_ENDOSCALING_STEPS)
    (h1 : (es.drop (firstWire pointsStage)).take pointsStage.values = w.elems.map (·.wire)) :
    pointsGuard w es = .ret w := by
  rw [pointsGuard, injectElems_same (by rw [guardWires]; exact h1)]
  show Syn.ret _ = _
  rw [← hi, ← hs, points_ofElems_elems]

end

/-! ### The claims -/

section
variable {F G HC : Type} [Field F] [DecidableEq F] [Field G] [DecidableEq G]
  [AddCommGroup HC] [DecidableEq HC] [Module F HC]

/-- What is assumed of the host curve: it is `y² = x³ + b` over the scalar field, `coords` gives the
coordinates of its points, its group has prime order, and the endomorphism `(x, y) ↦ (zeta x, y)` is
multiplication by a number that is the circuit field's `ZETA`. -/
structure HostOk (K : NestedParams G HC) (ec : EndoConsts F) : Prop where
  good : GoodCurve K.b
  nbits : ec.nbits = 128
  group : ∃ (order : ℕ) (l : ℤ), EndoGroup K.b K.zeta order l ∧ 27 * 2 ^ ec.nbits < order ∧
    (l : F) = ec.zeta
  points : ∃ φ : HC →+ (curve K.b).Point, ∀ P x y, K.coords P = some (x, y) →
    ∃ h : (curve K.b).Nonsingular x y, φ P = .some x y h

theorem map_pointSum {K : NestedParams G HC} (φ : HC →+ (curve K.b).Point) (s : ℤ) (pts : List HC)
    (m : ℕ) : φ (pointSum s pts m) = pointSum s (pts.map φ) m := by
  rw [pointSum, pointSum, map_sum]
  refine sum_congr rfl fun i _ => ?_
  rw [map_zsmul]
  congr 1
  rw [List.getD_eq_getElem?_getD, List.getD_eq_getElem?_getD, List.getElem?_map]
  cases pts[i]? <;> simp

/-- A point gadget with the coordinates of a point. -/
theorem coords_represent {K : NestedParams G HC} {φ : HC →+ (curve K.b).Point}
    (hφ : ∀ P x y, K.coords P = some (x, y) → ∃ h : (curve K.b).Nonsingular x y, φ P = .some x y h)
    {P : HC} {p : Gadget.Point G} (h : ∃ x y, K.coords P = some (x, y) ∧ p = ⟨both x, both y⟩) :
    p.Honest ∧ Represents K.b p (φ P) := by
  obtain ⟨x, y, h1, rfl⟩ := h
  exact ⟨⟨rfl, rfl⟩, hφ P x y h1⟩

/-- The interstitials of the witness, as points of the curve. -/
theorem witness_map {K : NestedParams G HC} {ec : EndoConsts F} {l : ℤ} (hl : (l : F) = ec.zeta)
    (φ : HC →+ (curve K.b).Point) {endo numPoints : ℕ} (h0 : 0 < numPoints) {pts : List HC}
    {w : PointsWitness HC} (hw : PointsWitness.new ec.nbits ec.zeta numPoints endo pts = some w) :
    pts.length = numPoints ∧ w.initial :: w.inputs = pts ∧
    numSteps numPoints = some w.interstitials.length ∧
    ∃ w', PointsWitness.new ec.nbits l numPoints endo (pts.map φ) = some w' ∧
      w'.interstitials = w.interstitials.map φ := by
  have hlen : pts.length = numPoints := by
    by_contra hne
    rw [(C51_witness ec.nbits ec.zeta h0 endo pts).1 hne] at hw
    cases hw
  obtain ⟨k, w1, hk, e1, e2, e3, e4, -⟩ := (C51_witness ec.nbits ec.zeta h0 endo pts).2 hlen
  rw [hw, Option.some.injEq] at e1
  subst e1
  obtain ⟨k', w', hk', f1, -, f3, f4, -⟩ :=
    (C51_witness ec.nbits l h0 endo (pts.map φ)).2 (by rw [List.length_map, hlen])
  rw [hk, Option.some.injEq] at hk'
  subst hk'
  refine ⟨hlen, e2, by rw [e3, hk], w', f1, List.ext_getElem? fun j => ?_⟩
  rw [List.getElem?_map]
  by_cases hj : j < k
  · rw [f4 j hj, e4 j hj, Option.map_some, ← hl, C51_scalar, map_pointSum]
  · rw [List.getElem?_eq_none (by omega), List.getElem?_eq_none (by omega), Option.map_none]

variable {C : CycleEnv F G HC} {n : ℕ} {P : StepParams F} {cs : Circuits F G}
  {steps : List (StepDef F)} {app : Application F G} {K : NestedParams G HC}
  {left right p : Proof F G HC} {t : FuseTraces F G}

/-- The stages of the endoscaling hold gadgets on which all steps are satisfied. -/
theorem endoscaling_sim {ec : EndoConsts F} (hK : HostOk K ec) {R : Registry G}
    (h : EndoscalingRun K n ec cs R left right p t) : ∃ e points,
    (endoscalarElems e).length = endoscalarStage.values ∧ points.elems.length = pointsStage.values ∧
    points.inputs.length = NUM_ENDOSCALING_POINTS - 1 ∧
    points.interstitials.length = NUM_ENDOSCALING_STEPS ∧
    (∃ alpha, endoscalarStage.rx n alpha ((endoscalarElems e).map (·.wire)) =
      .ok t.nested.endoscalarRx) ∧
    (∃ alpha, pointsStage.rx n alpha (points.elems.map (·.wire)) = .ok t.nested.pointsRx) ∧
    ∀ i < NUM_ENDOSCALING_STEPS,
      (Pcd.stepCircuit ec.nbits K.zeta NUM_ENDOSCALING_POINTS i e points).sim = .ok () ∧
      ∃ r, t.nested.stepRxs[i]? = some r ∧
      CircuitRun n R (nestedIndex (.endoscalingStep i)) (cs.endoscaling i) pointsStage
        [(endoscalarStage, (endoscalarElems e).map (·.wire)),
          (pointsStage, points.elems.map (·.wire))]
        (endoscalingCode ec.nbits K.zeta i e points) r := by
  obtain ⟨endo, native, w, e, points, h1, h2, ⟨h3, h3'⟩, ⟨h4, h4'⟩, h5⟩ := h.stages
  obtain ⟨e', s1, s2, s3⟩ := (C35_alloc (F := G) ec.nbits endo).2.2
  rw [emulate_of_sim s1] at h3
  cases h3
  have hlen : (endoscalarElems e).length = endoscalarStage.values := by
    rw [endoscalarElems, List.length_map, s3, List.length_map, List.length_range, hK.nbits]; rfl
  obtain ⟨order, l, hG, hord, hl⟩ := hK.group
  obtain ⟨φ, hφ⟩ := hK.points
  unfold computeP at h2
  obtain ⟨endo', h1', h2⟩ := Option.bind_eq_some_iff.1 h2
  rw [h1, Option.some.injEq] at h1'
  subst h1'
  obtain ⟨_, -, h2⟩ := Option.bind_eq_some_iff.1 h2
  obtain ⟨w0, hw, h2⟩ := Option.bind_eq_some_iff.1 h2
  obtain ⟨_, -, h2⟩ := Option.bind_eq_some_iff.1 h2
  cases h2
  obtain ⟨a1, a2, a3, w', a4, a5⟩ := witness_map (K := K) hl φ (by decide) hw
  simp only [pointsStageCode, emulate_bind] at h4
  obtain ⟨g0, b0, gi, b1, gs, b2, b3⟩ := h4
  cases b3
  have hint := allocPoints_runs b1
  have hints := allocPoints_runs b2
  have hk9 : numSteps NUM_ENDOSCALING_POINTS = some NUM_ENDOSCALING_STEPS := by decide
  have hini : g0.Honest ∧ Represents K.b g0 (φ w.initial) := by
    refine coords_represent hφ ?_
    cases hc : K.coords w.initial with
    | none => rw [hc] at b0; cases b0
    | some q =>
      rw [hc] at b0
      cases b0
      exact ⟨q.1, q.2, rfl, rfl⟩
  have hinp : List.Forall₂ (fun v p => p.Honest ∧ Represents K.b p (φ v)) w.inputs gi :=
    (List.forall₂_map_left_iff.1 hint).imp fun v p h => coords_represent hφ h
  have hsum : List.Forall₂ (fun v p => p.Honest ∧ Represents K.b p (φ v)) w.interstitials gs :=
    (List.forall₂_map_left_iff.1 hints).imp fun v p h => coords_represent hφ h
  have li : gi.length = NUM_ENDOSCALING_POINTS - 1 := by
    rw [← hinp.length_eq, ← a1, ← a2, List.length_cons, Nat.add_sub_cancel]
  have ls : gs.length = NUM_ENDOSCALING_STEPS := by
    rw [hk9, Option.some.injEq] at a3
    rw [← hsum.length_eq, a3]
  have hrep : PointsRepresent K.b NUM_ENDOSCALING_POINTS ⟨g0, gi, gs⟩
      ((w.initial :: w.inputs).map φ) := by
    refine ⟨by rw [List.length_map, a2, a1], hini.2, li, fun i p hp => ?_⟩
    obtain ⟨hi, hp⟩ := List.getElem?_eq_some_iff.1 hp
    have hi' : i < w.inputs.length := by rw [hinp.length_eq]; exact hi
    have := (List.Forall₂.get hinp hi' hi).2
    simp only [List.get_eq_getElem, hp] at this
    rw [List.map_cons, List.getD_cons_succ, List.getD_eq_getElem?_getD, List.getElem?_map,
      List.getElem?_eq_getElem hi']
    exact this
  have hsim := steps_sim hK.good hG hord (e := e) (by rw [s2]; exact s3) (by decide) hrep
    (w := w') (by rw [s2, a2]; exact a4)
    (by
      rw [a5, List.forall₂_map_right_iff]
      exact hsum.flip) hini.1
    (fun p hp => by obtain ⟨v, -, hv⟩ := forall₂_mem hinp p hp; exact hv.1) hk9
    (fun i hi => by obtain ⟨_, _, -, -, h, -⟩ := h5 i hi; exact h)
  refine ⟨e, ⟨g0, gi, gs⟩, hlen, by rw [points_elems_length, li, ls]; rfl, li, ls, h3', h4',
    fun i hi => ?_⟩
  obtain ⟨j, r, hj, hr, -, hrun⟩ := h5 i hi
  refine ⟨hsim i hi, r, hr, ?_⟩
  have hm : NestedId.endoscalingStep i ∈ NestedId.all := by
    rw [NestedId.all, List.mem_append]
    exact .inl (List.mem_map.2 ⟨i, List.mem_range.2 hi, rfl⟩)
  rw [nestedIndex_eq hm, Option.some.injEq] at hj
  rw [hj]
  exact hrun

/-- The claims of a run over the scalar field. -/
theorem nested_settled (hA : AppOk C n P cs steps app) {ec : EndoConsts F} (hK : HostOk K ec)
    {ch : Challenges F} {R : Registry F} (hp : fuseProof C ec n R left right ch t = some p)
    (hB : BridgesRun K n left right p t)
    (hE : EndoscalingRun K n ec cs app.nestedRegistry left right p t) :
    NestedSettled n app.nestedRegistry p := by
  have hn := app_pos hA
  obtain ⟨e, points, l1, l2, li, ls, ⟨ae, he⟩, ⟨ap, hpt⟩, hs⟩ := endoscaling_sim hK hE
  obtain ⟨b1, b2, b3, b4, b5, b6, b7, b8⟩ := fuse_bridges hp
  have hnest := (fuse_fields hp).2.2.2.2
  have hm : ∀ i < NUM_ENDOSCALING_STEPS, NestedId.endoscalingStep i ∈ NestedId.all := fun i hi => by
    rw [NestedId.all, List.mem_append]
    exact .inl (List.mem_map.2 ⟨i, List.mem_range.2 hi, rfl⟩)
  have hH : ∀ i < NUM_ENDOSCALING_STEPS, Holds C.nested n app.nestedRegistry
      (nestedIndex (.endoscalingStep i)) (cs.endoscaling i) := fun i hi => by
    obtain ⟨bn, be, ss, ss', -, -, h1, h2⟩ := app_ready hA
    obtain ⟨o, h3, h4⟩ := app_nested hA (hm i hi)
    exact ⟨(hA.circuits.endoscaling i hi).1, ⟨_, be, ss', h1, h2⟩, o, h4, h3⟩
  have stage : ∀ {id : NestedId} {d : Chain} {alpha vs r}, id ∈ NestedId.all →
      nestedEntry n cs id = .mask (d.mask n) → d.rx n alpha vs = .ok r →
      ∀ o, app.nestedRegistry.circuits[nestedIndex id]? = some o →
      MaskOk n o app.nestedRegistry.key r := by
    intro id d alpha vs r hid hd hr o ho
    obtain ⟨o', h1, h2⟩ := app_nested hA hid
    rw [ho, Option.some.injEq] at h1
    subst h1
    rw [hd] at h2
    obtain ⟨m, hm, rfl⟩ := h2
    exact stage_mask_ok hm hn hr _
  obtain ⟨_, -, _, c1⟩ := hB.preamble
  obtain ⟨_, -, _, c2⟩ := hB.sPrime
  obtain ⟨_, -, _, c3⟩ := hB.innerError
  obtain ⟨_, -, _, c4⟩ := hB.outerError
  obtain ⟨_, -, _, c5⟩ := hB.ab
  obtain ⟨_, -, _, c6⟩ := hB.query
  obtain ⟨_, -, _, c7⟩ := hB.f
  obtain ⟨_, -, _, c8⟩ := hB.eval
  have hstep : ∀ i < NUM_ENDOSCALING_STEPS, ∀ r, t.nested.stepRxs[i]? = some r →
      WellFormed (4 * n) r ∧ OnlyIn n (pointsStage.skipGates + pointsStage.numGates)
        (n - (pointsStage.skipGates + pointsStage.numGates)) r ∧ coeff r 0 = 0 := by
    intro i hi r hr
    obtain ⟨-, r', hr', hrun⟩ := hs i hi
    rw [hr, Option.some.injEq] at hr'
    subst hr'
    exact run_only (hH i hi) hrun
  refine ⟨by rw [hnest, hE.steps], fun c r hc => ?_, fun id hid o ho c hc => ?_, fun i hi o ho y z => ?_⟩
  · cases c <;> simp only [Proof.nestedRx, Option.some.injEq, hnest, b1, b2, b3, b4, b5, b6, b7, b8] at hc
    · rename_i i
      have := (List.getElem?_eq_some_iff.1 hc).1
      rw [hE.steps] at this
      exact (hstep i this r hc).1
    all_goals
      subst hc
      first
      | exact (rx_only he).1
      | exact (rx_only hpt).1
      | exact (rx_only c1).1
      | exact (rx_only c2).1
      | exact (rx_only c3).1
      | exact (rx_only c4).1
      | exact (rx_only c5).1
      | exact (rx_only c6).1
      | exact (rx_only c7).1
      | exact (rx_only c8).1
  · cases id <;> simp only [nestedBonded, List.mem_cons, List.not_mem_nil, or_false] at hc
    case pointsFinalStaged =>
      obtain ⟨i, hi, rfl⟩ := List.mem_map.1 hc
      rw [List.mem_range] at hi
      obtain ⟨-, r, hr, -⟩ := hs i hi
      simp only [Proof.nestedRx, hnest, hr, Option.getD_some]
      obtain ⟨o', h1, m, hm', rfl⟩ := app_nested hA hid
      rw [ho, Option.some.injEq] at h1
      subst h1
      obtain ⟨q1, q2, q3⟩ := hstep i hi r hr
      exact mask_ok (C26_final hm') hn q1 q2 q3 _
    case endoscalarStage =>
      subst hc
      simp only [Proof.nestedRx, hnest, Option.getD_some]
      exact stage (d := Pcd.endoscalarStage) hid rfl he o ho
    case pointsStage =>
      subst hc
      simp only [Proof.nestedRx, hnest, Option.getD_some]
      exact stage (d := Pcd.pointsStage) hid rfl hpt o ho
    case bridgePreamble =>
      subst hc
      simp only [Proof.nestedRx, b1, Option.getD_some]
      exact stage (d := Pcd.bridgePreamble) hid rfl c1 o ho
    case bridgeSPrime =>
      subst hc
      simp only [Proof.nestedRx, b2, Option.getD_some]
      exact stage (d := Pcd.bridgeSPrime) hid rfl c2 o ho
    case bridgeInnerError =>
      subst hc
      simp only [Proof.nestedRx, b3, Option.getD_some]
      exact stage (d := Pcd.bridgeInnerError) hid rfl c3 o ho
    case bridgeOuterError =>
      subst hc
      simp only [Proof.nestedRx, b4, Option.getD_some]
      exact stage (d := Pcd.bridgeOuterError) hid rfl c4 o ho
    case bridgeAB =>
      subst hc
      simp only [Proof.nestedRx, b5, Option.getD_some]
      exact stage (d := Pcd.bridgeAB) hid rfl c5 o ho
    case bridgeQuery =>
      subst hc
      simp only [Proof.nestedRx, b6, Option.getD_some]
      exact stage (d := Pcd.bridgeQuery) hid rfl c6 o ho
    case bridgeF =>
      subst hc
      simp only [Proof.nestedRx, b7, Option.getD_some]
      exact stage (d := Pcd.bridgeF) hid rfl c7 o ho
    case bridgeEval =>
      subst hc
      simp only [Proof.nestedRx, b8, Option.getD_some]
      exact stage (d := Pcd.bridgeEval) hid rfl c8 o ho
  · have hne : endoscalarStage ≠ pointsStage := fun h => by
      have := congrArg Chain.values h
      revert this
      decide
    obtain ⟨hsim, r, hr, hrun⟩ := hs i hi
    simp only [Proof.nestedRx, hnest, hr, Option.getD_some]
    refine run_claim (hH i hi) hrun (by simp [hne])
      (by simp only [List.forall_mem_cons]; exact ⟨.inr (.parent _ _), .inl rfl, by simp⟩)
      (.cons ⟨_, he⟩ (.cons ⟨_, hpt⟩ .nil)) (fun es hes => ?_) ho y z
    have w1 := given_wires hes (d := endoscalarStage)
      (vs := (endoscalarElems e).map (·.wire)) (by simp) (by decide)
      (by rw [List.length_map]; exact l1)
    have w2 := given_wires hes (d := pointsStage)
      (vs := points.elems.map (·.wire)) (by simp) (by decide)
      (by rw [List.length_map]; exact l2)
    rw [endoscalingCode, endoscalar_same w1.1, points_same li ls w2.1]
    show (Pcd.stepCircuit _ _ _ _ _ _ >>= fun _ => (Syn.ret [] : Syn G (List G))).sim = _
    rw [Syn.sim_bind_ok hsim]
    rfl

end

end Ragu.Props

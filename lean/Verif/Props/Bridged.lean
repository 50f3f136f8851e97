/-
Property C98: the polynomials over the scalar field hold the proof's commitments.
-/
import Verif.Spec.Bridged
import Verif.Props.FuseProgram
import Verif.Props.Tied

set_option linter.unusedSectionVars false

namespace Ragu.Props
open Ragu Ragu.Circuit Ragu.Registry Ragu.Spec Ragu.Gadget Ragu.Pcd Finset
variable {F G HC : Type} [Field F] [DecidableEq F] [Field G] [DecidableEq G]

/-! ### Stages that hold points -/

theorem pointElems_wires {ps : List (Gadget.Point G)} (j : ℕ) :
    ((pointElems ps).map (·.wire)).getD (2 * j) 0 = (ps[j]?.map (·.x.wire)).getD 0 ∧
    ((pointElems ps).map (·.wire)).getD (2 * j + 1) 0 = (ps[j]?.map (·.y.wire)).getD 0 := by
  induction ps generalizing j with
  | nil => simp [pointElems]
  | cons p ps ih =>
    have : pointElems (p :: ps) = p.x :: p.y :: pointElems ps := rfl
    rw [this]
    cases j with
    | zero => simp
    | succ j =>
      have := ih j
      simpa [Nat.mul_add] using this

/-- A stage whose gadget has the coordinates of `l` holds the points `l`. -/
theorem holds_points {n : ℕ} {K : NestedParams G HC} {d : Chain} {l : List HC}
    {ps : List (Gadget.Point G)} {alpha : G} {q : Sparse.Poly G}
    (h : List.Forall₂ (fun v p => ∃ x y, v = some (x, y) ∧ p = ⟨both x, both y⟩) (l.map K.coords) ps)
    (hq : d.rx n alpha ((pointElems ps).map (·.wire)) = .ok q) :
    HoldsPoints n K.coords d.skipGates l q := by
  have hlen : ps.length = l.length := by rw [← h.length_eq, List.length_map]
  obtain ⟨h1, -, h3⟩ := C28_rx d alpha _ hq
  rw [List.length_map, pointElems_length, hlen] at h1 h3
  refine ⟨fun j P hP => ?_, fun k i hi hne hk => h3 k i hi hne fun j hj he => ?_⟩
  · obtain ⟨hj, hP⟩ := List.getElem?_eq_some_iff.1 hP
    have hj' : j < ps.length := by omega
    have hf := List.Forall₂.get h (by rw [List.length_map]; exact hj) hj'
    simp only [List.get_eq_getElem, List.getElem_map, hP] at hf
    obtain ⟨x, y, e1, e2⟩ := hf
    have w1 := h1 (2 * j) (by omega)
    have w2 := h1 (2 * j + 1) (by omega)
    rw [(pointElems_wires j).1] at w1
    rw [(pointElems_wires j).2] at w2
    simp only [stageWire] at w1 w2
    rw [if_pos (by omega), show 2 * j / 2 = j by omega] at w1
    rw [if_neg (by omega), show (2 * j + 1) / 2 = j by omega] at w2
    rw [w1, w2, e1, List.getElem?_eq_getElem hj', e2]
    rfl
  · simp only [stageWire, Prod.mk.injEq] at he
    obtain ⟨e1, e2⟩ := he
    rcases hk with rfl | rfl | hk | hk
    · split_ifs at e1
    · split_ifs at e1
    · omega
    · omega

/-- A bridge holds its points. -/
theorem bridge_holds {n : ℕ} {K : NestedParams G HC} {d : Chain} {l : List HC} {q : Sparse.Poly G}
    (h : ∃ g, StageRun n d (bridgeCode K l) pointElems g q) : HoldsPoints n K.coords d.skipGates l q := by
  obtain ⟨g, h1, alpha, h2⟩ := h
  exact holds_points (allocPoints_runs h1) h2

/-- The points stage holds its points. -/
theorem pointsStage_holds {n : ℕ} {K : NestedParams G HC} {w : PointsWitness HC}
    {g : PointsWitness (Gadget.Point G)} {q : Sparse.Poly G}
    (h : StageRun n pointsStage (pointsStageCode K w) PointsWitness.elems g q) :
    HoldsPoints n K.coords pointsStage.skipGates (w.initial :: (w.inputs ++ w.interstitials)) q := by
  obtain ⟨h1, alpha, h2⟩ := h
  simp only [pointsStageCode, emulate_bind] at h1
  obtain ⟨g0, b0, gi, b1, gs, b2, b3⟩ := h1
  cases b3
  refine holds_points (ps := g0 :: (gi ++ gs)) ?_ h2
  rw [List.map_cons, List.map_append]
  refine .cons ?_ (List.rel_append (allocPoints_runs b1) (allocPoints_runs b2))
  cases hc : K.coords w.initial with
  | none => rw [hc] at b0; cases b0
  | some v =>
    rw [hc] at b0
    cases b0
    exact ⟨v.1, v.2, rfl, rfl⟩

variable [AddCommGroup HC] [DecidableEq HC] [Module F HC]

section
variable {V : FuseEnvironment F G HC} {D : Type} {c0 : Circ F} {i : ℕ}
  {code : Syn F (Except Pcd.Err (AdapterOut F D))}

/-- C98: whenever `fuse` returns a proof, its eight bridges hold, in gates 1 to 24, the coordinates of the
commitments over the circuit field that it made before the transcript absorbed the bridge, the first of them
also those of the six circuits of each child, in this order and nothing else; none of them is the identity. -/
theorem C98_bridges {left right p : Proof F G HC} {d : D}
    (h : V.fuse c0 i code left right (.ok (p, d))) :
    ∀ t ∈ bridgeContents left right p, HoldsPoints V.n V.K.coords t.1 t.2.1 t.2.2 := by
  obtain ⟨out, -, -, hB, -⟩ := fuse_ok h
  simp only [bridgeContents, List.forall_mem_cons, List.not_mem_nil, false_implies, implies_true, and_true]
  exact ⟨bridge_holds hB.preamble, bridge_holds hB.sPrime, bridge_holds hB.innerError,
    bridge_holds hB.outerError, bridge_holds hB.ab, bridge_holds hB.query, bridge_holds hB.f,
    bridge_holds hB.eval⟩

/-- C98: so the polynomials of the bridges determine the commitments: two proofs that `fuse` returns, from
any children and with any step, whose bridges have the same polynomials have the same 24 commitments in them,
if points with the same coordinates are equal. -/
theorem C98_binding {left right p : Proof F G HC} {d : D}
    (h : V.fuse c0 i code left right (.ok (p, d))) {D' : Type} {c0' : Circ F} {i' : ℕ}
    {code' : Syn F (Except Pcd.Err (AdapterOut F D'))} {left' right' p' : Proof F G HC} {d' : D'}
    (h' : V.fuse c0' i' code' left' right' (.ok (p', d')))
    (hinj : ∀ P Q v, V.K.coords P = some v → V.K.coords Q = some v → P = Q)
    (he : (bridgeContents left right p).map (·.2.2) = (bridgeContents left' right' p').map (·.2.2)) :
    (bridgeContents left right p).flatMap (·.2.1) = (bridgeContents left' right' p').flatMap (·.2.1) ∧
    ((bridgeContents left right p).flatMap (·.2.1)).length = 24 := by
  refine ⟨?_, rfl⟩
  have key : ∀ {s : ℕ} {l l' : List HC} {q : Sparse.Poly G}, HoldsPoints V.n V.K.coords s l q →
      HoldsPoints V.n V.K.coords s l' q → l.length = l'.length → l = l' := by
    intro s l l' q a b hl
    refine List.ext_getElem hl fun j hj hj' => ?_
    exact hinj _ _ _ (a.1 j _ (List.getElem?_eq_getElem hj)) (b.1 j _ (List.getElem?_eq_getElem hj'))
  have a := C98_bridges h
  have b := C98_bridges h'
  simp only [bridgeContents, List.map_cons, List.map_nil, List.cons.injEq, and_true] at he
  obtain ⟨e1, e2, e3, e4, e5, e6, e7, e8⟩ := he
  simp only [bridgeContents, List.forall_mem_cons, List.not_mem_nil, false_implies, implies_true,
    and_true] at a b
  rw [← e1, ← e2, ← e3, ← e4, ← e5, ← e6, ← e7, ← e8] at b
  obtain ⟨a1, a2, a3, a4, a5, a6, a7, a8⟩ := a
  obtain ⟨b1, b2, b3, b4, b5, b6, b7, b8⟩ := b
  simp only [bridgeContents, List.flatMap_cons, List.flatMap_nil]
  rw [key a1 b1 rfl, key a2 b2 rfl, key a3 b3 rfl, key a4 b4 rfl, key a5 b5 rfl, key a6 b6 rfl,
    key a7 b7 rfl, key a8 b8 rfl]

/-- C98: the other two stages of such a proof hold the bits of the endoscalar of the challenge `preBeta`,
least significant first and two in each gate from gate 1 on, and, from gate 65 on, the 37 points that the
proof accumulates and then the nine partial sums `s^m P₀ + … + P_m`, for `m = 4, 8, …, 36` and the scalar `s`
of the endoscalar, the last of which is the commitment of the proof's polynomial `p`. -/
theorem C98_endoscaling {left right p : Proof F G HC} {d : D}
    (h : V.fuse c0 i code left right (.ok (p, d))) :
    ∃ endo sums, extractNative V.P.endo.nbits V.P.endo.sqrt V.P.endo.gen p.challenges.preBeta = some endo ∧
      (∀ j < V.P.endo.nbits,
        wireOf V.n p.p.nested.endoscalarRx (if j % 2 = 0 then .b else .d) (1 + j / 2) =
          if endo.testBit j then 1 else 0) ∧
      (accumulated left right p).length = 37 ∧
      HoldsPoints V.n V.K.coords 65 (accumulated left right p ++ sums) p.p.nested.pointsRx ∧
      sums = (List.range 9).map (fun j => pointSum (liftNative V.P.endo.nbits V.P.endo.zeta endo)
        (accumulated left right p) (4 * (j + 1))) ∧
      sums.getLast? = some p.p.native.commitment := by
  obtain ⟨out, -, hF, -, hE⟩ := fuse_ok h
  obtain ⟨endo, native, w, e, points, h1, h2, h3, h4, -⟩ := hE.stages
  have hA : (p.f.native.commitment :: (accList ⟨left, right, p.sPrime.native, p.innerError.native,
      p.ab.native, p.query.native⟩).map (·.2)) = accumulated left right p := rfl
  have hn : native = p.p.native := by
    obtain ⟨-, w', hw'⟩ := fuse_batched hF.assembled
    rw [h2, Option.some.injEq, Prod.mk.injEq] at hw'
    exact hw'.1
  subst hn
  unfold computeP at h2
  simp only [h1, hA, Option.bind_eq_bind, Option.bind_some, Option.bind_eq_some_iff, Option.pure_def,
    Option.some.injEq, Prod.mk.injEq] at h2
  obtain ⟨poly, -, w', hw, c, hc, hpc, rfl⟩ := h2
  obtain ⟨k, w2, g1, g2, g3, g4, g5, g6⟩ := (C51_witness V.P.endo.nbits V.P.endo.zeta
    (numPoints := NUM_ENDOSCALING_POINTS) (by decide) endo (accumulated left right p)).2 rfl
  rw [hw, Option.some.injEq] at g2
  subst g2
  have hk : k = 9 := by
    have : numSteps NUM_ENDOSCALING_POINTS = some 9 := by decide
    rw [this, Option.some.injEq] at g1
    exact g1.symm
  subst hk
  refine ⟨endo, w'.interstitials, h1, fun j hj => ?_, rfl, ?_, ?_, ?_⟩
  · obtain ⟨k1, alpha, k2⟩ := h3
    obtain ⟨e', s1, s2, s3⟩ := (C35_alloc (F := G) V.P.endo.nbits endo).2.2
    rw [emulate_of_sim s1] at k1
    cases k1
    have hb : (endoscalarElems e).map (·.wire) = e.bits := by
      rw [endoscalarElems, List.map_map]
      exact List.map_id _
    rw [hb, s3] at k2
    have := (C28_rx _ _ _ k2).1 j (by simpa using hj)
    simp only [stageWire] at this
    rw [show endoscalarStage.skipGates = 1 from rfl] at this
    refine this.trans ?_
    simp [List.getD_eq_getElem?_getD, hj]
  · rw [← g3]
    exact pointsStage_holds h4
  · refine List.ext_getElem? fun j => ?_
    by_cases hj : j < 9
    · rw [g5 j hj, List.getElem?_map, List.getElem?_range hj]
      simp only [Option.map_some, Option.some.injEq]
      congr 1
      have : NUM_ENDOSCALING_POINTS = 37 := rfl
      omega
    · rw [List.getElem?_eq_none (by omega), List.getElem?_eq_none (by simp; omega)]
  · rw [hc, ← hpc]

/-- The first bridge of a seeded proof. -/
theorem seed_bridge {p : Proof F G HC} {d : D} (h : V.seed c0 i code (.ok (p, d))) :
    ∃ q, IsTrivial V q ∧ HoldsPoints V.n V.K.coords 1
      (p.preamble.native.commitment :: (childPoints q ++ childPoints q)) p.preamble.bridge.rx := by
  unfold FuseEnvironment.seed at h
  obtain ⟨q, hq, hf⟩ := Outcomes.bind_ok.1 h
  exact ⟨q, must_ok.1 hq, C98_bridges hf _ List.mem_cons_self⟩

end

/-! ### Examples -/

section
open Ragu.Pasta

/-- Points of Vesta with the same coordinates are equal. -/
theorem coordinates_inj {P Q : Vesta} {v : Fq × Fq} (h : coordinates P = some v)
    (h' : coordinates Q = some v) : P = Q := by
  rcases P with _ | ⟨x, y, hP⟩
  · cases h
  · rcases Q with _ | ⟨x', y', hQ⟩
    · cases h'
    · cases h
      cases h'
      rfl

/-- Non-vacuity of C98_bridges, C98_binding and C98_endoscaling: there is an application over the Pasta cycle
in which `seed` with the trivial step, which is a fuse of trivial proofs, has an outcome; points with the same
coordinates are equal in it, and if the outcome is a proof then its first bridge holds 13 points. -/
example : ∃ (V : FuseEnvironment Fp Fq Vesta) (steps : List (StepDef Fp)),
    Prepared V steps ∧ (∀ P Q v, V.K.coords P = some v → V.K.coords Q = some v → P = Q) ∧
    ∃ r, V.seed V.cs.trivial (NUM_INTERNAL_CIRCUITS + 1) (trivialStep V.P.headerSize) r ∧
      match r with
      | .ok (p, _) => ∃ q, IsTrivial V q ∧
          HoldsPoints V.n V.K.coords 1 (p.preamble.native.commitment :: (childPoints q ++ childPoints q))
            p.preamble.bridge.rx
      | .error stop => Explained V stop := by
  classical
  obtain ⟨sqrt, hs⟩ : ∃ sqrt : Fp → Option Fp, SqrtSpec sqrt := by
    refine ⟨fun v => if h : IsSquare v then some h.choose else none, fun v s h => ?_, fun v h => ?_⟩
    · split at h
      · next hv =>
        rw [Option.some.injEq] at h
        subst h
        exact hv.choose_spec.symm
      · cases h
    · rw [dif_pos h]
      exact Option.some_ne_none _
  let M : Machine Fp := ⟨1, fun _ => [], fun _ => 0⟩
  let M' : Machine Fq := ⟨1, fun _ => [], fun _ => 0⟩
  have hsteps : StepsInOrder 2048 ([] : List (StepDef Fp)) := by
    refine ⟨?_, ?_, ?_⟩ <;> simp [allHeaders, Consistent]
  obtain ⟨cs, hcs⟩ := C80_exist _ (pasta_ok M hs ([] : List (StepDef Fp)).length
    (headerSize := 4) (by omega)) (zetaQ : Fq)
  obtain ⟨app, hV⟩ := C82_pasta (M := M) (M' := M') Nat.one_pos Nat.one_pos hs
    (gens := List.replicate 8192 (.some (-1) 2 vesta_gen)) (List.length_replicate ..).ge
    (fun _ => (.some (-1) 2 pallas_gen : Pallas)) (headerSize := 4) (by omega) (by omega) hsteps
    (by simp) hcs
  refine ⟨_, [], hV, fun P Q v h h' => coordinates_inj h h', ?_⟩
  obtain ⟨⟨r, hr⟩, h⟩ := C82_seed_progress hV generator_commits (trivial_runs hV.app.params.header)
    hcs.trivial.2.2.2
  refine ⟨r, hr, ?_⟩
  cases r with
  | error stop => exact h stop hr
  | ok r =>
    obtain ⟨p, d⟩ := r
    exact seed_bridge hr

end
end Ragu.Props

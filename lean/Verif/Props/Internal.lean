/-
C64 and C65: the five internal circuits of a fuse together.
-/
import Verif.Lemmas.Internal
import Verif.Props.ComputeV
import Verif.Props.Fold

set_option linter.unusedSectionVars false

namespace Ragu.Props
open Ragu Ragu.Circuit Ragu.Registry Ragu.Gadget Ragu.Spec Ragu.Pcd Finset
variable {F : Type} [Field F] [DecidableEq F]

/-- What the parameters have to satisfy: Poseidon parameters of the right shape, a field element
that is not a square, a square root function, and a header of at least one element. -/
structure StepParamsOk (P : StepParams F) : Prop where
  poseidon : Poseidon.WF P.poseidon
  rate_pos : 1 ≤ P.poseidon.rate
  rate_le : P.poseidon.rate ≤ P.poseidon.T
  gen : ¬ IsSquare P.endo.gen
  sqrt : SqrtSpec P.endo.sqrt
  header : 1 ≤ P.headerSize

/-- The lengths that the types of the stages fix. -/
structure StageShape (P : StepParams F) (S : StepStages F) : Prop where
  left : S.preamble.left.outputHeader.length = P.headerSize
  right : S.preamble.right.outputHeader.length = P.headerSize
  outerErrors : S.outerError.errorTerms.length = NUM_GROUPS * NUM_GROUPS - NUM_GROUPS
  collapsed : S.outerError.collapsed.length = NUM_GROUPS
  innerErrors : S.innerError.length = NUM_GROUPS
  innerError : ∀ e ∈ S.innerError, e.length = GROUP_SIZE * GROUP_SIZE - GROUP_SIZE
  state : S.outerError.spongeState.length = P.poseidon.T

/-- `StepHolds` for the parameters and the wires of the stages. -/
def StagesHold (P : StepParams F) (S : StepStages F) (pub : StepPublic F) : Prop :=
  StepHolds (Poseidon.native P.poseidon) P.poseidon.rate P.poseidon.T (Transcript.tagElems P.tag) P.b
    P.logCircuits P.headerSize P.endo.nbits (2 ^ P.logRank) P.endo.zeta (fun id => id.omega P.env)
    pub S.preamble.left.public S.preamble.right.public
    (S.innerError.map fun l => l.map (·.wire)) (S.outerError.errorTerms.map (·.wire))
    (QueryOutput.map (·.wire) S.query) (EvalOutput.map (·.wire) S.eval)

/-! ### The transcript -/

theorem prover_phases (tag : List F) (pub : StepPublic F) :
    Transcript.proverOps tag (publicCommitments pub) =
      List.replicate 0 .squeeze ++ ((pub.phases tag).flatMap fun p =>
        p.1.map .absorb ++ List.replicate p.2 .squeeze) ++ ([] : List F).map .absorb := by
  simp [Transcript.proverOps, Transcript.newOps, Transcript.writePoint, StepPublic.phases,
    publicCommitments, List.replicate_succ]

theorem duplex_run {p : PoseidonParams F} (hr : 1 ≤ p.rate) (hT : p.rate ≤ p.T) (tag : List F)
    (pub : StepPublic F) : ∃ outs : List F,
    duplex (Poseidon.native p) p.rate (List.replicate p.T 0) (pub.phases tag) = outs.map some ∧
    (SpongeSpec.run (Poseidon.native p) p.rate (Transcript.proverOps tag (publicCommitments pub))
      (Sponge.new 0 p.T)).1 = outs.map .ok := by
  obtain ⟨outs, h1, h2⟩ := C37_duplex (Poseidon.native p) p.T p.rate (fun l _ => native_length p l)
    hr hT 0 0 (pub.phases tag) (by simp [StepPublic.phases]) []
  refine ⟨outs, h1, ?_⟩
  rw [prover_phases]
  exact h2.trans (List.nil_append _)

theorem hashes2Ops_cons {E : Type} (c : Transcript.Commitments E) :
    Transcript.hashes2Ops c = .squeeze :: (Transcript.hashes2Ops c).tail := rfl

theorem map_ok_inj {l l' : List F}
    (h : (l.map .ok : List (Except SpongeErr F)) = l'.map .ok) : l = l' :=
  List.map_injective_iff.2 (fun _ _ h => Except.ok.inj h) h

theorem halves_challenges {p : PoseidonParams F} (hr : 1 ≤ p.rate) (hT : p.rate ≤ p.T)
    {tag : List UInt8} {staged : List F} (hl : staged.length = p.T) {pub : StepPublic F}
    (h1 : FirstHalf p tag staged pub) (h2 : SecondHalf p staged pub) :
    duplex (Poseidon.native p) p.rate (List.replicate p.T 0) (pub.phases (Transcript.tagElems tag)) =
      pub.challenges.map some := by
  obtain ⟨md, hrun, hsave⟩ := h1
  obtain ⟨md2, hrun2⟩ := h2
  obtain ⟨outs, h3, h4⟩ := duplex_run hr hT (Transcript.tagElems tag) pub
  have h5 := C37_save_resume (Poseidon.native p) p.rate hr md staged hsave (by omega)
    (Transcript.hashes2Ops (publicCommitments pub)).tail
  rw [← hashes2Ops_cons] at h5
  have h6 : SpongeSpec.run (Poseidon.native p) p.rate
      (Transcript.hashes2Ops (publicCommitments pub)) md = _ := h5.symm.trans hrun2
  rw [ops_split, SpongeSpec.run_append, hrun] at h4
  dsimp only at h4
  rw [h6] at h4
  rw [h3]
  congr 1
  refine map_ok_inj (h4.symm.trans ?_)
  rw [← List.map_append]
  rfl

theorem challenges_halves {p : PoseidonParams F} (hr : 1 ≤ p.rate) (hT : p.rate ≤ p.T)
    {tag : List UInt8} {staged : List F} (hl : staged.length = p.T) {pub : StepPublic F}
    (hs : ∃ outs md, SpongeSpec.run (Poseidon.native p) p.rate
      (Transcript.hashes1Ops (Transcript.tagElems tag) (publicCommitments pub))
        (Sponge.new 0 p.T) = (outs, md) ∧ saveP (Poseidon.native p) p.rate md = .ok staged)
    (h : duplex (Poseidon.native p) p.rate (List.replicate p.T 0)
      (pub.phases (Transcript.tagElems tag)) = pub.challenges.map some) :
    FirstHalf p tag staged pub ∧ SecondHalf p staged pub := by
  obtain ⟨outs, md, hrun, hsave⟩ := hs
  obtain ⟨all, h3, h4⟩ := duplex_run hr hT (Transcript.tagElems tag) pub
  have hall : all = pub.challenges :=
    List.map_injective_iff.2 (Option.some_injective F) (h3.symm.trans h)
  subst hall
  have h5 := C37_save_resume (Poseidon.native p) p.rate hr md staged hsave (by omega)
    (Transcript.hashes2Ops (publicCommitments pub)).tail
  rw [← hashes2Ops_cons] at h5
  rw [ops_split, SpongeSpec.run_append, hrun] at h4
  dsimp only at h4
  have hlen : outs.length = 3 := by
    have : outs = (SpongeSpec.run (Poseidon.native p) p.rate
      (Transcript.hashes1Ops (Transcript.tagElems tag) (publicCommitments pub))
        (Sponge.new 0 p.T)).1 := by rw [hrun]
    rw [this, hashes1Ops_split, SpongeSpec.run_append, SpongeSpec.run_absorbs_out, List.append_nil]
    have e : ∀ (l : List F) (ops : List (Sponge.Op F)) md, (SpongeSpec.run (Poseidon.native p) p.rate
        (l.map .absorb ++ ops) md).1.length = (SpongeSpec.run (Poseidon.native p) p.rate ops
          (SpongeSpec.run (Poseidon.native p) p.rate (l.map .absorb) md).2).1.length := by
      intro l ops md
      rw [SpongeSpec.run_append, SpongeSpec.run_absorbs_out, List.nil_append]
    dsimp only
    rw [Transcript.newOps, List.append_assoc, List.append_assoc, List.append_assoc, e]
    rfl
  have hsplit : outs = [pub.w, pub.y, pub.z].map .ok ∧
      (SpongeSpec.run (Poseidon.native p) p.rate (Transcript.hashes2Ops (publicCommitments pub))
        md).1 = [pub.mu, pub.nu, pub.muPrime, pub.nuPrime, pub.x, pub.alpha,
          pub.u, pub.preBeta].map .ok := by
    refine List.append_inj (h4.trans ?_) (by rw [hlen]; rfl)
    rw [← List.map_append]
    rfl
  refine ⟨⟨md, by rw [hrun, hsplit.1], hsave⟩, ⟨_, h5.trans (Prod.ext hsplit.2 rfl)⟩⟩

/-! ### Folding -/

theorem collapsed_eq {P : StepParams F} {S : StepStages F} (hS : StageShape P S)
    {pub : StepPublic F} (hl : KyHolds S.preamble.left.public pub.y S.outerError.left)
    (hr : KyHolds S.preamble.right.public pub.y S.outerError.right) :
    InnerHolds GROUP_SIZE S.preamble S.outerError S.innerError pub ↔ pub.mu ≠ 0 ∧
      S.outerError.collapsed.map (·.wire) = (List.range NUM_GROUPS).map
        (groupClaim GROUP_SIZE pub.mu pub.nu (S.innerError.map fun l => l.map (·.wire))
          (claimedValues pub.y S.preamble.left.public S.preamble.right.public)) := by
  rw [InnerHolds]
  refine and_congr_right fun _ => ?_
  have e : (fun i => (circuitKyValues S.preamble S.outerError.left S.outerError.right i).wire) =
      fun i => (claimedValues pub.y S.preamble.left.public S.preamble.right.public).getD i 0 :=
    funext fun i => circuitKyValues_wire hl hr i
  rw [e, GroupsHold, List.length_map, hS.innerErrors]
  simp only [Nat.zero_add]
  constructor
  · intro h
    refine List.ext_getElem? fun i => ?_
    by_cases hi : i < NUM_GROUPS
    · rw [h i hi, List.getElem?_map, List.getElem?_range hi]
      rfl
    · rw [List.getElem?_eq_none (by rw [List.length_map, hS.collapsed]; omega),
        List.getElem?_eq_none (by rw [List.length_map, List.length_range]; omega)]
  · intro h j hj
    rw [h, List.getElem?_map, List.getElem?_range hj]
    rfl

/-! ### Soundness -/

theorem points_public (o : UnifiedOutput F) :
    (outputPublic o).points = (UnifiedOutput.points o).map pointWires := rfl

theorem curve_allocated {b : F} {n : Kind.point.Native F} {g : Point F}
    (h : Allocated b .point n g) : g.y.wire ^ 2 = g.x.wire ^ 3 + b := h.1

theorem stage_points (E : Env F) (pre : PreambleOutput F) (w y z x : F) :
    wirePoints E pre w y z x = ⟨w, y, z, x,
      bySide pre.left.public.points pre.right.public.points, fun id => id.omega E⟩ := by
  rw [wirePoints]
  congr 1

theorem stage_childV (pre : PreambleOutput F) : (fun s => (pre.v s).wire) =
    bySide pre.left.public.unified.v pre.right.public.unified.v := by
  funext s
  cases s <;> rfl

/-- C64: take any assignments that satisfy the five internal circuits, for any instances that the
prover may have used, and that share the stages.  If the public values of all five are `pub` (and
for the first hash circuit also two headers), then the headers are the output headers of the children
and `StagesHold`: the challenges are those of the transcript over the commitments, all commitments are
on the curve, the children's identifiers are in the domain, `c` is the folding of the children's claims
unless both are trivial, and `v` is the value that the claimed evaluations lead to. -/
theorem C64_circuits_sound [Finite F] (P : StepParams F) (hP : StepParamsOk P) (S : StepStages F)
    (hS : StageShape P S) (i1 i2 i3 i4 i5 : UnifiedInstance F)
    (r1 r2 r3 r4 r5 : List (Element F) × UnifiedInstance F)
    (h1 : (hashes1Circuit P.poseidon P.tag P.b P.logCircuits S.preamble S.outerError i1).sat r1)
    (h2 : (hashes2Circuit P.poseidon P.b S.outerError i2).sat r2)
    (h3 : (innerCollapseCircuit P.b GROUP_SIZE S.preamble S.outerError S.innerError i3).sat r3)
    (h4 : (outerCollapseCircuit P.b P.headerSize NUM_GROUPS S.preamble S.outerError i4).sat r4)
    (h5 : (computeV P.env P.endo P.b P.logRank S.preamble S.query S.eval i5).sat r5)
    (pub : StepPublic F) (left right : List F) (hleft : left.length = P.headerSize)
    (e1 : r1.1.map (·.wire) = pub.toList ++ left ++ right ++ [0])
    (e2 : r2.1.map (·.wire) = pub.toList ++ [0]) (e3 : r3.1.map (·.wire) = pub.toList ++ [0])
    (e4 : r4.1.map (·.wire) = pub.toList ++ [0]) (e5 : r5.1.map (·.wire) = pub.toList ++ [0]) :
    (left = S.preamble.left.public.outputHeader ∧ right = S.preamble.right.public.outputHeader) ∧
    StagesHold P S pub := by
  obtain ⟨o1, q1, k1, c1⟩ := (runs_hashes1 (m := False) hP.poseidon hP.rate_pos hP.rate_le hS.state
    False.elim).sound id r1 h1
  obtain ⟨o2, q2, k2, c2⟩ := (runs_hashes2 (m := False) hP.poseidon hP.rate_pos hP.rate_le hS.state
    False.elim).sound id r2 h2
  obtain ⟨o3, q3, k3, -⟩ := (runs_innerCollapse (m := False) hS.innerError False.elim).sound id r3 h3
  obtain ⟨o4, q4, k4, -⟩ := (runs_outerCollapse (m := False) hS.outerErrors hS.collapsed
    False.elim).sound id r4 h4
  obtain ⟨o5, q5, hcurve, k5, -⟩ := (runs_computeV (m := False) hP.gen hP.sqrt False.elim).sound id
    r5 h5
  have key : ∀ (o : UnifiedOutput F) (r : List (Element F)), r = o.write ++ [Element.zero] →
      r.map (·.wire) = pub.toList ++ [0] → outputPublic o = pub := by
    intro o r hr h
    rw [hr, List.map_append, write_public] at h
    exact toList_inj (List.append_inj h rfl).1
  have p2 := key o2 _ q2 e2
  have p3 := key o3 _ q3 e3
  have p4 := key o4 _ q4 e4
  have p5 := key o5 _ q5 e5
  rw [q1, hashes1Output, List.map_append, List.map_append, List.map_append, write_public] at e1
  obtain ⟨e1, -⟩ := List.append_inj' e1 rfl
  rw [List.append_assoc, List.append_assoc] at e1
  obtain ⟨e11, e12⟩ := List.append_inj e1 rfl
  obtain ⟨e13, e14⟩ := List.append_inj e12 (by rw [List.length_map, hS.left, hleft])
  have p1 := toList_inj e11
  rw [p1] at k1
  rw [p2] at k2
  rw [p3, collapsed_eq hS k1.left k1.right] at k3
  rw [p4] at k4
  refine ⟨⟨e13.symm, e14.symm⟩, ?_, ?_, k1.ids, ?_, ?_⟩
  · exact halves_challenges hP.rate_pos hP.rate_le (by rw [List.length_map, hS.state]) k1.transcript k2
  · intro q hq
    rw [List.append_assoc, List.mem_append] at hq
    rcases hq with hq | hq
    · have a1 := curve_allocated (c1.rest .bridgePreamble (by simp))
      have a2 := curve_allocated (c1.rest .bridgeSPrime (by simp))
      have a3 := curve_allocated (c1.rest .bridgeInnerError (by simp))
      have a4 := curve_allocated (c1.rest .bridgeOuterError (by simp))
      have a5 := curve_allocated (c1.rest .bridgeAb (by simp))
      have a6 := curve_allocated (c1.rest .bridgeQuery (by simp))
      have a7 := curve_allocated (c1.rest .bridgeF (by simp))
      have a8 := curve_allocated (c1.rest .bridgeEval (by simp))
      rw [← p1] at hq
      simp only [StepPublic.points, outputPublic, List.mem_cons, List.not_mem_nil, or_false] at hq
      rcases hq with rfl | rfl | rfl | rfl | rfl | rfl | rfl | rfl
      exacts [a1, a2, a3, a4, a5, a6, a7, a8]
    · have : q ∈ (UnifiedOutput.points S.preamble.left.unified ++
          UnifiedOutput.points S.preamble.right.unified).map pointWires := by
        rw [List.map_append]; exact hq
      obtain ⟨g, hg, rfl⟩ := List.mem_map.1 this
      exact hcurve g hg
  · intro ht
    rw [k4.2 ht, k3.2]
    rfl
  · subst p5
    rw [← stage_points, ← stage_childV]
    obtain ⟨B, k5, hB, -⟩ := k5
    exact VerifiedWith.mono hB k5

/-! ### Completeness -/

/-- What the prover's stages and values have to satisfy. -/
structure StepReady (P : StepParams F) (S : StepStages F)
    (value : (s : SlotId) → s.kind.Native F) : Prop where
  /-- Witness values and wires of the stages agree. -/
  left : S.preamble.left.Honest
  right : S.preamble.right.Honest
  kyLeft : S.outerError.left.Honest
  kyRight : S.outerError.right.Honest
  outerErrors : ∀ e ∈ S.outerError.errorTerms, e.Honest
  collapsed : ∀ e ∈ S.outerError.collapsed, e.Honest
  state : ∀ e ∈ S.outerError.spongeState, e.Honest
  innerErrors : ∀ l ∈ S.innerError, ∀ e ∈ l, e.Honest
  query : QueryOutput.Honest S.query
  eval : EvalOutput.Honest S.eval
  /-- The commitments of the instance are affine points of the curve. -/
  valid : ∀ s, ValidNative P.b s.kind (value s)
  /-- The staged public values, collapsed values and sponge state are the right ones. -/
  stagedLeft : KyHolds S.preamble.left.public (valuePublic value).y S.outerError.left
  stagedRight : KyHolds S.preamble.right.public (valuePublic value).y S.outerError.right
  stagedCollapsed : S.outerError.collapsed.map (·.wire) = (List.range NUM_GROUPS).map
    (groupClaim GROUP_SIZE (valuePublic value).mu (valuePublic value).nu
      (S.innerError.map fun l => l.map (·.wire))
      (claimedValues (valuePublic value).y S.preamble.left.public S.preamble.right.public))
  stagedState : ∃ outs md, SpongeSpec.run (Poseidon.native P.poseidon) P.poseidon.rate
    (Transcript.hashes1Ops (Transcript.tagElems P.tag) (publicCommitments (valuePublic value)))
      (Sponge.new 0 P.poseidon.T) = (outs, md) ∧
    saveP (Poseidon.native P.poseidon) P.poseidon.rate md =
      .ok (S.outerError.spongeState.map (·.wire))
  /-- `v` is the value that the evaluations lead to with the bits that the prover extracts. -/
  extracted : VerifiedWith (ExtractedBits P.endo.nbits (valuePublic value).preBeta) P.endo.nbits
    (2 ^ P.logRank) P.endo.zeta
    (wirePoints P.env S.preamble (valuePublic value).w (valuePublic value).y (valuePublic value).z
      (valuePublic value).x)
    (fun s => (S.preamble.v s).wire) (QueryOutput.map (·.wire) S.query)
    (EvalOutput.map (·.wire) S.eval) (valuePublic value).mu (valuePublic value).nu
    (valuePublic value).muPrime (valuePublic value).nuPrime (valuePublic value).alpha
    (valuePublic value).u (valuePublic value).v
  /-- The public values are the right ones. -/
  holds : StagesHold P S (valuePublic value)

theorem child_honest {c : ChildInputs F} (h : c.Honest) :
    (Element.Honest (c.unified .u) ∧ Element.Honest (c.unified .y) ∧
      Element.Honest (c.unified .x) ∧ c.circuitId.Honest ∧ Element.Honest (c.unified .v)) ∧
    Element.Honest (c.unified .c) ∧ ∀ p ∈ UnifiedOutput.points c.unified, Point.Honest p := by
  have h1 : c.unified.write.Forall Element.Honest := List.forall_iff_forall_mem.2 h.unified
  obtain ⟨a1, a2, a3, a4, a5, a6, a7, a8, a9, a10, a11, a12, a13, a14, a15, a16, a17, a18, a19, a20,
    a21, a22, a23, a24, a25, a26, a27, a28, a29⟩ := h1
  refine ⟨⟨a25, a6, a19, h.circuitId, a29⟩, a16, ?_⟩
  have h2 : (UnifiedOutput.points c.unified).Forall Point.Honest :=
    ⟨⟨a1, a2⟩, ⟨a4, a5⟩, ⟨a8, a9⟩, ⟨a12, a13⟩, ⟨a17, a18⟩, ⟨a20, a21⟩, ⟨a23, a24⟩, ⟨a26, a27⟩⟩
  exact List.forall_iff_forall_mem.1 h2

/-- C65: for honest stages and public values that satisfy `StagesHold` the five circuits run in
order, each public value is covered exactly once so that the final check passes, and the outputs are
the public values: for the first hash circuit with the children's output headers. -/
theorem C65_circuits_complete [Finite F] (P : StepParams F) (hP : StepParamsOk P) (S : StepStages F)
    (hS : StageShape P S) (value : (s : SlotId) → s.kind.Native F) (h : StepReady P S value) :
    ∃ outs, internalCircuits P S value = .ok outs ∧
      outs.map (fun o => o.map (·.wire)) =
        ((valuePublic value).toList ++ S.preamble.left.public.outputHeader ++
          S.preamble.right.public.outputHeader ++ [0]) ::
        List.replicate 4 ((valuePublic value).toList ++ [0]) := by
  have hl := child_honest h.left
  have hr := child_honest h.right
  obtain ⟨half1, half2⟩ := challenges_halves hP.rate_pos hP.rate_le
    (by rw [List.length_map, hS.state]) h.stagedState h.holds.challenges
  have hv := h.holds.verified
  -- the first hash circuit
  obtain ⟨⟨r1, i1⟩, s1, o1, q1, -, c1⟩ := (runs_hashes1 (m := True) (p := P.poseidon) (tag := P.tag)
    (b := P.b) (k := P.logCircuits) (pre := S.preamble) (inst := ⟨value, fun _ => false⟩) hP.poseidon
    hP.rate_pos hP.rate_le hS.state fun _ => ⟨h.left, h.right, h.valid, fun _ _ => rfl,
      h.holds.ids, half1, h.stagedLeft, h.stagedRight⟩).complete trivial
  have a1 := c1.after trivial
  dsimp only at a1 q1
  subst a1
  -- the second hash circuit
  obtain ⟨⟨r2, i2⟩, s2, o2, q2, -, c2⟩ := (runs_hashes2 (m := True) (p := P.poseidon) (b := P.b)
    (inst := ⟨value, fun s => false || decide (s ∈ [SlotId.bridgePreamble, .w, .bridgeSPrime, .y, .z,
      .bridgeInnerError])⟩) hP.poseidon hP.rate_pos hP.rate_le hS.state
    fun _ => ⟨h.state, h.valid, by dsimp only; decide, half2⟩).complete trivial
  have a2 := c2.after trivial
  dsimp only at a2 q2
  subst a2
  -- the inner collapse
  obtain ⟨⟨r3, i3⟩, s3, o3, q3, -, c3⟩ := (runs_innerCollapse (m := True) (b := P.b)
    (inst := ⟨value, fun s => (false || decide (s ∈ [SlotId.bridgePreamble, .w, .bridgeSPrime, .y, .z,
      .bridgeInnerError])) || decide (s ∈ hashes2Slots)⟩) hS.innerError
    fun _ => ⟨⟨hl.2.1, hr.2.1⟩, h.kyLeft, h.kyRight, h.innerErrors, h.valid,
      (collapsed_eq hS h.stagedLeft h.stagedRight).2 ⟨hv.mu_ne, h.stagedCollapsed⟩⟩).complete trivial
  have a3 := c3.after trivial
  dsimp only at a3 q3
  subst a3
  -- the outer collapse
  obtain ⟨⟨r4, i4⟩, s4, o4, q4, -, c4⟩ := (runs_outerCollapse (m := True) (b := P.b)
    (N := P.headerSize) (pre := S.preamble)
    (inst := ⟨value, fun s => ((false || decide (s ∈ [SlotId.bridgePreamble, .w, .bridgeSPrime, .y,
      .z, .bridgeInnerError])) || decide (s ∈ hashes2Slots)) || decide (s ∈ [])⟩)
    hS.outerErrors hS.collapsed
    fun _ => ⟨⟨h.left.outputHeader, by rw [hS.left]; have := hP.header; omega⟩,
      ⟨h.right.outputHeader, by rw [hS.right]; have := hP.header; omega⟩, h.outerErrors, h.collapsed,
      h.valid, by dsimp only; decide, hv.muPrime_ne, fun ht => by
        rw [h.stagedCollapsed]; exact h.holds.folded ht⟩).complete trivial
  have a4 := c4.after trivial
  dsimp only at a4 q4
  subst a4
  -- the evaluation
  rw [← stage_points, ← stage_childV] at hv
  obtain ⟨⟨r5, i5⟩, s5, o5, q5, -, ⟨B, v5, -, hB⟩, c5, a5⟩ := (runs_computeV (m := True) (E := P.env)
    (ec := P.endo) (b := P.b) (k := P.logRank) (pre := S.preamble) (q := S.query) (e := S.eval)
    (inst := ⟨value, fun s => (((false || decide (s ∈ [SlotId.bridgePreamble, .w, .bridgeSPrime, .y,
      .z, .bridgeInnerError])) || decide (s ∈ hashes2Slots)) || decide (s ∈ [])) ||
      decide (s ∈ [SlotId.c])⟩) hP.gen hP.sqrt fun _ =>
    { points := by
        intro c hc
        simp only [List.mem_cons, List.not_mem_nil, or_false] at hc
        rcases hc with rfl | rfl
        exacts [hl.1, hr.1]
      curve := by
        intro p hp
        refine h.holds.curve (pointWires p) ?_
        rw [List.append_assoc, List.mem_append]
        right
        have := List.mem_map_of_mem (f := pointWires) hp
        rw [List.map_append] at this
        exact this
      bridges := by
        intro p hp
        rcases List.mem_append.1 hp with hp | hp
        exacts [hl.2.2 p hp, hr.2.2 p hp]
      query := h.query
      eval := h.eval
      valid := h.valid
      fresh := by dsimp only; decide
      x_ne := hv.x_ne
      z_ne := hv.z_ne
      mu_ne := hv.mu_ne
      muPrime_ne := hv.muPrime_ne
      avoids := hv.avoids }).complete trivial
  have a5 := a5 trivial
  dsimp only at a5 q5
  subst a5
  have key : ∀ o : UnifiedOutput F, (∀ s, o s = honestGadget s.kind (value s)) →
      outputPublic o = valuePublic value := by
    intro o ho
    rw [valuePublic]
    congr 1
    funext s
    exact ho s
  have p1 := key o1 (c1.honest trivial)
  have p2 := key o2 (c2.honest trivial)
  have p3 := key o3 (c3.honest trivial)
  have p4 := key o4 (c4.honest trivial)
  have p5 : outputPublic o5 = valuePublic value := by
    have hne : ∀ s, s ≠ .v → o5 s = honestGadget s.kind (value s) := fun s hs => (c5 s hs).2 trivial
    have hval : Element.wire (o5 .v) = (valuePublic value).v := by
      have hB := hB trivial
      rw [hne .preBeta (by decide)] at hB
      rw [OutputVerifiedWith, hne .w (by decide), hne .y (by decide), hne .z (by decide),
        hne .x (by decide), hne .mu (by decide), hne .nu (by decide), hne .muPrime (by decide),
        hne .nuPrime (by decide), hne .alpha (by decide), hne .u (by decide)] at v5
      obtain ⟨b1, hb1, e1⟩ := v5.value
      obtain ⟨b2, hb2, e2⟩ := h.extracted.value
      have hb := extractedBits_unique (hB _ hb1) hb2
      subst hb
      exact e1.trans e2.symm
    have hrest : ∀ s, s ≠ .v → o5 s = honestGadget s.kind (value s) := hne
    rw [valuePublic, outputPublic, outputPublic, hval, hne .bridgePreamble (by decide),
      hne .w (by decide), hne .bridgeSPrime (by decide), hne .y (by decide), hne .z (by decide),
      hne .bridgeInnerError (by decide), hne .mu (by decide), hne .nu (by decide),
      hne .bridgeOuterError (by decide), hne .muPrime (by decide), hne .nuPrime (by decide),
      hne .c (by decide), hne .bridgeAb (by decide), hne .x (by decide),
      hne .bridgeQuery (by decide), hne .alpha (by decide), hne .bridgeF (by decide),
      hne .u (by decide), hne .bridgeEval (by decide), hne .preBeta (by decide)]
    rfl
  refine ⟨[r1, r2, r3, r4, r5], ?_, ?_⟩
  · rw [internalCircuits]
    simp only [s1, s2, s3, s4, s5, bind, Except.bind]
    rfl
  · rw [q1, q2, q3, q4, q5]
    simp only [List.map_cons, List.map_nil, List.map_append, hashes1Output, write_public, p1, p2, p3,
      p4, p5, List.replicate_succ, List.replicate_zero, Element.zero_wire]
    rfl

/-! ### The prover's staged values -/

theorem runs_collapsedValues {m : Prop} {cf : Fold.ClaimFolder F} {n : ℕ} {ky : ℕ → Element F}
    (hcf : m → cf.muInv.Honest ∧ cf.muNu.Honest) (hky : m → ∀ i, (ky i).Honest) :
    ∀ (errs : List (List F)) (i : ℕ), (∀ e ∈ errs, e.length = n * n - n) →
    Runs m (collapsedValues cf n ky i errs) (fun vs => m → vs = (List.range errs.length).map fun j =>
      foldedClaim n cf.muInv.wire cf.muNu.wire (claimMatrix n (errs.getD j [])
        ((List.range n).map fun l => (ky ((i + j) * n + l)).wire)))
  | [], i, _ => Runs.pure fun _ => rfl
  | es :: errs, i, hl => by
    rw [collapsedValues]
    refine (runs_foldProducts (fun h => (hcf h).2) (fun h => (hcf h).1)
      (by rw [List.length_map]; exact hl es (by simp)) (by simp) (fun _ e he => ?_)
      fun h e he' => ?_).bind fun v hv => ?_
    · obtain ⟨a, -, rfl⟩ := List.mem_map.1 he
      rfl
    · obtain ⟨j, -, rfl⟩ := List.mem_map.1 he'
      exact hky h _
    refine (runs_collapsedValues hcf hky errs (i + 1) fun e h => hl e (by simp [h])).bind
      fun vs hvs => Runs.pure fun h => ?_
    rw [hvs h, List.length_cons, List.range_succ_eq_map, List.map_cons, List.map_map,
      show v.value = v.wire from hv.2 h, hv.1, List.map_map, List.map_map]
    congr 1
    · rw [show ((fun e : Element F => e.wire) ∘ fun e : F => (⟨e, e⟩ : Element F)) = id from rfl,
        List.map_id]
      rfl
    · refine List.map_congr_left fun j _ => ?_
      simp only [Function.comp_apply, Nat.succ_eq_add_one, List.getD_cons_succ]
      rw [show i + (j + 1) = i + 1 + j by omega]

theorem el_honest (v : F) : Element.Honest ⟨v, v⟩ := rfl

/-- C65: what the prover stages for the outer error stage is what the circuits want: the public values
of the children's claims at `y`, and the folded value of each group of claims. -/
theorem C65_prover_staged (pre : PreambleOutput F) (hl : pre.left.Honest) (hr : pre.right.Honest)
    (innerErrors : List (List F)) (n : ℕ) (hlen : ∀ e ∈ innerErrors, e.length = n * n - n)
    (y mu nu : F) (hmu : mu ≠ 0) :
    ∃ l r : ChildKyOutputs F, ∃ collapsed : List F,
      (outerErrorValues n pre innerErrors y mu nu).sim = .ok ((l, r), collapsed) ∧
      (l.Honest ∧ r.Honest) ∧ KyHolds pre.left.public y l ∧ KyHolds pre.right.public y r ∧
      collapsed = (List.range innerErrors.length).map (groupClaim n mu nu innerErrors
        (claimedValues y pre.left.public pre.right.public)) := by
  have key : Runs True (outerErrorValues n pre innerErrors y mu nu) (fun q =>
      (q.1.1.Honest ∧ q.1.2.Honest) ∧ KyHolds pre.left.public y q.1.1 ∧
      KyHolds pre.right.public y q.1.2 ∧
      q.2 = (List.range innerErrors.length).map (groupClaim n mu nu innerErrors
        (claimedValues y pre.left.public pre.right.public))) := by
    rw [outerErrorValues]
    refine (Runs.alloc y).bind fun ye hye => ?_
    have hy := hye trivial
    subst hy
    refine (runs_unifiedKy (fun _ => el_honest y) fun _ => hl).bind fun q hlu => ?_
    obtain ⟨lu, lb⟩ := q; dsimp only at hlu ⊢
    refine (runs_unifiedKy (fun _ => el_honest y) fun _ => hr).bind fun q hru => ?_
    obtain ⟨ru, rb⟩ := q; dsimp only at hru ⊢
    refine (runs_applicationKy (fun _ => el_honest y) fun _ => hl).bind fun la hla => ?_
    refine (runs_applicationKy (fun _ => el_honest y) fun _ => hr).bind fun ra hra => ?_
    refine (Runs.alloc mu).bind fun mue hmue => ?_
    have h1 := hmue trivial
    subst h1
    refine (Runs.alloc nu).bind fun nue hnue => ?_
    have h1 := hnue trivial
    subst h1
    refine (runs_folder (fun _ => ⟨el_honest mu, hmu⟩) fun _ => el_honest nu).bind fun cf hcf => ?_
    have kl : KyHolds pre.left.public y ⟨la, lu, lb⟩ := ⟨hla.1, hlu.1, hlu.2.1⟩
    have kr : KyHolds pre.right.public y ⟨ra, ru, rb⟩ := ⟨hra.1, hru.1, hru.2.1⟩
    have ol : ChildKyOutputs.Honest ⟨la, lu, lb⟩ :=
      ⟨hla.2 trivial, (hlu.2.2 trivial).1, (hlu.2.2 trivial).2⟩
    have or : ChildKyOutputs.Honest ⟨ra, ru, rb⟩ :=
      ⟨hra.2 trivial, (hru.2.2 trivial).1, (hru.2.2 trivial).2⟩
    refine (runs_collapsedValues hcf.2.2.2 (fun _ => circuitKyValues_honest
      ⟨(child_honest hl).2.1, (child_honest hr).2.1⟩ ol or) innerErrors 0 hlen).bind fun vs hvs =>
        Runs.pure ⟨⟨ol, or⟩, kl, kr, ?_⟩
    rw [hvs trivial, hcf.2.1, hcf.2.2.1]
    refine List.map_congr_left fun j _ => ?_
    simp only [Nat.zero_add, circuitKyValues_wire kl kr]
    rfl
  obtain ⟨⟨⟨l, r⟩, c⟩, h1, h2⟩ := key.complete trivial
  exact ⟨l, r, c, h1, h2⟩

/-! ### Cases -/

/-- A small Poseidon over F₁₃. -/
def sPoseidon : PoseidonParams (ZMod 13) where
  T := 2
  rate := 2
  fullRounds := 2
  partialRounds := 1
  alpha := 5
  roundConstants := [[0, 2], [4, 5], [7, 8]]
  mds := [[2, 1], [1, 3]]

/-- Parameters over F₁₃ with headers of two elements. -/
def sParams : StepParams (ZMod 13) := ⟨sPoseidon, [1, 2], 1, vEnv, vConsts, 2, 3, 2⟩

/-- A child like `vChild` with an identifier in the domain and headers. -/
def sChild (header : List (ZMod 13)) : ChildInputs (ZMod 13) where
  leftHeader := [vEl 5, vEl 6]
  rightHeader := [vEl 7, vEl 1]
  outputHeader := header.map vEl
  circuitId := vEl 5
  unified := vChild.unified

/-- One child has a header that marks a trivial proof, the other not. -/
def sPre : PreambleOutput (ZMod 13) := ⟨sChild [3, 4], sChild [0, 1]⟩

/-- The public values except `c` and `v`. -/
def sPub (c v : ZMod 13) : StepPublic (ZMod 13) where
  bridgePreamble := (2, 3)
  w := 2
  bridgeSPrime := (2, 3)
  y := 12
  z := 5
  bridgeInnerError := (2, 3)
  mu := 10
  nu := 1
  bridgeOuterError := (2, 3)
  muPrime := 4
  nuPrime := 3
  c := c
  bridgeAb := (2, 3)
  x := 9
  bridgeQuery := (2, 3)
  alpha := 6
  bridgeF := (2, 3)
  u := 4
  bridgeEval := (2, 3)
  preBeta := 2
  v := v

def sInner : List (List (ZMod 13)) :=
  List.replicate NUM_GROUPS (List.replicate (GROUP_SIZE * GROUP_SIZE - GROUP_SIZE) 2)

def sOuter : List (ZMod 13) := List.replicate (NUM_GROUPS * NUM_GROUPS - NUM_GROUPS) 5

def sC : ZMod 13 := stepClaim GROUP_SIZE NUM_GROUPS 10 1 4 3 sInner sOuter
  (claimedValues 12 sPre.left.public sPre.right.public)

def sQuery : QueryOutput (ZMod 13) := QueryOutput.map (·.wire) vQuery

def sEval : EvalOutput (ZMod 13) := EvalOutput.map (·.wire) vEval

def sV : ZMod 13 := descending (Gadget.liftNative 4 3 6)
  (quotientSum 6 4 (wirePoints vEnv sPre 2 12 5 9) (evalOf sEval)
    (answerOf sQuery (fun s => (sPre.v s).wire) (foldedA sQuery 5 10 4)
      (foldedB sQuery (tDef 8 9 5) 10 1 4 3)) :: evalList sEval)

/-- The instance. -/
def sValue : (s : SlotId) → s.kind.Native (ZMod 13)
  | .bridgePreamble | .bridgeSPrime | .bridgeInnerError | .bridgeOuterError | .bridgeAb
  | .bridgeQuery | .bridgeF | .bridgeEval => some (2, 3)
  | .w => (2 : ZMod 13) | .y => (12 : ZMod 13) | .z => (5 : ZMod 13) | .x => (9 : ZMod 13)
  | .u => (4 : ZMod 13) | .mu => (10 : ZMod 13) | .nu => (1 : ZMod 13)
  | .muPrime => (4 : ZMod 13) | .nuPrime => (3 : ZMod 13) | .alpha => (6 : ZMod 13)
  | .preBeta => (2 : ZMod 13) | .c => sC | .v => sV

theorem sValue_public : valuePublic sValue = sPub sC sV := rfl

def sKy (c : ChildInputs (ZMod 13)) : ChildKyOutputs (ZMod 13) :=
  ⟨vEl (c.public.applicationInput 12), vEl (c.public.unifiedInput 12),
    vEl (c.public.bridgeInput 12)⟩

/-- The prover's stages. -/
def sStages : StepStages (ZMod 13) where
  preamble := sPre
  outerError :=
    { errorTerms := sOuter.map vEl
      collapsed := (List.range NUM_GROUPS).map fun k => vEl (groupClaim GROUP_SIZE 10 1 sInner
        (claimedValues 12 sPre.left.public sPre.right.public) k)
      left := sKy sPre.left
      right := sKy sPre.right
      spongeState := [vEl 10, vEl 1] }
  innerError := sInner.map fun l => l.map vEl
  query := vQuery
  eval := vEval

theorem sParams_ok : StepParamsOk sParams where
  poseidon := by
    refine ⟨rfl, by decide, by decide, rfl, ?_, by decide, ?_⟩ <;>
      intro r hr <;> simp [sParams, sPoseidon] at hr ⊢
    · rcases hr with rfl | rfl <;> rfl
    · rcases hr with rfl | rfl | rfl <;> rfl
  rate_pos := by decide
  rate_le := by decide
  gen := by decide +kernel
  sqrt := ⟨by decide +kernel, by decide +kernel⟩
  header := by decide

theorem sStages_shape : StageShape sParams sStages where
  left := rfl
  right := rfl
  outerErrors := by simp [sStages, sOuter]
  collapsed := by simp [sStages]
  innerErrors := by simp [sStages, sInner]
  innerError := by
    intro e he
    simp only [sStages, sInner, List.map_replicate] at he
    rw [List.eq_of_mem_replicate he, List.length_replicate]
  state := rfl

theorem vEl_wire (l : List (ZMod 13)) : (l.map vEl).map (·.wire) = l := by
  rw [List.map_map]
  exact List.map_id l

theorem vEl_honest (l : List (ZMod 13)) : ∀ e ∈ l.map vEl, e.Honest := by
  intro e he
  obtain ⟨a, -, rfl⟩ := List.mem_map.1 he
  rfl

theorem sChild_honest (h : List (ZMod 13)) : (sChild h).Honest where
  leftHeader := vEl_honest [5, 6]
  rightHeader := vEl_honest [7, 1]
  outputHeader := vEl_honest h
  circuitId := rfl
  unified := vEl_honest [2, 3, 0, 2, 3, 10, 0, 2, 3, 0, 0, 2, 3, 0, 0, 0, 2, 3, 11, 2, 3, 0, 2, 3, 9,
    2, 3, 0, 4]

theorem sInner_wire : (sStages.innerError.map fun l => l.map (·.wire)) = sInner := by
  show (sInner.map fun l => l.map vEl).map (fun l => l.map (·.wire)) = sInner
  rw [List.map_map]
  conv_rhs => rw [← List.map_id sInner]
  exact List.map_congr_left fun l _ => vEl_wire l

theorem sTag : (Transcript.tagElems [1, 2] : List (ZMod 13)) = [2, 6] := by
  simp [Transcript.tagElems, Gadget.chunks, Transcript.leBytes]
  decide

theorem sPub_phases (c v : ZMod 13) (tag : List (ZMod 13)) :
    (sPub c v).phases tag = (sPub 0 0).phases tag := rfl

theorem sChallenges : duplex (Poseidon.native sPoseidon) 2 [0, 0] ((sPub 0 0).phases [2, 6]) =
    [2, 12, 5, 10, 1, 4, 3, 9, 6, 4, 2].map some := by decide +kernel

/-- The state that the prover saves. -/
theorem sState : saveP (Poseidon.native sPoseidon) 2 (SpongeSpec.run (Poseidon.native sPoseidon) 2
    (Transcript.hashes1Ops [2, 6] (publicCommitments (sPub 0 0))) (Sponge.new 0 2)).2 =
      .ok [10, 1] := by decide +kernel

theorem sVerified : VerifiedWith (ExtractedBits 4 (2 : ZMod 13)) 4 (2 ^ sParams.logRank)
    sParams.endo.zeta (wirePoints vEnv sPre 2 12 5 9) (fun s => (sPre.v s).wire)
    (QueryOutput.map (·.wire) sStages.query) (EvalOutput.map (·.wire) sStages.eval)
    (sPub sC sV).mu (sPub sC sV).nu (sPub sC sV).muPrime (sPub sC sV).nuPrime (sPub sC sV).alpha
    (sPub sC sV).u (sPub sC sV).v := by
  exact ⟨show (9 : ZMod 13) ≠ 0 by decide, show (5 : ZMod 13) ≠ 0 by decide,
    show (10 : ZMod 13) ≠ 0 by decide, show (4 : ZMod 13) ≠ 0 by decide,
    by
      show Avoids (4 : ZMod 13) (wirePoints vEnv sPre 2 12 5 9)
      rw [avoids_iff]
      decide +kernel,
    6, show ExtractedBits 4 (2 : ZMod 13) 6 by unfold ExtractedBits; decide +kernel, rfl⟩

theorem sHolds : StagesHold sParams sStages (sPub sC sV) where
  challenges := by
    rw [show Transcript.tagElems sParams.tag = _ from sTag, sPub_phases]
    exact sChallenges
  curve := by
    intro p hp
    have : p = (2, 3) := by
      have h : p ∈ List.replicate 24 ((2, 3) : ZMod 13 × ZMod 13) := hp
      exact List.eq_of_mem_replicate h
    subst this
    decide
  ids := by decide
  folded _ := by
    rw [sInner_wire]
    rw [show sStages.outerError.errorTerms.map (·.wire) = sOuter from vEl_wire sOuter]
    rfl
  verified := by
    rw [← stage_points, ← stage_childV]
    exact sVerified.mono fun _ h => h.square

theorem sReady : StepReady sParams sStages sValue where
  left := sChild_honest _
  right := sChild_honest _
  kyLeft := ⟨rfl, rfl, rfl⟩
  kyRight := ⟨rfl, rfl, rfl⟩
  outerErrors := vEl_honest _
  collapsed := by
    intro e he
    obtain ⟨a, -, rfl⟩ := List.mem_map.1 he
    rfl
  state := vEl_honest [10, 1]
  innerErrors := by
    intro l hl
    obtain ⟨a, -, rfl⟩ := List.mem_map.1 hl
    exact vEl_honest a
  query := rfl
  eval := rfl
  valid s := by cases s <;> first | trivial | exact ⟨2, 3, rfl, by decide⟩
  stagedLeft := ⟨rfl, rfl, rfl⟩
  stagedRight := ⟨rfl, rfl, rfl⟩
  stagedCollapsed := by
    rw [sInner_wire]
    exact List.map_map
  stagedState := by
    rw [show Transcript.tagElems sParams.tag = _ from sTag, sValue_public]
    exact ⟨_, _, rfl, sState⟩
  extracted := by
    rw [sValue_public]
    exact sVerified
  holds := by
    rw [sValue_public]
    exact sHolds

example : ∃ outs, internalCircuits sParams sStages sValue = .ok outs ∧ outs.length = 5 := by
  obtain ⟨outs, h1, h2⟩ := C65_circuits_complete sParams sParams_ok sStages sStages_shape sValue sReady
  refine ⟨outs, h1, ?_⟩
  have := congrArg List.length h2
  simpa using this

theorem internalCircuits_sat {P : StepParams F} {S : StepStages F}
    {value : (s : SlotId) → s.kind.Native F} {outs : List (List (Element F))}
    (h : internalCircuits P S value = .ok outs) : ∃ i1 i2 i3 i4 i5 r1 r2 r3 r4 r5,
    (hashes1Circuit P.poseidon P.tag P.b P.logCircuits S.preamble S.outerError i1).sat r1 ∧
    (hashes2Circuit P.poseidon P.b S.outerError i2).sat r2 ∧
    (innerCollapseCircuit P.b GROUP_SIZE S.preamble S.outerError S.innerError i3).sat r3 ∧
    (outerCollapseCircuit P.b P.headerSize NUM_GROUPS S.preamble S.outerError i4).sat r4 ∧
    (computeV P.env P.endo P.b P.logRank S.preamble S.query S.eval i5).sat r5 ∧
    outs = [r1.1, r2.1, r3.1, r4.1, r5.1] := by
  rw [internalCircuits] at h
  simp only [bind, Except.bind] at h
  split at h
  · cases h
  rename_i r1 h1
  split at h
  · cases h
  rename_i r2 h2
  split at h
  · cases h
  rename_i r3 h3
  split at h
  · cases h
  rename_i r4 h4
  split at h
  · cases h
  rename_i r5 h5
  split at h
  · refine ⟨_, _, _, _, _, r1, r2, r3, r4, r5, Syn.sim_sat h1, Syn.sim_sat h2, Syn.sim_sat h3,
      Syn.sim_sat h4, Syn.sim_sat h5, ?_⟩
    exact (Except.ok.inj h).symm
  · cases h

/-- The hypotheses of `C64_circuits_sound` are met by the run above. -/
example : ∃ i1 i2 i3 i4 i5 r1 r2 r3 r4 r5,
    (hashes1Circuit sPoseidon [1, 2] 1 2 sPre sStages.outerError i1).sat r1 ∧
    (hashes2Circuit sPoseidon 1 sStages.outerError i2).sat r2 ∧
    (innerCollapseCircuit 1 GROUP_SIZE sPre sStages.outerError sStages.innerError i3).sat r3 ∧
    (outerCollapseCircuit 1 2 NUM_GROUPS sPre sStages.outerError i4).sat r4 ∧
    (computeV vEnv vConsts 1 3 sPre vQuery vEval i5).sat r5 ∧
    r1.1.map (·.wire) = (sPub sC sV).toList ++ [3, 4] ++ [0, 1] ++ [0] ∧
    r2.1.map (·.wire) = (sPub sC sV).toList ++ [0] ∧ r3.1.map (·.wire) = (sPub sC sV).toList ++ [0] ∧
    r4.1.map (·.wire) = (sPub sC sV).toList ++ [0] ∧
    r5.1.map (·.wire) = (sPub sC sV).toList ++ [0] := by
  obtain ⟨outs, h1, h2⟩ := C65_circuits_complete sParams sParams_ok sStages sStages_shape sValue sReady
  obtain ⟨i1, i2, i3, i4, i5, r1, r2, r3, r4, r5, s1, s2, s3, s4, s5, rfl⟩ := internalCircuits_sat h1
  rw [sValue_public] at h2
  simp only [List.map_cons, List.map_nil, List.replicate_succ, List.replicate_zero,
    List.cons.injEq, and_true] at h2
  exact ⟨i1, i2, i3, i4, i5, r1, r2, r3, r4, r5, s1, s2, s3, s4, s5, h2.1, h2.2.1, h2.2.2.1,
    h2.2.2.2.1, h2.2.2.2.2⟩

example : ∃ l r collapsed, (outerErrorValues GROUP_SIZE sPre sInner 12 10 1).sim =
    .ok ((l, r), collapsed) ∧ collapsed.length = 19 := by
  obtain ⟨l, r, c, h1, -, -, -, h2⟩ := C65_prover_staged sPre (sChild_honest _) (sChild_honest _) sInner
    GROUP_SIZE (fun e he => by rw [List.eq_of_mem_replicate he, List.length_replicate]) 12 10 1
    (by decide)
  exact ⟨l, r, c, h1, by rw [h2]; simp [sInner, NUM_GROUPS]⟩

end Ragu.Props

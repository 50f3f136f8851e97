/-
The rounds of `fuse` come to an end, and stop only for a known reason.
-/
import Verif.Spec.FuseStops
import Verif.Lemmas.Outcomes
import Verif.Lemmas.NestedRun
import Verif.Props.Build

set_option linter.unusedSectionVars false

namespace Ragu.Props
open Ragu Ragu.Circuit Ragu.Registry Ragu.Spec Ragu.Gadget Ragu.Pcd Finset

/-! ### The transcript -/

section
variable {F G HC : Type} [Field F] [DecidableEq F] [Field G] [DecidableEq G]
  {p : PoseidonParams F} {t t' : Mode (Element F)} {bad : Stop F G HC → Prop}

/-- A transcript that a challenge can be taken from. -/
def LiveAt (p : PoseidonParams F) (t : Mode (Element F)) : Prop :=
  ∃ start ops outs, Follows True p start ops outs t ∧ Live p.T (Sponge.mapMode Element.wire t)

/-- A transcript that has just absorbed. -/
def AbsorbedAt (p : PoseidonParams F) (t : Mode (Element F)) : Prop :=
  ∃ start ops outs, Follows True p start ops outs t ∧ Absorbed p.T (Sponge.mapMode Element.wire t)

theorem AbsorbedAt.live (h : AbsorbedAt p t) : LiveAt p t := by
  obtain ⟨a, b, c, h1, h2⟩ := h
  exact ⟨a, b, c, h1, h2.live⟩

theorem new_run (hp : Poseidon.WF p) (hr : 1 ≤ p.rate) (tag : List UInt8) :
    ∃ t, Pcd.emulate (transcriptNew p tag) = .ok t ∧ AbsorbedAt p t := by
  obtain ⟨t, h1, h2⟩ := (runs_new (m := True) hp hr tag).complete trivial
  exact ⟨t, emulate_of_sim h1, _, _, _, h2.1, h2.2⟩

theorem write_run (hp : Poseidon.WF p) (hr : 1 ≤ p.rate) (c : F × F) (ht : LiveAt p t) :
    ∃ t', Pcd.emulate (transcriptWriteCommitment p (some c) t) = .ok t' ∧ AbsorbedAt p t' := by
  obtain ⟨_, _, _, h, -⟩ := ht
  obtain ⟨t, h1, h2⟩ := (runs_writeCommitment hp hr c h).complete trivial
  exact ⟨t, emulate_of_sim h1, _, _, _, h2.1, h2.2⟩

theorem challenge_run (hp : Poseidon.WF p) (hr : 1 ≤ p.rate) (hT : p.rate ≤ p.T) (ht : LiveAt p t) :
    ∃ r, Pcd.emulate (transcriptChallenge p t) = .ok r ∧ LiveAt p r.2 := by
  obtain ⟨_, _, _, h, hl⟩ := ht
  obtain ⟨t, h1, h2⟩ := (runs_challenge hp hr hT h hl).complete trivial
  exact ⟨t, emulate_of_sim h1, _, _, _, h2.1, h2.2.1⟩

theorem save_run (hp : Poseidon.WF p) (ht : AbsorbedAt p t) :
    ∃ s, Pcd.emulate (transcriptSave p t) = .ok s ∧ s.length = p.T := by
  obtain ⟨_, _, _, h, hl⟩ := ht
  obtain ⟨s, h1, h2⟩ := (runs_save hp h hl).complete trivial
  exact ⟨s, emulate_of_sim h1, h2.2.1⟩

theorem new_safe (hp : Poseidon.WF p) (hr : 1 ≤ p.rate) (tag : List UInt8) :
    Safe bad (onTranscript (transcriptNew p tag)) := by
  obtain ⟨t, h, -⟩ := new_run hp hr tag
  exact .call_ok ⟨t, h⟩

theorem new_absorbed (hp : Poseidon.WF p) (hr : 1 ≤ p.rate) {tag : List UInt8}
    (h : (onTranscript (transcriptNew p tag) : Outcomes (Stop F G HC) _) (.ok t)) : AbsorbedAt p t := by
  obtain ⟨t', h', ht⟩ := new_run hp hr tag
  rw [onTranscript_ok, h'] at h
  cases h
  exact ht

theorem absorb_safe (hp : Poseidon.WF p) (hr : 1 ≤ p.rate) {c : Option (F × F)} (ht : LiveAt p t)
    (hb : ∀ e, bad (.commitment none e)) : Safe bad (absorb p c t) := by
  cases c with
  | none => exact .call fun e _ => hb e
  | some c =>
    obtain ⟨t', h, -⟩ := write_run hp hr c ht
    exact .call_ok ⟨t', h⟩

theorem absorb_absorbed (hp : Poseidon.WF p) (hr : 1 ≤ p.rate) {c : Option (F × F)} (ht : LiveAt p t)
    (h : (absorb p c t : Outcomes (Stop F G HC) _) (.ok t')) : AbsorbedAt p t' := by
  rw [absorb_ok] at h
  cases c with
  | none => cases h
  | some c =>
    obtain ⟨t'', h', ht⟩ := write_run hp hr c ht
    rw [h'] at h
    cases h
    exact ht

theorem squeeze_safe (hp : Poseidon.WF p) (hr : 1 ≤ p.rate) (hT : p.rate ≤ p.T) (ht : LiveAt p t) :
    Safe bad (squeeze p t) := by
  obtain ⟨r, h, -⟩ := challenge_run hp hr hT ht
  exact .call_ok ⟨r, h⟩

theorem squeeze_live (hp : Poseidon.WF p) (hr : 1 ≤ p.rate) (hT : p.rate ≤ p.T) (ht : LiveAt p t)
    {c : Element F} (h : (squeeze p t : Outcomes (Stop F G HC) _) (.ok (c, t'))) : LiveAt p t' := by
  obtain ⟨r, h', hr⟩ := challenge_run hp hr hT ht
  rw [squeeze_ok, h'] at h
  cases h
  exact hr

theorem save_safe (hp : Poseidon.WF p) (ht : AbsorbedAt p t) :
    Safe bad (onTranscript (transcriptSave p t)) := by
  obtain ⟨s, h, -⟩ := save_run hp ht
  exact .call_ok ⟨s, h⟩

theorem save_length (hp : Poseidon.WF p) (ht : AbsorbedAt p t) {s : List (Element F)}
    (h : (onTranscript (transcriptSave p t) : Outcomes (Stop F G HC) _) (.ok s)) : s.length = p.T := by
  obtain ⟨s', h', hs⟩ := save_run hp ht
  rw [onTranscript_ok, h'] at h
  cases h
  exact hs

end

/-! ### Stages -/

section
variable {F G HC : Type} [Field F] [DecidableEq F] [Field G] [DecidableEq G]
  [AddCommGroup HC] [DecidableEq HC] [Module F HC]

theorem mask_fits {n : ℕ} {d : Chain} {m : StageMask} (h : d.mask n = .ok m) :
    d.skipGates + d.numGates ≤ n := by
  unfold Chain.mask StageMask.new at h
  split_ifs at h with h1 h2
  omega

/-- What is fixed while `fuse` runs. -/
structure Prepared (V : FuseEnvironment F G HC) (steps : List (StepDef F)) : Prop where
  app : AppOk V.C V.n V.P V.cs steps V.app
  host : HostOk V.K V.P.endo
  /-- only the identity of the host curve has no coordinates -/
  identity : ∀ P, V.K.coords P = none → P = 0
  /-- a commitment of the nested curve lies on the curve -/
  curve : ∀ q x y, V.nestedCommit q = some (x, y) → y ^ 2 = x ^ 3 + V.C.b
  /-- the circuits of the endoscaling steps are those of the library -/
  endoscaling : ∀ step < NUM_ENDOSCALING_STEPS, ∀ e points, e.bits.length = 128 → PointsTyped points →
    Realizes pointsStage (V.cs.endoscaling step) (endoscalingCode 128 V.K.zeta step e points)

variable {V : FuseEnvironment F G HC} {steps : List (StepDef F)} {bad : Stop F G HC → Prop}

theorem native_fits (hV : Prepared V steps) {id : NativeId} {d : Chain}
    (h : nativeEntry V.n V.P.headerSize V.P.poseidon.T V.P.logCircuits V.cs id = .mask (d.mask V.n)) :
    d.skipGates + d.numGates ≤ V.n := by
  obtain ⟨o, -, h2⟩ := app_entry hV.app id
  rw [h] at h2
  obtain ⟨s, h3, -⟩ := h2
  exact mask_fits h3

theorem nested_fits (hV : Prepared V steps) {id : NestedId} (hid : id ∈ NestedId.all) {d : Chain}
    (h : nestedEntry V.n V.cs id = .mask (d.mask V.n)) : d.skipGates + d.numGates ≤ V.n := by
  obtain ⟨o, -, h2⟩ := app_nested hV.app hid
  rw [h] at h2
  obtain ⟨s, h3, -⟩ := h2
  exact mask_fits h3

theorem triple_safe (hV : Prepared V steps) {rx : Sparse.Poly F} (h : WellFormed (4 * V.n) rx) :
    Safe bad (V.triple rx) := by
  unfold FuseEnvironment.triple
  refine (Safe.expect fun hn => ?_).bind fun _ _ => .pure _
  rw [C12_commit _ _ _ hV.app.repr _ _ h hV.app.gens] at hn
  cases hn

theorem stage_wf {F' α : Type} [Field F'] [DecidableEq F'] {n : ℕ} {d : Chain} {code : Syn F' α}
    {elems : α → List (Element F')} {g : α} {rx : Sparse.Poly F'} (h : StageRun n d code elems g rx) :
    WellFormed (4 * n) rx := by
  obtain ⟨-, alpha, h⟩ := h
  exact (rx_only h).1

theorem allocPoints_safe {b : G} : ∀ {vs : List (Option (G × G))}, none ∉ vs →
    ∃ ps, Pcd.emulate (allocPoints b vs) = .ok ps
  | [], _ => ⟨[], rfl⟩
  | none :: vs, h => absurd List.mem_cons_self h
  | some q :: vs, h => by
    obtain ⟨ps, hps⟩ := allocPoints_safe (b := b) (vs := vs) fun hm => h (List.mem_cons_of_mem _ hm)
    refine ⟨⟨both q.1, both q.2⟩ :: ps, ?_⟩
    simp only [allocPoints]
    exact (emulate_bind _ _ _).2 ⟨⟨both q.1, both q.2⟩, rfl, (emulate_bind _ _ _).2 ⟨_, hps, rfl⟩⟩

theorem bridge_safe (hV : Prepared V steps) {id : NestedId} (hid : id ∈ NestedId.all) {d : Chain}
    (h : nestedEntry V.n V.cs id = .mask (d.mask V.n)) {l : List HC} (hl : 2 * l.length = d.values)
    (hb : ∀ e, (∃ P ∈ l, V.K.coords P = none) → bad (.hostPoints l e)) :
    Safe bad (V.bridge d l) := by
  unfold FuseEnvironment.bridge
  refine (stage_safe (nested_fits hV hid h) (fun e he => hb e ?_) fun g hg => ?_).bind fun r _ =>
    .pure _
  · by_contra hn
    obtain ⟨ps, hps⟩ := allocPoints_safe (b := V.K.b) (vs := l.map V.K.coords) (fun hm => by
      obtain ⟨P, h1, h2⟩ := List.mem_map.1 hm
      exact hn ⟨P, h1, h2⟩)
    rw [bridgeCode, hps] at he
    cases he
  · have := (allocPoints_runs hg).length_eq
    rw [List.length_map] at this
    rw [pointElems_length, ← this, hl]

/-! ### The rounds -/

/-- A proof that can be an input: also its headers have the application's size. -/
structure ChildFits (V : FuseEnvironment F G HC) (p : Proof F G HC) : Prop
    extends ChildOk V.C V.n V.app.nativeRegistry p where
  left : p.application.leftHeader.length = V.P.headerSize
  right : p.application.rightHeader.length = V.P.headerSize

theorem application_safe (hV : Prepared V steps) {D : Type} {c0 : Circ F} {i : ℕ}
    {code : Syn F (Except Pcd.Err (AdapterOut F D))} {out : AdapterOut F D}
    (hH : Holds V.C.native V.n V.app.nativeRegistry i c0) (hs : code.sim = .ok (.ok out))
    (hc : Realizes .base c0 fun _ => adapterWires code) :
    Safe bad (V.computeApplication c0 i code) := by
  unfold FuseEnvironment.computeApplication
  refine (Safe.call_ok ⟨_, emulate_of_sim hs⟩).bind fun r hr => ?_
  have hr := Outcomes.call_ok.1 hr
  rw [emulate_of_sim hs] at hr
  cases hr
  refine (Safe.call_ok ⟨_, rfl⟩).bind fun o ho => (trace_safe hH hc (by simp) (by simp)).bind
    fun rx hrx => (triple_safe hV (run_only hH (traceCircuit_ok hrx)).1).bind fun _ _ => .pure _

theorem child_run {p : Proof F G HC} (hp : ChildFits V p) {h : List F}
    (hh : h.length = V.P.headerSize) :
    ∃ c, (ChildInputs.alloc V.C V.P.headerSize p h).sim = .ok c := by
  rw [ChildInputs.alloc, Syn.sim_bind_ok (allocHeader_sim hp.left),
    Syn.sim_bind_ok (allocHeader_sim hp.right), Syn.sim_bind_ok (allocHeader_sim hh),
    Syn.sim_bind_ok (Element.alloc_sim _),
    Syn.sim_bind_ok (allocFromProof_sim (point_valid hp.points hp.curve))]
  exact ⟨_, rfl⟩

theorem preamble_run {left right : Proof F G HC} (hl : ChildFits V left) (hr : ChildFits V right)
    {h1 h2 : List F} (e1 : h1.length = V.P.headerSize) (e2 : h2.length = V.P.headerSize) :
    ∃ g, Pcd.emulate (preambleStageCode V.C V.P.headerSize left right h1 h2) = .ok g := by
  obtain ⟨a, ha⟩ := child_run hl e1
  obtain ⟨b, hb⟩ := child_run hr e2
  refine ⟨⟨a, b⟩, emulate_of_sim ?_⟩
  rw [preambleStageCode, Syn.sim_bind_ok ha, Syn.sim_bind_ok hb]
  rfl

theorem preamble_safe (hV : Prepared V steps) {left right : Proof F G HC} (hl : ChildFits V left)
    (hr : ChildFits V right) {a : AppProof F HC} (e1 : a.leftHeader.length = V.P.headerSize)
    (e2 : a.rightHeader.length = V.P.headerSize)
    (hb : ∀ l e, (∃ P ∈ l, V.K.coords P = none) → bad (.hostPoints l e)) :
    Safe bad (V.computePreamble left right a) := by
  unfold FuseEnvironment.computePreamble
  obtain ⟨g, hg⟩ := preamble_run hl hr e1 e2
  refine (stage_safe (native_fits (id := .preambleStage) hV rfl) (fun e he => by rw [hg] at he; cases he)
    fun o ho => le_of_eq (C69_preamble ho).2.2.1).bind fun r hr => ?_
  refine (triple_safe hV (stage_wf (stageRx_ok hr))).bind fun t _ => ?_
  exact (bridge_safe (id := .bridgePreamble) hV (by decide) rfl rfl (hb _)).bind fun _ _ => .pure _

theorem commit_exists (hV : Prepared V steps) {rx : Sparse.Poly F} (h : WellFormed (4 * V.n) rx) :
    ∃ c, Msm.commit (4 * V.n) V.C.numBits V.C.repr rx V.C.hostGens = some c :=
  ⟨_, C12_commit _ _ _ hV.app.repr _ _ h hV.app.gens⟩

theorem sPrime_safe (hV : Prepared V steps) {w : F} {left right : Proof F G HC}
    (hb : ∀ l e, (∃ P ∈ l, V.K.coords P = none) → bad (.hostPoints l e)) :
    Safe bad (V.computeSPrime w left right) := by
  unfold FuseEnvironment.computeSPrime
  obtain ⟨bn, be, ss, ss', h1, h2, -⟩ := app_ready hV.app
  refine (Safe.expect fun hn => ?_).bind fun s _ => (bridge_safe (id := .bridgeSPrime) hV (by decide)
    rfl rfl (hb _)).bind fun _ _ => .pure _
  obtain ⟨-, -, ⟨p0, e0, w0, -⟩, -⟩ := C23_restrictions h1 h2 w left.challenges.x 0
  obtain ⟨-, -, ⟨p1, e1, w1, -⟩, -⟩ := C23_restrictions h1 h2 w right.challenges.x 0
  obtain ⟨c0, k0⟩ := commit_exists hV w0
  obtain ⟨c1, k1⟩ := commit_exists hV w1
  unfold computeNativeSPrime at hn
  simp [e0, e1, k0, k1] at hn

theorem registryWy_exists (hV : Prepared V steps) (w y : F) :
    ∃ r, computeRegistryWy V.C.native V.n V.C.numBits V.C.repr V.C.hostGens V.app.nativeRegistry w y =
      some r := by
  obtain ⟨bn, be, ss, ss', h1, h2, -⟩ := app_ready hV.app
  obtain ⟨-, ⟨p0, e0, w0, -⟩, -, -⟩ := C23_restrictions h1 h2 w 0 y
  obtain ⟨c0, k0⟩ := commit_exists hV w0
  exact ⟨(p0, c0), by unfold computeRegistryWy; simp [e0, k0]⟩

theorem registryXy_exists (hV : Prepared V steps) (x y : F) :
    ∃ r, computeRegistryXy V.C.native V.n V.C.numBits V.C.repr V.C.hostGens V.app.nativeRegistry x y =
      some r := by
  obtain ⟨bn, be, ss, ss', h1, h2, -⟩ := app_ready hV.app
  obtain ⟨-, -, -, ⟨p0, e0, w0, -⟩⟩ := C23_restrictions h1 h2 0 x y
  obtain ⟨c0, k0⟩ := commit_exists hV w0
  exact ⟨(p0, c0), by unfold computeRegistryXy; simp [e0, k0]⟩

/-- The folding of two inputs. -/
theorem folding (hV : Prepared V steps) {left right : Proof F G HC} (hl : ChildFits V left)
    (hr : ChildFits V right) (y z : F) {mu nu muPrime nuPrime : F} (h1 : mu ≠ 0) (h2 : muPrime ≠ 0) :
    ∃ B0 B ie a b oe ab, ClaimBuilder.new V.n y z = some B0 ∧
      buildClaims (FuseSource.mk left right).source
        (trackedProcessor V.C.native V.n V.app.nativeRegistry) B0 = some B ∧
      Fold.innerErrorTerms (4 * V.n) GROUP_SIZE NUM_GROUPS (B.a.map (·.poly)) B.b = some ie ∧
      Fold.foldInner (trackedFoldable (4 * V.n)) GROUP_SIZE NUM_GROUPS B.a mu⁻¹ = some a ∧
      Fold.foldInner (polyFoldable (4 * V.n)) GROUP_SIZE NUM_GROUPS B.b (mu * nu) = some b ∧
      Fold.outerErrorTerms (4 * V.n) NUM_GROUPS (a.map (·.poly)) b = some oe ∧
      computeNativeAb (4 * V.n) V.C.numBits V.C.repr V.C.hostGens ⟨left, right⟩ a b muPrime nuPrime =
        some ab ∧ ie.length = NUM_GROUPS ∧ (∀ e ∈ ie, e.length = GROUP_SIZE * GROUP_SIZE - GROUP_SIZE) ∧
      oe.length = NUM_GROUPS * NUM_GROUPS - NUM_GROUPS := by
  obtain ⟨bn, be, ss, ss', k1, k2, -⟩ := app_ready hV.app
  obtain ⟨sw, hsw, -⟩ := supplies_of_ready k1 k2 y
  obtain ⟨h3, -⟩ := C50_fuse hsw hV.app.repr hV.app.gens (src := ⟨left, right⟩) (z := z)
    hl.consistent.traces hr.consistent.traces mu nu muPrime nuPrime 0 0 0 0 0 0
  cases ho : fuseAb V.C.native V.n V.C.numBits V.C.repr V.C.hostGens V.app.nativeRegistry ⟨left, right⟩
    y z mu nu muPrime nuPrime with
  | none =>
    rcases h3.1 ho with h | h
    · exact absurd h h1
    · exact absurd h h2
  | some o =>
    obtain ⟨-, -, l1, l2, l3⟩ := fused_lengths hsw hV.app.repr hV.app.gens (src := ⟨left, right⟩)
      hl.consistent.traces hr.consistent.traces ho
    unfold fuseAb at ho
    obtain ⟨B0, a1, ho⟩ := Option.bind_eq_some_iff.1 ho
    obtain ⟨B, a2, ho⟩ := Option.bind_eq_some_iff.1 ho
    obtain ⟨ie, a3, ho⟩ := Option.bind_eq_some_iff.1 ho
    rw [if_neg h1] at ho
    obtain ⟨a, a4, ho⟩ := Option.bind_eq_some_iff.1 ho
    obtain ⟨b, a5, ho⟩ := Option.bind_eq_some_iff.1 ho
    obtain ⟨oe, a6, ho⟩ := Option.bind_eq_some_iff.1 ho
    obtain ⟨ab, a7, ho⟩ := Option.bind_eq_some_iff.1 ho
    cases ho
    exact ⟨B0, B, ie, a, b, oe, ab, a1, a2, a3, a4, a5, a6, a7, l1, l2, l3⟩

theorem innerError_run : ∀ (w : List (List F)),
    Pcd.emulate (innerErrorStageCode w) = .ok (w.map fun l => l.map both)
  | [] => rfl
  | l :: ls => by
    simp only [innerErrorStageCode]
    exact (emulate_bind _ _ _).2 ⟨_, emulate_allocAll l,
      (emulate_bind _ _ _).2 ⟨_, innerError_run ls, rfl⟩⟩

theorem inner_safe (hV : Prepared V steps) {left right : Proof F G HC} (hl : ChildFits V left)
    (hr : ChildFits V right) {w y z : F}
    (hb : ∀ l e, (∃ P ∈ l, V.K.coords P = none) → bad (.hostPoints l e)) :
    Safe bad (V.innerErrorTerms w y z ⟨left, right⟩) := by
  unfold FuseEnvironment.innerErrorTerms
  obtain ⟨B0, B, ie, _, _, _, _, a1, a2, a3, -, -, -, -, l1, l2, -⟩ :=
    folding hV hl hr y z (mu := 1) (nu := 1) (muPrime := 1) (nuPrime := 1) one_ne_zero one_ne_zero
  refine (Safe.expect fun hn => by rw [a1] at hn; cases hn).bind fun B0' k1 => ?_
  cases (a1.symm.trans (must_ok.1 k1))
  refine (Safe.expect fun hn => by rw [a2] at hn; cases hn).bind fun B' k2 => ?_
  cases (a2.symm.trans (must_ok.1 k2))
  refine (Safe.expect fun hn => by rw [a3] at hn; cases hn).bind fun ie' k3 => ?_
  cases (a3.symm.trans (must_ok.1 k3))
  refine (stage_safe (native_fits (id := .innerErrorStage) hV rfl)
    (fun e he => by rw [innerError_run] at he; cases he) fun o ho => ?_).bind fun r hr => ?_
  · rw [innerError_run] at ho
    cases ho
    have : (List.flatten (ie.map fun l => l.map (both : F → Element F))).length =
        (innerErrorStage V.P.headerSize V.P.poseidon.T).values := by
      rw [List.length_flatten, List.map_map,
        List.map_congr_left (g := fun _ => GROUP_SIZE * GROUP_SIZE - GROUP_SIZE)
          fun e he => by simp [l2 e he]]
      simp [l1]
      rfl
    exact this.le
  · obtain ⟨wy, hwy⟩ := registryWy_exists hV w y
    refine (Safe.expect fun hn => by rw [hwy] at hn; cases hn).bind fun wy' k4 => ?_
    cases (hwy.symm.trans (must_ok.1 k4))
    exact (triple_safe hV (stage_wf (stageRx_ok hr))).bind fun t _ =>
      (bridge_safe (id := .bridgeInnerError) hV (by decide) rfl rfl (hb _)).bind fun _ _ => .pure _

theorem outerError_run (w : OuterErrorWitness F) :
    Pcd.emulate (outerErrorStageCode w) = .ok ⟨w.errorTerms.map both, w.collapsed.map both,
      ⟨both w.left.application, both w.left.unified, both w.left.unifiedBridge⟩,
      ⟨both w.right.application, both w.right.unified, both w.right.unifiedBridge⟩,
      w.spongeState.map both⟩ := by
  simp only [outerErrorStageCode]
  exact (emulate_bind _ _ _).2 ⟨_, emulate_allocAll _, (emulate_bind _ _ _).2 ⟨_, emulate_allocAll _,
    (emulate_bind _ _ _).2 ⟨_, rfl, (emulate_bind _ _ _).2 ⟨_, rfl, (emulate_bind _ _ _).2 ⟨_, rfl,
    (emulate_bind _ _ _).2 ⟨_, rfl, (emulate_bind _ _ _).2 ⟨_, rfl, (emulate_bind _ _ _).2 ⟨_, rfl,
    (emulate_bind _ _ _).2 ⟨_, emulate_allocAll _, rfl⟩⟩⟩⟩⟩⟩⟩⟩⟩

theorem outer_safe (hV : Prepared V steps) {left right : Proof F G HC} (hl : ChildFits V left)
    (hr : ChildFits V right) {headers : List F × List F} (e1 : headers.1.length = V.P.headerSize)
    (e2 : headers.2.length = V.P.headerSize) {y z mu nu : F} {state : List F}
    (hst : state.length = V.P.poseidon.T) {B0 B : ClaimBuilder F (Tracked FoldKey F)}
    {ie : List (List F)} (a1 : ClaimBuilder.new V.n y z = some B0)
    (a2 : buildClaims (FuseSource.mk left right).source
        (trackedProcessor V.C.native V.n V.app.nativeRegistry) B0 = some B)
    (a3 : Fold.innerErrorTerms (4 * V.n) GROUP_SIZE NUM_GROUPS (B.a.map (·.poly)) B.b = some ie)
    (hb : ∀ l e, (∃ P ∈ l, V.K.coords P = none) → bad (.hostPoints l e)) (hi : bad (.inverse 0)) :
    Safe bad (V.outerErrorTerms left right headers ie B y mu nu state) := by
  unfold FuseEnvironment.outerErrorTerms
  by_cases hmu : mu = 0
  · subst hmu
    rw [if_pos rfl]
    exact (Safe.expect fun _ => hi).bind fun _ h => by cases Outcomes.expect_ok.1 h
  rw [if_neg hmu]
  refine (Safe.expect fun h => by cases h).bind fun mi hmi => ?_
  cases Outcomes.expect_ok.1 hmi
  obtain ⟨B0', B', ie', a, b, oe, _, b1, b2, b3, b4, b5, b6, -, l1, l2, l3⟩ :=
    folding hV hl hr y z (mu := mu) (nu := nu) (muPrime := 1) (nuPrime := 1) hmu one_ne_zero
  cases a1.symm.trans b1
  cases a2.symm.trans b2
  cases a3.symm.trans b3
  refine (Safe.expect fun hn => by rw [b4] at hn; cases hn).bind fun a' k1 => ?_
  cases b4.symm.trans (must_ok.1 k1)
  refine (Safe.expect fun hn => by rw [b5] at hn; cases hn).bind fun b' k2 => ?_
  cases b5.symm.trans (must_ok.1 k2)
  obtain ⟨pre, hpre⟩ := preamble_run hl hr e1 e2
  have ep := preamble_eq hpre
  obtain ⟨kl, kr, col, hsim, -, -, -, hcol⟩ := C65_prover_staged pre
    (by rw [ep]; exact childGadget_honest _ _ _) (by rw [ep]; exact childGadget_honest _ _ _)
    ie GROUP_SIZE l2 y mu nu hmu
  have hrun : Pcd.emulate (do
      let pre ← preambleStageCode V.C V.P.headerSize left right headers.1 headers.2
      outerErrorValues GROUP_SIZE pre ie y mu nu) = .ok ((kl, kr), col) :=
    (emulate_bind _ _ _).2 ⟨_, hpre, emulate_of_sim hsim⟩
  refine (Safe.call_ok ⟨_, hrun⟩).bind fun r k3 => ?_
  cases hrun.symm.trans (Outcomes.call_ok.1 k3)
  refine (Safe.expect fun hn => by rw [b6] at hn; cases hn).bind fun oe' k4 => ?_
  cases b6.symm.trans (must_ok.1 k4)
  refine (stage_safe (native_fits (id := .outerErrorStage) hV rfl)
    (fun e he => by rw [outerError_run] at he; cases he) fun o ho => ?_).bind fun r hr => ?_
  · rw [outerError_run] at ho
    cases ho
    have hc : col.length = NUM_GROUPS := by rw [hcol, List.length_map, List.length_range, l1]
    have : (outerErrorStage V.P.headerSize V.P.poseidon.T).values =
        numErrorTerms NUM_GROUPS + NUM_GROUPS + 2 * 3 + V.P.poseidon.T := rfl
    rw [this]
    simp only [OuterErrorOutput.elems, ChildKyOutputs.elems, List.length_append, List.length_map, l3, hc,
      hst, List.length_cons, List.length_nil, numErrorTerms]
    omega
  · exact (triple_safe hV (stage_wf (stageRx_ok hr))).bind fun t _ =>
      (bridge_safe (id := .bridgeOuterError) hV (by decide) rfl rfl (hb _)).bind fun _ _ => .pure _

theorem ab_safe (hV : Prepared V steps) {left right : Proof F G HC} (hl : ChildFits V left)
    (hr : ChildFits V right) {y z mu nu muPrime nuPrime : F} {B0 B : ClaimBuilder F (Tracked FoldKey F)}
    (a1 : ClaimBuilder.new V.n y z = some B0)
    (a2 : buildClaims (FuseSource.mk left right).source
        (trackedProcessor V.C.native V.n V.app.nativeRegistry) B0 = some B) (hmu : mu ≠ 0)
    {a : List (Tracked FoldKey F)} {b : List (Sparse.Poly F)}
    (a4 : Fold.foldInner (trackedFoldable (4 * V.n)) GROUP_SIZE NUM_GROUPS B.a mu⁻¹ = some a)
    (a5 : Fold.foldInner (polyFoldable (4 * V.n)) GROUP_SIZE NUM_GROUPS B.b (mu * nu) = some b)
    (hb : ∀ l e, (∃ P ∈ l, V.K.coords P = none) → bad (.hostPoints l e)) (hi : bad (.inverse 0)) :
    Safe bad (V.computeAb a b ⟨left, right⟩ muPrime nuPrime) := by
  unfold FuseEnvironment.computeAb
  by_cases hmu' : muPrime = 0
  · subst hmu'
    rw [if_pos rfl]
    exact (Safe.expect fun _ => hi).bind fun _ h => by cases Outcomes.expect_ok.1 h
  rw [if_neg hmu']
  refine (Safe.expect fun h => by cases h).bind fun mi hmi => ?_
  obtain ⟨B0', B', ie', a', b', oe, ab, b1, b2, -, b4, b5, -, b7, -⟩ :=
    folding hV hl hr y z (mu := mu) (nu := nu) (muPrime := muPrime) (nuPrime := nuPrime) hmu hmu'
  cases a1.symm.trans b1
  cases a2.symm.trans b2
  cases a4.symm.trans b4
  cases a5.symm.trans b5
  exact (Safe.expect fun hn => by rw [b7] at hn; cases hn).bind fun _ _ =>
    (bridge_safe (id := .bridgeAB) hV (by decide) rfl rfl (hb _)).bind fun _ _ => .pure _

theorem query_safe (hV : Prepared V steps) {left right : Proof F G HC} {w x y z : F}
    {wy : Sparse.Poly F} (hb : ∀ l e, (∃ P ∈ l, V.K.coords P = none) → bad (.hostPoints l e)) :
    Safe bad (V.computeQuery w x y z wy left right) := by
  unfold FuseEnvironment.computeQuery
  obtain ⟨xy, hxy⟩ := registryXy_exists hV x y
  refine (Safe.expect fun hn => by rw [hxy] at hn; cases hn).bind fun r k => ?_
  refine (stage_safe (native_fits (id := .queryStage) hV rfl) (fun e he => ?_) fun o ho => ?_).bind
    fun r hr => ?_
  · obtain ⟨o, h, -⟩ := C69_query V.P.headerSize (⟨fun id => Sparse.eval (4 * V.n) r.1
      (id.omega V.C.native), Sparse.eval (4 * V.n) r.1 w,
      QueryChild.fromProof V.C.native (4 * V.n) left w x (x * z) r.1 wy,
      QueryChild.fromProof V.C.native (4 * V.n) right w x (x * z) r.1 wy⟩ : QueryOutput F)
    rw [h] at he
    cases he
  · exact le_of_eq (query_elems_length o)
  · exact (triple_safe hV (stage_wf (stageRx_ok hr))).bind fun t _ =>
      (bridge_safe (id := .bridgeQuery) hV (by decide) rfl rfl (hb _)).bind fun _ _ => .pure _

theorem f_safe (hV : Prepared V steps) {s : FuseState F G HC} {ch : Challenges F}
    (hl : ChildFits V s.left) (hr : ChildFits V s.right)
    (hs : FuseSteps V.C.native V.n V.C.numBits V.C.repr V.C.hostGens V.app.nativeRegistry ch s)
    (hb : ∀ l e, (∃ P ∈ l, V.K.coords P = none) → bad (.hostPoints l e)) :
    Safe bad (V.computeF s ch.w ch.y ch.z ch.x ch.alpha) := by
  unfold FuseEnvironment.computeF
  obtain ⟨bn, ss, hE⟩ := app_fuseEnv hV.app
  obtain ⟨f, hf, -⟩ := C47_agree hE.ready hE.final hE.repr hE.gens hl.consistent.toChildReady
    hr.consistent.toChildReady hs
  exact (Safe.expect fun hn => by rw [hf] at hn; cases hn).bind fun _ _ =>
    (bridge_safe (id := .bridgeF) hV (by decide) rfl rfl (hb _)).bind fun _ _ => .pure _

theorem eval_safe (hV : Prepared V steps) {s : FuseState F G HC} {u : F}
    (hb : ∀ l e, (∃ P ∈ l, V.K.coords P = none) → bad (.hostPoints l e)) :
    Safe bad (V.computeEval s u) := by
  unfold FuseEnvironment.computeEval
  refine (stage_safe (native_fits (id := .evalStage) hV rfl) (fun e he => ?_) fun o ho => ?_).bind
    fun r hr => ?_
  · obtain ⟨o, h, -⟩ := C69_eval V.P.headerSize (evalWitness (4 * V.n) s u)
    rw [h] at he
    cases he
  · exact le_of_eq (eval_elems_length o)
  · exact (triple_safe hV (stage_wf (stageRx_ok hr))).bind fun t _ =>
      (bridge_safe (id := .bridgeEval) hV (by decide) rfl rfl (hb _)).bind fun _ _ => .pure _

/-! ### Endoscaling -/

theorem getD_map_add (φ : HC →+ (curve V.K.b).Point) (l : List HC) (i : ℕ) :
    (l.map φ).getD i 0 = φ (l.getD i 0) := by
  rw [List.getD_eq_getElem?_getD, List.getD_eq_getElem?_getD, List.getElem?_map]
  cases l[i]? <;> simp

theorem points_run {K : NestedParams G HC} {w : PointsWitness HC}
    (h : ∀ P ∈ w.initial :: (w.inputs ++ w.interstitials), K.coords P ≠ none) :
    ∃ g, Pcd.emulate (pointsStageCode K w) = .ok g := by
  have hn : ∀ l : List HC, (∀ P ∈ l, K.coords P ≠ none) → none ∉ l.map K.coords := by
    intro l hl hm
    obtain ⟨P, h1, h2⟩ := List.mem_map.1 hm
    exact hl P h1 h2
  obtain ⟨a, ha⟩ := allocPoints_safe (b := K.b) (hn w.inputs fun P hP => h P (by simp [hP]))
  obtain ⟨c, hc⟩ := allocPoints_safe (b := K.b) (hn w.interstitials fun P hP => h P (by simp [hP]))
  obtain ⟨q, hq⟩ := Option.ne_none_iff_exists'.1 (h w.initial List.mem_cons_self)
  refine ⟨⟨⟨both q.1, both q.2⟩, a, c⟩, ?_⟩
  simp only [pointsStageCode, hq]
  exact (emulate_bind _ _ _).2 ⟨⟨both q.1, both q.2⟩, rfl, (emulate_bind _ _ _).2 ⟨_, ha,
    (emulate_bind _ _ _).2 ⟨_, hc, rfl⟩⟩⟩

/-- The gadgets of the endoscaling, and when its steps run. -/
theorem endoscaling_runs (hV : Prepared V steps) {endo : ℕ} {pts : List HC} {w : PointsWitness HC}
    (hw : PointsWitness.new V.P.endo.nbits V.P.endo.zeta NUM_ENDOSCALING_POINTS endo pts = some w)
    {e : Endoscalar G} (h3 : Pcd.emulate (Endoscalar.alloc (F := G) V.P.endo.nbits endo) = .ok e)
    {points : PointsWitness (Gadget.Point G)}
    (h4 : Pcd.emulate (pointsStageCode V.K w) = .ok points) :
    e.bits.length = 128 ∧ PointsTyped points ∧ w.initial :: w.inputs = pts ∧
    (¬ Degenerate V.P.endo.nbits V.P.endo.zeta endo pts → ∀ i < NUM_ENDOSCALING_STEPS,
      Pcd.emulate (Pcd.stepCircuit V.P.endo.nbits V.K.zeta NUM_ENDOSCALING_POINTS i e points) =
        .ok ()) := by
  have hK := hV.host
  obtain ⟨e', s1, s2, s3⟩ := (C35_alloc (F := G) V.P.endo.nbits endo).2.2
  rw [emulate_of_sim s1] at h3
  cases h3
  obtain ⟨order, l, hG, hord, hl⟩ := hK.group
  obtain ⟨φ, hφ⟩ := hK.points
  obtain ⟨a1, a2, a3, w', a4, a5⟩ := witness_map (K := V.K) hl φ (by decide) hw
  simp only [pointsStageCode, emulate_bind] at h4
  obtain ⟨g0, b0, gi, b1, gs, b2, b3⟩ := h4
  cases b3
  have hint := allocPoints_runs b1
  have hints := allocPoints_runs b2
  have hk9 : numSteps NUM_ENDOSCALING_POINTS = some NUM_ENDOSCALING_STEPS := by decide
  have hini : g0.Honest ∧ Represents V.K.b g0 (φ w.initial) := by
    refine coords_represent hφ ?_
    cases hc : V.K.coords w.initial with
    | none => rw [hc] at b0; cases b0
    | some q =>
      rw [hc] at b0
      cases b0
      exact ⟨q.1, q.2, rfl, rfl⟩
  have hinp : List.Forall₂ (fun v p => p.Honest ∧ Represents V.K.b p (φ v)) w.inputs gi :=
    (List.forall₂_map_left_iff.1 hint).imp fun v p h => coords_represent hφ h
  have hsum : List.Forall₂ (fun v p => p.Honest ∧ Represents V.K.b p (φ v)) w.interstitials gs :=
    (List.forall₂_map_left_iff.1 hints).imp fun v p h => coords_represent hφ h
  have li : gi.length = NUM_ENDOSCALING_POINTS - 1 := by
    rw [← hinp.length_eq, ← a1, ← a2, List.length_cons, Nat.add_sub_cancel]
  have ls : gs.length = NUM_ENDOSCALING_STEPS := by
    rw [hk9, Option.some.injEq] at a3
    rw [← hsum.length_eq, a3]
  have hrep : PointsRepresent V.K.b NUM_ENDOSCALING_POINTS ⟨g0, gi, gs⟩
      ((w.initial :: w.inputs).map φ) := by
    refine ⟨by rw [List.length_map, a2, a1], hini.2, li, fun i p hp => ?_⟩
    obtain ⟨hi, hp⟩ := List.getElem?_eq_some_iff.1 hp
    have hi' : i < w.inputs.length := by rw [hinp.length_eq]; exact hi
    have := (List.Forall₂.get hinp hi' hi).2
    simp only [List.get_eq_getElem, hp] at this
    rw [List.map_cons, List.getD_cons_succ, List.getD_eq_getElem?_getD, List.getElem?_map,
      List.getElem?_eq_getElem hi']
    exact this
  refine ⟨by rw [s3, List.length_map, List.length_range, hK.nbits], ⟨li, ls⟩, a2, fun hd => ?_⟩
  have hzero : ∀ X, φ X = 0 → X = 0 := by
    intro X hX
    cases hc : V.K.coords X with
    | none => exact hV.identity X hc
    | some q =>
      obtain ⟨h, hq⟩ := hφ X q.1 q.2 hc
      rw [hX] at hq
      cases hq
  have hscalar : liftNative V.P.endo.nbits V.P.endo.zeta endo =
      ((liftNative V.P.endo.nbits l endo : ℤ) : F) := by
    rw [← hl]
    exact (C35_lift_scalar_field (Int.castRingHom F) V.P.endo.nbits l endo).symm
  have hmap : ∀ i, (liftNative V.P.endo.nbits l endo : ℤ) •
      pointSum (liftNative V.P.endo.nbits l endo : ℤ) (pts.map φ) i =
      φ (liftNative V.P.endo.nbits V.P.endo.zeta endo •
        pointSum (liftNative V.P.endo.nbits V.P.endo.zeta endo) pts i) := by
    intro i
    rw [← map_pointSum, ← map_zsmul]
    congr 1
    rw [← hl, C51_scalar, hl, hscalar, Int.cast_smul_eq_zsmul]
  obtain ⟨k, hk, hsim⟩ := C51_complete hK.good hG hord (e := e) (by rw [s2]; exact s3) (by decide) hrep
    (w := w') (by rw [s2, a2]; exact a4)
    (by
      rw [a5, List.forall₂_map_right_iff]
      exact hsum.flip) hini.1
    (fun p hp => by obtain ⟨v, -, hv⟩ := forall₂_mem hinp p hp; exact hv.1)
    (by
      intro i hi
      rw [s2, a2, hmap, getD_map_add]
      constructor
      · intro h
        refine hd ⟨i, by rw [a1]; exact hi, .inl (sub_eq_zero.1 (hzero _ ?_))⟩
        rw [map_sub, h, sub_self]
      · intro h
        refine hd ⟨i, by rw [a1]; exact hi, .inr (eq_neg_of_add_eq_zero_left (hzero _ ?_))⟩
        rw [map_add, h, neg_add_cancel])
  rw [hk9, Option.some.injEq] at hk
  subst hk
  exact fun i hi => emulate_of_sim (hsim i hi)

theorem endoscaling_holds (hV : Prepared V steps) {i : ℕ} (hi : i < NUM_ENDOSCALING_STEPS) :
    NestedId.endoscalingStep i ∈ NestedId.all ∧ Holds V.C.nested V.n V.app.nestedRegistry
      (nestedIndex (.endoscalingStep i)) (V.cs.endoscaling i) := by
  have hm : NestedId.endoscalingStep i ∈ NestedId.all := by
    rw [NestedId.all, List.mem_append]
    exact .inl (List.mem_map.2 ⟨i, List.mem_range.2 hi, rfl⟩)
  obtain ⟨bn, be, ss, ss', -, -, h1, h2⟩ := app_ready hV.app
  obtain ⟨o, h3, h4⟩ := app_nested hV.app hm
  exact ⟨hm, (hV.app.circuits.endoscaling i hi).1, ⟨_, be, ss', h1, h2⟩, o, h4, h3⟩

theorem stepRxs_safe (hV : Prepared V steps) {endo : ℕ} {w : PointsWitness HC}
    {e : Endoscalar G} {points : PointsWitness (Gadget.Point G)} (he : e.bits.length = 128)
    (hp : PointsTyped points)
    (hr : ¬ Degenerate V.P.endo.nbits V.P.endo.zeta endo (w.initial :: w.inputs) →
      ∀ i < NUM_ENDOSCALING_STEPS, Pcd.emulate
        (Pcd.stepCircuit V.P.endo.nbits V.K.zeta NUM_ENDOSCALING_POINTS i e points) = .ok ())
    (hb : ∀ x, Degenerate V.P.endo.nbits V.P.endo.zeta endo (w.initial :: w.inputs) →
      bad (.endoscaling endo (w.initial :: w.inputs) x)) :
    ∀ {l : List ℕ}, (∀ i ∈ l, i < NUM_ENDOSCALING_STEPS) → Safe bad (V.stepRxs endo w e points l)
  | [], _ => .pure _
  | i :: l, h => by
    have hi := h i List.mem_cons_self
    obtain ⟨hm, hH⟩ := endoscaling_holds hV hi
    have hne : endoscalarStage ≠ pointsStage := fun h => by
      have := congrArg Chain.values h
      revert this
      decide
    unfold FuseEnvironment.stepRxs
    refine (Safe.call fun x hx => hb x ?_).bind fun _ _ => ?_
    · by_contra hd
      rw [hr hd i hi] at hx
      cases hx
    refine (Safe.expect fun hn => by rw [nestedIndex_eq hm] at hn; cases hn).bind fun j hj => ?_
    rw [Outcomes.expect_ok, nestedIndex_eq hm, Option.some.injEq] at hj
    subst hj
    refine (trace_safe hH (by rw [hV.host.nbits]; exact hV.endoscaling i hi e points he hp)
      (by simp [hne])
      (by simp only [List.forall_mem_cons]; exact ⟨.inr (.parent _ _), .inl rfl, by simp⟩)).bind
      fun rx _ => ?_
    exact (stepRxs_safe hV he hp hr hb fun i hi => h i (List.mem_cons_of_mem _ hi)).bind
      fun _ _ => .pure _

theorem part_safe [Finite F] (hV : Prepared V steps) {s : FuseState F G HC} {ch : Challenges F}
    (hl : ChildFits V s.left) (hr : ChildFits V s.right)
    (hs : FuseSteps V.C.native V.n V.C.numBits V.C.repr V.C.hostGens V.app.nativeRegistry ch s)
    {f : NativeF F HC} (hf : computeNativeF V.C.native (4 * V.n) V.C.numBits V.C.repr V.C.hostGens s
      ch.w ch.y ch.z ch.x ch.alpha = some f)
    (hb : ∀ l e, (∃ P ∈ l, V.K.coords P = none) → bad (.hostPoints l e))
    (hd : ∀ endo l x, Degenerate V.P.endo.nbits V.P.endo.zeta endo l → bad (.endoscaling endo l x)) :
    Safe bad (V.computePart s f ch.preBeta ch.u) := by
  unfold FuseEnvironment.computePart
  obtain ⟨bn, ss, hE⟩ := app_fuseEnv hV.app
  obtain ⟨f', hf', f1, f2, -⟩ := C47_agree hE.ready hE.final hE.repr hE.gens
    hl.consistent.toChildReady hr.consistent.toChildReady hs
  cases hf.symm.trans hf'
  obtain ⟨p, w, hp, -⟩ := C48_prover hE.ready hE.final hE.repr hE.gens hl.consistent.toChildReady
    hr.consistent.toChildReady hs f1 f2 V.P.endo.nbits hE.sqrt hE.nonresidue V.P.endo.zeta
  have hp0 := hp
  unfold computeP at hp
  obtain ⟨endo, h1, hp⟩ := Option.bind_eq_some_iff.1 hp
  obtain ⟨_, -, hp⟩ := Option.bind_eq_some_iff.1 hp
  obtain ⟨w', hw, hp⟩ := Option.bind_eq_some_iff.1 hp
  obtain ⟨_, -, hp⟩ := Option.bind_eq_some_iff.1 hp
  cases hp
  refine (Safe.expect fun hn => by rw [h1] at hn; cases hn).bind fun endo' k1 => ?_
  cases h1.symm.trans (must_ok.1 k1)
  refine (Safe.expect fun hn => by rw [hp0] at hn; cases hn).bind fun r k2 => ?_
  cases hp0.symm.trans (must_ok.1 k2)
  obtain ⟨e', s1, s2, s3⟩ := (C35_alloc (F := G) V.P.endo.nbits endo).2.2
  refine (stage_safe (nested_fits (id := .endoscalarStage) hV (by decide) rfl)
    (fun e he => by rw [emulate_of_sim s1] at he; cases he) fun o ho => ?_).bind fun r1 k3 => ?_
  · rw [emulate_of_sim s1] at ho
    cases ho
    refine le_of_eq ?_
    rw [endoscalarElems, List.length_map, s3, List.length_map, List.length_range, hV.host.nbits]; rfl
  have k3 := (stageRx_ok k3).1
  refine (stage_safe (nested_fits (id := .pointsStage) hV (by decide) rfl) (fun e he => hb _ _ ?_)
    fun o ho => ?_).bind fun r2 k4 => ?_
  · by_contra hn
    push Not at hn
    obtain ⟨g, hg⟩ := points_run (K := V.K) (w := w) hn
    rw [hg] at he
    cases he
  · obtain ⟨-, ⟨t1, t2⟩, -⟩ := endoscaling_runs hV hw k3 ho
    rw [points_elems_length, t1, t2]
    exact le_of_eq rfl
  have k4 := (stageRx_ok k4).1
  obtain ⟨t0, t1, t2, t3⟩ := endoscaling_runs hV hw k3 k4
  rw [← t2] at t3
  exact (stepRxs_safe hV t0 t1 t3 (fun x => hd _ _ x) fun i hi => List.mem_range.1 hi).bind
    fun _ _ => .pure _

/-! ### The circuits -/

theorem internalCircuit_safe {stop : Pcd.Err → Stop F G HC} {id : NativeId}
    {c0 : Circ F} {ch : Chain} {parts : List (Chain × List F)}
    {code : Syn F (List (Element F) × UnifiedInstance F)} {x : List F → Syn F (List F)}
    (hH : Holds V.C.native V.n V.app.nativeRegistry (registryIndex id) c0) (hx : Realizes ch c0 x)
    (hnd : (parts.map Prod.fst).Nodup) (hin : ∀ q ∈ parts, InChain q.1 ch)
    (h : ∀ e, Pcd.emulate code = .error e → bad (stop e)) :
    Safe bad (V.internalCircuit stop id c0 ch parts code x) := by
  unfold FuseEnvironment.internalCircuit
  refine (Safe.call h).bind fun r _ => ?_
  refine (Safe.expect fun hn => by rw [nativeIndex_eq] at hn; cases hn).bind fun i hi => ?_
  cases (nativeIndex_eq id).symm.trans (must_ok.1 hi)
  exact (trace_safe hH hx hnd hin).bind fun _ _ => .pure _

/-- The gadgets of the stages have the sizes of the stages. -/
theorem stage_types (hV : Prepared V steps) {left right : Proof F G HC} (hl : ChildFits V left)
    (hr : ChildFits V right) {ch : Challenges F} {t : FuseTraces F G} {state : List F}
    (hst : state.length = V.P.poseidon.T) {fused : FuseAB F HC} {S : StepStages F}
    (hfu : fuseAb V.C.native V.n V.C.numBits V.C.repr V.C.hostGens V.app.nativeRegistry ⟨left, right⟩
      ch.y ch.z ch.mu ch.nu ch.muPrime ch.nuPrime = some fused) {s : FuseState F G HC}
    (hS : StagesRun V.C V.n V.P left right ch fused state s t S) :
    StageTypes V.P.headerSize V.P.poseidon.T S := by
  obtain ⟨bn, ss, hE⟩ := app_fuseEnv hV.app
  obtain ⟨sw, hsw, -⟩ := supplies_of_ready hE.ready hE.final ch.y
  obtain ⟨m1, -, le1, le2, le3⟩ := fused_lengths hsw hV.app.repr hV.app.gens (src := ⟨left, right⟩)
    hl.consistent.traces hr.consistent.traces hfu
  have e1 := preamble_eq hS.preamble.1
  obtain ⟨-, -, -, hlen⟩ := C69_preamble hS.preamble.1
  simp only [List.forall_mem_cons] at hlen
  obtain ⟨⟨n1, n2, n3, -⟩, ⟨n4, n5, n6, -⟩, -⟩ := hlen
  have e2 := innerError_eq hS.innerError.1
  obtain ⟨kl, kr, collapsed, hov, hst3⟩ := hS.outerError
  have e3 := outerError_eq hst3.1
  rw [emulate_bind] at hov
  obtain ⟨pre, hpre, hov⟩ := hov
  have ep := preamble_eq hpre
  obtain ⟨kl', kr', col', hsim, -, -, -, hcol⟩ := C65_prover_staged pre
    (by rw [ep]; exact childGadget_honest _ _ _) (by rw [ep]; exact childGadget_honest _ _ _)
    fused.innerErrors GROUP_SIZE le2 ch.y ch.mu ch.nu m1
  rw [emulate_of_sim hsim, Except.ok.injEq] at hov
  simp only [Prod.mk.injEq] at hov
  obtain ⟨⟨rfl, rfl⟩, rfl⟩ := hov
  rw [le1] at hcol
  refine ⟨?_, ?_, ?_, ?_, ?_, ?_, ?_⟩
  · rw [e1]; simp only [childGadget, List.length_map]; exact ⟨n1, n2, n3⟩
  · rw [e1]; simp only [childGadget, List.length_map]; exact ⟨n4, n5, n6⟩
  · rw [e3]; simp only [List.length_map]; exact le3
  · rw [e3, hcol]; simp only [List.length_map, List.length_range]
  · rw [e2]; simp only [List.length_map]; exact le1
  · rw [e2]
    intro e he
    obtain ⟨l, hl, rfl⟩ := List.mem_map.1 he
    rw [List.length_map]
    exact le2 l hl
  · rw [e3]; simp only [List.length_map]; exact hst

theorem internalCircuit_wf {stop : Pcd.Err → Stop F G HC} {id : NativeId}
    {c0 : Circ F} {ch : Chain} {parts : List (Chain × List F)}
    {code : Syn F (List (Element F) × UnifiedInstance F)} {x : List F → Syn F (List F)}
    {i : UnifiedInstance F} {rx : Sparse.Poly F}
    (hH : Holds V.C.native V.n V.app.nativeRegistry (registryIndex id) c0)
    (h : V.internalCircuit stop id c0 ch parts code x (.ok (i, rx))) : WellFormed (4 * V.n) rx := by
  obtain ⟨-, j, h1, h2⟩ := internalCircuit_ok h
  rw [nativeIndex_eq, Option.some.injEq] at h1
  subst h1
  exact (run_only hH h2).1

theorem then_error {stop : Pcd.Err → Stop F G HC} {α β : Type} {x : Syn F α}
    {f : α → Except Circuit.Err β} (h : (∃ r, x.sim >>= f = .ok r) ∨ ∀ e, bad (stop e)) (e : Pcd.Err)
    (he : Pcd.emulate x = .error e) : bad (stop e) := by
  rcases h with ⟨r, h⟩ | h
  · obtain ⟨a, h, -⟩ := ok_bind h
    rw [emulate_of_sim h] at he
    cases he
  · exact h e

theorem then_next {stop : Pcd.Err → Stop F G HC} {α β γ : Type} {x : Syn F (α × γ)} {i : γ}
    {f : α × γ → Except Circuit.Err β} (h : (∃ r, x.sim >>= f = .ok r) ∨ ∀ e, bad (stop e))
    (hi : ∃ o, Pcd.emulate x = .ok (o, i)) : ∃ o, (∃ r, f (o, i) = .ok r) ∨ ∀ e, bad (stop e) := by
  obtain ⟨o, hi⟩ := hi
  refine ⟨o, ?_⟩
  rcases h with ⟨r, h⟩ | h
  · obtain ⟨a, h, h'⟩ := ok_bind h
    rw [emulate_of_sim h] at hi
    cases hi
    exact .inl ⟨r, h'⟩
  · exact .inr h

theorem circuits_safe (hV : Prepared V steps) {stop : Pcd.Err → Stop F G HC}
    {value : (s : SlotId) → s.kind.Native F} {S : StepStages F}
    (hT : StageTypes V.P.headerSize V.P.poseidon.T S)
    (h : (∃ outs, internalCircuits V.P S value = .ok outs) ∨ ∀ e, bad (stop e)) :
    Safe bad (V.computeInternalCircuits stop value S) := by
  have hA := hV.app
  have hcs := hA.circuits
  obtain ⟨d1, d2, d3, d4, d5, d6⟩ := stages_nodup V.P.headerSize V.P.poseidon.T
  have a1 : InChain (preambleStage V.P.headerSize) (outerErrorStage V.P.headerSize V.P.poseidon.T) :=
    .inr (.parent _ _)
  have a2 : InChain (preambleStage V.P.headerSize) (innerErrorStage V.P.headerSize V.P.poseidon.T) :=
    .inr (.step _ (.parent _ _))
  have a3 : InChain (outerErrorStage V.P.headerSize V.P.poseidon.T)
      (innerErrorStage V.P.headerSize V.P.poseidon.T) := .inr (.parent _ _)
  have a4 : InChain (preambleStage V.P.headerSize) (evalStage V.P.headerSize) :=
    .inr (.step _ (.parent _ _))
  have a5 : InChain (queryStage V.P.headerSize) (evalStage V.P.headerSize) := .inr (.parent _ _)
  have H1 := entry_holds hA (id := .hashes1Circuit) (by rw [hA.log]; exact hcs.hashes1) rfl
  have H2 := entry_holds hA (id := .hashes2Circuit) hcs.hashes2 rfl
  have H3 := entry_holds hA (id := .innerCollapseCircuit) hcs.inner rfl
  have H4 := entry_holds hA (id := .outerCollapseCircuit) hcs.outer rfl
  have H5 := entry_holds hA (id := .computeVCircuit) hcs.computeV rfl
  unfold internalCircuits at h
  refine (internalCircuit_safe H1 (hA.fuse.hashes1.2 S hT _) (by simp [d1])
    (by simp only [List.forall_mem_cons]; exact ⟨a1, .inl rfl, by simp⟩) (then_error h)).bind
    fun ⟨i1, x1⟩ r1 => ?_
  obtain ⟨o1, h⟩ := then_next h (internalCircuit_ok r1).1
  refine (internalCircuit_safe H2 (hA.fuse.hashes2.2 S hT _) (by simp)
    (by simp only [List.forall_mem_cons]; exact ⟨.inl rfl, by simp⟩) (then_error h)).bind
    fun ⟨i2, x2⟩ r2 => ?_
  obtain ⟨o2, h⟩ := then_next h (internalCircuit_ok r2).1
  refine (internalCircuit_safe H3 (hA.fuse.innerCollapse.2 S hT _) (by simp [d1, d2, d3.symm])
    (by simp only [List.forall_mem_cons]; exact ⟨a2, .inl rfl, a3, by simp⟩) (then_error h)).bind
    fun ⟨i3, x3⟩ r3 => ?_
  obtain ⟨o3, h⟩ := then_next h (internalCircuit_ok r3).1
  refine (internalCircuit_safe H4 (hA.fuse.outerCollapse.2 S hT _) (by simp [d1])
    (by simp only [List.forall_mem_cons]; exact ⟨a1, .inl rfl, by simp⟩) (then_error h)).bind
    fun ⟨i4, x4⟩ r4 => ?_
  obtain ⟨o4, h⟩ := then_next h (internalCircuit_ok r4).1
  refine (internalCircuit_safe H5 (hA.fuse.computeV.2 S hT _) (by simp [d4, d5, d6])
    (by simp only [List.forall_mem_cons]; exact ⟨a4, a5, .inl rfl, by simp⟩) (then_error h)).bind
    fun ⟨i5, x5⟩ r5 => ?_
  obtain ⟨o5, h⟩ := then_next h (internalCircuit_ok r5).1
  refine (Safe.expect fun hn => ?_).bind fun _ _ => ?_
  · rcases h with ⟨outs, h⟩ | h
    · dsimp only at h
      rw [hn] at h
      cases h
    · exact h _
  exact (triple_safe hV (internalCircuit_wf H1 r1)).bind fun _ _ =>
    (triple_safe hV (internalCircuit_wf H2 r2)).bind fun _ _ =>
    (triple_safe hV (internalCircuit_wf H3 r3)).bind fun _ _ =>
    (triple_safe hV (internalCircuit_wf H4 r4)).bind fun _ _ =>
    (triple_safe hV (internalCircuit_wf H5 r5)).bind fun _ _ => .pure _

/-! ### The whole -/

theorem fuse_safe [Finite F] (hV : Prepared V steps) {left right : Proof F G HC}
    (hl : ChildFits V left) (hr : ChildFits V right) {D : Type} {c0 : Circ F} {i : ℕ}
    {code : Syn F (Except Pcd.Err (AdapterOut F D))} {out : AdapterOut F D}
    (hH : Holds V.C.native V.n V.app.nativeRegistry i c0) (hs : code.sim = .ok (.ok out))
    (hc : Realizes .base c0 fun _ => adapterWires code) (el : out.left.length = V.P.headerSize)
    (er : out.right.length = V.P.headerSize)
    (hcl : Settled V.C V.n V.P.headerSize V.app left out.left ∧
        Settled V.C V.n V.P.headerSize V.app right out.right ∨
      UnitHeader V.P.headerSize out.left ∧ UnitHeader V.P.headerSize out.right) :
    Safe (Explained V) (V.fuse c0 i code left right) := by
  have hpo := hV.app.params.poseidon
  have hr1 := hV.app.params.rate_pos
  have hr2 := hV.app.params.rate_le
  have hb : ∀ l e, (∃ P ∈ l, V.K.coords P = none) → Explained V (.hostPoints l e) := by
    rintro l e ⟨P, h1, h2⟩
    cases hV.identity P h2
    exact h1
  have hn : ∀ e, Explained V (.commitment none e) := fun _ => rfl
  have hi : Explained V (.inverse 0) := rfl
  unfold FuseEnvironment.fuse
  refine (application_safe hV hH hs hc).bind fun ⟨app, out'⟩ h1 => ?_
  obtain ⟨b1, b2, b3, b4, b5, b6⟩ := computeApplication_ok h1
  cases (Except.ok.inj (Except.ok.inj ((emulate_of_sim hs).symm.trans b1)))
  have el' : app.leftHeader.length = V.P.headerSize := by rw [b3]; exact el
  have er' : app.rightHeader.length = V.P.headerSize := by rw [b4]; exact er
  refine (new_safe hpo hr1 _).bind fun t0 k0 => ?_
  have T0 := (new_absorbed hpo hr1 k0).live
  refine (preamble_safe hV hl hr el' er' hb).bind fun ⟨preamble, S1⟩ h2 => ?_
  refine (absorb_safe hpo hr1 T0 hn).bind fun t1 k1 => ?_
  have T1 := (absorb_absorbed hpo hr1 T0 k1).live
  refine (squeeze_safe hpo hr1 hr2 T1).bind fun ⟨w, t2⟩ k2 => ?_
  have T2 := squeeze_live hpo hr1 hr2 T1 k2
  refine (sPrime_safe hV hb).bind fun sPrime h3 => ?_
  refine (absorb_safe hpo hr1 T2 hn).bind fun t3 k3 => ?_
  have T3 := (absorb_absorbed hpo hr1 T2 k3).live
  refine (squeeze_safe hpo hr1 hr2 T3).bind fun ⟨y, t4⟩ k4 => ?_
  have T4 := squeeze_live hpo hr1 hr2 T3 k4
  refine (squeeze_safe hpo hr1 hr2 T4).bind fun ⟨z, t5⟩ k5 => ?_
  have T5 := squeeze_live hpo hr1 hr2 T4 k5
  refine (inner_safe hV hl hr hb).bind fun ⟨ie, ies, S2, B⟩ h4 => ?_
  refine (absorb_safe hpo hr1 T5 hn).bind fun t6 k6 => ?_
  have T6 := absorb_absorbed hpo hr1 T5 k6
  refine (save_safe hpo T6).bind fun state k7 => ?_
  have hst := save_length hpo T6 k7
  refine (squeeze_safe hpo hr1 hr2 T6.live).bind fun ⟨mu, t7⟩ k8 => ?_
  have T7 := squeeze_live hpo hr1 hr2 T6.live k8
  refine (squeeze_safe hpo hr1 hr2 T7).bind fun ⟨nu, t8⟩ k9 => ?_
  have T8 := squeeze_live hpo hr1 hr2 T7 k9
  obtain ⟨⟨B0, d1, d2⟩, d3, d4, d5, d6, d7⟩ := innerErrorTerms_ok h4
  have hst' : (state.map (·.value)).length = V.P.poseidon.T := by rw [List.length_map]; exact hst
  refine (outer_safe hV hl hr el' er' hst' d1 d2 d3 hb hi).bind fun ⟨oe, oes, S3, a, b⟩ h5 => ?_
  obtain ⟨e1, e2, e3, e4, e5, e6, e7⟩ := outerErrorTerms_ok h5
  refine (absorb_safe hpo hr1 T8 hn).bind fun t9 k10 => ?_
  have T9 := (absorb_absorbed hpo hr1 T8 k10).live
  refine (squeeze_safe hpo hr1 hr2 T9).bind fun ⟨muPrime, t10⟩ k11 => ?_
  have T10 := squeeze_live hpo hr1 hr2 T9 k11
  refine (squeeze_safe hpo hr1 hr2 T10).bind fun ⟨nuPrime, t11⟩ k12 => ?_
  have T11 := squeeze_live hpo hr1 hr2 T10 k12
  refine (ab_safe hV hl hr d1 d2 e1 e2 e3 hb hi).bind fun ab h6 => ?_
  refine (absorb_safe hpo hr1 T11 hn).bind fun t12 k13 => ?_
  have T12 := (absorb_absorbed hpo hr1 T11 k13).live
  refine (squeeze_safe hpo hr1 hr2 T12).bind fun ⟨x, t13⟩ k14 => ?_
  have T13 := squeeze_live hpo hr1 hr2 T12 k14
  refine (query_safe hV hb).bind fun ⟨query, S4⟩ h7 => ?_
  refine (absorb_safe hpo hr1 T13 hn).bind fun t14 k15 => ?_
  have T14 := (absorb_absorbed hpo hr1 T13 k15).live
  refine (squeeze_safe hpo hr1 hr2 T14).bind fun ⟨alpha, t15⟩ k16 => ?_
  have T15 := squeeze_live hpo hr1 hr2 T14 k16
  obtain ⟨f1, f2⟩ := computeAb_ok h6
  have hab : fuseAb V.C.native V.n V.C.numBits V.C.repr V.C.hostGens V.app.nativeRegistry
      ⟨left, right⟩ y.value z.value mu.value nu.value muPrime.value nuPrime.value =
        some ⟨ies, oes, a.map (·.poly), b, ab.native⟩ := by
    unfold fuseAb
    simp only [d1, d2, d3, if_neg e1, e2, e3, e4, f1, Option.bind_eq_bind, Option.bind_some,
      Option.pure_def]
  have hFS : ∀ u preBeta, FuseSteps V.C.native V.n V.C.numBits V.C.repr V.C.hostGens
      V.app.nativeRegistry ⟨w.value, y.value, z.value, mu.value, nu.value, muPrime.value,
        nuPrime.value, x.value, alpha.value, u, preBeta⟩
      ⟨left, right, sPrime.native, ie.native, ab.native, query.native⟩ := fun u preBeta =>
    ⟨(computeSPrime_ok h3).1, d5, ⟨_, hab, rfl⟩, (computeQuery_ok h7).1⟩
  refine (f_safe hV hl hr (hFS 0 0) hb).bind fun f h8 => ?_
  refine (absorb_safe hpo hr1 T15 hn).bind fun t16 k17 => ?_
  have T16 := (absorb_absorbed hpo hr1 T15 k17).live
  refine (squeeze_safe hpo hr1 hr2 T16).bind fun ⟨u, t17⟩ k18 => ?_
  have T17 := squeeze_live hpo hr1 hr2 T16 k18
  refine (eval_safe hV hb).bind fun ⟨eval, S5⟩ h9 => ?_
  refine (absorb_safe hpo hr1 T17 hn).bind fun t18 k19 => ?_
  have T18 := (absorb_absorbed hpo hr1 T17 k19).live
  refine (squeeze_safe hpo hr1 hr2 T18).bind fun ⟨preBeta, t19⟩ k20 => ?_
  refine (part_safe hV hl hr (hFS u.value preBeta.value) (computeF_ok h8).1 hb
    fun _ _ _ h => h).bind fun pp h10 => ?_
  -- the rounds so far, with the trace of the step in place of the traces of the circuits
  obtain ⟨p, hp⟩ : ∃ p : Proof F G HC, p = ⟨app, preamble, sPrime, ie, oe, ab, query, f, eval, pp,
    ⟨w.value, y.value, z.value, mu.value, nu.value, muPrime.value, nuPrime.value, x.value, alpha.value,
      u.value, preBeta.value⟩,
    ⟨app.rxTriple, app.rxTriple, app.rxTriple, app.rxTriple, app.rxTriple⟩⟩ := ⟨_, rfl⟩
  have q1 : app = p.application := by rw [hp]
  have q2 : preamble = p.preamble := by rw [hp]
  have q3 : sPrime = p.sPrime := by rw [hp]
  have q4 : ie = p.innerError := by rw [hp]
  have q5 : oe = p.outerError := by rw [hp]
  have q6 : ab = p.ab := by rw [hp]
  have q7 : query = p.query := by rw [hp]
  have q8 : f = p.f := by rw [hp]
  have q9 : eval = p.eval := by rw [hp]
  have q10 : pp = p.p := by rw [hp]
  have q11 : p.circuits = ⟨app.rxTriple, app.rxTriple, app.rxTriple, app.rxTriple, app.rxTriple⟩ := by
    rw [hp]
  have hch : p.challenges = ⟨w.value, y.value, z.value, mu.value, nu.value, muPrime.value,
      nuPrime.value, x.value, alpha.value, u.value, preBeta.value⟩ := by rw [hp]
  clear hp
  subst q1 q2 q3 q4 q5 q6 q7 q8 q9 q10
  obtain ⟨-, -, -, r4, r5, r6, fused, r7, r8⟩ := front_run (S := ⟨S1, S3, S2, S4, S5⟩) h1 k0 h2 k1 k2
    h3 k3 k4 k5 h4 k6 k7 k8 k9 h5 k10 k11 k12 h6 k13 k14 h7 k15 k16 h8 k17 k18 h9 k19 k20 h10 hch
    (by rw [q11]; exact b5) (by rw [q11]; exact b5) (by rw [q11]; exact b5) (by rw [q11]; exact b5)
    (by rw [q11]; exact b5)
  have hT := stage_types hV hl hr hst' r7 r8
  refine (circuits_safe hV hT ?_).bind fun _ _ => .pure _
  rw [instanceValues_eq p hch]
  by_cases hg : ChallengesOk V.C left right p
  · left
    have wf0 : WellFormed (4 * V.n) p.application.rxTriple.rx := (run_only hH b6).1
    have ht : ∀ i, WellFormed (4 * V.n) (p.traces.rx i) := by
      obtain ⟨_, _, _, -, -, ao, ho⟩ := r8.outerError
      intro i
      cases i
      case application => exact wf0
      case preamble => exact stage_wf r8.preamble
      case innerError => exact stage_wf r8.innerError
      case outerError => exact (rx_only ho).1
      case query => exact stage_wf r8.query
      case eval => exact stage_wf r8.eval
      all_goals
        simp only [Proof.traces, Proof.triple, q11]
        exact wf0
    have hcl' : Settled V.C V.n V.P.headerSize V.app left p.traces.leftHeader ∧
          Settled V.C V.n V.P.headerSize V.app right p.traces.rightHeader ∨
        UnitHeader V.P.headerSize p.traces.leftHeader ∧
          UnitHeader V.P.headerSize p.traces.rightHeader := by
      have e1 : p.traces.leftHeader = out.left := b3
      have e2 : p.traces.rightHeader = out.right := b4
      rw [e1, e2]
      exact hcl
    have hcurve : ∀ x y, some (x, y) ∈ bridgePoints p → y ^ 2 = x ^ 3 + V.C.b := by
      intro x y hm
      rw [bridgePoints_traces r5] at hm
      obtain ⟨q, h1, h2⟩ := List.mem_map.1 hm
      rw [r4 q h1] at h2
      exact hV.curve _ _ _ h2
    have hready := (run_ready hV.app hl.toChildOk hr.toChildOk ht hcl' hcurve hg r5 r6 r7 r8).2.1
    obtain ⟨outs, ho, -⟩ := C65_circuits_complete V.P hV.app.params _ ⟨hT.left.2.2, hT.right.2.2,
      hT.outerErrors, hT.collapsed, hT.innerErrors, hT.innerError, hT.state⟩ p.unifiedValue hready
    exact ⟨outs, ho⟩
  · right
    intro e
    by_contra hg'
    refine hg ?_
    rw [← hch] at hg'
    simp only [Explained, not_or, not_not] at hg'
    exact ⟨hg'.1, hg'.2.1, hg'.2.2⟩

end
end Ragu.Props

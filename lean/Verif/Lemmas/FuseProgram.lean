/-
What the results of the rounds of `fuse` satisfy.
-/
import Verif.Model.Pcd.FuseProgram
import Verif.Lemmas.Verify

set_option linter.unusedSectionVars false

namespace Ragu.Pcd
open Ragu Ragu.Circuit Ragu.Registry Ragu.Gadget Ragu.Spec

/-! ### Results -/

section
variable {E α β ε : Type}

theorem Outcomes.bind_ok {m : Outcomes E α} {f : α → Outcomes E β} {b : β} :
    (m >>= f) (.ok b) ↔ ∃ a, m (.ok a) ∧ f a (.ok b) := by
  constructor
  · rintro (h | ⟨e, -, h⟩)
    · exact h
    · cases h
  · exact Or.inl

theorem Outcomes.pure_ok {a b : α} : (pure a : Outcomes E α) (.ok b) ↔ b = a := by
  show Except.ok b = Except.ok a ↔ _
  simp

theorem Outcomes.call_ok {stop : ε → E} {x : Except ε α} {a : α} :
    Outcomes.call stop x (.ok a) ↔ x = .ok a := by
  unfold Outcomes.call
  split <;> simp [eq_comm]

theorem Outcomes.expect_ok {stop : E} {x : Option α} {a : α} :
    Outcomes.expect stop x (.ok a) ↔ x = some a := by
  unfold Outcomes.expect
  split <;> simp [eq_comm]

theorem Outcomes.any_ok {p : α → Prop} {a : α} : (Outcomes.any p : Outcomes E α) (.ok a) ↔ p a := by
  constructor
  · rintro ⟨b, h, hb⟩
    cases hb
    exact h
  · exact fun h => ⟨a, h, rfl⟩

theorem Outcomes.random_ok {a : α} : (Outcomes.random α : Outcomes E α) (.ok a) := ⟨a, trivial, rfl⟩

end

variable {F G HC : Type} [Field F] [DecidableEq F] [Field G] [DecidableEq G]

theorem must_ok {α : Type} {x : Option α} {a : α} :
    (must x : Outcomes (Stop F G HC) α) (.ok a) ↔ x = some a := Outcomes.expect_ok

theorem onTranscript_ok {α : Type} {x : Syn F α} {a : α} :
    (onTranscript x : Outcomes (Stop F G HC) α) (.ok a) ↔ emulate x = .ok a := Outcomes.call_ok

theorem absorb_ok {p : PoseidonParams F} {c : Option (F × F)} {t a : Mode (Element F)} :
    (absorb p c t : Outcomes (Stop F G HC) _) (.ok a) ↔
      emulate (transcriptWriteCommitment p c t) = .ok a := Outcomes.call_ok

theorem squeeze_ok {p : PoseidonParams F} {t : Mode (Element F)} {a : Element F × Mode (Element F)} :
    (squeeze p t : Outcomes (Stop F G HC) _) (.ok a) ↔ emulate (transcriptChallenge p t) = .ok a :=
  Outcomes.call_ok

theorem stageRx_ok {F' α : Type} [Field F'] [DecidableEq F'] {stop : Err → Stop F G HC} {n : ℕ}
    {d : Chain} {code : Syn F' α} {elems : α → List (Element F')} {r : α × Sparse.Poly F'}
    (h : stageRx stop n d code elems (.ok r)) : StageRun n d code elems r.1 r.2 := by
  unfold stageRx at h
  obtain ⟨alpha, -, h⟩ := Outcomes.bind_ok.1 h
  obtain ⟨g, hg, h⟩ := Outcomes.bind_ok.1 h
  obtain ⟨rx, hrx, h⟩ := Outcomes.bind_ok.1 h
  cases Outcomes.pure_ok.1 h
  exact ⟨Outcomes.call_ok.1 hg, alpha, Outcomes.call_ok.1 hrx⟩

theorem traceCircuit_ok {F' : Type} [Field F'] [DecidableEq F'] {n : ℕ} {R : Registry F'} {i : ℕ}
    {c0 : Circ F'} {ch : Chain} {parts : List (Chain × List F')} {x : List F' → Syn F' (List F')}
    {p : Sparse.Poly F'} (h : (traceCircuit n R i c0 ch parts x : Outcomes (Stop F G HC) _) (.ok p)) :
    CircuitRun n R i c0 ch parts x p := by
  unfold traceCircuit at h
  obtain ⟨t, ht, h⟩ := Outcomes.bind_ok.1 h
  obtain ⟨alpha, -, h⟩ := Outcomes.bind_ok.1 h
  obtain ⟨r, hr, h⟩ := Outcomes.bind_ok.1 h
  obtain ⟨es, c, h1, h2, h3, h4⟩ := Outcomes.any_ok.1 ht
  have := Outcomes.call_ok.1 h
  subst this
  exact ⟨es, c, t, alpha, h1, h2, h3, h4, must_ok.1 hr⟩

variable [AddCommGroup HC] [Module F HC] {V : FuseEnvironment F G HC}

theorem triple_ok {rx : Sparse.Poly F} {r : RxTriple F HC} (h : V.triple rx (.ok r)) :
    r.rx = rx ∧ Msm.commit (4 * V.n) V.C.numBits V.C.repr rx V.C.hostGens = some r.commitment := by
  unfold FuseEnvironment.triple at h
  obtain ⟨c, hc, h⟩ := Outcomes.bind_ok.1 h
  cases Outcomes.pure_ok.1 h
  exact ⟨rfl, must_ok.1 hc⟩

/-- A bridge of the points `l`. -/
def BridgeOf (V : FuseEnvironment F G HC) (d : Chain) (l : List HC) (b : Bridge F G) : Prop :=
  (∃ g, StageRun V.n d (bridgeCode V.K l) pointElems g b.rx) ∧ b.commitment = V.nestedCommit b.rx

theorem bridge_ok {d : Chain} {l : List HC} {b : Bridge F G} (h : V.bridge d l (.ok b)) :
    BridgeOf V d l b := by
  unfold FuseEnvironment.bridge at h
  obtain ⟨⟨g, rx⟩, hg, h⟩ := Outcomes.bind_ok.1 h
  cases Outcomes.pure_ok.1 h
  exact ⟨⟨g, stageRx_ok hg⟩, rfl⟩

/-- The commitment of a trace polynomial. -/
def IsTriple (V : FuseEnvironment F G HC) (r : RxTriple F HC) : Prop :=
  Msm.commit (4 * V.n) V.C.numBits V.C.repr r.rx V.C.hostGens = some r.commitment

theorem isTriple {rx : Sparse.Poly F} {r : RxTriple F HC} (h : V.triple rx (.ok r)) :
    IsTriple V r ∧ r.rx = rx := by
  obtain ⟨h1, h2⟩ := triple_ok h
  subst h1
  exact ⟨h2, rfl⟩

/-! ### The rounds -/

theorem computeApplication_ok {D : Type} {c0 : Circ F} {i : ℕ}
    {code : Syn F (Except Err (AdapterOut F D))} {a : AppProof F HC} {out : AdapterOut F D}
    (h : V.computeApplication c0 i code (.ok (a, out))) :
    emulate code = .ok (.ok out) ∧ a.circuitId = i ∧ a.leftHeader = out.left ∧
      a.rightHeader = out.right ∧ IsTriple V a.rxTriple ∧
      CircuitRun V.n V.app.nativeRegistry i c0 .base [] (fun _ => adapterWires code) a.rxTriple.rx := by
  unfold FuseEnvironment.computeApplication at h
  obtain ⟨r, hr, h⟩ := Outcomes.bind_ok.1 h
  obtain ⟨o, ho, h⟩ := Outcomes.bind_ok.1 h
  obtain ⟨rx, hrx, h⟩ := Outcomes.bind_ok.1 h
  obtain ⟨tr, htr, h⟩ := Outcomes.bind_ok.1 h
  cases Outcomes.pure_ok.1 h
  have h0 := Outcomes.call_ok.1 hr
  have h1 := Outcomes.call_ok.1 ho
  subst h1
  obtain ⟨h2, rfl⟩ := isTriple htr
  exact ⟨h0, rfl, rfl, rfl, h2, traceCircuit_ok hrx⟩

theorem computePreamble_ok {left right : Proof F G HC} {a : AppProof F HC}
    {r : Bridged (RxTriple F HC) F G} {g : PreambleOutput F}
    (h : V.computePreamble left right a (.ok (r, g))) :
    StageRun V.n (preambleStage V.P.headerSize)
      (preambleStageCode V.C V.P.headerSize left right a.leftHeader a.rightHeader)
      PreambleOutput.elems g r.native.rx ∧ IsTriple V r.native ∧
    BridgeOf V bridgePreamble (r.native.commitment :: (bridgeChild left ++ bridgeChild right))
      r.bridge := by
  unfold FuseEnvironment.computePreamble at h
  obtain ⟨⟨g', rx⟩, hg, h⟩ := Outcomes.bind_ok.1 h
  obtain ⟨tr, htr, h⟩ := Outcomes.bind_ok.1 h
  obtain ⟨b, hb, h⟩ := Outcomes.bind_ok.1 h
  cases Outcomes.pure_ok.1 h
  obtain ⟨h2, rfl⟩ := isTriple htr
  exact ⟨stageRx_ok hg, h2, bridge_ok hb⟩

theorem computeSPrime_ok {w : F} {left right : Proof F G HC} {r : Bridged (NativeSPrime F HC) F G}
    (h : V.computeSPrime w left right (.ok r)) :
    computeNativeSPrime V.C.native V.n V.C.numBits V.C.repr V.C.hostGens V.app.nativeRegistry w left
      right = some r.native ∧
    BridgeOf V bridgeSPrime [r.native.registryWx0Commitment, r.native.registryWx1Commitment]
      r.bridge := by
  unfold FuseEnvironment.computeSPrime at h
  obtain ⟨s, hs, h⟩ := Outcomes.bind_ok.1 h
  obtain ⟨b, hb, h⟩ := Outcomes.bind_ok.1 h
  cases Outcomes.pure_ok.1 h
  exact ⟨must_ok.1 hs, bridge_ok hb⟩

theorem innerErrorTerms_ok {w y z : F} {source : FuseSource F G HC}
    {r : Bridged (NativeInnerError F HC) F G} {errors : List (List F)} {g : List (List (Element F))}
    {B : ClaimBuilder F (Tracked FoldKey F)}
    (h : V.innerErrorTerms w y z source (.ok (r, errors, g, B))) :
    (∃ B0, ClaimBuilder.new V.n y z = some B0 ∧ buildClaims source.source
      (trackedProcessor V.C.native V.n V.app.nativeRegistry) B0 = some B) ∧
    Fold.innerErrorTerms (4 * V.n) GROUP_SIZE NUM_GROUPS (B.a.map (·.poly)) B.b = some errors ∧
    StageRun V.n (innerErrorStage V.P.headerSize V.P.poseidon.T) (innerErrorStageCode errors)
      List.flatten g r.native.rxTriple.rx ∧
    computeRegistryWy V.C.native V.n V.C.numBits V.C.repr V.C.hostGens V.app.nativeRegistry w y =
      some (r.native.registryWyPoly, r.native.registryWyCommitment) ∧ IsTriple V r.native.rxTriple ∧
    BridgeOf V bridgeInnerError [r.native.rxTriple.commitment, r.native.registryWyCommitment]
      r.bridge := by
  unfold FuseEnvironment.innerErrorTerms at h
  obtain ⟨B0, h0, h⟩ := Outcomes.bind_ok.1 h
  obtain ⟨B1, h1, h⟩ := Outcomes.bind_ok.1 h
  obtain ⟨er, h2, h⟩ := Outcomes.bind_ok.1 h
  obtain ⟨⟨g', rx⟩, hg, h⟩ := Outcomes.bind_ok.1 h
  obtain ⟨⟨wy, wyc⟩, hwy, h⟩ := Outcomes.bind_ok.1 h
  obtain ⟨tr, htr, h⟩ := Outcomes.bind_ok.1 h
  obtain ⟨b, hb, h⟩ := Outcomes.bind_ok.1 h
  cases Outcomes.pure_ok.1 h
  obtain ⟨h3, rfl⟩ := isTriple htr
  exact ⟨⟨B0, must_ok.1 h0, must_ok.1 h1⟩, must_ok.1 h2, stageRx_ok hg, must_ok.1 hwy, h3,
    bridge_ok hb⟩

theorem outerErrorTerms_ok {left right : Proof F G HC} {headers : List F × List F}
    {ie : List (List F)} {B : ClaimBuilder F (Tracked FoldKey F)} {y mu nu : F} {state : List F}
    {r : Bridged (RxTriple F HC) F G} {errors : List F} {g : OuterErrorOutput F}
    {a : List (Tracked FoldKey F)} {b : List (Sparse.Poly F)}
    (h : V.outerErrorTerms left right headers ie B y mu nu state (.ok (r, errors, g, a, b))) :
    mu ≠ 0 ∧ Fold.foldInner (trackedFoldable (4 * V.n)) GROUP_SIZE NUM_GROUPS B.a mu⁻¹ = some a ∧
    Fold.foldInner (polyFoldable (4 * V.n)) GROUP_SIZE NUM_GROUPS B.b (mu * nu) = some b ∧
    Fold.outerErrorTerms (4 * V.n) NUM_GROUPS (a.map (·.poly)) b = some errors ∧
    (∃ l r' collapsed, emulate (do
        let pre ← preambleStageCode V.C V.P.headerSize left right headers.1 headers.2
        outerErrorValues GROUP_SIZE pre ie y mu nu) = .ok ((l, r'), collapsed) ∧
      StageRun V.n (outerErrorStage V.P.headerSize V.P.poseidon.T)
        (outerErrorStageCode ⟨errors, collapsed,
          ⟨l.application.value, l.unified.value, l.unifiedBridge.value⟩,
          ⟨r'.application.value, r'.unified.value, r'.unifiedBridge.value⟩, state⟩)
        OuterErrorOutput.elems g r.native.rx) ∧
    IsTriple V r.native ∧ BridgeOf V bridgeOuterError [r.native.commitment] r.bridge := by
  unfold FuseEnvironment.outerErrorTerms at h
  obtain ⟨m, h0, h⟩ := Outcomes.bind_ok.1 h
  obtain ⟨a', h1, h⟩ := Outcomes.bind_ok.1 h
  obtain ⟨b', h2, h⟩ := Outcomes.bind_ok.1 h
  obtain ⟨⟨⟨l, r'⟩, co⟩, h3, h⟩ := Outcomes.bind_ok.1 h
  obtain ⟨er, h4, h⟩ := Outcomes.bind_ok.1 h
  obtain ⟨⟨g', rx⟩, hg, h⟩ := Outcomes.bind_ok.1 h
  obtain ⟨tr, htr, h⟩ := Outcomes.bind_ok.1 h
  obtain ⟨b, hb, h⟩ := Outcomes.bind_ok.1 h
  cases Outcomes.pure_ok.1 h
  have h0 := Outcomes.expect_ok.1 h0
  split at h0
  · cases h0
  rename_i hmu
  cases h0
  obtain ⟨h5, rfl⟩ := isTriple htr
  exact ⟨hmu, must_ok.1 h1, must_ok.1 h2, must_ok.1 h4,
    ⟨l, r', co, Outcomes.call_ok.1 h3, stageRx_ok hg⟩, h5, bridge_ok hb⟩

theorem computeAb_ok {a : List (Tracked FoldKey F)} {b : List (Sparse.Poly F)}
    {source : FuseSource F G HC} {muPrime nuPrime : F} {r : Bridged (NativeAB F HC) F G}
    (h : V.computeAb a b source muPrime nuPrime (.ok r)) :
    computeNativeAb (4 * V.n) V.C.numBits V.C.repr V.C.hostGens source a b muPrime nuPrime =
      some r.native ∧
    BridgeOf V bridgeAB [r.native.aCommitment, r.native.bCommitment] r.bridge := by
  unfold FuseEnvironment.computeAb at h
  obtain ⟨m, h0, h⟩ := Outcomes.bind_ok.1 h
  obtain ⟨s, hs, h⟩ := Outcomes.bind_ok.1 h
  obtain ⟨b, hb, h⟩ := Outcomes.bind_ok.1 h
  cases Outcomes.pure_ok.1 h
  exact ⟨must_ok.1 hs, bridge_ok hb⟩

theorem computeQuery_ok {w x y z : F} {wy : Sparse.Poly F} {left right : Proof F G HC}
    {r : Bridged (NativeQuery F HC) F G} {g : QueryOutput (Element F)}
    (h : V.computeQuery w x y z wy left right (.ok (r, g))) :
    computeRegistryXy V.C.native V.n V.C.numBits V.C.repr V.C.hostGens V.app.nativeRegistry x y =
      some (r.native.registryXyPoly, r.native.registryXyCommitment) ∧
    StageRun V.n (queryStage V.P.headerSize)
      (queryStageCode ⟨fun id => Sparse.eval (4 * V.n) r.native.registryXyPoly (id.omega V.C.native),
        Sparse.eval (4 * V.n) r.native.registryXyPoly w,
        QueryChild.fromProof V.C.native (4 * V.n) left w x (x * z) r.native.registryXyPoly wy,
        QueryChild.fromProof V.C.native (4 * V.n) right w x (x * z) r.native.registryXyPoly wy⟩)
      QueryOutput.elems g r.native.rxTriple.rx ∧ IsTriple V r.native.rxTriple ∧
    BridgeOf V bridgeQuery [r.native.rxTriple.commitment, r.native.registryXyCommitment]
      r.bridge := by
  unfold FuseEnvironment.computeQuery at h
  obtain ⟨⟨xy, xyc⟩, h0, h⟩ := Outcomes.bind_ok.1 h
  obtain ⟨⟨g', rx⟩, hg, h⟩ := Outcomes.bind_ok.1 h
  obtain ⟨tr, htr, h⟩ := Outcomes.bind_ok.1 h
  obtain ⟨b, hb, h⟩ := Outcomes.bind_ok.1 h
  cases Outcomes.pure_ok.1 h
  obtain ⟨h3, rfl⟩ := isTriple htr
  exact ⟨must_ok.1 h0, stageRx_ok hg, h3, bridge_ok hb⟩

theorem computeF_ok {s : FuseState F G HC} {w y z x alpha : F} {r : Bridged (NativeF F HC) F G}
    (h : V.computeF s w y z x alpha (.ok r)) :
    computeNativeF V.C.native (4 * V.n) V.C.numBits V.C.repr V.C.hostGens s w y z x alpha =
      some r.native ∧ BridgeOf V bridgeF [r.native.commitment] r.bridge := by
  unfold FuseEnvironment.computeF at h
  obtain ⟨f, hf, h⟩ := Outcomes.bind_ok.1 h
  obtain ⟨b, hb, h⟩ := Outcomes.bind_ok.1 h
  cases Outcomes.pure_ok.1 h
  exact ⟨must_ok.1 hf, bridge_ok hb⟩

theorem computeEval_ok {s : FuseState F G HC} {u : F} {r : Bridged (RxTriple F HC) F G}
    {g : EvalOutput (Element F)} (h : V.computeEval s u (.ok (r, g))) :
    StageRun V.n (evalStage V.P.headerSize) (evalStageCode (evalWitness (4 * V.n) s u))
      EvalOutput.elems g r.native.rx ∧ IsTriple V r.native ∧
    BridgeOf V bridgeEval [r.native.commitment] r.bridge := by
  unfold FuseEnvironment.computeEval at h
  obtain ⟨⟨g', rx⟩, hg, h⟩ := Outcomes.bind_ok.1 h
  obtain ⟨tr, htr, h⟩ := Outcomes.bind_ok.1 h
  obtain ⟨b, hb, h⟩ := Outcomes.bind_ok.1 h
  cases Outcomes.pure_ok.1 h
  obtain ⟨h3, rfl⟩ := isTriple htr
  exact ⟨stageRx_ok hg, h3, bridge_ok hb⟩

theorem stepRxs_ok {endo : ℕ} {w : PointsWitness HC} {e : Endoscalar G}
    {points : PointsWitness (Gadget.Point G)} : ∀ {l : List ℕ} {rxs : List (Sparse.Poly G)},
    V.stepRxs endo w e points l (.ok rxs) → List.Forall₂ (fun i r =>
      ∃ j, (NestedId.endoscalingStep i).circuitIndex = some j ∧
      emulate (stepCircuit V.P.endo.nbits V.K.zeta NUM_ENDOSCALING_POINTS i e points) = .ok () ∧
      CircuitRun V.n V.app.nestedRegistry j (V.cs.endoscaling i) pointsStage
        [(endoscalarStage, (endoscalarElems e).map (·.wire)), (pointsStage, points.elems.map (·.wire))]
        (endoscalingCode V.P.endo.nbits V.K.zeta i e points) r) l rxs
  | [], rxs, h => by
    unfold FuseEnvironment.stepRxs at h
    cases Outcomes.pure_ok.1 h
    exact .nil
  | i :: l, rxs, h => by
    unfold FuseEnvironment.stepRxs at h
    obtain ⟨_, h0, h⟩ := Outcomes.bind_ok.1 h
    obtain ⟨j, hj, h⟩ := Outcomes.bind_ok.1 h
    obtain ⟨rx, hrx, h⟩ := Outcomes.bind_ok.1 h
    obtain ⟨rs, hrs, h⟩ := Outcomes.bind_ok.1 h
    cases Outcomes.pure_ok.1 h
    exact .cons ⟨j, must_ok.1 hj, Outcomes.call_ok.1 h0, traceCircuit_ok hrx⟩ (stepRxs_ok hrs)

theorem computePart_ok {s : FuseState F G HC} {f : NativeF F HC} {preBeta u : F}
    {r : ProofP F G HC} (h : V.computePart s f preBeta u (.ok r)) :
    r.nested.stepRxs.length = NUM_ENDOSCALING_STEPS ∧
    ∃ endo w e points,
      extractNative V.P.endo.nbits V.P.endo.sqrt V.P.endo.gen preBeta = some endo ∧
      computeP (4 * V.n) V.P.endo.nbits V.P.endo.sqrt V.P.endo.gen V.P.endo.zeta s f preBeta u =
        some (r.native, w) ∧
      StageRun V.n endoscalarStage (Endoscalar.alloc V.P.endo.nbits endo) endoscalarElems e
        r.nested.endoscalarRx ∧
      StageRun V.n pointsStage (pointsStageCode V.K w) PointsWitness.elems points r.nested.pointsRx ∧
      ∀ i < NUM_ENDOSCALING_STEPS, ∃ j q, (NestedId.endoscalingStep i).circuitIndex = some j ∧
        r.nested.stepRxs[i]? = some q ∧
        emulate (stepCircuit V.P.endo.nbits V.K.zeta NUM_ENDOSCALING_POINTS i e points) = .ok () ∧
        CircuitRun V.n V.app.nestedRegistry j (V.cs.endoscaling i) pointsStage
          [(endoscalarStage, (endoscalarElems e).map (·.wire)),
            (pointsStage, points.elems.map (·.wire))]
          (endoscalingCode V.P.endo.nbits V.K.zeta i e points) q := by
  unfold FuseEnvironment.computePart at h
  obtain ⟨endo, h0, h⟩ := Outcomes.bind_ok.1 h
  obtain ⟨⟨native, w⟩, h1, h⟩ := Outcomes.bind_ok.1 h
  obtain ⟨⟨e, erx⟩, h2, h⟩ := Outcomes.bind_ok.1 h
  obtain ⟨⟨pts, prx⟩, h3, h⟩ := Outcomes.bind_ok.1 h
  obtain ⟨rxs, h4, h⟩ := Outcomes.bind_ok.1 h
  cases Outcomes.pure_ok.1 h
  have h5 := stepRxs_ok h4
  have hlen : rxs.length = NUM_ENDOSCALING_STEPS := by
    rw [← h5.length_eq, List.length_range]
  refine ⟨hlen, endo, w, e, pts, must_ok.1 h0, must_ok.1 h1, stageRx_ok h2, stageRx_ok h3,
    fun i hi => ?_⟩
  have h6 := h5.get (i := i) (by simpa using hi) (by omega)
  obtain ⟨j, a1, a2, a3⟩ := h6
  simp only [List.get_eq_getElem, List.getElem_range] at a1 a2 a3
  exact ⟨j, rxs[i]'(by omega), a1, List.getElem?_eq_getElem _, a2, a3⟩

theorem internalCircuit_ok {stop : Err → Stop F G HC} {id : NativeId} {c0 : Circ F} {ch : Chain}
    {parts : List (Chain × List F)} {code : Syn F (List (Element F) × UnifiedInstance F)}
    {x : List F → Syn F (List F)} {inst : UnifiedInstance F} {rx : Sparse.Poly F}
    (h : V.internalCircuit stop id c0 ch parts code x (.ok (inst, rx))) :
    (∃ o, emulate code = .ok (o, inst)) ∧ ∃ i, id.circuitIndex = some i ∧
      CircuitRun V.n V.app.nativeRegistry i c0 ch parts x rx := by
  unfold FuseEnvironment.internalCircuit at h
  obtain ⟨⟨o, inst'⟩, h0, h⟩ := Outcomes.bind_ok.1 h
  obtain ⟨i, h1, h⟩ := Outcomes.bind_ok.1 h
  obtain ⟨rx', h2, h⟩ := Outcomes.bind_ok.1 h
  cases Outcomes.pure_ok.1 h
  exact ⟨⟨o, Outcomes.call_ok.1 h0⟩, i, must_ok.1 h1, traceCircuit_ok h2⟩

theorem nativeIndex_eq (id : NativeId) : id.circuitIndex = some (registryIndex id) := by
  cases id <;> rfl

theorem computeInternalCircuits_ok {stop : Err → Stop F G HC} {value : (s : SlotId) → s.kind.Native F}
    {S : StepStages F} {r : InternalCircuits F HC}
    (h : V.computeInternalCircuits stop value S (.ok r)) {rx : RxIndex → Sparse.Poly F}
    (e1 : rx .hashes1 = r.hashes1.rx) (e2 : rx .hashes2 = r.hashes2.rx)
    (e3 : rx .innerCollapse = r.innerCollapse.rx) (e4 : rx .outerCollapse = r.outerCollapse.rx)
    (e5 : rx .computeV = r.computeV.rx) :
    (∃ insts, CircuitsRun V.n V.P V.cs V.app.nativeRegistry value S rx insts) ∧
    IsTriple V r.hashes1 ∧ IsTriple V r.hashes2 ∧ IsTriple V r.innerCollapse ∧
    IsTriple V r.outerCollapse ∧ IsTriple V r.computeV := by
  unfold FuseEnvironment.computeInternalCircuits at h
  obtain ⟨⟨i1, h1⟩, a1, h⟩ := Outcomes.bind_ok.1 h
  obtain ⟨⟨i2, h2⟩, a2, h⟩ := Outcomes.bind_ok.1 h
  obtain ⟨⟨i3, h3⟩, a3, h⟩ := Outcomes.bind_ok.1 h
  obtain ⟨⟨i4, h4⟩, a4, h⟩ := Outcomes.bind_ok.1 h
  obtain ⟨⟨i5, h5⟩, a5, h⟩ := Outcomes.bind_ok.1 h
  obtain ⟨_, hc, h⟩ := Outcomes.bind_ok.1 h
  obtain ⟨t1, b1, h⟩ := Outcomes.bind_ok.1 h
  obtain ⟨t2, b2, h⟩ := Outcomes.bind_ok.1 h
  obtain ⟨t3, b3, h⟩ := Outcomes.bind_ok.1 h
  obtain ⟨t4, b4, h⟩ := Outcomes.bind_ok.1 h
  obtain ⟨t5, b5, h⟩ := Outcomes.bind_ok.1 h
  cases Outcomes.pure_ok.1 h
  obtain ⟨c1, rfl⟩ := isTriple b1
  obtain ⟨c2, rfl⟩ := isTriple b2
  obtain ⟨c3, rfl⟩ := isTriple b3
  obtain ⟨c4, rfl⟩ := isTriple b4
  obtain ⟨c5, rfl⟩ := isTriple b5
  obtain ⟨d1, j1, f1, g1⟩ := internalCircuit_ok a1
  obtain ⟨d2, j2, f2, g2⟩ := internalCircuit_ok a2
  obtain ⟨d3, j3, f3, g3⟩ := internalCircuit_ok a3
  obtain ⟨d4, j4, f4, g4⟩ := internalCircuit_ok a4
  obtain ⟨d5, j5, f5, g5⟩ := internalCircuit_ok a5
  rw [nativeIndex_eq, Option.some.injEq] at f1 f2 f3 f4 f5
  subst f1 f2 f3 f4 f5
  dsimp only at e1 e2 e3 e4 e5
  refine ⟨⟨![⟨value, fun _ => false⟩, i1, i2, i3, i4, i5], rfl, d1, e1 ▸ g1, d2, e2 ▸ g2, d3, e3 ▸ g3, d4,
    e4 ▸ g4, d5, e5 ▸ g5, ?_⟩, c1, c2, c3, c4, c5⟩
  have := Outcomes.expect_ok.1 hc
  show assertComplete i5.coverage ≠ none
  rw [this]
  exact Option.some_ne_none _

/-! ### The whole -/

/-- The traces in a new proof. -/
def Proof.traces (p : Proof F G HC) : FuseTraces F G :=
  ⟨p.application.circuitId, p.application.leftHeader, p.application.rightHeader,
    fun i => (p.triple i).rx, p.preamble.bridge, p.sPrime.bridge, p.innerError.bridge,
    p.outerError.bridge, p.ab.bridge, p.query.bridge, p.f.bridge, p.eval.bridge, p.p.nested⟩

/-- The rounds before the circuits, in terms of a proof with their results and any circuits. -/
theorem front_run {D : Type} {c0 : Circ F} {i : ℕ} {code : Syn F (Except Err (AdapterOut F D))}
    {left right p : Proof F G HC} {out : AdapterOut F D}
    {t0 t1 t2 t3 t4 t5 t6 t7 t8 t9 t10 t11 t12 t13 t14 t15 t16 t17 t18 t19 : Mode (Element F)}
    {w y z mu nu muPrime nuPrime x alpha u preBeta : Element F} {state : List (Element F)}
    {S : StepStages F} {ies : List (List F)} {B : ClaimBuilder F (Tracked FoldKey F)} {oes : List F}
    {a : List (Tracked FoldKey F)} {b : List (Sparse.Poly F)}
    (h1 : V.computeApplication c0 i code (.ok (p.application, out)))
    (k0 : (onTranscript (transcriptNew V.P.poseidon V.P.tag) : Outcomes (Stop F G HC) _) (.ok t0))
    (h2 : V.computePreamble left right p.application (.ok (p.preamble, S.preamble)))
    (k1 : (absorb V.P.poseidon p.preamble.bridge.commitment t0 : Outcomes (Stop F G HC) _) (.ok t1))
    (k2 : (squeeze V.P.poseidon t1 : Outcomes (Stop F G HC) _) (.ok (w, t2)))
    (h3 : V.computeSPrime w.value left right (.ok p.sPrime))
    (k3 : (absorb V.P.poseidon p.sPrime.bridge.commitment t2 : Outcomes (Stop F G HC) _) (.ok t3))
    (k4 : (squeeze V.P.poseidon t3 : Outcomes (Stop F G HC) _) (.ok (y, t4)))
    (k5 : (squeeze V.P.poseidon t4 : Outcomes (Stop F G HC) _) (.ok (z, t5)))
    (h4 : V.innerErrorTerms w.value y.value z.value ⟨left, right⟩
      (.ok (p.innerError, ies, S.innerError, B)))
    (k6 : (absorb V.P.poseidon p.innerError.bridge.commitment t5 : Outcomes (Stop F G HC) _) (.ok t6))
    (k7 : (onTranscript (transcriptSave V.P.poseidon t6) : Outcomes (Stop F G HC) _) (.ok state))
    (k8 : (squeeze V.P.poseidon t6 : Outcomes (Stop F G HC) _) (.ok (mu, t7)))
    (k9 : (squeeze V.P.poseidon t7 : Outcomes (Stop F G HC) _) (.ok (nu, t8)))
    (h5 : V.outerErrorTerms left right (p.application.leftHeader, p.application.rightHeader) ies B
      y.value mu.value nu.value (state.map (·.value)) (.ok (p.outerError, oes, S.outerError, a, b)))
    (k10 : (absorb V.P.poseidon p.outerError.bridge.commitment t8 : Outcomes (Stop F G HC) _) (.ok t9))
    (k11 : (squeeze V.P.poseidon t9 : Outcomes (Stop F G HC) _) (.ok (muPrime, t10)))
    (k12 : (squeeze V.P.poseidon t10 : Outcomes (Stop F G HC) _) (.ok (nuPrime, t11)))
    (h6 : V.computeAb a b ⟨left, right⟩ muPrime.value nuPrime.value (.ok p.ab))
    (k13 : (absorb V.P.poseidon p.ab.bridge.commitment t11 : Outcomes (Stop F G HC) _) (.ok t12))
    (k14 : (squeeze V.P.poseidon t12 : Outcomes (Stop F G HC) _) (.ok (x, t13)))
    (h7 : V.computeQuery w.value x.value y.value z.value p.innerError.native.registryWyPoly left right
      (.ok (p.query, S.query)))
    (k15 : (absorb V.P.poseidon p.query.bridge.commitment t13 : Outcomes (Stop F G HC) _) (.ok t14))
    (k16 : (squeeze V.P.poseidon t14 : Outcomes (Stop F G HC) _) (.ok (alpha, t15)))
    (h8 : V.computeF ⟨left, right, p.sPrime.native, p.innerError.native, p.ab.native, p.query.native⟩
      w.value y.value z.value x.value alpha.value (.ok p.f))
    (k17 : (absorb V.P.poseidon p.f.bridge.commitment t15 : Outcomes (Stop F G HC) _) (.ok t16))
    (k18 : (squeeze V.P.poseidon t16 : Outcomes (Stop F G HC) _) (.ok (u, t17)))
    (h9 : V.computeEval ⟨left, right, p.sPrime.native, p.innerError.native, p.ab.native,
      p.query.native⟩ u.value (.ok (p.eval, S.eval)))
    (k19 : (absorb V.P.poseidon p.eval.bridge.commitment t17 : Outcomes (Stop F G HC) _) (.ok t18))
    (k20 : (squeeze V.P.poseidon t18 : Outcomes (Stop F G HC) _) (.ok (preBeta, t19)))
    (h10 : V.computePart ⟨left, right, p.sPrime.native, p.innerError.native, p.ab.native,
      p.query.native⟩ p.f.native preBeta.value u.value (.ok p.p))
    (hch : p.challenges = ⟨w.value, y.value, z.value, mu.value, nu.value, muPrime.value, nuPrime.value,
      x.value, alpha.value, u.value, preBeta.value⟩)
    (m2 : IsTriple V p.circuits.hashes1) (m3 : IsTriple V p.circuits.hashes2)
    (m4 : IsTriple V p.circuits.innerCollapse) (m5 : IsTriple V p.circuits.outerCollapse)
    (m6 : IsTriple V p.circuits.computeV) :
    ApplicationRun V.n V.app.nativeRegistry c0 i code out p.traces ∧
    BridgesRun V.K V.n left right p p.traces ∧
    EndoscalingRun V.K V.n V.P.endo V.cs V.app.nestedRegistry left right p p.traces ∧
    (∀ q ∈ p.traces.bridges, q.commitment = V.nestedCommit q.rx) ∧
    fuseProof V.C V.P.endo V.n V.app.nativeRegistry left right p.challenges p.traces = some p ∧
    emulate (proverTranscript V.P.poseidon V.P.tag p) = .ok (p.challenges, state.map (·.value)) ∧
    ∃ fused, fuseAb V.C.native V.n V.C.numBits V.C.repr V.C.hostGens V.app.nativeRegistry
      ⟨left, right⟩ p.challenges.y p.challenges.z p.challenges.mu p.challenges.nu
      p.challenges.muPrime p.challenges.nuPrime = some fused ∧
    StagesRun V.C V.n V.P left right p.challenges fused (state.map (·.value))
      ⟨left, right, p.sPrime.native, p.innerError.native, p.ab.native, p.query.native⟩ p.traces S := by
  have v1 : w.value = p.challenges.w := by rw [hch]
  have v2 : y.value = p.challenges.y := by rw [hch]
  have v3 : z.value = p.challenges.z := by rw [hch]
  have v4 : mu.value = p.challenges.mu := by rw [hch]
  have v5 : nu.value = p.challenges.nu := by rw [hch]
  have v6 : muPrime.value = p.challenges.muPrime := by rw [hch]
  have v7 : nuPrime.value = p.challenges.nuPrime := by rw [hch]
  have v8 : x.value = p.challenges.x := by rw [hch]
  have v9 : alpha.value = p.challenges.alpha := by rw [hch]
  have v10 : u.value = p.challenges.u := by rw [hch]
  have v11 : preBeta.value = p.challenges.preBeta := by rw [hch]
  clear hch
  rw [onTranscript_ok] at k0 k7
  rw [absorb_ok] at k1 k3 k6 k10 k13 k15 k17 k19
  rw [squeeze_ok] at k2 k4 k5 k8 k9 k11 k12 k14 k16 k18 k20
  rw [v1] at h3 h4 h7 h8
  rw [v2] at h4 h5 h7 h8
  rw [v3] at h4 h7 h8
  rw [v4, v5] at h5
  rw [v6, v7] at h6
  rw [v8] at h7 h8
  rw [v9] at h8
  rw [v10] at h9 h10
  rw [v11] at h10
  obtain ⟨a1, a2, a3, a4, a5, a6⟩ := computeApplication_ok h1
  obtain ⟨b1, b2, b3⟩ := computePreamble_ok h2
  obtain ⟨c1, c2⟩ := computeSPrime_ok h3
  obtain ⟨⟨B0, d1, d2⟩, d3, d4, d5, d6, d7⟩ := innerErrorTerms_ok h4
  obtain ⟨e1, e2, e3, e4, e5, e6, e7⟩ := outerErrorTerms_ok h5
  obtain ⟨f1, f2⟩ := computeAb_ok h6
  obtain ⟨g1, g2, g3, g4⟩ := computeQuery_ok h7
  obtain ⟨i1, i2⟩ := computeF_ok h8
  obtain ⟨j1, j2, j3⟩ := computeEval_ok h9
  obtain ⟨l1, endo, pw, e, points, l2, l3, l4⟩ := computePart_ok h10
  have hab : fuseAb V.C.native V.n V.C.numBits V.C.repr V.C.hostGens V.app.nativeRegistry
      ⟨left, right⟩ p.challenges.y p.challenges.z p.challenges.mu p.challenges.nu
      p.challenges.muPrime p.challenges.nuPrime = some ⟨ies, oes, a.map (·.poly), b, p.ab.native⟩ := by
    unfold fuseAb
    simp only [d1, d2, d3, if_neg e1, e2, e3, e4, f1, Option.bind_eq_bind, Option.bind_some,
      Option.pure_def]
  have r1 : ApplicationRun V.n V.app.nativeRegistry c0 i code out p.traces := ⟨a1, a2, a3, a4, a6⟩
  have r2 : BridgesRun V.K V.n left right p p.traces :=
    ⟨b3.1, c2.1, d7.1, e7.1, f2.1, g4.1, i2.1, j3.1⟩
  have r3 : EndoscalingRun V.K V.n V.P.endo V.cs V.app.nestedRegistry left right p p.traces :=
    ⟨l1, endo, p.p.native, pw, e, points, l2, l3, l4⟩
  have r4 : StagesRun V.C V.n V.P left right p.challenges ⟨ies, oes, a.map (·.poly), b, p.ab.native⟩
      (state.map (·.value))
      ⟨left, right, p.sPrime.native, p.innerError.native, p.ab.native, p.query.native⟩ p.traces
      S := ⟨b1, d4, e5, g2, j1⟩
  have r5 : fuseProof V.C V.P.endo V.n V.app.nativeRegistry left right p.challenges p.traces =
      some p := by
    unfold IsTriple at a5 b2 d6 e6 g3 j2 m2 m3 m4 m5 m6
    unfold fuseProof
    simp only [Proof.traces, Proof.triple, a5, b2, d6, e6, g3, j2, m2, m3, m4, m5, m6, c1, d5, hab, g1,
      i1, l3, Option.map_some, Option.bind_eq_bind, Option.bind_some, Option.pure_def]
  have r6 : emulate (proverTranscript V.P.poseidon V.P.tag p) =
      .ok (p.challenges, state.map (·.value)) := by
    unfold proverTranscript
    refine (emulate_bind _ _ _).2 ⟨_, k0, (emulate_bind _ _ _).2 ⟨_, k1, (emulate_bind _ _ _).2 ⟨_, k2,
      (emulate_bind _ _ _).2 ⟨_, k3, (emulate_bind _ _ _).2 ⟨_, k4, (emulate_bind _ _ _).2 ⟨_, k5,
      (emulate_bind _ _ _).2 ⟨_, k6, (emulate_bind _ _ _).2 ⟨_, k7, (emulate_bind _ _ _).2 ⟨_, k8,
      (emulate_bind _ _ _).2 ⟨_, k9, (emulate_bind _ _ _).2 ⟨_, k10, (emulate_bind _ _ _).2 ⟨_, k11,
      (emulate_bind _ _ _).2 ⟨_, k12, (emulate_bind _ _ _).2 ⟨_, k13, (emulate_bind _ _ _).2 ⟨_, k14,
      (emulate_bind _ _ _).2 ⟨_, k15, (emulate_bind _ _ _).2 ⟨_, k16, (emulate_bind _ _ _).2 ⟨_, k17,
      (emulate_bind _ _ _).2 ⟨_, k18, (emulate_bind _ _ _).2 ⟨_, k19, (emulate_bind _ _ _).2 ⟨_, k20,
      ?_⟩⟩⟩⟩⟩⟩⟩⟩⟩⟩⟩⟩⟩⟩⟩⟩⟩⟩⟩⟩⟩
    dsimp only
    rw [v1, v2, v3, v4, v5, v6, v7, v8, v9, v10, v11]
    rfl
  refine ⟨r1, r2, r3, ?_, r5, r6, _, hab, r4⟩
  intro q hq
  simp only [FuseTraces.bridges, Proof.traces, List.mem_cons, List.not_mem_nil, or_false] at hq
  rcases hq with rfl | rfl | rfl | rfl | rfl | rfl | rfl | rfl
  exacts [b3.2, c2.2, d7.2, e7.2, f2.2, g4.2, i2.2, j3.2]

/-- The values of the unified instance are those of the proof. -/
theorem instanceValues_eq (p : Proof F G HC) {ch : Challenges F} (h : p.challenges = ch) :
    instanceValues p.preamble p.sPrime p.innerError p.outerError p.ab p.query p.f p.eval p.p ch =
      p.unifiedValue := by
  subst h
  funext s
  cases s <;> rfl

theorem fuse_ok {D : Type} {c0 : Circ F} {i : ℕ} {code : Syn F (Except Err (AdapterOut F D))}
    {left right p : Proof F G HC} {d : D} (h : V.fuse c0 i code left right (.ok (p, d))) :
    ∃ out, out.data = d ∧
      FuseRun V.C V.n V.nestedCommit V.P V.cs V.app c0 i code out left right p.traces p ∧
      BridgesRun V.K V.n left right p p.traces ∧
      EndoscalingRun V.K V.n V.P.endo V.cs V.app.nestedRegistry left right p p.traces := by
  unfold FuseEnvironment.fuse at h
  obtain ⟨⟨app, out⟩, h1, h⟩ := Outcomes.bind_ok.1 h
  obtain ⟨t0, k0, h⟩ := Outcomes.bind_ok.1 h
  obtain ⟨⟨preamble, S1⟩, h2, h⟩ := Outcomes.bind_ok.1 h
  obtain ⟨t1, k1, h⟩ := Outcomes.bind_ok.1 h
  obtain ⟨⟨w, t2⟩, k2, h⟩ := Outcomes.bind_ok.1 h
  obtain ⟨sPrime, h3, h⟩ := Outcomes.bind_ok.1 h
  obtain ⟨t3, k3, h⟩ := Outcomes.bind_ok.1 h
  obtain ⟨⟨y, t4⟩, k4, h⟩ := Outcomes.bind_ok.1 h
  obtain ⟨⟨z, t5⟩, k5, h⟩ := Outcomes.bind_ok.1 h
  obtain ⟨⟨ie, ies, S2, B⟩, h4, h⟩ := Outcomes.bind_ok.1 h
  obtain ⟨t6, k6, h⟩ := Outcomes.bind_ok.1 h
  obtain ⟨state, k7, h⟩ := Outcomes.bind_ok.1 h
  obtain ⟨⟨mu, t7⟩, k8, h⟩ := Outcomes.bind_ok.1 h
  obtain ⟨⟨nu, t8⟩, k9, h⟩ := Outcomes.bind_ok.1 h
  obtain ⟨⟨oe, oes, S3, a, b⟩, h5, h⟩ := Outcomes.bind_ok.1 h
  obtain ⟨t9, k10, h⟩ := Outcomes.bind_ok.1 h
  obtain ⟨⟨muPrime, t10⟩, k11, h⟩ := Outcomes.bind_ok.1 h
  obtain ⟨⟨nuPrime, t11⟩, k12, h⟩ := Outcomes.bind_ok.1 h
  obtain ⟨ab, h6, h⟩ := Outcomes.bind_ok.1 h
  obtain ⟨t12, k13, h⟩ := Outcomes.bind_ok.1 h
  obtain ⟨⟨x, t13⟩, k14, h⟩ := Outcomes.bind_ok.1 h
  obtain ⟨⟨query, S4⟩, h7, h⟩ := Outcomes.bind_ok.1 h
  obtain ⟨t14, k15, h⟩ := Outcomes.bind_ok.1 h
  obtain ⟨⟨alpha, t15⟩, k16, h⟩ := Outcomes.bind_ok.1 h
  obtain ⟨f, h8, h⟩ := Outcomes.bind_ok.1 h
  obtain ⟨t16, k17, h⟩ := Outcomes.bind_ok.1 h
  obtain ⟨⟨u, t17⟩, k18, h⟩ := Outcomes.bind_ok.1 h
  obtain ⟨⟨eval, S5⟩, h9, h⟩ := Outcomes.bind_ok.1 h
  obtain ⟨t18, k19, h⟩ := Outcomes.bind_ok.1 h
  obtain ⟨⟨preBeta, t19⟩, k20, h⟩ := Outcomes.bind_ok.1 h
  obtain ⟨pp, h10, h⟩ := Outcomes.bind_ok.1 h
  obtain ⟨circuits, h11, h⟩ := Outcomes.bind_ok.1 h
  have h := Outcomes.pure_ok.1 h
  rw [Prod.mk.injEq] at h
  obtain ⟨hp, rfl⟩ := h
  have q1 : app = p.application := by rw [hp]
  have q2 : preamble = p.preamble := by rw [hp]
  have q3 : sPrime = p.sPrime := by rw [hp]
  have q4 : ie = p.innerError := by rw [hp]
  have q5 : oe = p.outerError := by rw [hp]
  have q6 : ab = p.ab := by rw [hp]
  have q7 : query = p.query := by rw [hp]
  have q8 : f = p.f := by rw [hp]
  have q9 : eval = p.eval := by rw [hp]
  have q10 : pp = p.p := by rw [hp]
  have q11 : circuits = p.circuits := by rw [hp]
  have hch : p.challenges = ⟨w.value, y.value, z.value, mu.value, nu.value, muPrime.value, nuPrime.value,
      x.value, alpha.value, u.value, preBeta.value⟩ := by rw [hp]
  subst q1 q2 q3 q4 q5 q6 q7 q8 q9 q10 q11
  clear hp
  obtain ⟨⟨insts, m1⟩, m2, m3, m4, m5, m6⟩ := computeInternalCircuits_ok h11
    (rx := fun i => (p.triple i).rx) rfl rfl rfl rfl rfl
  obtain ⟨r1, r2, r3, r4, r5, r6, fused, r7, r8⟩ := front_run (S := ⟨S1, S3, S2, S4, S5⟩) h1 k0 h2 k1 k2
    h3 k3 k4 k5 h4 k6 k7 k8 k9 h5 k10 k11 k12 h6 k13 k14 h7 k15 k16 h8 k17 k18 h9 k19 k20 h10 hch
    m2 m3 m4 m5 m6
  rw [instanceValues_eq p hch] at m1
  exact ⟨out, rfl, ⟨r1, r4, r5, _, _, _, insts, r6, r7, r8, m1⟩, r2, r3⟩

end Ragu.Pcd

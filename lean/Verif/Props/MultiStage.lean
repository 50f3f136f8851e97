/-
Property C66: a multi-stage circuit's claim is about its stages' values.
-/
import Verif.Lemmas.MultiStage
import Verif.Lemmas.Calls
import Verif.Props.RegistryClaim

set_option linter.unusedSectionVars false

namespace Ragu.Props
open Ragu Ragu.Circuit Ragu.Registry Ragu.Spec Ragu.Gadget
variable {F : Type} [Field F] [DecidableEq F]

/-- C66: a circuit object does not depend on the witness of the synthesis it is made from. -/
theorem C66_object {c c' : Circ F} (h : c.SameShape c') (n : ℕ) :
    circuitObject n c = circuitObject n c' := h.object n

theorem sum_wire {n : ℕ} {rf r : Sparse.Poly F} {ps : List (Sparse.Poly F)}
    (h : ∀ a, coeff r a = coeff rf a + (ps.map fun p => coeff p a).sum) (κ : Circuit.Kind) (i : ℕ) :
    wireOf n r κ i = wireOf n rf κ i + (ps.map fun q => wireOf n q κ i).sum := h _

/-- C66: take the final trace of a registered multi-stage circuit, assembled under its index with
any blinding factor, and the polynomials of any of its stages, made with any blinding factors. If
the simulator accepts the rest of the circuit, run on wires that hold the stages' values (zeros for
padding and for the stages left out), with outputs `inst`, then the sum of the polynomials passes
the check against the registry with public inputs `inst`, at every `y` and `z`. -/
theorem C66_complete {E : Env F} {n : ℕ} {R : Registry F} {i : ℕ} {c c0 : Circ F}
    (h : Holds E n R i c0) (hs : c.SameShape c0) {ch : Chain} {k : Prog F}
    (hb : multiStage ch k = .ok c.body) {parts : List (StageInput F)}
    (hnd : (parts.map StageInput.stage).Nodup) (hin : ∀ p ∈ parts, InChain p.stage ch)
    {ps : List (Sparse.Poly F)}
    (hps : List.Forall₂ (fun p q => p.stage.rx n p.alpha p.values = .ok q) parts ps)
    {es : List F} (hes : StageWires ch parts es) {t : List (ASeg F)} (ht : TraceEval c t) {alpha : F}
    {rf : Sparse.Poly F} (hrf : R.assembleWithAlpha n (t.map Prod.snd) i alpha = some (.ok rf))
    {cnt : SimCounts} {env inst : List F} (hsim : run simD k {} es = .ok (cnt, env))
    (hout : c.outs.mapM (resolve 1 env) = .ok inst) {r : Sparse.Poly F} (hr : WellFormed (4 * n) r)
    (hsum : ∀ a, coeff r a = coeff rf a + (ps.map fun p => coeff p a).sum) (y z : F) :
    RegistryClaim E n R i r inst y z := by
  have hu : c.WellUsed := hs.wellUsed.2 h.used
  obtain ⟨hn, hN, -⟩ := circuitY_coeff h (0 : F)
  rw [← hs.counts] at hn hN
  obtain ⟨q, b, ss, hrd, hf⟩ := h.registry
  obtain ⟨o, ho, hi⟩ := h.here
  obtain ⟨_, hg, hc⟩ := finalize_cases hrd hf
  obtain ⟨m, hm, ho'⟩ := circuitObject_ok ho
  have hseg := (registered h.used hm).2.2
  have hasm : assemble n (floorPlan c.counts) (t.map Prod.snd) alpha = .ok rf := by
    rw [Registry.assembleWithAlpha, hg.plans, List.getElem?_map, hi, Option.map_some,
      Option.map_some, ho', intoRawCircuitObject] at hrf
    simp only [hseg, Option.some.injEq] at hrf
    rw [hs.counts]; exact hrf
  obtain ⟨rf', h1, _, h3⟩ := assemble_eq c hn alpha
  rw [traceEval_segs hu ht, h1, Except.ok.injEq] at hasm
  subst hasm
  -- the rest of the circuit on values
  obtain ⟨hh, hhb⟩ := body_handles hu
  have hfit : StagesFit ch := ((C28_exact ch k).2.1).1 ⟨_, hb⟩
  have hel : es.length = 2 * chainGates ch := by rw [hes.length, firstWire_eq]
  have hK : ∃ K env', run valD k {} es = .ok (K, env') := by
    have hb' := hb
    rw [multiStage_eq ch k hfit, Except.ok.injEq] at hb'
    obtain ⟨K, env', e⟩ := val_total (allocVals es k) [] hh {} [] (by
      rw [← handles_blank, blank_allocVals, hel, ← blank_allocZeros, handles_blank, hb']
      exact hhb) rfl
    rw [run_allocVals] at e
    exact ⟨K, env', e⟩
  obtain ⟨K, env', hk⟩ := hK
  obtain ⟨v1, v2⟩ := sim_val k {} K {} es env' hk ⟨by simp, by simp⟩
  have hH : K.Hold := by
    by_contra hc
    rw [v2 hc] at hsim; cases hsim
  obtain ⟨t', ht'⟩ := v1 hH
  rw [hsim, Except.ok.injEq, Prod.mk.injEq] at ht'
  obtain ⟨-, rfl⟩ := ht'
  obtain ⟨s, s1, s2, s3, s4, s5⟩ := multi_run (c := c) hn hb h3 hel (r := r)
    (beta := (parts.map StageInput.alpha).sum) (fun j hj κ => by
      rw [sum_wire hsum κ j, parts_sum hnd hin hps hes hj κ]) hk
  refine C61_completeness h hr (s3.2 hH.1) ?_ s5 y z
  rw [← hs.counts, ← hs.satisfies]
  refine ⟨s, env, s1, fun row hrow => hH.2 _ (by rw [← s2]; exact List.mem_map_of_mem hrow), ?_, s4⟩
  rw [s4]; exact hout

/-- C66: the wires a chain hands to the rest of a circuit under the values of its stages exist and
are unique. -/
theorem C66_wires {ch : Chain} {parts : List (StageInput F)}
    (hnd : (parts.map StageInput.stage).Nodup) (hin : ∀ p ∈ parts, InChain p.stage ch) :
    ∃! es, StageWires ch parts es := by
  classical
  have hloc : ∀ j < firstWire ch + 2 * ch.numGates, ∃ d, InChain d ch ∧ ∃ j' < 2 * d.numGates,
      j = firstWire d + j' ∧ ∀ d', InChain d' ch → firstWire d' ≤ j →
        j < firstWire d' + 2 * d'.numGates → d' = d := by
    intro j hj
    rw [firstWire_eq] at hj
    obtain ⟨d, d1, d2, d3, d4⟩ := locate ch (j / 2 + 1) (by omega) (by omega)
    have hfd := firstWire_eq d
    have hsd := skip_chain d
    refine ⟨d, d1, j - firstWire d, by omega, by omega, fun d' h' l1 l2 => ?_⟩
    have hfd' := firstWire_eq d'
    have hsd' := skip_chain d'
    exact d4 d' h' (by omega) (by omega)
  have hval : ∀ j < firstWire ch + 2 * ch.numGates, ∃ v : F,
      (∀ p ∈ parts, ∀ j' < 2 * p.stage.numGates, j = firstWire p.stage + j' → v = p.values.getD j' 0) ∧
      ((∀ p ∈ parts, ∀ j' < 2 * p.stage.numGates, j ≠ firstWire p.stage + j') → v = 0) := by
    intro j hj
    obtain ⟨d, d1, j', d2, d3, d4⟩ := hloc j hj
    by_cases hmem : ∃ p ∈ parts, p.stage = d
    · obtain ⟨p, hp, hpd⟩ := hmem
      refine ⟨p.values.getD j' 0, fun p' hp' j'' hj'' he => ?_, fun hno => ?_⟩
      · have hd' : p'.stage = d := d4 _ (hin p' hp') (by omega) (by omega)
        have : p' = p := by
          have := List.inj_on_of_nodup_map hnd hp' hp
          exact this (hd'.trans hpd.symm)
        subst this
        subst hd'
        congr 1; omega
      · exact absurd (by rw [hpd]; exact d3) (hno p hp j' (by rw [hpd]; exact d2))
    · refine ⟨0, fun p hp j'' hj'' he => absurd ⟨p, hp, ?_⟩ hmem, fun _ => rfl⟩
      exact d4 _ (hin p hp) (by omega) (by omega)
  choose! f hf1 hf2 using hval
  have hbelow : ∀ d, InChain d ch → ∀ j < 2 * d.numGates,
      firstWire d + j < firstWire ch + 2 * ch.numGates := by
    intro d hd j hj
    have := inChain_below hd
    have := firstWire_eq d
    have := skip_chain d
    rw [firstWire_eq]
    omega
  refine ⟨(List.range (firstWire ch + 2 * ch.numGates)).map f, ⟨by simp, ?_, ?_⟩, ?_⟩
  · intro p hp j hj
    have hlt := hbelow _ (hin p hp) j hj
    rw [List.getElem?_map, List.getElem?_range hlt, Option.map_some]
    exact congrArg some (hf1 _ hlt p hp j hj rfl)
  · intro d hd hmem j hj
    have hlt := hbelow d hd j hj
    rw [List.getElem?_map, List.getElem?_range hlt, Option.map_some]
    refine congrArg some (hf2 _ hlt fun p hp j' hj' he => hmem ?_)
    obtain ⟨d0, e1, -, -, -, e4⟩ := hloc _ hlt
    have h1 := e4 d hd (by omega) (by omega)
    have h2 := e4 p.stage (hin p hp) (by omega) (by omega)
    exact List.mem_map.2 ⟨p, hp, h2.trans h1.symm⟩
  · intro es hes
    refine List.ext_getElem? fun j => ?_
    by_cases hj : j < firstWire ch + 2 * ch.numGates
    · rw [List.getElem?_map, List.getElem?_range hj, Option.map_some]
      obtain ⟨d, d1, j', d2, rfl, d4⟩ := hloc j hj
      by_cases hmem : d ∈ parts.map StageInput.stage
      · obtain ⟨p, hp, rfl⟩ := List.mem_map.1 hmem
        rw [hes.given p hp j' d2]
        exact congrArg some (hf1 _ hj p hp j' d2 rfl).symm
      · rw [hes.skipped d d1 hmem j' d2]
        refine congrArg some (hf2 _ hj fun p hp j'' hj'' he => hmem ?_).symm
        exact List.mem_map.2 ⟨p, hp, d4 _ (hin p hp) (by omega) (by omega)⟩
    · rw [List.getElem?_eq_none (by rw [hes.length]; omega), List.getElem?_eq_none (by simp; omega)]

open Classical in
/-- C66: conversely, if polynomials confined to the gates of some of the stages and to the gates
after them (as the masks check) add up to one that passes the check for more than
`(4 n − 1) |S|` of the pairs of challenges from a set `S`, then there are values for all further
wires under which the rest of the circuit, started on wires with the values the stages' polynomials
hold (zeros for the stages left out), is satisfied and has outputs `inst`. -/
theorem C66_sound {E : Env F} {n : ℕ} {R : Registry F} {i : ℕ} {c : Circ F} (h : Holds E n R i c)
    {ch : Chain} {k : Prog F} (hb : multiStage ch k = .ok c.body)
    {parts : List (Chain × Sparse.Poly F)} (hnd : (parts.map Prod.fst).Nodup)
    (hin : ∀ p ∈ parts, InChain p.1 ch)
    (hps : ∀ p ∈ parts, OnlyIn n p.1.skipGates p.1.numGates p.2) {rf : Sparse.Poly F}
    (hrf : OnlyIn n (ch.skipGates + ch.numGates) (n - (ch.skipGates + ch.numGates)) rf)
    {r : Sparse.Poly F} (hr : WellFormed (4 * n) r)
    (hsum : ∀ a, coeff r a = coeff rf a + (parts.map fun p => coeff p.2 a).sum) {inst : List F}
    (hl : inst.length = c.outs.length) (S : Finset F)
    (hmany : (4 * n - 1) * S.card <
      ((S ×ˢ S).filter fun p => RegistryClaim E n R i r inst p.1 p.2).card) :
    ∃ es env, es.length = firstWire ch + 2 * ch.numGates ∧
      (∀ p ∈ parts, ∀ j < 2 * p.1.numGates, es[firstWire p.1 + j]? =
        some (wireOf n p.2 (stageWire p.1.skipGates j).1 (stageWire p.1.skipGates j).2)) ∧
      (∀ d, InChain d ch → d ∉ parts.map Prod.fst → ∀ j < 2 * d.numGates,
        es[firstWire d + j]? = some 0) ∧
      k.sat es env ∧ c.outs.mapM (resolve 1 env) = .ok inst := by
  have hgs : GatesHold n r ∧ Satisfies (assignment n (floorPlan c.counts) r) c inst := by
    by_contra hc
    exact absurd (C61_soundness h hr hl hc S) (by omega)
  obtain ⟨hg, s, env, hrun, hz, hout, hone⟩ := hgs
  obtain ⟨hn, hN, -⟩ := circuitY_coeff h (0 : F)
  obtain ⟨es, e1, e2, e3⟩ := C28_wires ch k hb (assignment n (floorPlan c.counts) r)
  have hfit : StagesFit ch := ((C28_exact ch k).2.1).1 ⟨_, hb⟩
  have hpos : ∀ (p : Prog F) (q : Pos) m, q.pend = none →
      Fits (floorPlan c.counts) n (4 * n) (allocZeros (2 * m) p) q →
      Fits (floorPlan c.counts) n (4 * n) p { q with gates := q.gates + m } ∧
      (0 < m → ∃ sg, (floorPlan c.counts)[q.seg]? = some sg ∧ q.gates + m ≤ sg.numGates ∧
        sg.gateStart + (q.gates + m) ≤ n) := by
    intro p q m
    induction m generalizing q with
    | zero => intro _ hf; exact ⟨hf, fun h => absurd h (by simp)⟩
    | succ m ih =>
      intro hq hf
      obtain ⟨seg, nseg, gates, cons, pend⟩ := q
      cases hq
      rw [show 2 * (m + 1) = 2 * m + 1 + 1 by ring, allocZeros, allocZeros] at hf
      obtain ⟨h1, -, h3⟩ := hf
      obtain ⟨sg, g1, g2, g3⟩ := h1 rfl
      simp only at g1 g2 g3
      obtain ⟨i1, i2⟩ := ih ⟨seg, nseg, gates + 1, cons, none⟩ rfl h3
      refine ⟨by simpa [Nat.add_assoc, Nat.add_comm 1 m] using i1, fun _ => ?_⟩
      rcases Nat.eq_zero_or_pos m with rfl | hm
      · exact ⟨sg, g1, by simp only; omega, by simp only; omega⟩
      · obtain ⟨sg', g1', g2', g3'⟩ := i2 hm
        simp only at g1' g2' g3' ⊢
        exact ⟨sg', g1', by omega, by omega⟩
  have hfits := fits_seq _ _ _ (circ_fits c hn hN.le).2
  have hb' := hb
  rw [multiStage_eq ch k hfit, Except.ok.injEq] at hb'
  rw [← hb'] at hfits
  obtain ⟨hfk, hroom⟩ := hpos k (Pos.gate {}) (chainGates ch) rfl hfits
  have hchn : chainGates ch < n := by
    rcases Nat.eq_zero_or_pos (chainGates ch) with h0 | h0
    · rw [h0]; exact lt_of_lt_of_le (total_pos c) hn
    · obtain ⟨sg, -, -, g3⟩ := hroom h0
      simp only [Pos.gate] at g3
      omega
  -- the value of a stage's wire
  have hwire : ∀ d, InChain d ch → ∀ j < 2 * d.numGates,
      assignment n (floorPlan c.counts) r
        ⟨(stageWire d.skipGates j).1, 0, (stageWire d.skipGates j).2⟩ =
      (parts.map fun p => if p.1 = d then
        wireOf n p.2 (stageWire d.skipGates j).1 (stageWire d.skipGates j).2 else 0).sum := by
    intro d hd j hj
    have hbel := inChain_below hd
    have hsk := skip_pos d
    have habs : absGate (floorPlan c.counts)
        ⟨(stageWire d.skipGates j).1, 0, (stageWire d.skipGates j).2⟩ = (stageWire d.skipGates j).2 := by
      simp [absGate, floorPlan, Circ.counts, floorPlanFrom]
    have hlt : (stageWire d.skipGates j).2 < n := by simp only [stageWire]; omega
    rw [assignment, habs]
    have hs := hsum (traceExp n (stageWire d.skipGates j).2 (stageWire d.skipGates j).1)
    have hsc := skip_chain ch
    have hz : wireOf n rf (stageWire d.skipGates j).1 (stageWire d.skipGates j).2 = 0 :=
      hrf _ hlt ⟨by simp only [stageWire]; omega, by simp only [stageWire]; omega⟩ _
    change wireOf n r _ _ = wireOf n rf _ _ + _ at hs
    simp only at hs ⊢
    rw [hs, hz, zero_add]
    congr 1
    refine List.map_congr_left fun p hp => ?_
    by_cases hpd : p.1 = d
    · rw [if_pos hpd]; rfl
    · rw [if_neg hpd]
      refine hps p hp _ hlt ⟨by simp only [stageWire]; omega, fun hc => hpd ?_⟩ _
      obtain ⟨d0, -, -, -, l4⟩ := locate ch (stageWire d.skipGates j).2
        (by simp only [stageWire]; omega) (by simp only [stageWire]; omega)
      exact (l4 p.1 (hin p hp) hc.1 hc.2).trans
        (l4 d hd (by simp only [stageWire]; omega) (by simp only [stageWire]; omega)).symm
  have hsingle : ∀ (parts : List (Chain × Sparse.Poly F)) (f : Chain × Sparse.Poly F → F) (d : Chain),
      (parts.map Prod.fst).Nodup →
      (∀ p ∈ parts, p.1 = d → (parts.map fun p => if p.1 = d then f p else 0).sum = f p) ∧
      (d ∉ parts.map Prod.fst → (parts.map fun p => if p.1 = d then f p else 0).sum = 0) := by
    intro parts f d
    induction parts with
    | nil => intro _; simp
    | cons x parts ih =>
      intro hn
      simp only [List.map_cons, List.nodup_cons] at hn
      obtain ⟨i1, i2⟩ := ih hn.2
      refine ⟨fun p hp hpd => ?_, fun hd => ?_⟩
      · simp only [List.map_cons, List.sum_cons]
        rcases List.mem_cons.1 hp with rfl | hp
        · rw [i2 (hpd ▸ hn.1), add_zero, if_pos hpd]
        · rw [i1 p hp hpd, if_neg, zero_add]
          intro hx
          refine hn.1 ?_
          rw [hx, ← hpd]
          exact List.mem_map_of_mem hp
      · simp only [List.map_cons, List.mem_cons, not_or] at hd
        simp only [List.map_cons, List.sum_cons]
        rw [i2 hd.2, if_neg (fun hx => hd.1 hx.symm), zero_add]
  refine ⟨es, env, e2, fun p hp j hj => ?_, fun d hd hmem j hj => ?_, ?_, by rw [hone] at hout; exact hout⟩
  · rw [e3 p.1 (hin p hp) j hj, hwire p.1 (hin p hp) j hj]
    exact congrArg some ((hsingle parts _ p.1 hnd).1 p hp rfl)
  · rw [e3 d hd j hj, hwire d hd j hj]
    exact congrArg some ((hsingle parts _ d hnd).2 hmem)
  · rw [e1] at hrun
    refine sem_sat (N := 4 * n) hg hone k _ _ _ _ hrun ?_ hz
    rw [skip_chain]
    exact hfk

/-! ### An example -/

/-- A stage with one value, and one with two. -/
def twoStages : Chain := .child (.child .base ⟨1, 1⟩) ⟨2, 2⟩

/-- After the stages: 3 · 5 = 15, which must be the first value of the second stage. -/
def multiRest : Prog (ZMod 97) :=
  .mul 3 5 15 <| .enforce [.add (.idx 6), .sub (.idx 2)] .done

def multiDemo : Circ (ZMod 97) where
  body := allocZeros 4 multiRest
  outs := [.idx 3, .idx 0]
  cleanup := [0, 1, 2, 3, 4, 5, 6]

theorem multiDemo_body : multiStage twoStages multiRest = .ok multiDemo.body := by
  rw [multiStage_eq twoStages _ ⟨⟨trivial, by decide⟩, by decide⟩]
  rfl

theorem multiDemo_wellUsed : multiDemo.WellUsed := ⟨_, rfl, by decide⟩

theorem multiDemo_wires : StageWires twoStages [⟨twoStages, 11, [(15 : ZMod 97), 9]⟩] [0, 0, 15, 9] := by
  refine ⟨rfl, ?_, ?_⟩
  · intro p hp j hj
    simp only [List.mem_singleton] at hp
    subst hp
    have : j < 2 := hj
    interval_cases j <;> rfl
  · intro d hd hmem j hj
    rcases inChain_child.1 hd with rfl | hd
    · exact absurd (List.mem_singleton.2 rfl) hmem
    · rcases inChain_child.1 hd with rfl | hd
      · have : j < 2 := hj
        interval_cases j <;> rfl
      · rcases hd with rfl | hd
        · exact absurd hj (by simp [Chain.numGates, Chain.values])
        · cases hd

theorem multiDemo_holds : ∃ R, Holds env97 8 R 0 multiDemo := by
  obtain ⟨o, ho⟩ : ∃ o, circuitObject 8 multiDemo = .ok o :=
    ⟨_, show (intoCircuitObject 8 multiDemo).map (intoRawCircuitObject 8 multiDemo) = _ from rfl⟩
  have hb : build 8 [.application multiDemo] {} = .ok ⟨[], [], [], [o]⟩ := by
    simp only [build, Reg.apply, Builder.registerCircuit, ho]
    rfl
  have hr := ready_of_history env97_ok (n := 8) (q := 5) (by norm_num) (by decide) env97_keys
    [.application multiDemo] (by
      intro c hc
      have : c = multiDemo := by
        simpa [Reg.internalCircuits, Reg.internalSteps, Reg.applications] using hc
      subst this
      exact multiDemo_wellUsed) (bs := []) .nil hb
  obtain ⟨R, h1, h2, h3⟩ := finalize_good hr (show 1 ≤ 32 by decide)
  exact ⟨R, multiDemo_wellUsed, ⟨5, _, _, hr, h1⟩, ⟨o, ho, by rw [h3]; rfl⟩⟩

/-- The final trace plus the second stage's polynomial passes, with the first stage left out. -/
theorem multiDemo_passes : ∃ R t rf p r, Holds env97 8 R 0 multiDemo ∧ TraceEval multiDemo t ∧
    R.assembleWithAlpha 8 (t.map Prod.snd) 0 7 = some (.ok rf) ∧
    twoStages.rx 8 (11 : ZMod 97) [15, 9] = .ok p ∧ WellFormed 32 rf ∧ WellFormed 32 p ∧
    Sparse.addAssign 32 rf p = some r ∧ WellFormed 32 r ∧ (∀ a, coeff r a = coeff rf a + coeff p a) ∧
    assemble 8 (floorPlan multiDemo.counts) (t.map Prod.snd) 7 = .ok rf ∧
    ∀ y z, RegistryClaim env97 8 R 0 r [9, 0] y z := by
  obtain ⟨R, hR⟩ := multiDemo_holds
  obtain ⟨t, ht⟩ := C18_produced multiDemo_wellUsed
  obtain ⟨q, b, ss, hrd, hf⟩ := hR.registry
  obtain ⟨o, ho, hi⟩ := hR.here
  obtain ⟨_, hg, hc⟩ := finalize_cases hrd hf
  obtain ⟨m, hm, ho'⟩ := circuitObject_ok ho
  obtain ⟨hn, -, hseg⟩ := registered multiDemo_wellUsed hm
  obtain ⟨rf, hrf, hwf, -⟩ := C18_assemble multiDemo_wellUsed hn ht 7
  have hrf' : R.assembleWithAlpha 8 (t.map Prod.snd) 0 7 = some (.ok rf) := by
    rw [Registry.assembleWithAlpha, hg.plans, List.getElem?_map, hi, Option.map_some,
      Option.map_some, ho', intoRawCircuitObject]
    simp only [hseg, hrf]
  obtain ⟨p, hp, hpw⟩ := (C28_rx_outcome (n := 8) twoStages (11 : ZMod 97) [15, 9]).2.2
    (by decide) (by decide)
  obtain ⟨r, hr, hrw, hrc⟩ := Sparse.combineAssign_spec 32 (fun a b : ZMod 97 => a + b) (by simp)
    rf p hwf hpw
  refine ⟨R, t, rf, p, r, hR, ht, hrf', hp, hwf, hpw, hr, hrw, hrc, hrf, fun y z => ?_⟩
  exact C66_complete hR rfl multiDemo_body (parts := [⟨twoStages, 11, [15, 9]⟩]) (ps := [p]) (by simp)
    (by intro q hq; simp only [List.mem_singleton] at hq; subst hq; exact .inl rfl)
    (.cons hp .nil) multiDemo_wires ht hrf'
    (show run simD multiRest {} [0, 0, 15, 9] = _ by rfl) (inst := [9, 0]) (by decide +kernel) hrw
    (by intro a; simpa using hrc a) y z

example : ∃ R, Holds env97 8 R 0 multiDemo := multiDemo_holds
example : ∃ es, StageWires twoStages [⟨twoStages, 11, [(15 : ZMod 97), 9]⟩] es := ⟨_, multiDemo_wires⟩

-- the sum meets the conditions of `C66_sound`, with all pairs of challenges
example : ∃ (R : Registry (ZMod 97)) (p rf r : Sparse.Poly (ZMod 97)), Holds env97 8 R 0 multiDemo ∧ OnlyIn 8 twoStages.skipGates twoStages.numGates p ∧
    OnlyIn 8 (twoStages.skipGates + twoStages.numGates)
      (8 - (twoStages.skipGates + twoStages.numGates)) rf ∧ WellFormed 32 r ∧
    (∀ a, coeff r a = coeff rf a + ([(twoStages, p)].map fun p => coeff p.2 a).sum) ∧
    ∃ es env, es.length = 4 ∧ es[2]? = some (15 : ZMod 97) ∧ multiRest.sat es env := by
  classical
  obtain ⟨R, t, rf, p, r, hR, ht, hrf, hp, hwf, hpw, hr, hrw, hrc, hasm, hpass⟩ := multiDemo_passes
  have hn : totalGates multiDemo.counts ≤ 8 := by decide
  have hm : twoStages.mask 8 = .ok ⟨2, 1⟩ := by decide
  have hfm : twoStages.finalMask 8 = .ok ⟨3, 5⟩ := by decide
  have hcard : (Finset.univ : Finset (ZMod 97)).card = 97 := ZMod.card 97
  have o1 : OnlyIn 8 twoStages.skipGates twoStages.numGates p :=
    C27_sound (m := ⟨2, 1⟩) hm hpw Finset.univ (by rw [hcard]; norm_num) fun y _ => C27_rx hm hp y
  have o2 : OnlyIn 8 (twoStages.skipGates + twoStages.numGates)
      (8 - (twoStages.skipGates + twoStages.numGates)) rf :=
    C27_sound (m := ⟨3, 5⟩) (show StageMask.new 8 3 5 = _ by decide) hwf Finset.univ (by rw [hcard]; norm_num) fun y _ =>
      C28_final_trace multiDemo_wellUsed hn multiDemo_body hfm ht 7 hasm y
  have hs : ∀ a, coeff r a = coeff rf a + ([(twoStages, p)].map fun p => coeff p.2 a).sum := by
    intro a; simpa using hrc a
  obtain ⟨es, env, e1, e2, -, e4, -⟩ := C66_sound hR multiDemo_body (parts := [(twoStages, p)])
    (by simp) (by intro q hq; simp only [List.mem_singleton] at hq; subst hq; exact .inl rfl)
    (by intro q hq; simp only [List.mem_singleton] at hq; subst hq; exact o1) o2 hrw hs
    (inst := [9, 0]) rfl Finset.univ (by
      rw [Finset.filter_true_of_mem fun q _ => hpass q.1 q.2, Finset.card_product, hcard]; norm_num)
  refine ⟨R, p, rf, r, hR, o1, o2, hrw, hs, es, env, e1, ?_, e4⟩
  have := e2 _ (List.mem_singleton_self _) 0 (show 0 < 2 * twoStages.numGates by decide)
  rw [(C28_rx twoStages (11 : ZMod 97) [15, 9] hp).1 0 (by decide)] at this
  exact this

end Ragu.Props

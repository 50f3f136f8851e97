/-
Property C67: what gadget code proves about its wires is what the claims about its circuit mean.
-/
import Verif.Spec.Realize
import Verif.Props.MultiStage

set_option linter.unusedSectionVars false

namespace Ragu.Props
open Ragu Ragu.Circuit Ragu.Registry Ragu.Spec Ragu.Gadget
variable {F : Type} [Field F] [DecidableEq F]

theorem rest_runs {c : Circ F} (hu : c.WellUsed) {ch : Chain} {k : Prog F}
    (hb : multiStage ch k = .ok c.body) {es : List F}
    (hel : es.length = firstWire ch + 2 * ch.numGates) :
    ∃ K env', run valD k {} es = .ok (K, env') := by
  obtain ⟨hh, hhb⟩ := body_handles hu
  have hfit : StagesFit ch := ((C28_exact ch k).2.1).1 ⟨_, hb⟩
  rw [firstWire_eq] at hel
  rw [multiStage_eq ch k hfit, Except.ok.injEq] at hb
  obtain ⟨K, env', e⟩ := val_total (allocVals es k) [] hh {} [] (by
    rw [← handles_blank, blank_allocVals, hel, ← blank_allocZeros, handles_blank, hb]
    exact hhb) rfl
  rw [run_allocVals] at e
  exact ⟨K, env', e⟩

/-- C67: the prover's side. Let the registered circuit `c0` have the same shape as the prover's
synthesis `c`, whose witness values are those of the gadget code `x`, and let `x` accept its witness
with result `inst` when the stages' wires hold the stages' values. Then the final trace of `c` plus
the stages' polynomials passes the check with public inputs `inst`, at every `y` and `z`. -/
theorem C67_complete {E : Env F} {n : ℕ} {R : Registry F} {i : ℕ} {c c0 : Circ F}
    (h : Holds E n R i c0) (hs : c.SameShape c0) {ch : Chain} {parts : List (StageInput F)}
    (hnd : (parts.map StageInput.stage).Nodup) (hin : ∀ p ∈ parts, InChain p.stage ch)
    {ps : List (Sparse.Poly F)}
    (hps : List.Forall₂ (fun p q => p.stage.rx n p.alpha p.values = .ok q) parts ps)
    {es : List F} (hes : StageWires ch parts es) {x : Syn F (List F)} (hx : Synthesizes ch c es x)
    {inst : List F} (hsim : x.sim = .ok inst) {t : List (ASeg F)} (ht : TraceEval c t) {alpha : F}
    {rf : Sparse.Poly F} (hrf : R.assembleWithAlpha n (t.map Prod.snd) i alpha = some (.ok rf))
    {r : Sparse.Poly F} (hr : WellFormed (4 * n) r)
    (hsum : ∀ a, coeff r a = coeff rf a + (ps.map fun p => coeff p a).sum) (y z : F) :
    RegistryClaim E n R i r inst y z := by
  obtain ⟨k, hb, hk⟩ := hx
  obtain ⟨K, env, hrun⟩ := rest_runs (hs.wellUsed.2 h.used) hb hes.length
  obtain ⟨hH, hout⟩ := hk.accepts hsim {} ⟨by simp, by simp⟩ hrun
  obtain ⟨v1, -⟩ := sim_val k {} K {} es env hrun ⟨by simp, by simp⟩
  obtain ⟨t', ht'⟩ := v1 hH
  exact C66_complete h hs hb hnd hin hps hes ht hrf ht' hout hr hsum y z

/-- C67: every circuit that realizes gadget code has a synthesis with the code's witness values, for
all values of the stages' wires, and the circuit object made from it is the registered one. -/
theorem C67_synthesis {ch : Chain} {c : Circ F} {x : List F → Syn F (List F)}
    (h : Realizes ch c x) {es : List F} (hes : es.length = firstWire ch + 2 * ch.numGates) :
    ∃ c', c'.SameShape c ∧ Synthesizes ch c' es (x es) ∧
      ∀ n, circuitObject n c' = circuitObject n c := by
  obtain ⟨k, hb, hk⟩ := h
  obtain ⟨k', e1, e2⟩ := (hk es hes).fill
  have hfit : StagesFit ch := ((C28_exact ch k).2.1).1 ⟨_, hb⟩
  have hb' := multiStage_eq ch k' hfit
  have hb2 := hb
  rw [multiStage_eq ch k hfit, Except.ok.injEq] at hb2
  have hsh : Circ.SameShape ⟨allocZeros (2 * chainGates ch) k', c.outs, c.cleanup⟩ c := by
    show Circ.blank _ = Circ.blank _
    simp only [Circ.blank, ← hb2, blank_allocZeros, e1]
  exact ⟨⟨allocZeros (2 * chainGates ch) k', c.outs, c.cleanup⟩, hsh, ⟨k', hb', e2⟩,
    fun n => C66_object hsh n⟩

open Classical in
/-- C67: the verifier's side. Let the registered circuit realize the gadget code `x`. If
polynomials confined to the gates of some of the stages and to the gates after them add up to one
that passes the check for more than `(4 n − 1) |S|` of the pairs of challenges from a set `S`, then
the constraints of `x`, on the values that the stages' polynomials hold (zeros for the stages left
out), are satisfiable with result `inst`. -/
theorem C67_sound {E : Env F} {n : ℕ} {R : Registry F} {i : ℕ} {c : Circ F} (h : Holds E n R i c)
    {ch : Chain} {x : List F → Syn F (List F)} (hx : Realizes ch c x)
    {parts : List (Chain × Sparse.Poly F)} (hnd : (parts.map Prod.fst).Nodup)
    (hin : ∀ p ∈ parts, InChain p.1 ch)
    (hps : ∀ p ∈ parts, OnlyIn n p.1.skipGates p.1.numGates p.2) {rf : Sparse.Poly F}
    (hrf : OnlyIn n (ch.skipGates + ch.numGates) (n - (ch.skipGates + ch.numGates)) rf)
    {r : Sparse.Poly F} (hr : WellFormed (4 * n) r)
    (hsum : ∀ a, coeff r a = coeff rf a + (parts.map fun p => coeff p.2 a).sum) {inst : List F}
    (hl : inst.length = c.outs.length) (S : Finset F)
    (hmany : (4 * n - 1) * S.card <
      ((S ×ˢ S).filter fun p => RegistryClaim E n R i r inst p.1 p.2).card) :
    ∃ es, es.length = firstWire ch + 2 * ch.numGates ∧
      (∀ p ∈ parts, ∀ j < 2 * p.1.numGates, es[firstWire p.1 + j]? =
        some (wireOf n p.2 (stageWire p.1.skipGates j).1 (stageWire p.1.skipGates j).2)) ∧
      (∀ d, InChain d ch → d ∉ parts.map Prod.fst → ∀ j < 2 * d.numGates,
        es[firstWire d + j]? = some 0) ∧
      (x es).sat inst := by
  obtain ⟨k, hb, hk⟩ := hx
  obtain ⟨es, env, e1, e2, e3, e4, e5⟩ := C66_sound h hb hnd hin hps hrf hr hsum hl S hmany
  obtain ⟨r', s1, s2⟩ := (hk es e1).sound e4
  rw [e5, Except.ok.injEq] at s2
  subst s2
  exact ⟨es, e1, e2, e3, s1⟩

/-! ### A circuit with two stages that realizes gadget code -/

/-- 3 · 5 = 15, which must be the first value of the second stage. -/
def multiCode (es : List (ZMod 97)) : Syn (ZMod 97) (List (ZMod 97)) :=
  .gate (3, 5, 15, 0) fun _ _ c _ =>
    .enforce (c - es.getD 2 0) (.ret [es.getD 3 0, es.getD 0 0])

theorem multiDemo_realizes : Realizes twoStages multiDemo multiCode := by
  refine ⟨multiRest, multiDemo_body, fun es hes => ?_⟩
  have h4 : es.length = 4 := hes
  match es, h4 with
  | [s0, s1, s2, s3], _ =>
    refine .mul rfl fun a b c d => ?_
    refine .enforce (l := [.add c, .sub s2]) rfl ?_ (.ret rfl)
    simp [LcStep.add, LcStep.sub, lcVal, Coeff.value, sub_eq_add_neg]

-- the premises of `C67_complete` and `C67_sound` are met, and the values that come out are forced
example : ∃ c', c'.SameShape multiDemo ∧ Synthesizes twoStages c' [0, 0, 15, 9] (multiCode [0, 0, 15, 9]) ∧
    (multiCode [0, 0, 15, 9]).sim = .ok [9, 0] := by
  obtain ⟨c', h1, h2, -⟩ := C67_synthesis multiDemo_realizes (es := [0, 0, 15, 9]) rfl
  exact ⟨c', h1, h2, by decide⟩

example : ∃ (R : Registry (ZMod 97)) (p rf r : Sparse.Poly (ZMod 97)), Holds env97 8 R 0 multiDemo ∧
    OnlyIn 8 twoStages.skipGates twoStages.numGates p ∧
    OnlyIn 8 (twoStages.skipGates + twoStages.numGates)
      (8 - (twoStages.skipGates + twoStages.numGates)) rf ∧ WellFormed 32 r ∧
    (∀ a, coeff r a = coeff rf a + ([(twoStages, p)].map fun p => coeff p.2 a).sum) ∧
    ∃ es, es.length = 4 ∧ es[2]? = some (15 : ZMod 97) ∧ (multiCode es).sat [9, 0] := by
  classical
  obtain ⟨R, t, rf, p, r, hR, ht, hrf, hp, hwf, hpw, hr, hrw, hrc, hasm, hpass⟩ := multiDemo_passes
  have hn : totalGates multiDemo.counts ≤ 8 := by decide
  have hm : twoStages.mask 8 = .ok ⟨2, 1⟩ := by decide
  have hfm : twoStages.finalMask 8 = .ok ⟨3, 5⟩ := by decide
  have hcard : (Finset.univ : Finset (ZMod 97)).card = 97 := ZMod.card 97
  have o1 : OnlyIn 8 twoStages.skipGates twoStages.numGates p :=
    C27_sound (m := ⟨2, 1⟩) hm hpw Finset.univ (by rw [hcard]; norm_num) fun y _ => C27_rx hm hp y
  have o2 : OnlyIn 8 (twoStages.skipGates + twoStages.numGates)
      (8 - (twoStages.skipGates + twoStages.numGates)) rf :=
    C27_sound (m := ⟨3, 5⟩) (show StageMask.new 8 3 5 = _ by decide) hwf Finset.univ
      (by rw [hcard]; norm_num) fun y _ =>
      C28_final_trace multiDemo_wellUsed hn multiDemo_body hfm ht 7 hasm y
  have hs : ∀ a, coeff r a = coeff rf a + ([(twoStages, p)].map fun p => coeff p.2 a).sum := by
    intro a; simpa using hrc a
  obtain ⟨es, e1, e2, -, e4⟩ := C67_sound hR multiDemo_realizes (parts := [(twoStages, p)])
    (by simp) (by intro q hq; simp only [List.mem_singleton] at hq; subst hq; exact .inl rfl)
    (by intro q hq; simp only [List.mem_singleton] at hq; subst hq; exact o1) o2 hrw hs
    (inst := [9, 0]) rfl Finset.univ (by
      rw [Finset.filter_true_of_mem fun q _ => hpass q.1 q.2, Finset.card_product, hcard]; norm_num)
  refine ⟨R, p, rf, r, hR, o1, o2, hrw, hs, es, e1, ?_, e4⟩
  have := e2 _ (List.mem_singleton_self _) 0 (show 0 < 2 * twoStages.numGates by decide)
  rw [(C28_rx twoStages (11 : ZMod 97) [15, 9] hp).1 0 (by decide)] at this
  exact this

end Ragu.Props

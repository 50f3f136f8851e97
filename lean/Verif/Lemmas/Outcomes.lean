/-
Calls that come to an end, and stop only for a known reason.
-/
import Verif.Lemmas.FuseProgram
import Verif.Lemmas.ProverClaims

set_option linter.unusedSectionVars false

namespace Ragu.Props
open Ragu Ragu.Circuit Ragu.Registry Ragu.Spec Ragu.Gadget Ragu.Pcd

/-- A call that has an outcome, and stops only for a reason in `bad`. -/
def Safe {E α : Type} (bad : E → Prop) (m : Outcomes E α) : Prop :=
  (∃ r, m r) ∧ ∀ e, m (.error e) → bad e

section
variable {E α β ε : Type} {bad : E → Prop}

theorem Safe.bind {m : Outcomes E α} {f : α → Outcomes E β} (h : Safe bad m)
    (hf : ∀ a, m (.ok a) → Safe bad (f a)) : Safe bad (m >>= f) := by
  refine ⟨?_, ?_⟩
  · obtain ⟨r, hr⟩ := h.1
    cases r with
    | error e => exact ⟨.error e, Or.inr ⟨e, hr, rfl⟩⟩
    | ok a =>
      obtain ⟨r, h'⟩ := (hf a hr).1
      exact ⟨r, Or.inl ⟨a, hr, h'⟩⟩
  · rintro e (⟨a, h1, h2⟩ | ⟨e', h1, h2⟩)
    · exact (hf a h1).2 e h2
    · cases h2
      exact h.2 e h1

theorem Safe.pure (a : α) : Safe bad (pure a : Outcomes E α) :=
  ⟨⟨_, rfl⟩, fun _ h => by cases h⟩

theorem Safe.call {stop : ε → E} {x : Except ε α} (h : ∀ e, x = .error e → bad (stop e)) :
    Safe bad (Outcomes.call stop x) := by
  unfold Outcomes.call
  cases x with
  | ok a => exact ⟨⟨_, rfl⟩, fun _ h => by cases h⟩
  | error e => exact ⟨⟨_, rfl⟩, fun _ h' => by cases h'; exact h e rfl⟩

theorem Safe.call_ok {stop : ε → E} {x : Except ε α} (h : ∃ a, x = .ok a) :
    Safe bad (Outcomes.call stop x) := by
  obtain ⟨a, rfl⟩ := h
  exact .call fun _ h => by cases h

theorem Safe.expect {stop : E} {x : Option α} (h : x = none → bad stop) :
    Safe bad (Outcomes.expect stop x) := by
  unfold Outcomes.expect
  cases x with
  | some a => exact ⟨⟨_, rfl⟩, fun _ h => by cases h⟩
  | none => exact ⟨⟨_, rfl⟩, fun _ h' => by cases h'; exact h rfl⟩

theorem Safe.any {p : α → Prop} (h : ∃ a, p a) : Safe bad (Outcomes.any p : Outcomes E α) := by
  obtain ⟨a, ha⟩ := h
  exact ⟨⟨_, a, ha, rfl⟩, fun _ h => by obtain ⟨b, -, h⟩ := h; cases h⟩

theorem Safe.random [Nonempty α] : Safe bad (Outcomes.random α : Outcomes E α) :=
  .any ⟨Classical.ofNonempty, trivial⟩

theorem Safe.mono {bad' : E → Prop} {m : Outcomes E α} (h : Safe bad m) (hb : ∀ e, bad e → bad' e) :
    Safe bad' m := ⟨h.1, fun e he => hb e (h.2 e he)⟩

end

section
variable {F : Type} [Field F] [DecidableEq F]

theorem stage_wires_exist : ∀ (ch : Chain) (f : Chain → ℕ → F), ∃ es : List F,
    es.length = firstWire ch + 2 * ch.numGates ∧
    ∀ d, InChain d ch → ∀ j < 2 * d.numGates, es[firstWire d + j]? = some (f d j)
  | .base, f => by
    refine ⟨[], rfl, ?_⟩
    rintro d (rfl | h) j hj
    · have : (Chain.base).numGates = 0 := rfl
      omega
    · cases h
  | .child p s, f => by
    obtain ⟨es, h1, h2⟩ := stage_wires_exist p f
    refine ⟨es ++ (List.range (2 * (Chain.child p s).numGates)).map (f (.child p s)), ?_, ?_⟩
    · rw [List.length_append, List.length_map, List.length_range, h1, firstWire]
    · rintro d (rfl | h) j hj
      · rw [firstWire, ← h1, List.getElem?_append_right (by omega), Nat.add_sub_cancel_left,
          List.getElem?_map, List.getElem?_range hj, Option.map_some]
      · have hd : InChain d p := by
          cases h with
          | parent => exact .inl rfl
          | step _ h => exact .inr h
        have := h2 d hd j hj
        rw [List.getElem?_append_left (List.getElem?_eq_some_iff.1 this).1, this]

/-- The wires of the stages exist. -/
theorem stageWires_exist {ch : Chain} {parts : List (Chain × List F)}
    (hnd : (parts.map Prod.fst).Nodup) (hin : ∀ q ∈ parts, InChain q.1 ch) :
    ∃ es, StageWires ch (parts.map fun q => ⟨q.1, 0, q.2⟩) es := by
  classical
  obtain ⟨es, h1, h2⟩ := stage_wires_exist ch fun d j =>
    if h : ∃ vs, (d, vs) ∈ parts then h.choose.getD j 0 else (0 : F)
  refine ⟨es, h1, fun p hp j hj => ?_, fun d hd hn j hj => ?_⟩
  · obtain ⟨⟨d, vs⟩, hm, rfl⟩ := List.mem_map.1 hp
    have hex : ∃ vs, (d, vs) ∈ parts := ⟨vs, hm⟩
    have he : hex.choose = vs := by
      have := List.inj_on_of_nodup_map hnd hex.choose_spec hm rfl
      exact (Prod.mk.injEq ..▸ this).2
    have := h2 d (hin _ hm) j hj
    rw [this, dif_pos hex, he]
  · rw [h2 d hd j hj, dif_neg]
    rintro ⟨vs, hm⟩
    refine hn ?_
    rw [List.map_map]
    exact List.mem_map.2 ⟨_, hm, rfl⟩

theorem allocZeros_blank : ∀ (m : ℕ) (k : Prog F), (allocZeros m k).blank = allocZeros m k.blank
  | 0, k => rfl
  | m + 1, k => by rw [allocZeros, Prog.blank, allocZeros_blank m k]; rfl

/-- A synthesis on any witness values has the shape of the circuit. -/
theorem synthesis_exists {ch : Chain} {c0 : Circ F} {x : List F → Syn F (List F)}
    (h : Realizes ch c0 x) {es : List F} (hes : es.length = firstWire ch + 2 * ch.numGates) :
    ∃ c, c.SameShape c0 ∧ Synthesizes ch c es (x es) := by
  obtain ⟨k, hk, hc⟩ := h
  obtain ⟨k', hb, hs⟩ := (hc es hes).fill
  have hfit : StagesFit ch := by
    by_contra hn
    obtain ⟨g, hg⟩ := multiStage_fails ch k hn
    rw [hg] at hk
    cases hk
  rw [multiStage_eq ch k hfit, Except.ok.injEq] at hk
  refine ⟨⟨allocZeros (2 * chainGates ch) k', c0.outs, c0.cleanup⟩, ?_, k', multiStage_eq ch k' hfit, hs⟩
  show Circ.mk _ _ _ = Circ.mk _ _ _
  rw [← hk, allocZeros_blank, allocZeros_blank, hb]

variable {F0 G HC : Type} [Field F0] [DecidableEq F0] [Field G] [DecidableEq G]

/-- A circuit that the registry holds has a trace, and its trace is assembled. -/
theorem trace_safe {bad : Stop F0 G HC → Prop} {E : Env F} {n : ℕ} {R : Registry F} {i : ℕ}
    {c0 : Circ F} (h : Holds E n R i c0) {ch : Chain} {parts : List (Chain × List F)}
    {x : List F → Syn F (List F)} (hx : Realizes ch c0 x) (hnd : (parts.map Prod.fst).Nodup)
    (hin : ∀ q ∈ parts, InChain q.1 ch) :
    Safe bad (traceCircuit n R i c0 ch parts x : Outcomes (Stop F0 G HC) _) := by
  unfold traceCircuit
  refine (Safe.any ?_).bind fun t ht => Safe.random.bind fun alpha _ => ?_
  · obtain ⟨es, hes⟩ := stageWires_exist hnd hin
    obtain ⟨c, h1, h2⟩ := synthesis_exists hx hes.length
    obtain ⟨t, ht⟩ := C18_produced (h1.wellUsed.2 h.used)
    exact ⟨t, es, c, hes, h1, h2, ht⟩
  · obtain ⟨es, c, -, hs, -, ht⟩ := Outcomes.any_ok.1 ht
    have hu : c.WellUsed := hs.wellUsed.2 h.used
    obtain ⟨hn, -, -⟩ := circuitY_coeff h (0 : F)
    rw [← hs.counts] at hn
    obtain ⟨r, hr, -⟩ := C18_assemble hu hn ht alpha
    obtain ⟨q, b, ss, hrd, hf⟩ := h.registry
    obtain ⟨o, ho, hi⟩ := h.here
    obtain ⟨_, hg, hc⟩ := finalize_cases hrd hf
    obtain ⟨m, hm, ho'⟩ := circuitObject_ok ho
    have hseg := (registered h.used hm).2.2
    have hasm : R.assembleWithAlpha n (t.map Prod.snd) i alpha = some (.ok r) := by
      rw [Registry.assembleWithAlpha, hg.plans, List.getElem?_map, hi, Option.map_some,
        Option.map_some, ho', intoRawCircuitObject]
      simp only [hseg, Option.some.injEq]
      rw [← hs.counts]; exact hr
    rw [hasm]
    refine (Safe.expect fun h => by cases h).bind fun r' hr' => ?_
    cases must_ok.1 hr'
    exact .call_ok ⟨_, rfl⟩

/-- A stage whose values fit is made. -/
theorem stage_safe {bad : Stop F0 G HC → Prop} {stop : Pcd.Err → Stop F0 G HC} {n : ℕ} {d : Chain}
    {α : Type} {code : Syn F α} {elems : α → List (Element F)}
    (hn : d.skipGates + d.numGates ≤ n)
    (hc : ∀ e, Pcd.emulate code = .error e → bad (stop e))
    (hl : ∀ g, Pcd.emulate code = .ok g → (elems g).length ≤ d.values) :
    Safe bad (stageRx stop n d code elems) := by
  unfold stageRx
  refine Safe.random.bind fun alpha _ => (Safe.call hc).bind fun g hg => ?_
  obtain ⟨p, hp, -⟩ := rx_spec (n := n) d alpha ((elems g).map (·.wire))
    (by rw [List.length_map]; exact hl g (Outcomes.call_ok.1 hg)) hn
  exact (Safe.call_ok ⟨p, hp⟩).bind fun rx _ => .pure _

end
end Ragu.Props

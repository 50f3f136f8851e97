/-
Property C61: claims checked against the polynomial a registry reports for a circuit.
-/
import Verif.Props.Registry
import Verif.Props.Revdot

set_option linter.unusedSectionVars false

namespace Ragu.Props
open Ragu Ragu.Circuit Ragu.Registry Ragu.Spec Finset
variable {F : Type} [Field F] [DecidableEq F]

/-- The check a verifier makes of a trace polynomial `r` for the circuit with index `i` of the
registry `R`: `revdot(r, r(zX) + m(ω_i, X, y) + t(X, z)) = k(y)`, and nothing on the way panics
(crates/ragu_pcd/src/internal/claims.rs:95-104 and crates/ragu_pcd/src/verify.rs:94-106). -/
def RegistryClaim (E : Env F) (n : ℕ) (R : Registry F) (i : ℕ) (r : Sparse.Poly F) (inst : List F)
    (y z : F) : Prop :=
  ∃ sy tz b, R.circuitY E n i y = some sy ∧ Tpoly.tz n z = some tz ∧ claimB n r sy tz z = some b ∧
    Sparse.revdot (4 * n) r b = Ky.kyEval inst y

/-- `R` is the result of finalising a builder, and `c` is the circuit at index `i`. -/
structure Holds (E : Env F) (n : ℕ) (R : Registry F) (i : ℕ) (c : Circ F) : Prop where
  used : c.WellUsed
  registry : ∃ q b ss, Ready E n q b ss ∧ b.finalize E n = .ok R
  here : ∃ o, circuitObject n c = .ok o ∧ R.circuits[i]? = some o

theorem circuitY_coeff {E : Env F} {n : ℕ} {R : Registry F} {i : ℕ} {c : Circ F}
    (h : Holds E n R i c) (y : F) :
    totalGates c.counts ≤ n ∧ totalCons c.counts < 4 * n ∧
    ∃ p t, syEval n (floorPlan c.counts) c y = .ok p ∧ R.circuitY E n i y = some t ∧
      WellFormed (4 * n) p ∧ WellFormed (4 * n) t ∧ ∀ a, coeff t a = coeff p a +
        if a = 4 * n - 1 then R.key * y ^ (4 * n - 1) else 0 := by
  obtain ⟨q, b, ss, hr, hf⟩ := h.registry
  obtain ⟨o, ho, hi⟩ := h.here
  obtain ⟨_, hg, hc⟩ := finalize_cases hr hf
  have hs : AllImplement n R.circuits ss := by rw [hc]; exact hr.objects
  obtain ⟨m, hm, ho'⟩ := circuitObject_ok ho
  obtain ⟨hn, hN, hseg⟩ := registered h.used hm
  refine ⟨hn, hN, ?_⟩
  have hex : ∀ i : ℕ, ∃ p : Sparse.Poly F, ∀ o : CircuitObject F, R.circuits[i]? = some o →
      o.sy y (floorPlan o.segmentRecords) = some p ∧ WellFormed (4 * n) p := by
    intro i
    rcases ho : R.circuits[i]? with _ | o
    · exact ⟨[], fun o ho => by cases ho⟩
    · obtain ⟨s, h1, h2⟩ := allImplement_get hs ho
      obtain ⟨p, g1, g2, g3⟩ := h2.sy y
      refine ⟨p, fun o' ho' => ?_⟩
      cases ho'
      exact ⟨g1, g2⟩
  choose ps hps using hex
  obtain ⟨t, h1, h2, h3⟩ := wy_spec hg (omegaJ E i) y ps hps
  obtain ⟨p, hp, hpw, -⟩ := syEval_functional h.used hn hN y
  have hpi : ps i = p := by
    have := (hps i o hi).1
    rw [ho', intoRawCircuitObject] at this
    simp only [hseg, hp, Circuit.expect, Option.some.injEq] at this
    exact this.symm
  refine ⟨p, t, hp, h1, hpw, h2, fun a => ?_⟩
  rw [h3]
  congr 1
  have hil := (List.getElem?_eq_some_iff.1 hi).1
  have hlen := hg.len
  rw [sum_eq_single i]
  · rw [weight_node hg.env hg.hk (by omega) (by omega), if_pos rfl, one_mul, hpi]
  · intro j hj hji
    have := mem_range.1 hj
    rw [weight_node hg.env hg.hk (by omega) (by omega), if_neg hji, zero_mul]
  · intro hj
    exact absurd (mem_range.2 hil) hj

/-- The claim against the registry adds one term to the claim against the circuit: the key times
the `c` wire of the SYSTEM gate, at `y^(4n-1)`. -/
theorem registryClaim_iff {E : Env F} {n : ℕ} {R : Registry F} {i : ℕ} {c : Circ F}
    (h : Holds E n R i c) {r : Sparse.Poly F} (hr : WellFormed (4 * n) r) (inst : List F) (y z : F) :
    RegistryClaim E n R i r inst y z ↔
      gateSum n r z + (weigh (floorPlan c.counts) y
        (constraints (assignment n (floorPlan c.counts) r) c) - Ky.kyEval inst y) +
        R.digest * wireOf n r .c 0 * y ^ (4 * n - 1) = 0 := by
  obtain ⟨hn, hN, p, t, h1, h2, h3, h4, h5⟩ := circuitY_coeff h y
  have hn0 : 0 < n := by omega
  obtain ⟨sy, tz, b, g1, g2, g3, g4, g5⟩ := revdot_claim h.used hn hN hr y z
  rw [h1, Except.ok.injEq] at g1; subst g1
  obtain ⟨tz', htz, htzwf, -⟩ := C14_tz_coeffs n z
  rw [g2, Option.some.injEq] at htz; subst htz
  have build : ∀ s, WellFormed (4 * n) s → ∃ b, claimB n r s tz z = some b ∧
      WellFormed (4 * n) b ∧ ∀ a, coeff b a = coeff (Sparse.dilate r z) a + coeff s a + coeff tz a := by
    intro s hs
    obtain ⟨b1, hb1, hb1wf, hb1c⟩ := Sparse.combineAssign_spec (4 * n) (fun a b : F => a + b)
      (by simp) (Sparse.dilate r z) s (Sparse.dilate_wf hr z) hs
    obtain ⟨b, hb, hbwf, hbc⟩ := Sparse.combineAssign_spec (4 * n) (fun a b : F => a + b) (by simp)
      b1 tz hb1wf htzwf
    exact ⟨b, by simp only [claimB, Sparse.addAssign, hb1, Option.bind_eq_bind, Option.bind_some, hb],
      hbwf, fun a => by rw [hbc, hb1c]⟩
  obtain ⟨b', hb', hbwf', hbc'⟩ := build t h4
  obtain ⟨b0, hb0, hbwf0, hbc0⟩ := build p h3
  rw [g3, Option.some.injEq] at hb0; subst hb0
  have hrev : Sparse.revdot (4 * n) r b' = Sparse.revdot (4 * n) r b +
      R.digest * wireOf n r .c 0 * y ^ (4 * n - 1) := by
    rw [C11_revdot _ _ _ hr hbwf', C11_revdot _ _ _ hr g4]
    have e : ∀ a ∈ range (4 * n), coeff r a * coeff b' (4 * n - 1 - a) =
        coeff r a * coeff b (4 * n - 1 - a) +
          if a = 0 then R.key * coeff r 0 * y ^ (4 * n - 1) else 0 := by
      intro a ha
      have ha := mem_range.1 ha
      rw [hbc', hbc0, h5]
      by_cases ha0 : a = 0
      · subst ha0
        rw [if_pos (by omega), if_pos rfl]; ring
      · rw [if_neg (by omega), if_neg ha0]; ring
    rw [sum_congr rfl e, sum_add_distrib, sum_ite_eq' (range _) 0, if_pos (mem_range.2 (by omega))]
    rfl
  rw [g5] at hrev
  constructor
  · rintro ⟨sy', tz', b2, e1, e2, e3, e4⟩
    rw [h2, Option.some.injEq] at e1; subst e1
    rw [g2, Option.some.injEq] at e2; subst e2
    rw [hb', Option.some.injEq] at e3; subst e3
    rw [hrev] at e4
    linear_combination e4
  · intro hz
    exact ⟨t, tz, b', h2, g2, hb', by rw [hrev]; linear_combination hz⟩

/-- C61: a trace that satisfies the circuit with outputs `inst`, and whose `c` wire of the SYSTEM
gate is zero, passes the check against the registry at every `y` and `z`. -/
theorem C61_completeness {E : Env F} {n : ℕ} {R : Registry F} {i : ℕ} {c : Circ F}
    (h : Holds E n R i c) {r : Sparse.Poly F} (hr : WellFormed (4 * n) r) (hg : GatesHold n r)
    {inst : List F} (hs : Satisfies (assignment n (floorPlan c.counts) r) c inst)
    (hc : wireOf n r .c 0 = 0) (y z : F) : RegistryClaim E n R i r inst y z := by
  obtain ⟨hn, hN, -⟩ := circuitY_coeff h y
  have := C19_completeness h.used hn hN hr hg hs y z
  rw [claim_iff h.used hn hN hr] at this
  rw [registryClaim_iff h hr, this, hc, mul_zero, zero_mul, add_zero]

/-- C61: the trace of a circuit and witness the simulator accepts, assembled by the registry
under the circuit's index with any blinding factor, passes the check under that index. -/
theorem C61_honest {E : Env F} {n : ℕ} {R : Registry F} {i : ℕ} {c : Circ F}
    (h : Holds E n R i c) {inst : List F} (hsim : simulate c = .ok inst) {t : List (ASeg F)}
    (ht : TraceEval c t) (alpha : F) :
    ∃ r, R.assembleWithAlpha n (t.map Prod.snd) i alpha = some (.ok r) ∧
      ∀ y z, RegistryClaim E n R i r inst y z := by
  obtain ⟨hn, hN, -⟩ := circuitY_coeff h (0 : F)
  obtain ⟨q, b, ss, hr, hf⟩ := h.registry
  obtain ⟨o, ho, hi⟩ := h.here
  obtain ⟨_, hg, hc⟩ := finalize_cases hr hf
  obtain ⟨m, hm, ho'⟩ := circuitObject_ok ho
  have hseg := (registered h.used hm).2.2
  obtain ⟨r, hr1, hwf, _, _, hone, hc0, _⟩ := C18_assemble h.used hn ht alpha
  refine ⟨r, ?_, fun y z => ?_⟩
  · rw [Registry.assembleWithAlpha, hg.plans, List.getElem?_map, hi, Option.map_some,
      Option.map_some, ho', intoRawCircuitObject]
    simp only [hseg, hr1]
  · have := C19_honest h.used hm hsim ht alpha (by rw [hseg]; exact hr1) y z
    rw [hseg, claim_iff h.used hn hN hwf] at this
    rw [registryClaim_iff h hwf, this, hc0, mul_zero, zero_mul, add_zero]

open Classical in
/-- C61: if some gate or constraint is violated, or the outputs are not `inst`, or the constant
wire is not one, then among any set `S` of candidate challenges at most `(4 n − 1) |S|` of the
`|S|²` pairs `(y, z)` pass the check against the registry, whatever its key. -/
theorem C61_soundness {E : Env F} {n : ℕ} {R : Registry F} {i : ℕ} {c : Circ F}
    (h : Holds E n R i c) {r : Sparse.Poly F} (hr : WellFormed (4 * n) r) {inst : List F}
    (hl : inst.length = c.outs.length)
    (hbad : ¬(GatesHold n r ∧ Satisfies (assignment n (floorPlan c.counts) r) c inst))
    (S : Finset F) :
    ((S ×ˢ S).filter fun p => RegistryClaim E n R i r inst p.1 p.2).card ≤
      (4 * n - 1) * S.card := by
  obtain ⟨hn, hN, -⟩ := circuitY_coeff h (0 : F)
  obtain ⟨rows, hlt, hd, hw, hz⟩ := constraint_rows h.used (assignment n (floorPlan c.counts) r) hl
  by_cases hg : GatesHold n r
  · have hsat : ¬ ∀ q ∈ rows, q.val = 0 := fun h => hbad ⟨hg, hz.1 h⟩
    have hgs : ∀ z, gateSum n r z = 0 := by
      intro z
      rw [gateSum]
      refine sum_eq_zero fun i hi => ?_
      obtain ⟨e1, e2⟩ := hg i (mem_range.1 hi)
      rw [e2, e1]
      ring
    set k := R.digest * wireOf n r .c 0 with hk
    have hcard : (S.filter fun y => weigh (floorPlan c.counts) y rows + k * y ^ (4 * n - 1) = 0).card
        ≤ 4 * n - 1 := by
      by_contra hc
      refine hsat fun q hq => ?_
      rw [← val_by_exp _ rows hd q hq]
      have := coeffs_zero (N := 4 * n) (fun j => (rows.map fun q =>
          if consExp (floorPlan c.counts) q.seg q.loc = j then q.val else 0).sum +
            if j = 4 * n - 1 then k else 0)
        (S.filter fun y => weigh (floorPlan c.counts) y rows + k * y ^ (4 * n - 1) = 0) (by omega) (by
          intro y hy
          have := (mem_filter.1 hy).2
          rw [weigh_by_exp _ y (4 * n) rows fun q hq => (hlt q hq).trans hN] at this
          refine Eq.trans ?_ this
          simp only [add_mul, sum_add_distrib, ite_mul, zero_mul]
          rw [sum_ite_eq' (range (4 * n)) (4 * n - 1), if_pos (mem_range.2 (by omega))])
        (consExp (floorPlan c.counts) q.seg q.loc) ((hlt q hq).trans hN)
      have hne : consExp (floorPlan c.counts) q.seg q.loc ≠ 4 * n - 1 := by
        have := hlt q hq; omega
      rwa [if_neg hne, add_zero] at this
    have hsub : ((S ×ˢ S).filter fun p => RegistryClaim E n R i r inst p.1 p.2) ⊆
        (S.filter fun y => weigh (floorPlan c.counts) y rows + k * y ^ (4 * n - 1) = 0) ×ˢ S := by
      intro p hp
      obtain ⟨hp1, hp2⟩ := mem_filter.1 hp
      rw [registryClaim_iff h hr, hgs, zero_add, hw] at hp2
      obtain ⟨a, b⟩ := mem_product.1 hp1
      exact mem_product.2 ⟨mem_filter.2 ⟨a, hp2⟩, b⟩
    calc _ ≤ _ := card_le_card hsub
      _ = _ := card_product _ _
      _ ≤ _ := Nat.mul_le_mul_right _ hcard
  · have hrow : ∀ y, (S.filter fun z => RegistryClaim E n R i r inst y z).card ≤ 4 * n - 1 := by
      intro y
      by_contra hc
      refine hg (gates_of_coeffs fun j hj hj0 => ?_)
      have := coeffs_zero (N := 4 * n) (fun j => gateCoeff n r j + if j = 0 then
          weigh (floorPlan c.counts) y (constraints (assignment n (floorPlan c.counts) r) c) -
            Ky.kyEval inst y + R.digest * wireOf n r .c 0 * y ^ (4 * n - 1) else 0)
        (S.filter fun z => RegistryClaim E n R i r inst y z) (by omega) (by
          intro z hz
          have := (mem_filter.1 hz).2
          rw [registryClaim_iff h hr, gateSum_coeffs, add_assoc] at this
          refine Eq.trans ?_ this
          simp only [add_mul, sum_add_distrib, ite_mul, zero_mul]
          rw [sum_ite_eq', if_pos (mem_range.2 (by omega)), pow_zero]; ring) j hj
      simpa [if_neg (by omega : j ≠ 0)] using this
    rw [card_filter, sum_product]
    calc _ ≤ ∑ _y ∈ S, (4 * n - 1) := sum_le_sum fun y _ => by
          have := hrow y
          rw [card_filter] at this
          exact this
      _ = _ := by rw [sum_const, smul_eq_mul, mul_comm]

/-- C61: the key binds: under a nonzero key, a trace that passes at all challenges of a set of at
least `4 n` points also has a zero `c` wire in the SYSTEM gate. -/
theorem C61_all_pass {E : Env F} {n : ℕ} {R : Registry F} {i : ℕ} {c : Circ F}
    (h : Holds E n R i c) {r : Sparse.Poly F} (hr : WellFormed (4 * n) r) {inst : List F}
    (hl : inst.length = c.outs.length) (S : Finset F) (hS : 4 * n ≤ S.card)
    (hp : ∀ y ∈ S, ∀ z ∈ S, RegistryClaim E n R i r inst y z) :
    GatesHold n r ∧ Satisfies (assignment n (floorPlan c.counts) r) c inst ∧
      R.digest * wireOf n r .c 0 = 0 := by
  classical
  obtain ⟨hn, hN, -⟩ := circuitY_coeff h (0 : F)
  have hgood : GatesHold n r ∧ Satisfies (assignment n (floorPlan c.counts) r) c inst := by
    by_contra hbad
    have := C61_soundness h hr hl hbad S
    rw [filter_true_of_mem (fun p hp' => by
      obtain ⟨a, b⟩ := mem_product.1 hp'
      exact hp _ a _ b), card_product] at this
    have h0 : 0 < S.card := by omega
    have := Nat.le_of_mul_le_mul_right this h0
    omega
  refine ⟨hgood.1, hgood.2, ?_⟩
  have hall : ∀ y ∈ S, ∑ j ∈ range (4 * n),
      (if j = 4 * n - 1 then R.digest * wireOf n r .c 0 else 0) * y ^ j = 0 := by
    intro y hy
    have h1 := C19_completeness h.used hn hN hr hgood.1 hgood.2 y y
    rw [claim_iff h.used hn hN hr] at h1
    have h2 := hp y hy y hy
    rw [registryClaim_iff h hr, h1, zero_add] at h2
    simp only [ite_mul, zero_mul]
    rw [sum_ite_eq' (range (4 * n)) (4 * n - 1), if_pos (mem_range.2 (by omega)), h2]
  have := coeffs_zero (N := 4 * n) _ S hS hall (4 * n - 1) (by omega)
  rwa [if_pos rfl] at this

theorem demoSat_object : ∃ o, circuitObject 8 demoSat = .ok o :=
  ⟨_, show (intoCircuitObject 8 demoSat).map (intoRawCircuitObject 8 demoSat) = _ from rfl⟩

/-- A registry in which `demoSat` has index 1. -/
theorem demoSat_holds : ∃ R, Holds env97 8 R 1 demoSat := by
  obtain ⟨o, ho⟩ := demoSat_object
  obtain ⟨o', ho'⟩ := demo_object
  have hb : build 8 [.application demoSat, .internalStep demo] {} = .ok ⟨[], [], [o'], [o]⟩ := by
    simp only [build, Reg.apply, Builder.registerCircuit, Builder.registerInternalStep, ho, ho']
    rfl
  have hr := ready_of_history env97_ok (n := 8) (q := 5) (by norm_num) (by decide) env97_keys
    [.application demoSat, .internalStep demo] (by
      intro c hc
      have : c = demo ∨ c = demoSat := by
        simpa [Reg.internalCircuits, Reg.internalSteps, Reg.applications] using hc
      rcases this with rfl | rfl
      · exact demo_wellUsed
      · exact demoSat_wellUsed) (bs := []) .nil hb
  obtain ⟨R, h1, h2, h3⟩ := finalize_good hr (show 2 ≤ 32 by decide)
  exact ⟨R, demoSat_wellUsed, ⟨5, _, _, hr, h1⟩, ⟨o, ho, by rw [h3]; rfl⟩⟩

-- its honest trace and the check
example : ∃ R, Holds env97 8 R 1 demoSat ∧ ∃ t, TraceEval demoSat t ∧
    ∃ r, R.assembleWithAlpha 8 (t.map Prod.snd) 1 7 = some (.ok r) ∧
      ∀ y z, RegistryClaim env97 8 R 1 r [15, 28] y z := by
  obtain ⟨R, hH⟩ := demoSat_holds
  obtain ⟨t, ht⟩ := C18_produced demoSat_wellUsed
  exact ⟨R, hH, t, ht, C61_honest hH (by decide +kernel) ht 7⟩

end Ragu.Props

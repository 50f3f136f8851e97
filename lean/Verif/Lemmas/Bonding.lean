/-
Bonding circuits: the validator and the stripped polynomial.
-/
import Verif.Lemmas.Staging
import Verif.Spec.Bonding

set_option linter.unusedSectionVars false

namespace Ragu.Circuit
open Ragu Ragu.Spec Finset
variable {F : Type} [Field F] [DecidableEq F]

/-! ### The validator -/

theorem rejectOne_true (l : List (LcStep F BondingWire)) : rejectOne true l = true := by
  induction l with
  | nil => rfl
  | cons x l ih => cases x with
    | term w c => rw [rejectOne]; split_ifs <;> exact ih
    | gain c => exact ih

theorem resolveLc_validator {h : List ℕ} {env : List BondingWire} (hl : h.length = env.length)
    (he : ∀ w ∈ env, w = .normal) : ∀ lc : List (LcStep F WRef), usableLc h lc = true →
    ∃ lc', resolveLc BondingWire.one env lc = .ok lc' ∧
      (rejectOne false lc' = true ↔ RefersOne lc)
  | [], _ => ⟨[], rfl, by simp [rejectOne, RefersOne]⟩
  | .gain c :: r, hu => by
    obtain ⟨r', h1, h2⟩ := resolveLc_validator hl he r (by simpa [usableLc] using hu)
    refine ⟨.gain c :: r', by rw [resolveLc, h1]; rfl, ?_⟩
    rw [rejectOne, h2]
    simp [RefersOne]
  | .term .one c :: r, hu => by
    obtain ⟨r', h1, h2⟩ := resolveLc_validator hl he r (by
      simp only [usableLc, List.all_cons, Bool.and_eq_true] at hu; exact hu.2)
    refine ⟨.term .one c :: r', by rw [resolveLc, h1]; rfl, ?_⟩
    rw [rejectOne, if_pos rfl, rejectOne_true]
    simp [RefersOne]
  | .term (.idx i) c :: r, hu => by
    simp only [usableLc, List.all_cons, Bool.and_eq_true] at hu
    obtain ⟨r', h1, h2⟩ := resolveLc_validator hl he r hu.2
    have hi : i < env.length := by
      have := hu.1
      simp only [usable, decide_eq_true_iff] at this
      by_contra hc
      rw [List.getD_eq_getElem?_getD, List.getElem?_eq_none (by omega)] at this
      simp at this
    have hw : env[i]? = some .normal := by
      rw [List.getElem?_eq_getElem hi, he _ (List.getElem_mem hi)]
    refine ⟨.term .normal c :: r', by rw [resolveLc, h1, resolve, hw]; rfl, ?_⟩
    rw [rejectOne, if_neg (by decide), h2]
    simp [RefersOne]

theorem record_none (m : Violation) (v : Option Violation) : record m v ≠ none := by
  cases v <;> simp [record]

theorem resolve_normal {h : List ℕ} {env : List BondingWire} (hl : h.length = env.length)
    {w : ℕ} (hw : 0 < h.getD w 0) : ∃ x, resolve BondingWire.one env (.idx w) = .ok x := by
  have hi : w < env.length := by
    by_contra hc
    rw [List.getD_eq_getElem?_getD, List.getElem?_eq_none (by omega)] at hw
    simp at hw
  exact ⟨env[w], by rw [resolve, List.getElem?_eq_getElem hi]⟩

theorem validator_run : ∀ (p : Prog F) (v : Option Violation) (env : List BondingWire)
    (h h' : List ℕ), handles p h = some h' → h.length = env.length → (∀ w ∈ env, w = .normal) →
    ∃ v' env', run validatorD p v env = .ok (v', env') ∧ (v' = none ↔ v = none ∧ ¬Forbidden p) ∧
      h'.length = env'.length ∧ ∀ w ∈ env', w = .normal
  | .done, v, env, h, h', hh, hl, he => by
    rw [handles, Option.some.injEq] at hh; subst hh
    exact ⟨v, env, rfl, by simp [Forbidden], hl, he⟩
  | .gate a b c d k, v, env, h, h', hh, hl, he => by
    obtain ⟨v', env', h1, h2, h3⟩ := validator_run k (record .gate v)
      (env ++ [.normal, .normal, .normal, .normal]) _ h' hh (by simp [hl]) (by
        intro w hw; simp at hw; rcases hw with hw | hw <;> [exact he w hw; exact hw])
    refine ⟨v', env', h1, ?_, h3⟩
    rw [h2]
    simp [record_none, Forbidden]
  | .mul a b c k, v, env, h, h', hh, hl, he => by
    obtain ⟨v', env', h1, h2, h3⟩ := validator_run k (record .gate v)
      (env ++ [.normal, .normal, .normal]) _ h' hh (by simp [hl]) (by
        intro w hw; simp at hw; rcases hw with hw | hw <;> [exact he w hw; exact hw])
    refine ⟨v', env', h1, ?_, h3⟩
    rw [h2]
    simp [record_none, Forbidden]
  | .alloc x k, v, env, h, h', hh, hl, he => by
    obtain ⟨v', env', h1, h2, h3⟩ := validator_run k v (env ++ [.normal]) _ h' hh (by simp [hl]) (by
        intro w hw; simp at hw; rcases hw with hw | hw <;> [exact he w hw; exact hw])
    exact ⟨v', env', h1, h2, h3⟩
  | .add lc k, v, env, h, h', hh, hl, he => by
    rw [handles] at hh
    split at hh
    · rename_i hu
      obtain ⟨lc', e1, e2⟩ := resolveLc_validator hl he lc hu
      obtain ⟨v', env', h1, h2, h3⟩ := validator_run k
        (if rejectOne false lc' then record .one v else v) (env ++ [.normal]) _ h' hh (by simp [hl]) (by
          intro w hw; simp at hw; rcases hw with hw | hw <;> [exact he w hw; exact hw])
      refine ⟨v', env', ?_, ?_, h3⟩
      · rw [run]
        simp only [show (validatorD (F := F)).one = BondingWire.one from rfl, e1]
        exact h1
      · rw [h2, Forbidden, ← e2]
        by_cases hr : rejectOne false lc' = true
        · simp [hr, record_none]
        · simp [hr]
    · simp at hh
  | .enforce lc k, v, env, h, h', hh, hl, he => by
    rw [handles] at hh
    split at hh
    · rename_i hu
      obtain ⟨lc', e1, e2⟩ := resolveLc_validator hl he lc hu
      obtain ⟨v', env', h1, h2, h3⟩ := validator_run k
        (if rejectOne false lc' then record .one v else v) env _ h' hh hl he
      refine ⟨v', env', ?_, ?_, h3⟩
      · rw [run]
        simp only [show (validatorD (F := F)).one = BondingWire.one from rfl, e1]
        exact h1
      · rw [h2, Forbidden, ← e2]
        by_cases hr : rejectOne false lc' = true
        · simp [hr, record_none]
        · simp [hr]
    · simp at hh
  | .routine call b k, v, env, h, h', hh, hl, he => by
    rw [handles] at hh
    obtain ⟨hb, hh1, hh2⟩ := Option.bind_eq_some_iff.1 hh
    obtain ⟨v1, env1, e1, e2, e3, e4⟩ := validator_run b v env h hb hh1 hl he
    obtain ⟨v', env', h1, h2, h3⟩ := validator_run k v1 env1 hb h' hh2 e3 e4
    refine ⟨v', env', ?_, ?_, h3⟩
    · rw [run]
      simp only [show ∀ s, (validatorD (F := F)).enter call s = .ok s from fun _ => rfl,
        show ∀ s t, (validatorD (F := F)).leave call s t = .ok t from fun _ _ => rfl, bind_ok, e1]
      exact h1
    · rw [h2, e2, Forbidden]; tauto
  | .clone w k, v, env, h, h', hh, hl, he => by
    rw [handles] at hh
    split at hh
    · rename_i hw
      obtain ⟨x, hx⟩ := resolve_normal hl hw
      obtain ⟨v', env', h1, h2, h3⟩ := validator_run k v env _ h' hh (by simp [hl]) he
      refine ⟨v', env', ?_, h2, h3⟩
      rw [run]
      simp only [show (validatorD (F := F)).one = BondingWire.one from rfl, hx]
      exact h1
    · simp at hh
  | .drop w k, v, env, h, h', hh, hl, he => by
    rw [handles] at hh
    split at hh
    · rename_i hw
      obtain ⟨x, hx⟩ := resolve_normal hl hw
      obtain ⟨v', env', h1, h2, h3⟩ := validator_run k v env _ h' hh (by simp [hl]) he
      refine ⟨v', env', ?_, h2, h3⟩
      rw [run]
      simp only [show (validatorD (F := F)).one = BondingWire.one from rfl, hx]
      exact h1
    · simp at hh

/-- When a bonding object is built. -/
theorem bonding_cases {n : ℕ} {c : Circ F} (hu : c.WellUsed) :
    (Forbidden c.body → intoBondingObject n c = .error .invalidWitness) ∧
    (¬Forbidden c.body → intoBondingObject n c = (circuitObject n c).map (stripped n)) := by
  obtain ⟨h', hh⟩ := Props.body_handles hu
  obtain ⟨v, env, h1, h2, -⟩ := validator_run c.body none [] [] h' hh rfl (by simp)
  simp only [true_and] at h2
  constructor
  · intro hf
    rw [intoBondingObject, h1]
    rcases v with _ | v
    · exact absurd hf (h2.1 rfl)
    · rfl
  · intro hf
    rw [intoBondingObject, h1, h2.2 hf]
    rcases circuitObject n c with e | o <;> rfl

/-! ### The constant term -/

/-- The constraint on the constant wire is the only one at `y^0`. -/
theorem constraints_last (φ : Base → F) {c : Circ F} (hu : c.WellUsed) :
    ∃ l, constraints φ c = bondRows φ c ++ [⟨0, l, φ ⟨.b, 0, 0⟩⟩] ∧
      consExp (floorPlan c.counts) 0 l = 0 ∧
      (∀ r ∈ bondRows φ c, 0 < consExp (floorPlan c.counts) r.seg r.loc ∧
        consExp (floorPlan c.counts) r.seg r.loc < totalCons c.counts) ∧
      (bondRows φ c).Pairwise fun a b => consExp (floorPlan c.counts) a.seg a.loc ≠
        consExp (floorPlan c.counts) b.seg b.loc := by
  obtain ⟨s, es, os, h1, h2, h3, h4, h5, h6, h7⟩ := log_parts φ hu
  have h0 : (floorPlan c.counts)[0]? = some ⟨0, 0, (posRun c.main (Pos.gate {})).gates,
      (posRun c.main (Pos.gate {})).cons⟩ := rfl
  have hb : bondRows φ c = s.log ++ rowsFrom 0 s.pos.cons os := by
    rw [bondRows, h4, ← List.append_assoc, List.dropLast_concat]
  have hc : constraints φ c = bondRows φ c ++ [⟨0, s.pos.cons + os.length, φ ⟨.b, 0, 0⟩⟩] := by
    rw [hb, h4, List.append_assoc]
  have hl : consExp (floorPlan c.counts) 0 (s.pos.cons + os.length) = 0 := by
    simp only [consExp, h0, Option.map_some, Option.getD_some, h5]
    omega
  have hp := h7
  rw [hc, List.pairwise_append] at hp
  have h6' := h6
  rw [hc] at h6'
  refine ⟨_, hc, hl, fun r hr => ?_, ?_⟩
  · obtain ⟨sg, g1, g2⟩ := h6' r (List.mem_append_left _ hr)
    refine ⟨Nat.pos_of_ne_zero fun hz => ?_, consExp_lt g1 g2⟩
    obtain ⟨sg', g1', g2'⟩ := h6' ⟨0, s.pos.cons + os.length, φ ⟨.b, 0, 0⟩⟩ (by simp)
    exact hp.2.2 r hr ⟨0, s.pos.cons + os.length, φ ⟨.b, 0, 0⟩⟩ (by simp)
      (consExp_inj g1 g1' g2 g2' (by rw [hz]; exact hl.symm))
  · refine hp.1.imp_of_mem fun {a b} ha hb hab heq => hab ?_
    obtain ⟨sa, a1, a2⟩ := h6' a (List.mem_append_left _ ha)
    obtain ⟨sb, b1, b2⟩ := h6' b (List.mem_append_left _ hb)
    exact consExp_inj a1 b1 a2 b2 heq

theorem weigh_bond (φ : Base → F) {c : Circ F} (hu : c.WellUsed) (y : F) :
    weigh (floorPlan c.counts) y (constraints φ c) =
      weigh (floorPlan c.counts) y (bondRows φ c) + φ ⟨.b, 0, 0⟩ := by
  obtain ⟨l, h1, h2, -⟩ := constraints_last φ hu
  rw [h1, weigh_append]
  congr 1
  simp [weigh, h2]

theorem weigh_bond_zero (φ : Base → F) {c : Circ F} (hu : c.WellUsed) :
    weigh (floorPlan c.counts) 0 (bondRows φ c) = 0 := by
  obtain ⟨l, h1, h2, h3, -⟩ := constraints_last φ hu
  rw [weigh]
  refine List.sum_eq_zero fun v hv => ?_
  obtain ⟨q, hq, rfl⟩ := List.mem_map.1 hv
  rw [zero_pow (h3 q hq).1.ne', zero_mul]

theorem absGate_root (c : Circ F) (k : Kind) (l : ℕ) : absGate (floorPlan c.counts) ⟨k, 0, l⟩ = l := by
  have h0 : (floorPlan c.counts)[0]? = some ⟨0, 0, (posRun c.main (Pos.gate {})).gates,
      (posRun c.main (Pos.gate {})).cons⟩ := rfl
  simp [absGate, h0]

theorem wiringAt_zero {c : Circ F} (hu : c.WellUsed) (n : ℕ) (x : F) :
    wiringAt n (floorPlan c.counts) c x 0 = x ^ (2 * n) := by
  rw [wiringAt, weigh_bond _ hu, weigh_bond_zero _ hu, zero_add, absGate_root]
  simp [wiringExp]

/-- The stripped polynomial in `X`: the `b` wire of the SYSTEM gate loses one. -/
theorem stripped_sy {n : ℕ} (hn : 0 < n) {o : CircuitObject F} {y : F} {fp : List Seg}
    {p : Sparse.Poly F} (hp : o.sy y fp = some p) (hw : WellFormed (4 * n) p) :
    ∃ t, (stripped n o).sy y fp = some t ∧ WellFormed (4 * n) t ∧
      ∀ a, coeff t a = coeff p a - if a = 2 * n then 1 else 0 := by
  obtain ⟨q, hq, hqw, hqc⟩ := Props.C13_wiring_build (F := F) n ⟨[], [1], [], []⟩ (by simp)
    (by simp; omega) (by simp) (by simp)
  obtain ⟨t, ht, htw, htc⟩ := Sparse.combineAssign_spec (4 * n) (fun a b => a - b) (by simp) p q
    hw hqw
  refine ⟨t, ?_, htw, fun a => ?_⟩
  · simp only [stripped, hp, Option.bind_eq_bind, Option.bind_some, hq]
    exact ht
  · rw [htc]
    congr 1
    by_cases ha : a < 4 * n
    · have hk : ∃ k j, j < n ∧ a = wiringExp n j k := by
        by_cases h1 : a < n
        · exact ⟨.d, a, h1, rfl⟩
        by_cases h2 : a < 2 * n
        · exact ⟨.a, 2 * n - 1 - a, by omega, by simp only [wiringExp]; omega⟩
        by_cases h3 : a < 3 * n
        · exact ⟨.b, a - 2 * n, by omega, by simp only [wiringExp]; omega⟩
        · exact ⟨.c, 4 * n - 1 - a, by omega, by simp only [wiringExp]; omega⟩
      obtain ⟨k, j, hj, rfl⟩ := hk
      obtain ⟨e1, e2, e3, e4⟩ := hqc j hj
      cases k
      · rw [if_neg (by simp only [wiringExp]; omega)]
        exact e1.trans (by simp)
      · refine e2.trans ?_
        simp only [wiringExp]
        cases j
        · simp
        · simp
      · rw [if_neg (by simp only [wiringExp]; omega)]
        exact e3.trans (by simp)
      · rw [if_neg (by simp only [wiringExp]; omega)]
        exact e4.trans (by simp)
    · rw [Sparse.coeff_ge_of_wf hqw (by omega), if_neg (by omega)]

/-! ### Independence of the constant wire -/

/-- Two assignments agree on the wires an allocation can return, outside the SYSTEM gate. -/
def AgreeBD (φ ψ : Base → F) : Prop :=
  ∀ k s l, (k = .b ∨ k = .d) → (s, l) ≠ (0, 0) → φ ⟨k, s, l⟩ = ψ ⟨k, s, l⟩

/-- Synthesis is past the SYSTEM gate. -/
def Past (p : Pos) : Prop :=
  1 ≤ p.nseg ∧ (p.seg = 0 → 1 ≤ p.gates ∧ ∀ i, p.pend = some i → 1 ≤ i)

theorem resolveLc_indep (o o' : F) (env : List F) : ∀ lc : List (LcStep F WRef), ¬RefersOne lc →
    resolveLc o env lc = resolveLc o' env lc
  | [], _ => rfl
  | .gain c :: r, h => by
    rw [resolveLc, resolveLc, resolveLc_indep o o' env r fun ⟨c, hc⟩ => h ⟨c, by simp [hc]⟩]
  | .term .one c :: r, h => absurd ⟨c, by simp⟩ h
  | .term (.idx i) c :: r, h => by
    rw [resolveLc, resolveLc, resolveLc_indep o o' env r fun ⟨c, hc⟩ => h ⟨c, by simp [hc]⟩]
    rfl

theorem run_indep {φ ψ : Base → F} (hφ : AgreeBD φ ψ) : ∀ (p : Prog F), ¬Forbidden p →
    ∀ (s : Sem F) (env : List F), Past s.pos →
    run (semD φ) p s env = run (semD ψ) p s env ∧
      ∀ s' e', run (semD φ) p s env = .ok (s', e') → Past s'.pos
  | .done, _, s, env, hs => ⟨rfl, fun s' e' h => by cases h; exact hs⟩
  | .gate .., h, _, _, _ => absurd trivial h
  | .mul .., h, _, _, _ => absurd trivial h
  | .alloc v k, h, s, env, hs => by
    have hb : φ s.pos.allocBase = ψ s.pos.allocBase := by
      rcases hp : s.pos.pend with _ | i
      · simp only [Pos.allocBase, hp]
        refine hφ _ _ _ (.inl rfl) fun he => ?_
        simp only [Prod.mk.injEq] at he
        have := (hs.2 he.1).1; omega
      · simp only [Pos.allocBase, hp]
        refine hφ _ _ _ (.inr rfl) fun he => ?_
        simp only [Prod.mk.injEq] at he
        have := (hs.2 he.1).2 i hp; omega
    have hpast : Past s.pos.alloc := by
      rcases hp : s.pos.pend with _ | i
      · simp only [Pos.alloc, hp]
        exact ⟨hs.1, fun h0 => ⟨by simp, fun i hi => by
          simp only [Option.some.injEq] at hi
          rw [← hi]; exact (hs.2 h0).1⟩⟩
      · simp only [Pos.alloc, hp]
        exact ⟨hs.1, fun h0 => ⟨(hs.2 h0).1, fun i hi => by simp at hi⟩⟩
    have e1 : run (semD φ) (.alloc v k) s env =
        run (semD φ) k { s with pos := s.pos.alloc } (env ++ [φ s.pos.allocBase]) := rfl
    have e2 : run (semD ψ) (.alloc v k) s env =
        run (semD ψ) k { s with pos := s.pos.alloc } (env ++ [ψ s.pos.allocBase]) := rfl
    rw [e1, e2, hb]
    exact run_indep hφ k h _ _ hpast
  | .add lc k, h, s, env, hs => by
    rw [Forbidden, not_or] at h
    have hr := resolveLc_indep (semD φ).one (semD ψ).one env lc h.1
    rw [run, run, hr]
    rcases resolveLc (semD ψ).one env lc with e | lc'
    · exact ⟨rfl, fun s' e' h => by cases h⟩
    · exact run_indep hφ k h.2 s _ hs
  | .enforce lc k, h, s, env, hs => by
    rw [Forbidden, not_or] at h
    have hr := resolveLc_indep (semD φ).one (semD ψ).one env lc h.1
    rw [run, run, hr]
    rcases resolveLc (semD ψ).one env lc with e | lc'
    · exact ⟨rfl, fun s' e' h => by cases h⟩
    · exact run_indep hφ k h.2 ⟨s.pos.enforce, s.log ++ [⟨s.pos.seg, s.pos.cons, lcVal 1 lc'⟩]⟩ _ hs
  | .routine call b k, h, s, env, hs => by
    rw [Forbidden, not_or] at h
    have hin : Past s.pos.enter := ⟨by simp [Pos.enter], fun h0 => by
      simp only [Pos.enter] at h0; have := hs.1; omega⟩
    obtain ⟨e1, e2⟩ := run_indep hφ b h.1 ⟨s.pos.enter, []⟩ env hin
    have s1 : ∀ χ : Base → F, run (semD χ) (.routine call b k) s env =
        (run (semD χ) b ⟨s.pos.enter, []⟩ env >>= fun r =>
          run (semD χ) k ⟨s.pos.leave r.1.pos, s.log ++ r.1.log⟩ r.2) := fun χ => rfl
    rw [s1, s1, ← e1]
    rcases hr : run (semD φ) b ⟨s.pos.enter, []⟩ env with e | ⟨t, env'⟩
    · exact ⟨rfl, fun s' e' h => by cases h⟩
    · have hpl : Past (s.pos.leave t.pos) := ⟨(e2 t env' hr).1, hs.2⟩
      simp only [bind_ok]
      exact run_indep hφ k h.2 _ _ hpl
  | .clone w k, h, s, env, hs => by
    rw [run, run]
    rcases hr : resolve (semD φ).one env (.idx w) with e | x
    · rw [show resolve (semD ψ).one env (.idx w) = .error e from hr]
      exact ⟨rfl, fun s' e' h => by cases h⟩
    · rw [show resolve (semD ψ).one env (.idx w) = .ok x from hr]
      exact run_indep hφ k h s env hs
  | .drop w k, h, s, env, hs => by
    rw [run, run]
    rcases hr : resolve (semD φ).one env (.idx w) with e | x
    · rw [show resolve (semD ψ).one env (.idx w) = .error e from hr]
      exact ⟨rfl, fun s' e' h => by cases h⟩
    · rw [show resolve (semD ψ).one env (.idx w) = .ok x from hr]
      exact run_indep hφ k h s env hs

end Ragu.Circuit

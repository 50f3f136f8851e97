/-
Properties C26, C27, C28 and C29: stage masks, stage polynomials, the stage builder and bonding
circuits.
-/
import Verif.Lemmas.Bonding
import Verif.Props.Registry

set_option linter.unusedSectionVars false

namespace Ragu.Props
open Ragu Ragu.Circuit Ragu.Spec Finset
variable {F : Type} [Field F] [DecidableEq F]

/-! ### C26 -/

/-- C26: a mask can be made exactly when its gates fit the rank; skipping no gate panics. -/
theorem C26_new (n skip num : ℕ) :
    StageMask.new n skip num =
      (if skip = 0 then .error .panic
       else if n < skip + num then .error (.gateBound n) else .ok ⟨skip, num⟩) ∧
    StageMask.newFinal n skip =
      (if skip = 0 then .error .panic
       else if n < skip then .error (.gateBound n) else .ok ⟨skip, n - skip⟩) := by
  rw [StageMask.new, StageMask.newFinal]
  constructor
  · by_cases h : skip = 0
    · rw [if_neg (by omega), if_pos h]
    · rw [if_pos (by omega), if_neg h]
  · by_cases h : skip = 0
    · rw [if_neg (by omega), if_pos h]
    · rw [if_pos (by omega), if_neg h]

/-- C26: the closed form in both variables and the two restrictions of every mask that can be made
are the same polynomial, the sum of `(xy)^e` over the wires of all masked gates; none panics. -/
theorem C26_evaluators {n skip num : ℕ} {m : StageMask} (h : StageMask.new n skip num = .ok m)
    (x y : F) (fp : List Seg) :
    (m.object n).sxy x y fp = some (maskAt n skip num x y) ∧
    (∃ p, (m.object n).sx x fp = some p ∧ WellFormed (4 * n) p ∧
      Sparse.eval (4 * n) p y = maskAt n skip num x y) ∧
    (∃ p, (m.object n).sy y fp = some p ∧ WellFormed (4 * n) p ∧
      Sparse.eval (4 * n) p x = maskAt n skip num x y) := by
  rw [(C26_new n skip num).1] at h
  split_ifs at h with h1 h2
  cases h
  have hI := mask_implements (F := F) (m := ⟨skip, num⟩) (show 0 < skip by omega)
    (show skip + num ≤ n by omega)
  obtain ⟨p, p1, p2, p3⟩ := hI.sx x
  obtain ⟨q, q1, q2, q3⟩ := hI.sy y
  exact ⟨hI.sxy x y, ⟨p, p1, p2, p3 y⟩, ⟨q, q1, q2, q3 x⟩⟩

/-- C26: the final mask is the mask of all remaining gates. -/
theorem C26_final {n skip : ℕ} {m : StageMask} (h : StageMask.newFinal n skip = .ok m) :
    StageMask.new n skip (n - skip) = .ok m := by
  rw [(C26_new n skip 0).2] at h
  rw [(C26_new n skip _).1]
  split_ifs at h with h1 h2
  rw [if_neg h1, if_neg (by omega), h]

example : StageMask.new 8 2 3 = .ok ⟨2, 3⟩ ∧ StageMask.new 8 6 3 = .error (.gateBound 8) ∧
    StageMask.newFinal 8 5 = .ok ⟨5, 3⟩ := by decide
-- the mask of gates 2 and 3 of 4: only gate 1 is masked, whose wires have the exponents 6, 9, 14, 1
example : maskAt (F := ZMod 97) 4 2 2 1 3 = 3 ^ 6 + 3 ^ 9 + 3 ^ 14 + 3 ^ 1 := by decide +kernel

/-! ### C27 -/

/-- `r` passes the check against the mask at `y`: `revdot(r, mask(X, y)) = 0`, and computing it does
not panic (`bonding_impl`, crates/ragu_pcd/src/internal/claims.rs:108-112). -/
def PassesMask (n : ℕ) (m : StageMask) (r : Sparse.Poly F) (y : F) : Prop :=
  ∃ q, (m.object n).sy y [] = some q ∧ Sparse.revdot (4 * n) r q = 0

theorem passes_iff {n skip num : ℕ} {m : StageMask} (h : StageMask.new n skip num = .ok m)
    {r : Sparse.Poly F} (hr : WellFormed (4 * n) r) (y : F) :
    PassesMask n m r y ↔ ∑ e ∈ range (4 * n), maskCoeff n skip num r e * y ^ e = 0 := by
  rw [(C26_new n skip num).1] at h
  split_ifs at h with h1 h2
  cases h
  obtain ⟨q, q1, q2, q3⟩ := mask_revdot (m := ⟨skip, num⟩) (show 0 < skip by omega)
    (show skip + num ≤ n by omega) hr y
  constructor
  · rintro ⟨q', e1, e2⟩
    rw [q1, Option.some.injEq] at e1; subst e1
    rw [← q3, e2]
  · intro hz
    exact ⟨q, q1, by rw [q3, hz]⟩

/-- C27: a polynomial whose wires outside the stage's gates and the SYSTEM gate are zero passes
the stage's mask at every `y`. -/
theorem C27_complete {n skip num : ℕ} {m : StageMask} (h : StageMask.new n skip num = .ok m)
    {r : Sparse.Poly F} (hr : WellFormed (4 * n) r) (ho : OnlyIn n skip num r) (y : F) :
    PassesMask n m r y := by
  rw [passes_iff h hr]
  refine sum_eq_zero fun e he => ?_
  rw [onlyIn_iff.1 ho e (mem_range.1 he), zero_mul]

/-- C27: a polynomial that passes the mask at `4 n` points has no other nonzero wires. -/
theorem C27_sound {n skip num : ℕ} {m : StageMask} (h : StageMask.new n skip num = .ok m)
    {r : Sparse.Poly F} (hr : WellFormed (4 * n) r) (S : Finset F) (hS : 4 * n ≤ S.card)
    (hp : ∀ y ∈ S, PassesMask n m r y) : OnlyIn n skip num r :=
  onlyIn_iff.2 (coeffs_zero _ S hS fun y hy => (passes_iff h hr y).1 (hp y hy))

open Classical in
/-- C27: a misplaced polynomial passes at fewer than `4 n` points. -/
theorem C27_few {n skip num : ℕ} {m : StageMask} (h : StageMask.new n skip num = .ok m)
    {r : Sparse.Poly F} (hr : WellFormed (4 * n) r) (hbad : ¬OnlyIn n skip num r) (S : Finset F) :
    (S.filter fun y => PassesMask n m r y).card < 4 * n := by
  by_contra hc
  exact hbad (C27_sound h hr (S.filter fun y => PassesMask n m r y) (by omega)
    fun y hy => (mem_filter.1 hy).2)

/-- C27: every polynomial a stage produces passes the stage's own mask, for every blinding
factor, witness and `y`. -/
theorem C27_rx {n : ℕ} {c : Chain} {m : StageMask} (hm : c.mask n = .ok m) {alpha : F} {vs : List F}
    {p : Sparse.Poly F} (hp : c.rx n alpha vs = .ok p) (y : F) : PassesMask n m p y := by
  have hm' := hm
  rw [Chain.mask, (C26_new _ _ _).1] at hm'
  split_ifs at hm' with h1 h2
  have hv : vs.length ≤ c.values := by
    by_contra hc
    rw [Chain.rx, if_pos (by omega)] at hp; cases hp
  obtain ⟨q, q1, q2, q3⟩ := rx_spec (n := n) c alpha vs hv (by omega)
  rw [hp, Except.ok.injEq] at q1; subst q1
  refine C27_complete hm q2 (fun j hj hmask k => ?_) y
  obtain ⟨ea, ec, eb, ed⟩ := q3 j hj
  have hval : c.values ≤ 2 * c.numGates := by rw [Chain.numGates]; omega
  obtain ⟨hj0, hout⟩ := hmask
  have hz : ∀ i, vs.length ≤ i → vs.getD i 0 = 0 := fun i hi => by
    rw [List.getD_eq_getElem?_getD, List.getElem?_eq_none hi]; rfl
  cases k
  · exact ea
  · rw [eb]; split_ifs with hsk
    · exact hz _ (by omega)
    · rfl
  · exact ec
  · rw [ed, if_neg hj0]; split_ifs with hsk
    · exact hz _ (by omega)
    · rfl

/-- C27: the gates of a stage and those of any earlier stage in its chain are disjoint, and both
come before the gates left to the final trace. -/
theorem C27_disjoint {a c : Chain} (h : Ancestor a c) (j : ℕ)
    (ha : a.skipGates ≤ j ∧ j < a.skipGates + a.numGates) :
    j < c.skipGates ∧ j < c.skipGates + c.numGates ∧ 0 < j := by
  have := ancestor_below h
  have := skip_pos a
  omega

/-- C27: so in a sum of polynomials that pass the masks of an earlier stage `a`, of a later stage
`c` and the final mask of `c`, each gate's wires come from one of them. -/
theorem C27_sum {n : ℕ} {a c : Chain} (h : Ancestor a c) {p q r : Sparse.Poly F}
    (hp : OnlyIn n a.skipGates a.numGates p) (hq : OnlyIn n c.skipGates c.numGates q)
    (hr : OnlyIn n (c.skipGates + c.numGates) (n - (c.skipGates + c.numGates)) r)
    (j : ℕ) (hj : j < n) (hj0 : j ≠ 0) (k : Kind) :
    wireOf n p k j + wireOf n q k j + wireOf n r k j =
      if a.skipGates ≤ j ∧ j < a.skipGates + a.numGates then wireOf n p k j
      else if c.skipGates ≤ j ∧ j < c.skipGates + c.numGates then wireOf n q k j
      else if c.skipGates + c.numGates ≤ j then wireOf n r k j else 0 := by
  have hb := ancestor_below h
  by_cases h1 : a.skipGates ≤ j ∧ j < a.skipGates + a.numGates
  · rw [if_pos h1, hq j hj ⟨hj0, by omega⟩, hr j hj ⟨hj0, by omega⟩]; ring
  · rw [if_neg h1, hp j hj ⟨hj0, h1⟩]
    by_cases h2 : c.skipGates ≤ j ∧ j < c.skipGates + c.numGates
    · rw [if_pos h2, hr j hj ⟨hj0, by omega⟩]; ring
    · rw [if_neg h2, hq j hj ⟨hj0, h2⟩]
      by_cases h3 : c.skipGates + c.numGates ≤ j
      · rw [if_pos h3]; ring
      · rw [if_neg h3, hr j hj ⟨hj0, by omega⟩]; ring

/-- A chain of two stages: five values in three gates, then two values in one gate. -/
def demoChain : Chain := .child (.child .base ⟨5, 5⟩) ⟨2, 1⟩

example : demoChain.skipGates = 4 ∧ demoChain.numGates = 1 ∧ demoChain.mask 8 = .ok ⟨4, 1⟩ ∧
    demoChain.finalMask 8 = .ok ⟨5, 3⟩ ∧ demoChain.mask 4 = .error (.gateBound 4) := by decide
example : Ancestor (.child .base ⟨5, 5⟩) demoChain := .parent _ _
example : ∃ p, demoChain.rx 8 (11 : ZMod 97) [3] = .ok p ∧ wireOf 8 p .b 4 = 3 ∧ wireOf 8 p .d 0 = 11 := by
  obtain ⟨p, h1, _, h3⟩ := rx_spec (n := 8) demoChain (11 : ZMod 97) [3] (by decide) (by decide)
  exact ⟨p, h1, (h3 4 (by decide)).2.2.1, (h3 0 (by decide)).2.2.2⟩

/-! ### C28 -/

/-- C28: adding the stages of a chain fails exactly when some stage's gadget has more wires than
the stage declares values, and otherwise moves synthesis past exactly the gates the chain
reserves, with no spare wire pending: what follows starts at gate `skip + num` of the last stage. -/
theorem C28_exact (c : Chain) (k : Prog F) :
    (∀ p, multiStage c k = .ok p →
      posRun p (Pos.gate {}) = posRun k { gates := c.skipGates + c.numGates }) ∧
    ((∃ p, multiStage c k = .ok p) ↔ StagesFit c) ∧
    ((∃ e, multiStage c k = .error e) → ∃ g, multiStage c k = .error (.gateBound g)) := by
  refine ⟨fun p hp => ?_, ⟨fun ⟨p, hp⟩ => ?_, fun h => ⟨_, multiStage_eq c k h⟩⟩, fun ⟨e, he⟩ => ?_⟩
  · have hf : StagesFit c := by
      by_contra hc
      obtain ⟨g, hg⟩ := multiStage_fails c k hc
      rw [hg] at hp; cases hp
    rw [multiStage_eq c k hf, Except.ok.injEq] at hp
    subst hp
    rw [posRun_allocs k _ _ rfl, skip_chain]
    rfl
  · by_contra hc
    obtain ⟨g, hg⟩ := multiStage_fails c k hc
    rw [hg] at hp; cases hp
  · by_cases hf : StagesFit c
    · rw [multiStage_eq c k hf] at he; cases he
    · exact multiStage_fails c k hf

theorem firstWire_mono {a c : Chain} (h : Ancestor a c) :
    firstWire a + 2 * a.numGates ≤ 2 * chainGates c := by
  induction h with
  | parent s => rw [firstWire_eq, chainGates]; omega
  | step s _ ih => rw [chainGates]; omega

/-- C28: the `j`-th wire of a stage, in whichever position of the chain the stage is, is the wire
at which the stage's own polynomial holds its `j`-th value: `b` of a gate, then `d`, from gate
`skip` of the stage on. -/
theorem C28_wires (c : Chain) (k : Prog F) {p : Prog F} (hp : multiStage c k = .ok p)
    (φ : Base → F) :
    ∃ es, run (semD φ) p ⟨Pos.gate {}, []⟩ [] =
        run (semD φ) k ⟨{ gates := c.skipGates + c.numGates }, []⟩ es ∧
      es.length = firstWire c + 2 * c.numGates ∧
      ∀ d, (d = c ∨ Ancestor d c) → ∀ j < 2 * d.numGates,
        es[firstWire d + j]? =
          some (φ ⟨(stageWire d.skipGates j).1, 0, (stageWire d.skipGates j).2⟩) := by
  have hf : StagesFit c := ((C28_exact c k).2.1).1 ⟨p, hp⟩
  rw [multiStage_eq c k hf, Except.ok.injEq] at hp
  subst hp
  refine ⟨(List.range (2 * chainGates c)).map fun j =>
    φ ⟨(stageWire 1 j).1, 0, (stageWire 1 j).2⟩, ?_, ?_, fun d hd j hj => ?_⟩
  · rw [run_allocs φ k _ _ _ _ rfl, skip_chain]
    rfl
  · simp [firstWire_eq]
  · have hlt : firstWire d + j < 2 * chainGates c := by
      rcases hd with rfl | hd
      · rw [← firstWire_eq]; omega
      · have := firstWire_mono hd; omega
    have hfd := firstWire_eq d
    have hsd := skip_chain d
    rw [List.getElem?_map, List.getElem?_range hlt, Option.map_some]
    simp only [stageWire]
    have e1 : (firstWire d + j) % 2 = j % 2 := by omega
    have e2 : 1 + (firstWire d + j) / 2 = d.skipGates + j / 2 := by omega
    rw [e1, e2]

/-- C28: a stage's polynomial holds the `j`-th value at that wire, the blinding factor at `d` of
gate 0, and zero at every other wire. -/
theorem C28_rx {n : ℕ} (c : Chain) (alpha : F) (vs : List F) {p : Sparse.Poly F}
    (hp : c.rx n alpha vs = .ok p) :
    (∀ j < vs.length, wireOf n p (stageWire c.skipGates j).1 (stageWire c.skipGates j).2 = vs.getD j 0) ∧
    wireOf n p .d 0 = alpha ∧
    ∀ k i, i < n → (k, i) ≠ (.d, 0) → (∀ j < vs.length, (k, i) ≠ stageWire c.skipGates j) →
      wireOf n p k i = 0 := by
  have hv : vs.length ≤ c.values := by
    by_contra hc
    rw [Chain.rx, if_pos (by omega)] at hp; cases hp
  have hn : c.skipGates + c.numGates ≤ n := by
    by_contra hc
    rw [rx_panics c alpha vs hv (by omega)] at hp; cases hp
  obtain ⟨q, q1, q2, q3⟩ := rx_spec (n := n) c alpha vs hv hn
  rw [hp, Except.ok.injEq] at q1; subst q1
  have hs := skip_pos c
  have hval : c.values ≤ 2 * c.numGates := by rw [Chain.numGates]; omega
  refine ⟨fun j hj => ?_, ((q3 0 (by omega)).2.2.2).trans (if_pos rfl), fun k i hi hne hno => ?_⟩
  · obtain ⟨ea, ec, eb, ed⟩ := q3 (c.skipGates + j / 2) (by omega)
    simp only [stageWire]
    by_cases hj2 : j % 2 = 0
    · rw [if_pos hj2, eb, if_pos (by omega)]
      congr 1; omega
    · rw [if_neg hj2, ed, if_neg (by omega), if_pos (by omega)]
      congr 1; omega
  · obtain ⟨ea, ec, eb, ed⟩ := q3 i hi
    cases k
    · exact ea
    · rw [eb]
      split_ifs with hsk
      · rw [List.getD_eq_getElem?_getD, List.getElem?_eq_none ?_]
        · rfl
        · by_contra hc
          refine hno (2 * (i - c.skipGates)) (by omega) ?_
          simp only [stageWire, show 2 * (i - c.skipGates) % 2 = 0 by omega, if_true, Prod.mk.injEq,
            true_and]
          omega
      · rfl
    · exact ec
    · rw [ed]
      split_ifs with h0 hsk
      · subst h0; exact absurd rfl hne
      · rw [List.getD_eq_getElem?_getD, List.getElem?_eq_none ?_]
        · rfl
        · by_contra hc
          refine hno (2 * (i - c.skipGates) + 1) (by omega) ?_
          simp only [stageWire, show ¬(2 * (i - c.skipGates) + 1) % 2 = 0 by omega, if_false,
            Prod.mk.injEq, true_and]
          omega
      · rfl

/-- C28: when a stage's polynomial is computed: too many values is reported, too many gates for
the rank panics, and otherwise it succeeds. -/
theorem C28_rx_outcome {n : ℕ} (c : Chain) (alpha : F) (vs : List F) :
    (c.values < vs.length → c.rx n alpha vs = .error (.gateBound c.numGates)) ∧
    (vs.length ≤ c.values → n < c.skipGates + c.numGates → c.rx n alpha vs = .error .panic) ∧
    (vs.length ≤ c.values → c.skipGates + c.numGates ≤ n →
      ∃ p, c.rx n alpha vs = .ok p ∧ WellFormed (4 * n) p) := by
  refine ⟨fun h => by rw [Chain.rx, if_pos h], fun h1 h2 => rx_panics c alpha vs h1 h2,
    fun h1 h2 => ?_⟩
  obtain ⟨p, e1, e2, -⟩ := rx_spec (n := n) c alpha vs h1 h2
  exact ⟨p, e1, e2⟩

/-- C28: `generator_index_for_b` is the degree at which a stage's polynomial holds the first value
of the `i`-th gate. -/
theorem C28_generator {n : ℕ} (c : Chain) (alpha : F) (vs : List F) {p : Sparse.Poly F}
    (hp : c.rx n alpha vs = .ok p) {i g : ℕ} (hg : c.generatorIndexForB n i = some g)
    (hi : 2 * i < vs.length) : coeff p g = vs.getD (2 * i) 0 := by
  have h := (C28_rx c alpha vs hp).1 (2 * i) hi
  rw [Chain.generatorIndexForB] at hg
  split_ifs at hg with h1 h2
  rw [Option.some.injEq] at hg
  simp only [stageWire, show 2 * i % 2 = 0 by omega, if_true, wireOf, traceExp,
    show 2 * i / 2 = i by omega] at h
  rw [← hg, ← h]
  congr 1; omega

/-- C28: `generator_index_for_b` does not panic on a gate of a stage that fits. -/
theorem C28_generator_total {n : ℕ} (c : Chain) (hn : c.skipGates + c.numGates ≤ n) {i : ℕ}
    (hi : i < c.numGates) : ∃ g, c.generatorIndexForB n i = some g ∧ g < 2 * n := by
  have := skip_pos c
  exact ⟨_, by rw [Chain.generatorIndexForB, if_pos hi, if_pos (by omega)], by omega⟩

/-- C28: the final trace of a multi-stage circuit is zero on all gates of its stages, under every
schedule and blinding factor, and so passes the final mask of its last stage. -/
theorem C28_final_trace {n : ℕ} {c : Circ F} (hu : c.WellUsed) (hn : totalGates c.counts ≤ n)
    {ch : Chain} {k : Prog F} (hb : multiStage ch k = .ok c.body) {m : StageMask}
    (hm : ch.finalMask n = .ok m) {t : List (ASeg F)} (ht : TraceEval c t) (alpha : F)
    {r : Sparse.Poly F} (hr : assemble n (floorPlan c.counts) (t.map Prod.snd) alpha = .ok r) (y : F) :
    PassesMask n m r y := by
  have hf : StagesFit ch := ((C28_exact ch k).2.1).1 ⟨_, hb⟩
  rw [multiStage_eq ch k hf, Except.ok.injEq] at hb
  obtain ⟨r', hr', hwf, hval, -⟩ := C18_assemble hu hn ht alpha
  rw [hr, Except.ok.injEq] at hr'; subst hr'
  refine C27_complete (C26_final hm) hwf (fun j hj hmask κ => ?_) y
  obtain ⟨hj0, hout⟩ := hmask
  have hsk := skip_chain ch
  have hjs : j < 1 + chainGates ch := by
    rw [Chain.finalMask, (C26_new n _ 0).2] at hm
    split_ifs at hm with h1 h2
    omega
  have hseg := traceEval_segs hu ht
  have hroot := root_get c
  rw [← hseg, List.getElem?_map] at hroot
  obtain ⟨⟨path, g⟩, hg1, hg2⟩ := Option.map_eq_some_iff.1 hroot
  obtain ⟨g', e1, e2, e3, e4⟩ := own_allocs k (chainGates ch) ⟨[0], [0], [0], [(0 : F)]⟩
    ⟨rfl, rfl, rfl, by simp⟩
  have hgo : g = (own k g' none).1 := by
    simp only at hg2
    rw [hg2, ← hb, e1]
  have hlen : j < g.a.length := by
    rw [hgo]
    refine lt_of_lt_of_le ?_ (own_mono k g' none)
    rw [e3]; simpa using hjs
  have hz : ∀ κ, (g.col κ).getD j 0 = 0 := by
    intro κ
    rw [hgo, own_get k g' none e2 κ j (by rw [e3]; simpa using hjs) (by simp), e4]
    cases κ <;> simp [TSeg.col, List.getD_eq_getElem?_getD, hj0]
  obtain ⟨q1, q2, q3, q4⟩ := hval 0 path g hg1 j hlen (fun _ => by omega)
  simp only [assignment, absGate_root] at q1 q2 q3 q4
  cases κ
  · exact q1.trans (hz .a)
  · exact q2.trans (hz .b)
  · exact q3.trans (hz .c)
  · exact q4.trans (hz .d)

/-- C28: the gadget a stage hands out has the stage's first wires, in order; asking for more wires
than were allocated is an error. -/
theorem C28_inject {W : Type} : ∀ (m : ℕ) (ws : List W),
    inject m ws = if m ≤ ws.length then .ok (ws.take m) else .error .invalidWitness
  | 0, ws => by simp [inject]
  | m + 1, [] => by simp [inject]
  | m + 1, w :: ws => by
    rw [inject, C28_inject m ws]
    by_cases h : m ≤ ws.length
    · rw [if_pos h, if_pos (by simpa using h)]; rfl
    · rw [if_neg h, if_neg (by simpa using h)]; rfl

example : StagesFit demoChain := ⟨⟨trivial, by decide⟩, by decide⟩
example : ¬StagesFit (.child .base ⟨2, 3⟩) := fun h => absurd h.2 (by decide)
example : demoChain.generatorIndexForB 8 0 = some 11 := by decide

/-! ### C29 -/

/-- C29: a bonding object is built exactly from circuits that create no gates, refer to no constant
and fit the rank; a forbidden call anywhere, also inside a routine, is reported as an invalid
witness. -/
theorem C29_accepts {n : ℕ} {c : Circ F} (hu : c.WellUsed) :
    (Forbidden c.body → intoBondingObject n c = .error .invalidWitness) ∧
    ((∃ o, intoBondingObject n c = .ok o) ↔
      ¬Forbidden c.body ∧ totalGates c.counts ≤ n ∧ totalCons c.counts < 4 * n) := by
  obtain ⟨h1, h2⟩ := bonding_cases (n := n) hu
  refine ⟨h1, ?_⟩
  by_cases hf : Forbidden c.body
  · rw [h1 hf]
    simp [hf]
  · rw [h2 hf]
    have hc := (C22_limits n c hu).2.2
    constructor
    · rintro ⟨o, ho⟩
      rcases hi : circuitObject n c with e | o'
      · rw [hi] at ho; cases ho
      · obtain ⟨m, hm, -⟩ := circuitObject_ok hi
        obtain ⟨a, b⟩ := hc.1 ⟨m, hm⟩
        exact ⟨hf, b, a⟩
    · rintro ⟨-, a, b⟩
      obtain ⟨m, hm⟩ := hc.2 ⟨b, a⟩
      refine ⟨stripped n (intoRawCircuitObject n c m), ?_⟩
      rw [circuitObject, hm]
      rfl

theorem bonding_ok {n : ℕ} {c : Circ F} (hu : c.WellUsed) {o : CircuitObject F}
    (ho : intoBondingObject n c = .ok o) :
    ¬Forbidden c.body ∧ ∃ i m, circuitObject n c = .ok i ∧ intoCircuitObject n c = .ok m ∧
      i = intoRawCircuitObject n c m ∧ o = stripped n i ∧ m.segments = c.counts ∧
      totalGates c.counts ≤ n ∧ totalCons c.counts < 4 * n := by
  obtain ⟨h1, h2⟩ := bonding_cases (n := n) hu
  by_cases hf : Forbidden c.body
  · rw [h1 hf] at ho; cases ho
  · rw [h2 hf] at ho
    rcases hi : circuitObject n c with e | i
    · rw [hi] at ho; cases ho
    · rw [hi] at ho
      obtain ⟨m, hm, hio⟩ := circuitObject_ok hi
      obtain ⟨g1, g2, g3⟩ := registered hu hm
      exact ⟨hf, i, m, rfl, hm, hio, by cases ho; rfl, g3, g1, g2⟩

theorem total_pos (c : Circ F) : 0 < totalGates c.counts := by
  have := (posRun_mono c.main (Pos.gate {})).1
  simp only [totalGates, Circ.counts, List.map_cons, List.sum_cons, Pos.gate] at this ⊢
  omega

/-- C29: in all three evaluators the polynomial of a bonding object is that of the circuit without
the constraint on the constant wire, and its constant term in `Y` is zero. -/
theorem C29_evaluators {n : ℕ} {c : Circ F} (hu : c.WellUsed) {o : CircuitObject F}
    (ho : intoBondingObject n c = .ok o) :
    Implements n o (fun x y => wiringAt n (floorPlan c.counts) c x y - x ^ (2 * n)) ∧
    (∀ x, wiringAt n (floorPlan c.counts) c x 0 - x ^ (2 * n) = 0) := by
  obtain ⟨-, i, m, hi, hm, hio, rfl, hseg, hg, hN⟩ := bonding_ok hu ho
  have h0 := wiringAt_zero hu n (F := F)
  refine ⟨?_, fun x => by rw [h0, sub_self]⟩
  have hI := circuit_implements hu hi
  rw [hio] at hI
  simp only [intoRawCircuitObject, hseg] at hI
  have hn := total_pos c
  rw [hio]
  simp only [intoRawCircuitObject, hseg]
  exact stripped_implements (by omega) hI h0

/-- C29: what a bonding object checks. For every trace polynomial `r`, its check at `y` is the sum of
the circuit's constraints other than the one on the constant wire, each at its own positive power of
`y`, valued at the wires of `r`. -/
theorem C29_meaning {n : ℕ} {c : Circ F} (hu : c.WellUsed) {o : CircuitObject F}
    (ho : intoBondingObject n c = .ok o) {r : Sparse.Poly F} (hr : WellFormed (4 * n) r) (y : F) :
    ∃ p, o.sy y (floorPlan o.segmentRecords) = some p ∧ WellFormed (4 * n) p ∧
      Sparse.revdot (4 * n) r p =
        weigh (floorPlan c.counts) y (bondRows (assignment n (floorPlan c.counts) r) c) := by
  obtain ⟨-, i, m, hi, hm, hio, rfl, hseg, hg, hN⟩ := bonding_ok hu ho
  have hn := total_pos c
  obtain ⟨p, hp, hpw, hfun⟩ := syEval_functional hu hg hN y
  have hpi : i.sy y (floorPlan c.counts) = some p := by
    rw [hio, intoRawCircuitObject]
    simp only [hp, Circuit.expect]
  obtain ⟨t, h1, h2, h3⟩ := stripped_sy (n := n) (by omega) hpi hpw
  have hsr : (stripped n i).segmentRecords = c.counts := by
    rw [hio, ← hseg]; rfl
  refine ⟨t, by rw [hsr]; exact h1, h2, ?_⟩
  have hf := hfun (fun k i => wireOf n r k i)
  rw [show (fun b : Base => wireOf n r b.kind (absGate (floorPlan c.counts) b)) =
    assignment n (floorPlan c.counts) r from rfl, weigh_bond _ hu] at hf
  have hone : assignment n (floorPlan c.counts) r ⟨.b, 0, 0⟩ = coeff r (2 * n - 1) := by
    simp only [assignment, absGate_root, wireOf, traceExp, Nat.sub_zero]
  rw [← add_right_cancel_iff (a := coeff r (2 * n - 1)), ← hone, ← hf, hone,
    C11_revdot _ _ _ hr h2, sum_views]
  have hlast : coeff r (2 * n - 1) = ∑ i ∈ range n,
      (if i = 0 then coeff r (2 * n - 1) else 0) := by
    rw [sum_ite_eq' (range n) 0, if_pos (mem_range.2 (by omega))]
  rw [hlast, ← sum_add_distrib]
  refine sum_congr rfl fun i hi => ?_
  have hi := mem_range.1 hi
  have e1 : 4 * n - 1 - (2 * n - 1 - i) = 2 * n + i := by omega
  have e2 : 4 * n - 1 - (2 * n + i) = 2 * n - 1 - i := by omega
  have e3 : 4 * n - 1 - (4 * n - 1 - i) = i := by omega
  simp only [h3, e1, e2, e3, wireOf, traceExp]
  rw [if_neg (show ¬2 * n - 1 - i = 2 * n by omega), if_neg (show ¬4 * n - 1 - i = 2 * n by omega),
    if_neg (show ¬i = 2 * n by omega)]
  by_cases h0 : i = 0
  · subst h0
    rw [if_pos rfl, if_pos (by omega)]
    simp only [Nat.sub_zero, Nat.add_zero]
    ring
  · rw [if_neg h0, if_neg (by omega)]
    ring

/-- C29: so the check passes at `4 n` points exactly when every such constraint is met. -/
theorem C29_sound {n : ℕ} {c : Circ F} (hu : c.WellUsed) {o : CircuitObject F}
    (ho : intoBondingObject n c = .ok o) {r : Sparse.Poly F} (hr : WellFormed (4 * n) r)
    (S : Finset F) (hS : 4 * n ≤ S.card) :
    (∀ y ∈ S, ∃ p, o.sy y (floorPlan o.segmentRecords) = some p ∧ Sparse.revdot (4 * n) r p = 0) ↔
      ∀ row ∈ bondRows (assignment n (floorPlan c.counts) r) c, row.val = 0 := by
  obtain ⟨-, i, m, hi, hm, hio, -, hseg, hg, hN⟩ := bonding_ok hu ho
  obtain ⟨l, h1, h2, h3, h4⟩ := constraints_last (assignment n (floorPlan c.counts) r) hu
  constructor
  · intro h
    refine weigh_all_zero (N := 4 * n) S hS (fun q hq => ((h3 q hq).2).trans hN) h4 fun y hy => ?_
    obtain ⟨p, e1, e2⟩ := h y hy
    obtain ⟨p', g1, _, g3⟩ := C29_meaning hu ho hr y
    rw [e1, Option.some.injEq] at g1; subst g1
    rw [← g3, e2]
  · intro h y _
    obtain ⟨p, g1, _, g3⟩ := C29_meaning hu ho hr y
    refine ⟨p, g1, ?_⟩
    rw [g3, weigh]
    refine List.sum_eq_zero fun v hv => ?_
    obtain ⟨q, hq, rfl⟩ := List.mem_map.1 hv
    rw [h q hq, mul_zero]

/-- C29: for an accepted circuit the constraints made by the circuit itself do not depend on the
SYSTEM gate, and use only wires handed out by allocation: assignments that agree on the `b` and
`d` wires of all other gates give the same constraints. -/
theorem C29_independent {n : ℕ} {c : Circ F} (hu : c.WellUsed) {o : CircuitObject F}
    (ho : intoBondingObject n c = .ok o) {φ ψ : Base → F}
    (h : ∀ k s l, (k = .b ∨ k = .d) → (s, l) ≠ (0, 0) → φ ⟨k, s, l⟩ = ψ ⟨k, s, l⟩) :
    run (semD φ) c.body ⟨Pos.gate {}, []⟩ [] = run (semD ψ) c.body ⟨Pos.gate {}, []⟩ [] :=
  (run_indep h c.body (bonding_ok hu ho).1 _ _ ⟨by simp [Pos.gate], fun _ => ⟨by simp [Pos.gate], by
    simp [Pos.gate]⟩⟩).1

/-- Two stages of one value each, which the circuit enforces to be equal inside a routine. -/
def demoBond : Circ (ZMod 97) where
  body := .alloc 0 <| .alloc 0 <| .alloc 0 <| .alloc 0 <|
    .routine {} (.add [.term (.idx 0) .two] <|
      .enforce [.term (.idx 4) .one, .term (.idx 2) .negativeOne] .done) .done
  outs := []
  cleanup := [0, 1, 2, 3, 4]

theorem demoBond_wellUsed : demoBond.WellUsed := ⟨_, rfl, by decide⟩

theorem demoBond_free : ¬Forbidden demoBond.body := by
  simp [demoBond, Forbidden, RefersOne]

example : ∃ o, intoBondingObject 8 demoBond = .ok o :=
  (C29_accepts demoBond_wellUsed).2.2 ⟨demoBond_free, by decide, by decide⟩
example : Forbidden demo.body := trivial
example : multiStage (.child (.child .base ⟨1, 1⟩) ⟨2, 1⟩)
    (.routine {} (.add [.term (.idx 0) .two] <|
      .enforce [.term (.idx 4) .one, .term (.idx 2) .negativeOne] .done) .done) =
    .ok demoBond.body := by
  rw [multiStage_eq (.child (.child .base ⟨1, 1⟩) ⟨2, 1⟩) _ ⟨⟨trivial, by decide⟩, by decide⟩]; rfl

/-- A circuit that makes no call at all and returns the constant wire as its output. -/
def outputsOne : Circ (ZMod 97) := ⟨.done, [.one], []⟩

/-- C29 (finding): the validator runs only the circuit's own calls, not the constraints made for
its outputs, so a bonding circuit that returns `ONE` as output is accepted although its polynomial
then constrains the `ONE` wire: at every `x` and `y` it is `y x^(2n)`. -/
theorem C29_output_one_accepted :
    ∃ o, intoBondingObject 8 outputsOne = .ok o ∧
      Implements 8 o fun x y => y * x ^ 16 := by
  have hu : outputsOne.WellUsed := ⟨_, rfl, by decide⟩
  obtain ⟨o, ho⟩ := (C29_accepts (n := 8) hu).2.2 ⟨not_false, by decide, by decide⟩
  refine ⟨o, ho, ?_⟩
  have := (C29_evaluators hu ho).1
  have e : (fun x y : ZMod 97 => wiringAt 8 (floorPlan outputsOne.counts) outputsOne x y - x ^ (2 * 8)) =
      fun x y => y * x ^ 16 := by
    funext x y
    have : wiringAt 8 (floorPlan outputsOne.counts) outputsOne x y =
        y ^ 1 * (((1 : ZMod 97) * 1 * x ^ 16 + 0)) + (y ^ 0 * ((1 : ZMod 97) * 1 * x ^ 16 + 0) + 0) := rfl
    rw [this]; ring
  rwa [e] at this

end Ragu.Props

/-
Multi-stage circuits: the sum of the final trace and the stage polynomials is the trace of the
circuit with the stages' values in place.
-/
import Verif.Lemmas.Shape
import Verif.Spec.MultiStage
import Verif.Lemmas.Exec
import Verif.Lemmas.Staging
import Verif.Props.Staging

set_option linter.unusedSectionVars false

namespace Ragu.Circuit
open Ragu Ragu.Spec
variable {F : Type} [Field F] [DecidableEq F]

/-- Allocations of the given values. -/
def allocVals : List F → Prog F → Prog F
  | [], k => k
  | v :: vs, k => .alloc v (allocVals vs k)

theorem blank_allocZeros (m : ℕ) (k : Prog F) : (allocZeros m k).blank = allocZeros m k.blank := by
  induction m with
  | zero => rfl
  | succ m ih => simp [allocZeros, Prog.blank, ih]

theorem blank_allocVals (es : List F) (k : Prog F) :
    (allocVals es k).blank = allocZeros es.length k.blank := by
  induction es with
  | nil => rfl
  | cons v es ih => simp [allocVals, allocZeros, Prog.blank, ih]

theorem run_allocVals (es : List F) (k : Prog F) (K : Checks F) : ∀ env,
    run valD (allocVals es k) K env = run valD k K (env ++ es) := by
  induction es with
  | nil => intro env; simp [allocVals]
  | cons v es ih =>
    intro env
    have : run valD (allocVals (v :: es) k) K env = run valD (allocVals es k) K (env ++ [v]) := rfl
    rw [this, ih]; simp

theorem dfs_allocVals (es : List F) (k : Prog F) (p : List ℕ) (j : ℕ) :
    dfs (allocVals es k) p j = dfs k p j := by
  induction es with
  | nil => rfl
  | cons v es ih => simpa [allocVals, dfs] using ih

theorem dfs_allocZeros (m : ℕ) (k : Prog F) (p : List ℕ) (j : ℕ) :
    dfs (allocZeros m k) p j = dfs k p j := by
  induction m with
  | zero => rfl
  | succ m ih => simpa [allocZeros, dfs] using ih

/-- What a segment holds after the stages' wires have been allocated. -/
theorem own_allocVals (k : Prog F) : ∀ (m : ℕ) (es : List F) (g : TSeg F), es.length = 2 * m →
    Good g none →
    ∃ g', own (allocVals es k) g none = own k g' none ∧ Good g' none ∧
      g'.a.length = g.a.length + m ∧
      (∀ κ i, i < g.a.length → (g'.col κ).getD i 0 = (g.col κ).getD i 0) ∧
      (∀ i < m, (g'.col .a).getD (g.a.length + i) 0 = 0 ∧
        (g'.col .b).getD (g.a.length + i) 0 = es.getD (2 * i) 0 ∧
        (g'.col .c).getD (g.a.length + i) 0 = 0 ∧
        (g'.col .d).getD (g.a.length + i) 0 = es.getD (2 * i + 1) 0)
  | 0, es, g, hl, hg => by
    have : es = [] := List.length_eq_zero_iff.1 (by omega)
    subst this
    exact ⟨g, rfl, hg, by simp, fun _ _ _ => rfl, fun i hi => by omega⟩
  | m + 1, es, g, hl, hg => by
    match es, hl with
    | v :: w :: es, hl =>
      obtain ⟨h1, h2, h3, _⟩ := id hg
      have hset : (g.d ++ [(0 : F)]).set g.a.length w = g.d ++ [w] := by
        rw [List.set_append_right _ _ (by omega)]
        simp [h3]
      have hstep : own (allocVals (v :: w :: es) k) g none =
          own (allocVals es k) (g.push 0 v 0 w) none := by
        simp only [allocVals, own, TSeg.push, hset]
      obtain ⟨g', e1, e2, e3, e4, e5⟩ := own_allocVals k m es (g.push 0 v 0 w)
        (by simp at hl ⊢; omega) (hg.push _ _ _ _)
      have hpl : (g.push 0 v 0 w).a.length = g.a.length + 1 := by simp [TSeg.push]
      have hsn : ∀ (l : List F) (x : F), l.length = g.a.length →
          (l ++ [x]).getD g.a.length 0 = x := by
        intro l x hl
        rw [getD_snoc, if_neg (by omega), if_pos hl.symm]
      refine ⟨g', hstep.trans e1, e2, by rw [e3, hpl]; omega, fun κ i hi => ?_, fun i hi => ?_⟩
      · rw [e4 κ i (by omega)]
        cases κ <;> simp only [TSeg.push, TSeg.col, List.getD_eq_getElem?_getD] <;>
          rw [List.getElem?_append_left (by omega)]
      · rcases i with _ | i
        · simp only [Nat.add_zero, Nat.mul_zero, Nat.zero_add]
          refine ⟨?_, ?_, ?_, ?_⟩ <;> rw [e4 _ _ (by omega)] <;>
            simp only [TSeg.push, TSeg.col]
          · exact hsn g.a 0 rfl
          · exact hsn g.b v h1
          · exact hsn g.c 0 h2
          · exact hsn g.d w h3
        · have := e5 i (by omega)
          rw [hpl, show g.a.length + 1 + i = g.a.length + (i + 1) by omega] at this
          exact this

/-- Values recorded after a point do not depend on what was recorded before it. -/
theorem own_suffix (prog : Prog F) : ∀ (g g' : TSeg F) (p : Option ℕ) (lo : ℕ), Good g p → Good g' p →
    g.a.length = g'.a.length → (∀ i, p = some i → lo ≤ i) → lo ≤ g.a.length →
    (∀ κ i, lo ≤ i → (g.col κ).getD i 0 = (g'.col κ).getD i 0) →
    (own prog g p).1.a.length = (own prog g' p).1.a.length ∧
    ∀ κ i, lo ≤ i → ((own prog g p).1.col κ).getD i 0 = ((own prog g' p).1.col κ).getD i 0 := by
  have hpush : ∀ (g g' : TSeg F) (p : Option ℕ) (lo : ℕ), Good g p → Good g' p →
      g.a.length = g'.a.length →
      (∀ κ i, lo ≤ i → (g.col κ).getD i 0 = (g'.col κ).getD i 0) → ∀ a b c d,
      (∀ κ i, lo ≤ i → ((g.push a b c d).col κ).getD i 0 = ((g'.push a b c d).col κ).getD i 0) := by
    intro g g' p lo hg hg' hl h a b c d κ i hi
    obtain ⟨h1, h2, h3, _⟩ := hg
    obtain ⟨k1, k2, k3, _⟩ := hg'
    have := h κ i hi
    cases κ <;> simp only [TSeg.push, TSeg.col, getD_snoc] at this ⊢ <;> rw [this]
    · rw [hl]
    · rw [h1, k1, hl]
    · rw [h2, k2, hl]
    · rw [h3, k3, hl]
  induction prog with
  | done => intro g g' p lo _ _ hl _ _ h; exact ⟨hl, h⟩
  | gate a b c d q ih | mul a b c q ih =>
    intro g g' p lo hg hg' hl hp hlo h
    exact ih _ _ _ lo (hg.push _ _ _ _) (hg'.push _ _ _ _) (by simp [TSeg.push, hl]) hp
      (by simp [TSeg.push]; omega) (hpush g g' p lo hg hg' hl h _ _ _ _)
  | alloc v q ih =>
    intro g g' p lo hg hg' hl hp hlo h
    cases p with
    | some j =>
      refine ih ⟨g.a, g.b, g.c, g.d.set j v⟩ ⟨g'.a, g'.b, g'.c, g'.d.set j v⟩ none lo
        ⟨hg.1, hg.2.1, by simp [hg.2.2.1], by simp⟩ ⟨hg'.1, hg'.2.1, by simp [hg'.2.2.1], by simp⟩
        hl (by simp) hlo ?_
      intro κ i hi
      cases κ
      · exact h .a i hi
      · exact h .b i hi
      · exact h .c i hi
      · have := h .d i hi
        simp only [TSeg.col, List.getD_eq_getElem?_getD, List.getElem?_set] at this ⊢
        rw [hg.2.2.1, hg'.2.2.1, hl]
        split
        · rfl
        · exact this
    | none =>
      have hG : ∀ g : TSeg F, Good g none → Good (g.push 0 v 0 0) (some g.a.length) := by
        intro g hg
        have := hg.push 0 v 0 0
        refine ⟨this.1, this.2.1, this.2.2.1, ?_⟩
        intro j hj
        simp only [Option.some.injEq] at hj
        subst hj
        simp [TSeg.push]
      have hg2 := hG g' hg'
      rw [← hl] at hg2
      simp only [own, ← hl]
      refine ih _ _ _ lo (hG g hg) hg2 (by simp [TSeg.push, hl]) ?_ (by simp [TSeg.push]; omega)
        (hpush g g' _ lo hg hg' hl h _ _ _ _)
      intro i hi
      simp only [Option.some.injEq] at hi
      omega
  | add lc q ih | enforce lc q ih | clone w q ih | drop w q ih =>
    intro g g' p lo hg hg' hl hp hlo h; exact ih _ _ p lo hg hg' hl hp hlo h
  | routine c b q ihb ihq =>
    intro g g' p lo hg hg' hl hp hlo h; exact ihq _ _ p lo hg hg' hl hp hlo h

/-- The stages' values as the wires of the first gates. -/
def stageCol (es : List F) (κ : Kind) (i : ℕ) : F :=
  match κ with
  | .a => 0
  | .b => es.getD (2 * i) 0
  | .c => 0
  | .d => es.getD (2 * i + 1) 0

theorem traced_flatten (c : Circ F) (alpha : F) (κ : Kind) {i : ℕ} (hi : i ≠ 0) :
    traced c alpha κ i = ((segsOf c).map fun s => s.col κ).flatten.getD i 0 := by
  cases κ
  · rfl
  · simp only [traced, if_neg hi]; rfl
  · rfl
  · simp only [traced, if_neg hi]; rfl

theorem flatten_head (κ : Kind) (x : TSeg F) (xs : List (TSeg F)) (hx : (x.col κ).length = x.a.length)
    (i : ℕ) : ((x :: xs).map fun s => s.col κ).flatten.getD i 0 =
      if i < x.a.length then (x.col κ).getD i 0
      else (xs.map fun s => s.col κ).flatten.getD (i - x.a.length) 0 := by
  simp only [List.map_cons, List.flatten_cons, List.getD_eq_getElem?_getD]
  split
  · rw [List.getElem?_append_left (by omega)]
  · rw [List.getElem?_append_right (by omega), hx]

/-- The trace of a multi-stage circuit, and the trace it would have with the stages' values in
place. -/
theorem traced_stages (k : Prog F) (outs : List WRef) (cl : List ℕ) (m : ℕ) (es : List F)
    (hes : es.length = 2 * m) (alpha beta : F) (κ : Kind) {i : ℕ} (hi : i ≠ 0) :
    (i ≤ m → traced ⟨allocZeros (2 * m) k, outs, cl⟩ alpha κ i = 0 ∧
      traced ⟨allocVals es k, outs, cl⟩ beta κ i = stageCol es κ (i - 1)) ∧
    (m < i → traced ⟨allocVals es k, outs, cl⟩ beta κ i =
      traced ⟨allocZeros (2 * m) k, outs, cl⟩ alpha κ i) := by
  have hg0 : Good (⟨[0], [0], [0], [0]⟩ : TSeg F) none := ⟨rfl, rfl, rfl, by simp⟩
  obtain ⟨g1, a1, a2, a3, a4⟩ := own_allocs k m ⟨[0], [0], [0], [0]⟩ hg0
  obtain ⟨g2, b1, b2, b3, b4, b5⟩ := own_allocVals k m es ⟨[0], [0], [0], [0]⟩ hes hg0
  simp only [List.length_cons, List.length_nil, Nat.zero_add] at a3 b3 b4 b5
  rw [traced_flatten _ _ _ hi, traced_flatten _ _ _ hi]
  simp only [segsOf, canon, List.map_cons, dfs_allocVals, dfs_allocZeros, a1, b1]
  have hr : ∀ (g : TSeg F), Good g none →
      ((own k g none).1.col κ).length = (own k g none).1.a.length := by
    intro g hg
    have hG := own_good k g none hg
    refine col_length ⟨hG.1, hG.2.1, hG.2.2.1, by simp⟩ κ
  have hlz : ∀ g : TSeg F, g.a.length = 1 + m → Good g none → 1 + m ≤ (own k g none).1.a.length := by
    intro g h1 h2
    have := own_mono k g none
    omega
  obtain ⟨s1, s2⟩ := own_suffix k g1 g2 none (1 + m) a2 b2 (by omega) (by simp) (by omega) (by
    intro κ i hi
    have h1 : g1.a.length ≤ i := by omega
    have h2 : g2.a.length ≤ i := by omega
    have e1 := col_length ⟨a2.1, a2.2.1, a2.2.2.1, by simp⟩ κ
    have e2 := col_length ⟨b2.1, b2.2.1, b2.2.2.1, by simp⟩ κ
    rw [List.getD_eq_getElem?_getD, List.getD_eq_getElem?_getD, List.getElem?_eq_none (by omega),
      List.getElem?_eq_none (by omega)])
  have f1 := flatten_head κ (own k g1 none).1 (List.map Prod.snd (dfs k [] 0)) (hr g1 a2) i
  have f2 := flatten_head κ (own k g2 none).1 (List.map Prod.snd (dfs k [] 0)) (hr g2 b2) i
  simp only [List.map_cons] at f1 f2
  rw [f1, f2]
  have hle1 := hlz g1 a3 a2
  have hle2 := hlz g2 b3 b2
  constructor
  · intro him
    rw [if_pos (by omega), if_pos (by omega)]
    rw [own_get k g1 none a2 κ i (by omega) (by simp), own_get k g2 none b2 κ i (by omega) (by simp),
      a4]
    obtain ⟨c1, c2, c3, c4⟩ := b5 (i - 1) (by omega)
    rw [show 1 + (i - 1) = i by omega] at c1 c2 c3 c4
    refine ⟨?_, ?_⟩
    · obtain ⟨j, rfl⟩ : ∃ j, i = j + 1 := ⟨i - 1, by omega⟩
      cases κ <;> simp [TSeg.col]
    · cases κ
      · exact c1
      · exact c2
      · exact c3
      · exact c4
  · intro him
    rw [s1, s2 κ i (by omega)]

theorem traced_zero (c : Circ F) (alpha : F) : traced c alpha .a 0 = 0 ∧ traced c alpha .b 0 = 1 ∧
    traced c alpha .c 0 = 0 ∧ traced c alpha .d 0 = alpha := by
  have hz : ∀ k, ((segsOf c).map fun s => s.col k).flatten.getD 0 0 = 0 := by
    intro k
    have hl : 0 < ((own c.body ⟨[0], [0], [0], [0]⟩ none).1.col k).length := by
      rw [col_length (segsOf_good c _ (List.mem_of_getElem? (root_get c)))]
      exact lt_of_lt_of_le (by simp) (own_mono c.body _ none)
    have := flatten_get (fun s : TSeg F => s.col k) (segsOf c) 0 _ 0 (root_get c) hl
    simp only [List.take_zero, List.map_nil, List.sum_nil, Nat.add_zero] at this
    rw [this, root_zero]
  exact ⟨hz .a, by simp [traced], hz .c, by simp [traced]⟩

/-- What the stage polynomials together contribute to wire `κ` of gate `i`. -/
def stagePart (m : ℕ) (es : List F) (beta : F) (κ : Kind) (i : ℕ) : F :=
  if i = 0 then (match κ with | .d => beta | _ => 0)
  else if i ≤ m then stageCol es κ (i - 1) else 0

theorem multi_run {c : Circ F} {n : ℕ} (hn : totalGates c.counts ≤ n) {ch : Chain} {k : Prog F}
    (hb : multiStage ch k = .ok c.body) {alpha beta : F} {rf r : Sparse.Poly F}
    (hrf : ∀ i < n, ∀ κ, wireOf n rf κ i = traced c alpha κ i) {es : List F}
    (hes : es.length = 2 * chainGates ch)
    (hr : ∀ i < n, ∀ κ, wireOf n r κ i = wireOf n rf κ i + stagePart (chainGates ch) es beta κ i)
    {K : Checks F} {env : List F} (hk : run valD k {} es = .ok (K, env)) :
    ∃ s, run (semD (assignment n (floorPlan c.counts) r)) c.body { pos := Pos.gate {} } [] =
        .ok (s, env) ∧ s.log.map Row.val = K.cons ∧ (GatesHold n r ↔ ∀ g ∈ K.gates, gok g) ∧
      assignment n (floorPlan c.counts) r ⟨.b, 0, 0⟩ = 1 ∧ wireOf n r .c 0 = 0 := by
  have hfit : StagesFit ch := by
    by_contra h
    obtain ⟨g, hg⟩ := multiStage_fails ch k h
    rw [hg] at hb; cases hb
  have hbody : c.body = allocZeros (2 * chainGates ch) k := by
    rw [multiStage_eq ch k hfit, Except.ok.injEq] at hb
    exact hb.symm
  obtain ⟨body, outs, cl⟩ := c
  simp only at hbody
  subst hbody
  have hshape : Circ.SameShape (⟨allocVals es k, outs, cl⟩ : Circ F)
      ⟨allocZeros (2 * chainGates ch) k, outs, cl⟩ := by
    simp only [Circ.SameShape, Circ.blank, blank_allocVals, blank_allocZeros, hes]
  have hcnt := hshape.counts
  have hr' : ∀ i < n, ∀ κ, wireOf n r κ i =
      traced (⟨allocVals es k, outs, cl⟩ : Circ F) (alpha + beta) κ i := by
    intro i hi κ
    rw [hr i hi κ, hrf i hi κ]
    by_cases h0 : i = 0
    · subst h0
      obtain ⟨z1, z2, z3, z4⟩ := traced_zero (⟨allocZeros (2 * chainGates ch) k, outs, cl⟩ : Circ F) alpha
      obtain ⟨w1, w2, w3, w4⟩ := traced_zero (⟨allocVals es k, outs, cl⟩ : Circ F) (alpha + beta)
      cases κ <;> simp [stagePart, z1, z2, z3, z4, w1, w2, w3, w4]
    · obtain ⟨t1, t2⟩ := traced_stages k outs cl (chainGates ch) es hes alpha (alpha + beta) κ h0
      simp only [stagePart, if_neg h0]
      by_cases hm : i ≤ chainGates ch
      · rw [if_pos hm, (t1 hm).1, (t1 hm).2, zero_add]
      · rw [if_neg hm, t2 (by omega), add_zero]
  have hk' : run valD (⟨allocVals es k, outs, cl⟩ : Circ F).body {} [] = .ok (K, env) := by
    rw [run_allocVals]; exact hk
  obtain ⟨s, h1, h2, h3⟩ := assembled_run (hcnt ▸ hn) hr' hk'
  have hpos : 0 < n := lt_of_lt_of_le (Props.total_pos _) hn
  refine ⟨s, ?_, h2, h3, ?_, ?_⟩
  · rw [hcnt] at h1
    rw [← run_blank (semD_blind _)] at h1 ⊢
    simp only [blank_allocVals, blank_allocZeros, hes] at h1 ⊢
    exact h1
  · rw [← hcnt]; exact assignment_one _ (hcnt ▸ hn) hr'
  · rw [hr' 0 hpos]; exact (traced_zero _ _).2.2.1

/-! ### The stages' polynomials -/

theorem inChain_below {d ch : Chain} (h : InChain d ch) :
    d.skipGates + d.numGates ≤ 1 + chainGates ch := by
  rcases h with rfl | h
  · rw [skip_chain]
  · rw [← skip_chain ch]
    have := ancestor_below h
    omega

theorem inChain_child {d p : Chain} {s : StageDef} :
    InChain d (.child p s) ↔ d = .child p s ∨ InChain d p := by
  constructor
  · rintro (h | h)
    · exact .inl h
    · cases h with
      | parent => exact .inr (.inl rfl)
      | step _ h => exact .inr (.inr h)
  · rintro (h | h | h)
    · exact .inl h
    · subst h; exact .inr (.parent _ _)
    · exact .inr (.step _ h)

/-- Every gate reserved by a chain belongs to exactly one of its stages. -/
theorem locate : ∀ (ch : Chain) (i : ℕ), 1 ≤ i → i ≤ chainGates ch →
    ∃ d, InChain d ch ∧ d.skipGates ≤ i ∧ i < d.skipGates + d.numGates ∧
      ∀ d', InChain d' ch → d'.skipGates ≤ i → i < d'.skipGates + d'.numGates → d' = d
  | .base, i, h1, h2 => by simp [chainGates] at h2; omega
  | .child p s, i, h1, h2 => by
    have hsk : (Chain.child p s).skipGates = 1 + chainGates p := by
      rw [← skip_chain p]; rfl
    by_cases h : i ≤ chainGates p
    · obtain ⟨d, e1, e2, e3, e4⟩ := locate p i h1 h
      refine ⟨d, inChain_child.2 (.inr e1), e2, e3, fun d' h' l1 l2 => ?_⟩
      rcases inChain_child.1 h' with rfl | h'
      · omega
      · exact e4 d' h' l1 l2
    · rw [chainGates] at h2
      refine ⟨.child p s, .inl rfl, by omega, by omega, fun d' h' l1 l2 => ?_⟩
      rcases inChain_child.1 h' with rfl | h'
      · rfl
      · have := inChain_below h'; omega

/-- A wire of a stage's polynomial. -/
theorem rx_wire {n : ℕ} {d : Chain} {alpha : F} {vs : List F} {q : Sparse.Poly F}
    (h : d.rx n alpha vs = .ok q) {i : ℕ} (hi : i < n) (κ : Kind) :
    wireOf n q κ i = if i = 0 then (match κ with | .d => alpha | _ => 0)
      else if d.skipGates ≤ i ∧ i < d.skipGates + d.numGates then stageCol vs κ (i - d.skipGates)
      else 0 := by
  have hl : vs.length ≤ 2 * d.numGates := by
    by_contra hc
    rw [(Props.C28_rx_outcome d alpha vs).1 (by rw [Chain.numGates] at hc; omega)] at h
    cases h
  have hsk := skip_pos d
  obtain ⟨h1, h2, h3⟩ := Props.C28_rx d alpha vs h
  have hz : ∀ i, vs.length ≤ i → vs.getD i 0 = 0 := fun i hi => by
    rw [List.getD_eq_getElem?_getD, List.getElem?_eq_none hi]; rfl
  by_cases h0 : i = 0
  · subst h0
    rw [if_pos rfl]
    have hne : ∀ κ : Kind, ∀ j < vs.length, (κ, 0) ≠ stageWire d.skipGates j := by
      intro κ j _ hj
      have := congrArg Prod.snd hj
      simp only [stageWire] at this
      omega
    cases κ
    · exact h3 .a 0 hi (by simp) (hne _)
    · exact h3 .b 0 hi (by simp) (hne _)
    · exact h3 .c 0 hi (by simp) (hne _)
    · exact h2
  · rw [if_neg h0]
    have hneac : ∀ κ : Kind, κ = .a ∨ κ = .c → ∀ j < vs.length, (κ, i) ≠ stageWire d.skipGates j := by
      intro κ hκ j _ hj
      have := congrArg Prod.fst hj
      simp only [stageWire] at this
      rcases hκ with rfl | rfl <;> split at this <;> cases this
    by_cases hin : d.skipGates ≤ i ∧ i < d.skipGates + d.numGates
    · rw [if_pos hin]
      cases κ
      · exact h3 .a i hi (by simp) (hneac _ (.inl rfl))
      · by_cases hj : 2 * (i - d.skipGates) < vs.length
        · have := h1 _ hj
          simp only [stageWire, show 2 * (i - d.skipGates) % 2 = 0 by omega,
            show d.skipGates + 2 * (i - d.skipGates) / 2 = i by omega, if_true] at this
          exact this
        · rw [stageCol, hz _ (by omega)]
          refine h3 .b i hi (by simp) fun j hjl hj' => ?_
          have e1 := congrArg Prod.fst hj'
          have e2 := congrArg Prod.snd hj'
          simp only [stageWire] at e1 e2
          split at e1
          · omega
          · cases e1
      · exact h3 .c i hi (by simp) (hneac _ (.inr rfl))
      · by_cases hj : 2 * (i - d.skipGates) + 1 < vs.length
        · have := h1 _ hj
          simp only [stageWire, show (2 * (i - d.skipGates) + 1) % 2 = 1 by omega,
            show d.skipGates + (2 * (i - d.skipGates) + 1) / 2 = i by omega] at this
          exact this
        · rw [stageCol, hz _ (by omega)]
          refine h3 .d i hi (by simp [h0]) fun j hjl hj' => ?_
          have e1 := congrArg Prod.fst hj'
          have e2 := congrArg Prod.snd hj'
          simp only [stageWire] at e1 e2
          split at e1
          · cases e1
          · omega
    · rw [if_neg hin]
      refine h3 κ i hi (by simp [h0]) fun j hjl hj' => hin ?_
      have := congrArg Prod.snd hj'
      simp only [stageWire] at this
      omega

theorem sum_unique {f : StageInput F → F} {d : Chain} : ∀ {parts : List (StageInput F)},
    (parts.map StageInput.stage).Nodup → (∀ p ∈ parts, p.stage ≠ d → f p = 0) →
    (∀ p ∈ parts, p.stage = d → (parts.map f).sum = f p) ∧
    (d ∉ parts.map StageInput.stage → (parts.map f).sum = 0)
  | [], _, _ => by simp
  | x :: parts, hn, h => by
    simp only [List.map_cons, List.nodup_cons] at hn
    obtain ⟨i1, i2⟩ := sum_unique hn.2 fun p hp => h p (List.mem_cons_of_mem _ hp)
    refine ⟨fun p hp hpd => ?_, fun hd => ?_⟩
    · simp only [List.map_cons, List.sum_cons]
      rcases List.mem_cons.1 hp with rfl | hp
      · rw [i2 (hpd ▸ hn.1), add_zero]
      · rw [i1 p hp hpd, h x (by simp) (fun hx => hn.1 ?_), zero_add]
        rw [hx, ← hpd]
        exact List.mem_map_of_mem hp
    · simp only [List.map_cons, List.mem_cons, not_or] at hd
      simp only [List.map_cons, List.sum_cons]
      rw [i2 hd.2, h x (by simp) (fun hx => hd.1 hx.symm), zero_add]

/-- The polynomials of distinct stages of a chain add up to one that holds every stage's wires. -/
theorem parts_sum {n : ℕ} {ch : Chain} {parts : List (StageInput F)} {ps : List (Sparse.Poly F)}
    (hnd : (parts.map StageInput.stage).Nodup) (hin : ∀ p ∈ parts, InChain p.stage ch)
    (hps : List.Forall₂ (fun p q => p.stage.rx n p.alpha p.values = .ok q) parts ps)
    {es : List F} (hes : StageWires ch parts es) {i : ℕ} (hi : i < n) (κ : Kind) :
    (ps.map fun q => wireOf n q κ i).sum =
      stagePart (chainGates ch) es (parts.map StageInput.alpha).sum κ i := by
  have hmap : (ps.map fun q => wireOf n q κ i) = parts.map fun p =>
      if i = 0 then (match κ with | .d => p.alpha | _ => 0)
      else if p.stage.skipGates ≤ i ∧ i < p.stage.skipGates + p.stage.numGates
        then stageCol p.values κ (i - p.stage.skipGates) else 0 := by
    clear hes hin hnd
    induction hps with
    | nil => rfl
    | cons h _ ih => simp only [List.map_cons, ih, rx_wire h hi κ]
  rw [hmap]
  by_cases h0 : i = 0
  · subst h0
    simp only [if_true, stagePart]
    cases κ <;> simp
  · simp only [if_neg h0, stagePart]
    by_cases hm : i ≤ chainGates ch
    · rw [if_pos hm]
      obtain ⟨d, d1, d2, d3, d4⟩ := locate ch i (by omega) hm
      obtain ⟨u1, u2⟩ := sum_unique (f := fun p : StageInput F =>
        if p.stage.skipGates ≤ i ∧ i < p.stage.skipGates + p.stage.numGates
          then stageCol p.values κ (i - p.stage.skipGates) else 0) (d := d) hnd (by
            intro p hp hpd
            refine if_neg fun hc => hpd ?_
            exact d4 p.stage (hin p hp) hc.1 hc.2)
      have hfd := firstWire_eq d
      have hsd := skip_chain d
      have hidx : 2 * (i - 1) = firstWire d + 2 * (i - d.skipGates) := by omega
      have hget : ∀ {j : ℕ} {v : F}, es[j]? = some v → es.getD j 0 = v := by
        intro j v h; rw [List.getD_eq_getElem?_getD, h]; rfl
      by_cases hmem : d ∈ parts.map StageInput.stage
      · obtain ⟨p, hp, rfl⟩ := List.mem_map.1 hmem
        rw [u1 p hp rfl, if_pos ⟨d2, d3⟩]
        cases κ
        · rfl
        · simp only [stageCol, hidx]
          exact (hget (hes.given p hp _ (by omega))).symm
        · rfl
        · simp only [stageCol, hidx, Nat.add_assoc]
          exact (hget (hes.given p hp _ (by omega))).symm
      · rw [u2 hmem]
        cases κ
        · rfl
        · simp only [stageCol, hidx]
          exact (hget (hes.skipped d d1 hmem _ (by omega))).symm
        · rfl
        · simp only [stageCol, hidx, Nat.add_assoc]
          exact (hget (hes.skipped d d1 hmem _ (by omega))).symm
    · rw [if_neg hm]
      refine List.sum_eq_zero fun x hx => ?_
      obtain ⟨p, hp, rfl⟩ := List.mem_map.1 hx
      have := inChain_below (hin p hp)
      exact if_neg (by omega)

end Ragu.Circuit

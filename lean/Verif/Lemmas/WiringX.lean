/-
The `sxy` and `sx` drivers simulate the meaning of a program.
-/
import Verif.Lemmas.Wiring
import Verif.Props.Sparse

set_option linter.unusedSectionVars false

namespace Ragu.Circuit
open Ragu Finset
variable {F : Type} [Field F] [DecidableEq F]

/-- The value a `WireEval` stands for. -/
def WireEval.val (one : F) : WireEval F → F
  | .value v => v
  | .one => one

theorem wireEvalSum_eq (one : F) {lcS : List (LcStep F F)} {lcE : List (LcStep F (WireEval F))}
    (h : LcRel (fun w e => WireEval.val one e = w) lcS lcE) : ∀ (acc : F) (g : Coeff F),
    wireEvalSum one acc g lcE = acc + lcVal g.value lcS := by
  induction h with
  | nil => intro acc g; simp [wireEvalSum, lcVal]
  | gain _ ih =>
    intro acc g
    simp only [wireEvalSum, lcVal, ih, Props.C08_mul]
  | @term w₁ w₂ c l₁ l₂ hv _ ih =>
    intro acc g
    cases w₂ with
    | value v =>
      simp only [WireEval.val] at hv
      simp only [wireEvalSum, lcVal, ih, Props.C08_mul, hv]
      ring
    | one =>
      simp only [WireEval.val] at hv
      subst hv
      simp only [wireEvalSum, lcVal, ih, Props.C08_mul]
      ring

/-- The monomial of a base wire. -/
def xMono (n : ℕ) (fp : List Seg) (x : F) (b : Base) : F :=
  x ^ wiringExp n (absGate fp b) b.kind

theorem inv_pow_mul_pow {x : F} (hx : x ≠ 0) {i m : ℕ} (h : i ≤ m) :
    x ^ m * x⁻¹ ^ i = x ^ (m - i) := by
  have : x ^ m = x ^ (m - i) * x ^ i := by rw [← pow_add]; congr 1; omega
  rw [this, mul_assoc, ← mul_pow, mul_inv_cancel₀ hx, one_pow, mul_one]

section
variable {n : ℕ} {x : F} {fp : List Seg}

theorem baseA_eq (hx : x ≠ 0) {i : ℕ} (hi : i < n) :
    (xParams n x fp).baseA * x⁻¹ ^ i = x ^ (2 * n - 1 - i) := by
  simp only [xParams]
  rw [mul_assoc, ← pow_succ', ← pow_add, inv_pow_mul_pow hx (by omega)]
  congr 1; omega

theorem baseB_eq {i : ℕ} : (xParams n x fp).baseB * x ^ i = x ^ (2 * n + i) := by
  simp only [xParams]
  rw [← pow_add, ← pow_add]
  congr 1; omega

theorem baseC_eq (hx : x ≠ 0) {i : ℕ} (hi : i < n) :
    (xParams n x fp).baseC * x⁻¹ ^ i = x ^ (4 * n - 1 - i) := by
  simp only [xParams]
  rw [mul_assoc, ← pow_succ', ← pow_add, ← pow_add, inv_pow_mul_pow hx (by omega)]
  congr 1; omega

theorem baseD_eq (hx : x ≠ 0) {i : ℕ} :
    x ^ (2 * n + i) * (xParams n x fp).bToD = x ^ i := by
  simp only [xParams]
  rw [← pow_add, inv_pow_mul_pow hx (by omega)]
  congr 1; omega

theorem one_eq : (xParams n x fp).one = x ^ (2 * n) := by
  simp only [xParams]; rw [← pow_add]; congr 1; omega
end

/-- The scope agrees with the position. -/
structure XRel (n : ℕ) (fp : List Seg) (x : F) (sg : Seg) (p : Pos) (s : XScope F) : Prop where
  seg : fp[p.seg]? = some sg
  gates : s.gates = sg.gateStart + p.gates
  cons : s.cons = sg.consStart + p.cons
  curA : s.curA = (xParams n x fp).baseA * x⁻¹ ^ s.gates
  curB : s.curB = (xParams n x fp).baseB * x ^ s.gates
  curC : s.curC = (xParams n x fp).baseC * x⁻¹ ^ s.gates
  pend : match p.pend with
    | none => s.availD = none
    | some i => s.availD = some (.value (xMono n fp x ⟨.d, p.seg, i⟩))

theorem XRel.advance {n : ℕ} {fp : List Seg} {x : F} (hx : x ≠ 0) {sg : Seg} {p : Pos}
    {s : XScope F} (h : XRel n fp x sg p s) (hr : GateRoom fp n p) :
    ∃ s', (xParams n x fp).advance s = .ok (s', xMono n fp x ⟨.a, p.seg, p.gates⟩,
        xMono n fp x ⟨.b, p.seg, p.gates⟩, xMono n fp x ⟨.c, p.seg, p.gates⟩) ∧
      XRel n fp x sg p.gate s' ∧ s'.availD = s.availD ∧ s'.cons = s.cons := by
  obtain ⟨sg', hsg', _, hn⟩ := hr
  have : sg' = sg := by rw [h.seg, Option.some.injEq] at hsg'; exact hsg'.symm
  subst this
  have hne : s.gates ≠ (xParams n x fp).n := by
    rw [h.gates]; simp only [xParams]; omega
  have hlt : s.gates < n := by rw [h.gates]; exact hn
  refine ⟨{ s with
      gates := s.gates + 1
      curA := s.curA * x⁻¹
      curB := s.curB * x
      curC := s.curC * x⁻¹ }, ?_, ?_, rfl, rfl⟩
  · simp only [XParams.advance, if_neg hne, Except.ok.injEq, Prod.mk.injEq]
    refine ⟨rfl, ?_⟩
    rw [h.curA, h.curB, h.curC, baseA_eq hx hlt, baseB_eq, baseC_eq hx hlt, h.gates]
    simp [xMono, wiringExp, absGate, h.seg]
  · exact {
      seg := h.seg
      gates := by simp [Pos.gate, h.gates, Nat.add_assoc]
      cons := h.cons
      curA := by simp only [h.curA]; ring
      curB := by simp only [h.curB]; ring
      curC := by simp only [h.curC]; ring
      pend := h.pend }

theorem XRel.gate {n : ℕ} {fp : List Seg} {x : F} (hx : x ≠ 0) {sg : Seg} {p : Pos}
    {s : XScope F} (h : XRel n fp x sg p s) (hr : GateRoom fp n p) :
    ∃ s', (xParams n x fp).gate s = .ok (s', .value (xMono n fp x ⟨.a, p.seg, p.gates⟩),
        .value (xMono n fp x ⟨.b, p.seg, p.gates⟩), .value (xMono n fp x ⟨.c, p.seg, p.gates⟩),
        .value (xMono n fp x ⟨.d, p.seg, p.gates⟩)) ∧
      XRel n fp x sg p.gate s' ∧ s'.availD = s.availD ∧ s'.cons = s.cons := by
  obtain ⟨s', h1, h2, h3, h4⟩ := h.advance hx hr
  refine ⟨s', ?_, h2, h3, h4⟩
  simp only [XParams.gate, h1, bind_ok, Except.ok.injEq, Prod.mk.injEq, true_and,
    WireEval.value.injEq]
  simp only [xMono, wiringExp]
  rw [baseD_eq hx]
  rfl

theorem XRel.alloc {n : ℕ} {fp : List Seg} {x : F} (hx : x ≠ 0) {sg : Seg} {p : Pos}
    {s : XScope F} (h : XRel n fp x sg p s) (hr : p.pend = none → GateRoom fp n p) :
    ∃ s', (xParams n x fp).alloc s = .ok (s', .value (xMono n fp x p.allocBase)) ∧
      XRel n fp x sg p.alloc s' ∧ s'.cons = s.cons := by
  cases hq : p.pend with
  | some i =>
    have hp := h.pend
    simp only [hq] at hp
    refine ⟨{ s with availD := none }, ?_, ?_, rfl⟩
    · simp [XParams.alloc, hp, Pos.allocBase, hq]
    · exact ⟨by simpa [Pos.alloc, hq] using h.seg, by simpa [Pos.alloc, hq] using h.gates,
        by simpa [Pos.alloc, hq] using h.cons, h.curA, h.curB, h.curC, by simp [Pos.alloc, hq]⟩
  | none =>
    have hp := h.pend
    simp only [hq] at hp
    obtain ⟨s', h1, h2, h3, h4⟩ := h.gate hx (hr hq)
    refine ⟨{ s' with availD := some (.value (xMono n fp x ⟨.d, p.seg, p.gates⟩)) }, ?_, ?_, h4⟩
    · simp [XParams.alloc, hp, h1, bind_ok, Pos.allocBase, hq]
    · exact ⟨by simpa [Pos.alloc, hq] using h.seg, by simpa [Pos.alloc, hq, Pos.gate] using h2.gates,
        by simpa [Pos.alloc, hq, Pos.gate] using h2.cons, h2.curA, h2.curB, h2.curC, by simp [Pos.alloc, hq]⟩

theorem XRel.enforce {n : ℕ} {fp : List Seg} {x : F} {sg : Seg} {p : Pos}
    {s : XScope F} (h : XRel n fp x sg p s) :
    XRel n fp x sg p.enforce { s with cons := s.cons + 1 } :=
  ⟨h.seg, h.gates, by simp [Pos.enforce, h.cons, Nat.add_assoc], h.curA, h.curB, h.curC, h.pend⟩

theorem XRel.jump {n : ℕ} {fp : List Seg} {x : F} {sg : Seg} {p : Pos}
    (h : fp[p.nseg]? = some sg) : XRel n fp x sg p.enter ((xParams n x fp).jump sg) :=
  ⟨h, rfl, rfl, rfl, rfl, rfl, rfl⟩

theorem XRel.leave {n : ℕ} {fp : List Seg} {x : F} {sg : Seg} {p e : Pos} {s : XScope F}
    (h : XRel n fp x sg p s) : XRel n fp x sg (p.leave e) s :=
  ⟨h.seg, h.gates, h.cons, h.curA, h.curB, h.curC, h.pend⟩

/-- Environments agree pointwise. -/
def EnvRel (one : F) (es : List F) (e : List (WireEval F)) : Prop :=
  List.Forall₂ (fun w v => WireEval.val one v = w) es e

theorem EnvRel.lookup {one : F} {es : List F} {e : List (WireEval F)} (h : EnvRel one es e) :
    ∀ (i : ℕ) (a : F) (b : WireEval F), es[i]? = some a → e[i]? = some b → WireEval.val one b = a := by
  induction h with
  | nil => intro i a b h1; simp at h1
  | cons hv _ ih =>
    intro i a b h1 h2
    cases i with
    | zero => simp at h1 h2; subst h1; subst h2; exact hv
    | succ i => exact ih i a b (by simpa using h1) (by simpa using h2)

theorem EnvRel.append {one : F} {es es' : List F} {e e' : List (WireEval F)}
    (h : EnvRel one es e) (h' : EnvRel one es' e') : EnvRel one (es ++ es') (e ++ e') :=
  List.rel_append h h'

theorem lc_eq {n : ℕ} {fp : List Seg} {x : F} {es : List F} {e : List (WireEval F)} {h : List ℕ}
    (hE : EnvRel (xParams n x fp).one es e) {lc : List (LcStep F WRef)} (hu : usableLc h lc = true)
    {lcS lcE} (h1 : resolveLc (xMono n fp x ⟨.b, 0, 0⟩) es lc = .ok lcS)
    (h2 : resolveLc WireEval.one e lc = .ok lcE) (h0 : absGate fp ⟨.b, 0, 0⟩ = 0) :
    wireEvalSum (xParams n x fp).one 0 .one lcE = lcVal 1 lcS := by
  have hrel : LcRel (fun w e => WireEval.val (xParams n x fp).one e = w) lcS lcE := by
    refine resolveLc_rel _ h _ _ es e ?_ ?_ lc hu h1 h2
    · simp only [WireEval.val, xMono, wiringExp, h0, one_eq]; rfl
    · intro i a b _ ha hb; exact hE.lookup i a b ha hb
  rw [wireEvalSum_eq _ hrel]
  simp [Coeff.value]

theorem weigh_append (fp : List Seg) (y : F) (a b : List (Row F)) :
    weigh fp y (a ++ b) = weigh fp y a + weigh fp y b := by
  simp [weigh]

/-! ### sxy -/

def SxyRel (n : ℕ) (fp : List Seg) (x y : F) (_ : Unit) (s : Sem F) (es : List F) (h : List ℕ)
    (t : SxyState F) (e : List (WireEval F)) : Prop :=
  h.length = es.length ∧ EnvRel (xParams n x fp).one es e ∧
  t.routine + 1 = s.pos.nseg ∧
  ∃ sg, XRel n fp x sg s.pos t.scope ∧ s.pos.cons ≤ sg.numCons ∧
    y ^ (sg.consStart + (sg.numCons - s.pos.cons)) * t.result + t.sum = weigh fp y s.log

theorem sxy_sim {n : ℕ} {fp : List Seg} {x y : F} (hx : x ≠ 0)
    (h0 : absGate fp ⟨.b, 0, 0⟩ = 0) :
    Sim (sxyDriver (xParams n x fp) y) (xMono n fp x) fp n (4 * n - 1) (SxyRel n fp x y) where
  len h := ⟨h.1, by rw [h.1]; exact h.2.1.length_eq⟩
  gate := by
    intro c s es h t e _ _ _ _ hR hg
    obtain ⟨hl, hE, hr, sg, hX, hc, hv⟩ := hR
    obtain ⟨s', h1, h2, h3, h4⟩ := hX.gate hx hg
    refine ⟨{ t with scope := s' }, .value (xMono n fp x ⟨.a, s.pos.seg, s.pos.gates⟩),
      .value (xMono n fp x ⟨.b, s.pos.seg, s.pos.gates⟩),
      .value (xMono n fp x ⟨.c, s.pos.seg, s.pos.gates⟩),
      .value (xMono n fp x ⟨.d, s.pos.seg, s.pos.gates⟩), ?_, by simp [hl], hE.append ?_, hr, sg, h2, hc, hv⟩
    · simp only [sxyDriver, h1, bind_ok]
    · simp [EnvRel, WireEval.val]
  mul := by
    intro c s es h t e _ _ _ hR hg
    obtain ⟨hl, hE, hr, sg, hX, hc, hv⟩ := hR
    obtain ⟨s', h1, h2, h3, h4⟩ := hX.advance hx hg
    refine ⟨{ t with scope := s' }, .value (xMono n fp x ⟨.a, s.pos.seg, s.pos.gates⟩),
      .value (xMono n fp x ⟨.b, s.pos.seg, s.pos.gates⟩),
      .value (xMono n fp x ⟨.c, s.pos.seg, s.pos.gates⟩), ?_, by simp [hl], hE.append ?_, hr, sg, h2, hc, hv⟩
    · simp only [sxyDriver, h1, bind_ok]
    · simp [EnvRel, WireEval.val]
  alloc := by
    intro c s es h t e _ hR hg
    obtain ⟨hl, hE, hr, sg, hX, hc, hv⟩ := hR
    obtain ⟨s', h1, h2, h3⟩ := hX.alloc hx hg
    refine ⟨{ t with scope := s' }, .value (xMono n fp x s.pos.allocBase), ?_, by simp [hl], hE.append ?_, ?_, sg, h2, ?_, ?_⟩
    · simp only [sxyDriver, h1, bind_ok]
    · simp [EnvRel, WireEval.val]
    · cases hq : s.pos.pend <;> simpa [Pos.alloc, hq] using hr
    · cases hq : s.pos.pend <;> simpa [Pos.alloc, hq] using hc
    · cases hq : s.pos.pend <;> simpa [Pos.alloc, hq] using hv
  add := by
    intro c s es h t e lc lcS lcE hR hu hS hE'
    obtain ⟨hl, hE, hr, sg, hX, hc, hv⟩ := hR
    refine ⟨t, .value (wireEvalSum (xParams n x fp).one 0 .one lcE), rfl, by simp [hl], hE.append ?_, hr, sg, hX, hc, hv⟩
    have := lc_eq hE hu hS hE' h0
    simp [EnvRel, WireEval.val, this]
  enforce := by
    intro c s es h t e lc lcS lcE hR hu hS hE' hroom
    obtain ⟨hl, hE, hr, sg, hX, hc, hv⟩ := hR
    obtain ⟨sg', hsg', hlt, hN⟩ := hroom
    have : sg' = sg := by rw [hX.seg, Option.some.injEq] at hsg'; exact hsg'.symm
    subst this
    have hlc := lc_eq hE hu hS hE' h0
    have hq : ¬ (t.scope.cons ≥ 4 * (xParams n x fp).n - 1) := by
      rw [hX.cons]; simp only [xParams]; omega
    refine ⟨{ t with
      scope := { t.scope with cons := t.scope.cons + 1 }
      result := t.result * y + wireEvalSum (xParams n x fp).one 0 .one lcE }, ?_, hl, hE, hr, sg',
      hX.enforce, ?_, ?_⟩
    · simp only [sxyDriver, if_neg hq]
    · simp only [Pos.enforce]; omega
    · simp only [hlc]
      rw [weigh_append, ← hv]
      simp only [Pos.enforce, weigh, List.map_cons, List.map_nil, List.sum_cons, List.sum_nil,
        add_zero, consExp, hX.seg, Option.map_some, Option.getD_some]
      have e1 : sg'.consStart + (sg'.numCons - s.pos.cons) =
        (sg'.consStart + (sg'.numCons - (s.pos.cons + 1))) + 1 := by omega
      have e2 : sg'.consStart + sg'.numCons - 1 - s.pos.cons =
        sg'.consStart + (sg'.numCons - (s.pos.cons + 1)) := by omega
      rw [e1, e2, pow_succ]
      ring
  routine := by
    intro c s es h t e sg call hR hsg
    obtain ⟨hl, hE, hr, sg0, hX, hc, hv⟩ := hR
    have hfp : (xParams n x fp).fp[t.routine + 1]? = some sg := by rw [hr]; exact hsg
    refine ⟨(), SxyState.mk ((xParams n x fp).jump sg) 0 0 (t.routine + 1), ?_, ⟨hl, hE, ?_, sg, XRel.jump hsg, ?_, ?_⟩, ?_⟩
    · simp only [sxyDriver, hfp]
    · simp only [Pos.enter]; omega
    · simp [Pos.enter]
    · simp [weigh]
    · intro s1 es' h' t1 e' hR1 hseg hns hgates hcons
      obtain ⟨hl1, hE1, hr1, sg1, hX1, hc1, hv1⟩ := hR1
      have : sg1 = sg := by
        have := hX1.seg
        rw [hseg, hsg, Option.some.injEq] at this; exact this.symm
      subst this
      refine ⟨{ scope := t.scope
                result := t.result
                routine := t1.routine
                sum := t.sum + (y ^ sg1.consStart * t1.result + t1.sum) }, ?_, hl1, hE1, ?_, sg0,
        hX.leave, hc, ?_⟩
      · simp only [sxyDriver, hfp]
        rw [if_pos ⟨by rw [hX1.gates, hgates], by rw [hX1.cons, hcons]⟩]
      · simp only [Pos.leave]; exact hr1
      · simp only [Pos.leave]
        rw [weigh_append, ← hv, ← hv1, hcons]
        simp only [Nat.sub_self, add_zero]
        ring
  clone := by
    intro c s es h t e i w hR _ _
    exact ⟨t, rfl, by simpa using hR.1, hR.2⟩
  drop := by
    intro c s es h t e i w hR _ _
    exact ⟨t, rfl, by simpa using hR.1, hR.2⟩

theorem abs_one (c : Circ F) : absGate (floorPlan c.counts) ⟨.b, 0, 0⟩ = 0 := rfl

theorem sxyEval_eq {c : Circ F} (hu : c.WellUsed) {n : ℕ} (hn : totalGates c.counts ≤ n)
    (hN : totalCons c.counts < 4 * n) (x y : F) :
    sxyEval n (floorPlan c.counts) c x y = .ok (wiringAt n (floorPlan c.counts) c x y) := by
  by_cases hx : x = 0
  · subst hx
    rw [wiring_x_zero hu hn]
    simp [sxyEval]
  by_cases hy : y = 0
  · subst hy
    rw [wiringAt, weigh_zero hu]
    simp [sxyEval, hx, wiringExp, abs_one, one_eq]
  obtain ⟨h', hh, _⟩ := hu
  set fp := floorPlan c.counts with hfp
  have hf := circ_fits c hn (show totalCons c.counts ≤ 4 * n - 1 by omega)
  have h0 : fp[0]? = some ⟨0, 0, (posRun c.main (Pos.gate {})).gates,
      (posRun c.main (Pos.gate {})).cons⟩ := rfl
  set P := xParams n x fp with hP
  let t0 : SxyState F :=
        { scope := { availD := none, curA := P.baseA, curB := P.baseB, curC := P.baseC,
                     gates := 0, cons := 0 }
          result := 0, sum := 0, routine := 0 }
  have hR0 : SxyRel n fp x y () {} [] [] t0 [] := by
    refine ⟨rfl, List.Forall₂.nil, rfl, _, ⟨h0, rfl, rfl, ?_, ?_, ?_, rfl⟩, Nat.zero_le _, ?_⟩
    · simp [t0, hP]
    · simp [t0, hP]
    · simp [t0, hP]
    · simp [t0, weigh]
  obtain ⟨t1, wa, wb, wc, wd, hgate, hR1⟩ :=
    (sxy_sim (y := y) hx (abs_one c)).gate (va := 0) (vb := 0) (vc := 0) (vd := 0) hR0 hf.1
  have hR1' : SxyRel n fp x y () { pos := Pos.gate {} } [] [] t1 [] := by
    obtain ⟨_, _, h3⟩ := hR1
    exact ⟨rfl, List.Forall₂.nil, h3⟩
  obtain ⟨s, es, t, e, r1, r2, hR, hp⟩ := sim_run (sxy_sim (y := y) hx (abs_one c)) c.main () _ _ _ _ _
    h' hR1' hh hf.2
  obtain ⟨_, _, hr, sg, hX, hc, hv⟩ := hR
  have hsg : sg = ⟨0, 0, (posRun c.main (Pos.gate {})).gates,
      (posRun c.main (Pos.gate {})).cons⟩ := by
    have := hX.seg
    rw [hp, posRun_seg] at this
    change fp[0]? = some sg at this
    rw [h0, Option.some.injEq] at this
    exact this.symm
  subst hsg
  have hlen : t.routine + 1 = fp.length := by
    rw [hr, hp, posRun_nseg, hfp, floorPlan_length]
    simp [Circ.counts, Pos.gate]; omega
  have hgs : t.scope.gates = (posRun c.main (Pos.gate {})).gates := by
    rw [hX.gates, hp]; simp
  have hcs : t.scope.cons = (posRun c.main (Pos.gate {})).cons := by
    rw [hX.cons, hp]; simp
  have horch : orchestrate (sxyDriver P y) c t0 = .ok (t, e) := by
    simp only [orchestrate, t0, hP] at hgate ⊢
    rw [hgate, bind_ok]
    exact r2
  simp only [sxyEval, if_neg hx, if_neg hy]
  simp only [t0] at horch
  rw [← hP, horch, bind_ok]
  simp only [h0]
  rw [if_pos ⟨hlen, hgs, hcs⟩]
  rw [wiringAt]
  have : constraints (fun b => x ^ wiringExp n (absGate fp b) b.kind) c = s.log :=
    constraints_eq r1
  rw [this, ← hv, hp]
  simp

/-! ### sx -/

/-- Segments' constraint ranges follow one another. -/
def Ordered (fp : List Seg) : Prop :=
  fp.Pairwise fun a b => a.consStart + a.numCons ≤ b.consStart

theorem floorPlanFrom_start (rs : List (ℕ × ℕ)) : ∀ g q, ∀ sg ∈ floorPlanFrom g q rs,
    q ≤ sg.consStart := by
  induction rs with
  | nil => intro g q sg h; simp [floorPlanFrom] at h
  | cons r rs ih =>
    intro g q sg h
    simp only [floorPlanFrom, List.mem_cons] at h
    rcases h with rfl | h
    · simp
    · have := ih _ _ sg h; omega

theorem floorPlanFrom_ordered (rs : List (ℕ × ℕ)) : ∀ g q, Ordered (floorPlanFrom g q rs) := by
  induction rs with
  | nil => intro g q; exact List.Pairwise.nil
  | cons r rs ih =>
    intro g q
    refine List.Pairwise.cons ?_ (ih _ _)
    intro sg h
    exact floorPlanFrom_start rs _ _ sg h

/-- One segment's weighted sum of a result vector. -/
def chunkSum (y : F) (sg : Seg) (result : List F) : F :=
  ∑ k ∈ range sg.numCons, y ^ (sg.consStart + sg.numCons - 1 - k) * result.getD (sg.consStart + k) 0

/-- Weighted sum of a result vector over the floor plan. -/
def planSum (y : F) (fp : List Seg) (result : List F) : F :=
  (fp.map fun sg => chunkSum y sg result).sum

theorem getD_set (l : List F) (q i : ℕ) (v : F) (h : q < l.length) :
    (l.set q v).getD i 0 = if i = q then v else l.getD i 0 := by
  simp only [List.getD_eq_getElem?_getD, List.getElem?_set]
  by_cases hi : q = i
  · subst hi; simp [h]
  · rw [if_neg hi, if_neg (fun h => hi h.symm)]

theorem chunkSum_set_out (y : F) (sg : Seg) (l : List F) (q : ℕ) (v : F) (hq : q < l.length)
    (h : q < sg.consStart ∨ sg.consStart + sg.numCons ≤ q) :
    chunkSum y sg (l.set q v) = chunkSum y sg l := by
  apply Finset.sum_congr rfl
  intro k hk
  rw [Finset.mem_range] at hk
  rw [getD_set _ _ _ _ hq, if_neg (by omega)]

theorem chunkSum_set_in (y : F) (sg : Seg) (l : List F) (k : ℕ) (v : F) (hk : k < sg.numCons)
    (hq : sg.consStart + k < l.length) (h0 : l.getD (sg.consStart + k) 0 = 0) :
    chunkSum y sg (l.set (sg.consStart + k) v) =
      chunkSum y sg l + y ^ (sg.consStart + sg.numCons - 1 - k) * v := by
  unfold chunkSum
  rw [← Finset.add_sum_erase _ _ (Finset.mem_range.2 hk),
    ← Finset.add_sum_erase (range sg.numCons) (fun k => y ^ (sg.consStart + sg.numCons - 1 - k) *
      l.getD (sg.consStart + k) 0) (Finset.mem_range.2 hk)]
  rw [getD_set _ _ _ _ hq, if_pos rfl, h0]
  have : ∀ j ∈ (range sg.numCons).erase k,
      y ^ (sg.consStart + sg.numCons - 1 - j) * (l.set (sg.consStart + k) v).getD (sg.consStart + j) 0
      = y ^ (sg.consStart + sg.numCons - 1 - j) * l.getD (sg.consStart + j) 0 := by
    intro j hj
    rw [Finset.mem_erase] at hj
    rw [getD_set _ _ _ _ hq, if_neg (by omega)]
  rw [Finset.sum_congr rfl this]
  ring

theorem planSum_set (y : F) {fp : List Seg} (ho : Ordered fp) (l : List F) {i : ℕ} {sg : Seg}
    (hi : fp[i]? = some sg) (k : ℕ) (v : F) (hk : k < sg.numCons)
    (hq : sg.consStart + k < l.length) (h0 : l.getD (sg.consStart + k) 0 = 0) :
    planSum y fp (l.set (sg.consStart + k) v) =
      planSum y fp l + y ^ (sg.consStart + sg.numCons - 1 - k) * v := by
  induction fp generalizing i with
  | nil => simp at hi
  | cons a fp ih =>
    simp only [Ordered, List.pairwise_cons] at ho
    simp only [planSum, List.map_cons, List.sum_cons] at ih ⊢
    cases i with
    | zero =>
      simp only [List.getElem?_cons_zero, Option.some.injEq] at hi
      subst hi
      rw [chunkSum_set_in y a l k v hk hq h0]
      have : (fp.map fun sg => chunkSum y sg (l.set (a.consStart + k) v)) =
          fp.map fun sg => chunkSum y sg l := by
        apply List.map_congr_left
        intro b hb
        have := ho.1 b hb
        exact chunkSum_set_out _ _ _ _ _ hq (by omega)
      rw [this]; ring
    | succ i =>
      simp only [List.getElem?_cons_succ] at hi
      have := ho.1 sg (List.mem_of_getElem? hi)
      rw [chunkSum_set_out y a l _ v hq (by omega), ih ho.2 hi]
      ring

theorem ordered_lt {fp : List Seg} (ho : Ordered fp) {i j : ℕ} {a b : Seg} (hij : i < j)
    (ha : fp[i]? = some a) (hb : fp[j]? = some b) : a.consStart + a.numCons ≤ b.consStart := by
  have h1 : i < fp.length := by
    by_contra hc; rw [List.getElem?_eq_none (by omega)] at ha; simp at ha
  have h2 : j < fp.length := by
    by_contra hc; rw [List.getElem?_eq_none (by omega)] at hb; simp at hb
  rw [List.getElem?_eq_getElem h1, Option.some.injEq] at ha
  rw [List.getElem?_eq_getElem h2, Option.some.injEq] at hb
  rw [← ha, ← hb]
  exact List.pairwise_iff_getElem.1 ho i j h1 h2 hij

theorem ordered_inj {fp : List Seg} (ho : Ordered fp) {i j k l : ℕ} {a b : Seg}
    (ha : fp[i]? = some a) (hb : fp[j]? = some b) (hk : k < a.numCons) (hl : l < b.numCons)
    (h : a.consStart + k = b.consStart + l) : i = j ∧ k = l := by
  rcases lt_trichotomy i j with hij | hij | hij
  · have := ordered_lt ho hij ha hb; omega
  · subst hij
    rw [ha, Option.some.injEq] at hb
    subst hb
    exact ⟨rfl, by omega⟩
  · have := ordered_lt ho hij hb ha; omega

/-- Ghost context of a scope: the sum when it was entered, and the slots its
callers have yet to write. -/
structure SxGhost (F : Type) where
  off : F
  unwritten : ℕ → ℕ → Prop

def SxRel (n : ℕ) (fp : List Seg) (x y : F) (c : SxGhost F) (s : Sem F) (es : List F) (h : List ℕ)
    (t : SxState F) (e : List (WireEval F)) : Prop :=
  h.length = es.length ∧ EnvRel (xParams n x fp).one es e ∧
  t.routine + 1 = s.pos.nseg ∧ s.pos.seg < s.pos.nseg ∧ t.result.length = 4 * n ∧
  (∀ j k, c.unwritten j k → j < s.pos.seg) ∧
  (∀ j k sg, fp[j]? = some sg → k < sg.numCons →
    (c.unwritten j k ∨ (j = s.pos.seg ∧ s.pos.cons ≤ k) ∨ s.pos.nseg ≤ j) →
    t.result.getD (sg.consStart + k) 0 = 0) ∧
  (∀ q, (∀ (j : ℕ) (k : ℕ) (sg : Seg), fp[j]? = some sg → k < sg.numCons → q ≠ sg.consStart + k) →
    t.result.getD q 0 = 0) ∧
  (∃ sg, XRel n fp x sg s.pos t.scope) ∧
  planSum y fp t.result = c.off + weigh fp y s.log

theorem sx_sim {n : ℕ} {fp : List Seg} {x y : F} (hx : x ≠ 0) (ho : Ordered fp)
    (h0 : absGate fp ⟨.b, 0, 0⟩ = 0) :
    Sim (sxDriver (xParams n x fp)) (xMono n fp x) fp n (4 * n - 1) (SxRel n fp x y) where
  len h := ⟨h.1, by rw [h.1]; exact h.2.1.length_eq⟩
  gate := by
    intro c s es h t e _ _ _ _ hR hg
    obtain ⟨hl, hE, hr, hns, hlen, hu, hz, hz', ⟨sg, hX⟩, hv⟩ := hR
    obtain ⟨s', h1, h2, h3, h4⟩ := hX.gate hx hg
    refine ⟨{ t with scope := s' }, .value (xMono n fp x ⟨.a, s.pos.seg, s.pos.gates⟩),
      .value (xMono n fp x ⟨.b, s.pos.seg, s.pos.gates⟩),
      .value (xMono n fp x ⟨.c, s.pos.seg, s.pos.gates⟩),
      .value (xMono n fp x ⟨.d, s.pos.seg, s.pos.gates⟩), ?_, by simp [hl], hE.append ?_, hr, hns, hlen, hu,
      hz, hz', ⟨sg, h2⟩, hv⟩
    · simp only [sxDriver, h1, bind_ok]
    · simp [EnvRel, WireEval.val]
  mul := by
    intro c s es h t e _ _ _ hR hg
    obtain ⟨hl, hE, hr, hns, hlen, hu, hz, hz', ⟨sg, hX⟩, hv⟩ := hR
    obtain ⟨s', h1, h2, h3, h4⟩ := hX.advance hx hg
    refine ⟨{ t with scope := s' }, .value (xMono n fp x ⟨.a, s.pos.seg, s.pos.gates⟩),
      .value (xMono n fp x ⟨.b, s.pos.seg, s.pos.gates⟩),
      .value (xMono n fp x ⟨.c, s.pos.seg, s.pos.gates⟩), ?_, by simp [hl], hE.append ?_, hr, hns, hlen, hu,
      hz, hz', ⟨sg, h2⟩, hv⟩
    · simp only [sxDriver, h1, bind_ok]
    · simp [EnvRel, WireEval.val]
  alloc := by
    intro c s es h t e _ hR hg
    obtain ⟨hl, hE, hr, hns, hlen, hu, hz, hz', ⟨sg, hX⟩, hv⟩ := hR
    obtain ⟨s', h1, h2, h3⟩ := hX.alloc hx hg
    have e1 : s.pos.alloc.nseg = s.pos.nseg := by simp only [Pos.alloc]; split <;> rfl
    have e2 : s.pos.alloc.seg = s.pos.seg := by simp only [Pos.alloc]; split <;> rfl
    have e3 : s.pos.alloc.cons = s.pos.cons := by simp only [Pos.alloc]; split <;> rfl
    refine ⟨{ t with scope := s' }, .value (xMono n fp x s.pos.allocBase), ?_, by simp [hl], hE.append ?_, by rw [e1]; exact hr,
      by rw [e1, e2]; exact hns, hlen, by rw [e2]; exact hu, by rw [e1, e2, e3]; exact hz,
      hz', ⟨sg, h2⟩, hv⟩
    · simp only [sxDriver, h1, bind_ok]
    · simp [EnvRel, WireEval.val]
  add := by
    intro c s es h t e lc lcS lcE hR hu hS hE'
    obtain ⟨hl, hE, hr⟩ := hR
    refine ⟨t, .value (wireEvalSum (xParams n x fp).one 0 .one lcE), rfl, by simp [hl], hE.append ?_, hr⟩
    have := lc_eq hE hu hS hE' h0
    simp [EnvRel, WireEval.val, this]
  enforce := by
    intro c s es h t e lc lcS lcE hR hus hS hE' hroom
    obtain ⟨hl, hE, hr, hns, hlen, hu, hz, hz', ⟨sg, hX⟩, hv⟩ := hR
    obtain ⟨sg', hsg', hlt, hN⟩ := hroom
    have : sg' = sg := by rw [hX.seg, Option.some.injEq] at hsg'; exact hsg'.symm
    subst this
    have hlc := lc_eq hE hus hS hE' h0
    have hq : ¬ (t.scope.cons ≥ 4 * (xParams n x fp).n - 1) := by
      rw [hX.cons]; simp only [xParams]; omega
    have hq2 : t.scope.cons < t.result.length := by rw [hX.cons, hlen]; omega
    have hq3 : sg'.consStart + s.pos.cons < t.result.length := by rw [hlen]; omega
    have hzero : t.result.getD (sg'.consStart + s.pos.cons) 0 = 0 :=
      hz _ _ sg' hX.seg hlt (Or.inr (Or.inl ⟨rfl, le_rfl⟩))
    refine ⟨{ t with
      scope := { t.scope with cons := t.scope.cons + 1 }
      result := t.result.set t.scope.cons (wireEvalSum (xParams n x fp).one 0 .one lcE) }, ?_, hl,
      hE, hr, hns, ?_, hu, ?_, ?_, ⟨sg', hX.enforce⟩, ?_⟩
    · simp only [sxDriver, if_neg hq, if_pos hq2]
    · simp [hlen]
    · intro j k sgj hj hk hcase
      simp only [hX.cons]
      rw [getD_set _ _ _ _ hq3, if_neg]
      · refine hz j k sgj hj hk ?_
        simp only [Pos.enforce] at hcase
        rcases hcase with h | ⟨h1, h2⟩ | h
        · exact Or.inl h
        · exact Or.inr (Or.inl ⟨h1, by omega⟩)
        · exact Or.inr (Or.inr h)
      · intro heq
        obtain ⟨h1, h2⟩ := ordered_inj ho hj hX.seg hk hlt heq
        simp only [Pos.enforce] at hcase
        rcases hcase with h | ⟨_, h3⟩ | h
        · have := hu j k h; omega
        · omega
        · omega
    · intro q hqn
      simp only [hX.cons]
      rw [getD_set _ _ _ _ hq3, if_neg (hqn _ _ _ hX.seg hlt)]
      exact hz' q hqn
    · simp only [hX.cons, hlc]
      rw [planSum_set y ho _ hX.seg _ _ hlt hq3 hzero, hv, weigh_append]
      simp only [weigh, List.map_cons, List.map_nil, List.sum_cons, List.sum_nil,
        add_zero, consExp, hX.seg, Option.map_some, Option.getD_some]
      ring
  routine := by
    intro c s es h t e sg call hR hsg
    obtain ⟨hl, hE, hr, hns, hlen, hu, hz, hz', ⟨sg0, hX⟩, hv⟩ := hR
    have hfp : (xParams n x fp).fp[t.routine + 1]? = some sg := by rw [hr]; exact hsg
    refine ⟨⟨planSum y fp t.result, fun j k => c.unwritten j k ∨ (j = s.pos.seg ∧ s.pos.cons ≤ k)⟩,
      { t with routine := t.routine + 1, scope := (xParams n x fp).jump sg }, ?_,
      ⟨hl, hE, ?_, ?_, hlen, ?_, ?_, hz', ⟨sg, XRel.jump hsg⟩, ?_⟩, ?_⟩
    · simp only [sxDriver, hfp]
    · simp only [Pos.enter]; omega
    · simp [Pos.enter]
    · intro j k hjk
      simp only [Pos.enter]
      rcases hjk with h | h
      · have := hu j k h; omega
      · omega
    · intro j k sgj hj hk hcase
      refine hz j k sgj hj hk ?_
      simp only [Pos.enter] at hcase
      rcases hcase with (h | h) | h | h
      · exact Or.inl h
      · exact Or.inr (Or.inl h)
      · exact Or.inr (Or.inr (by omega))
      · exact Or.inr (Or.inr (by omega))
    · simp [weigh]
    · intro s1 es' h' t1 e' hR1 hseg hns1 hgates hcons
      obtain ⟨hl1, hE1, hr1, hns1', hlen1, hu1, hz1, hz1', ⟨sg1, hX1⟩, hv1⟩ := hR1
      have : sg1 = sg := by
        have := hX1.seg
        rw [hseg, hsg, Option.some.injEq] at this; exact this.symm
      subst this
      refine ⟨{ t1 with scope := t.scope }, ?_, hl1, hE1, ?_, ?_, hlen1, ?_, ?_, hz1',
        ⟨sg0, hX.leave⟩, ?_⟩
      · simp only [sxDriver, hfp]
        rw [if_pos ⟨by rw [hX1.gates, hgates], by rw [hX1.cons, hcons]⟩]
      · simp only [Pos.leave]; exact hr1
      · simp only [Pos.leave]; omega
      · simpa only [Pos.leave] using hu
      · intro j k sgj hj hk hcase
        refine hz1 j k sgj hj hk ?_
        simp only [Pos.leave] at hcase
        rcases hcase with h | h | h
        · exact Or.inl (Or.inl h)
        · exact Or.inl (Or.inr h)
        · exact Or.inr (Or.inr h)
      · rw [hv1, hv, weigh_append]; ring
  clone := by
    intro c s es h t e i w hR _ _
    exact ⟨t, rfl, by simpa using hR.1, hR.2⟩
  drop := by
    intro c s es h t e i w hR _ _
    exact ⟨t, rfl, by simpa using hR.1, hR.2⟩

/-! ### The reversal loop -/

theorem reverseRange_some {l : List F} {a m : ℕ} (h : a + m ≤ l.length) :
    ∃ r, reverseRange l a m = some r ∧ r.length = l.length ∧
      ∀ q, r.getD q 0 = if a ≤ q ∧ q < a + m then l.getD (a + (a + m - 1 - q)) 0
        else l.getD q 0 := by
  refine ⟨_, by rw [reverseRange, if_pos h], ?_, ?_⟩
  · simp; omega
  · intro q
    simp only [List.getD_eq_getElem?_getD]
    rw [List.append_assoc]
    by_cases h1 : q < a
    · rw [if_neg (by omega), List.getElem?_append_left (by simp; omega), List.getElem?_take_of_lt h1]
    · rw [List.getElem?_append_right (by simp; omega)]
      have e1 : (List.take a l).length = a := by simp; omega
      rw [e1]
      have e2 : ((List.take m (List.drop a l)).reverse).length = m := by simp; omega
      by_cases h2 : q < a + m
      · rw [if_pos ⟨by omega, h2⟩, List.getElem?_append_left (by rw [e2]; omega),
          List.getElem?_reverse (by simp; omega)]
        have e3 : (List.take m (List.drop a l)).length = m := by simp; omega
        rw [e3, List.getElem?_take_of_lt (by omega), List.getElem?_drop]
        congr 2
        omega
      · rw [if_neg (by omega), List.getElem?_append_right (by rw [e2]; omega), e2,
          List.getElem?_drop]
        congr 2
        omega

theorem reverseAll_some {fp : List Seg} (ho : Ordered fp) : ∀ {l : List F},
    (∀ sg ∈ fp, sg.consStart + sg.numCons ≤ l.length) →
    ∃ r, reverseAll fp l = some r ∧ r.length = l.length ∧
      (∀ sg ∈ fp, ∀ k < sg.numCons,
        r.getD (sg.consStart + sg.numCons - 1 - k) 0 = l.getD (sg.consStart + k) 0) ∧
      (∀ q, (∀ sg ∈ fp, ∀ k < sg.numCons, q ≠ sg.consStart + k) → r.getD q 0 = l.getD q 0) := by
  induction fp with
  | nil => intro l _; exact ⟨l, rfl, rfl, by simp, by simp⟩
  | cons a fp ih =>
    intro l h
    simp only [Ordered, List.pairwise_cons] at ho
    obtain ⟨r, hr, hlen, hget⟩ := reverseRange_some (h a (by simp))
    obtain ⟨r', hr', hlen', hin, hout⟩ := ih ho.2 (l := r)
      (fun sg hs => by rw [hlen]; exact h sg (by simp [hs]))
    refine ⟨r', by simp [reverseAll, hr, hr'], by rw [hlen', hlen], ?_, ?_⟩
    · intro sg hs k hk
      rcases List.mem_cons.1 hs with rfl | hs
      · rw [hout]
        · rw [hget, if_pos (by omega)]; congr 1; omega
        · intro b hb j hj
          have := ho.1 b hb; omega
      · rw [hin sg hs k hk, hget, if_neg]
        have := ho.1 sg hs; omega
    · intro q hq
      rw [hout q (fun sg hs => hq sg (by simp [hs])), hget, if_neg]
      intro hc
      exact hq a (by simp) (q - a.consStart) (by omega) (by omega)

/-- A vector supported on the segments evaluates to its sum over the segments. -/
theorem sum_by_segments : ∀ {fp : List Seg} (_ : Ordered fp) (f : ℕ → F) (N : ℕ),
    (∀ sg ∈ fp, sg.consStart + sg.numCons ≤ N) →
    (∀ q, (∀ sg ∈ fp, ∀ k < sg.numCons, q ≠ sg.consStart + k) → f q = 0) →
    ∑ q ∈ range N, f q = (fp.map fun sg => ∑ k ∈ range sg.numCons, f (sg.consStart + k)).sum := by
  intro fp
  induction fp with
  | nil =>
    intro _ f N _ h
    simp only [List.map_nil, List.sum_nil]
    exact Finset.sum_eq_zero fun q _ => h q (by simp)
  | cons a fp ih =>
    intro ho f N hN h
    simp only [Ordered, List.pairwise_cons] at ho
    let inA : ℕ → Prop := fun q => a.consStart ≤ q ∧ q < a.consStart + a.numCons
    have key := ih ho.2 (fun q => if a.consStart ≤ q ∧ q < a.consStart + a.numCons then 0 else f q)
      N (fun sg hs => hN sg (by simp [hs])) ?_
    · have hsplit : ∑ q ∈ range N, f q = ∑ k ∈ range a.numCons, f (a.consStart + k) +
          ∑ q ∈ range N, (if a.consStart ≤ q ∧ q < a.consStart + a.numCons then 0 else f q) := by
        have e1 : ∑ k ∈ range a.numCons, f (a.consStart + k) =
            ∑ q ∈ range N, (if a.consStart ≤ q ∧ q < a.consStart + a.numCons then f q else 0) := by
          have := hN a (by simp)
          rw [← Finset.sum_filter]
          refine Finset.sum_nbij (fun k => a.consStart + k) ?_ ?_ ?_ ?_
          · intro k hk; simp at hk ⊢; omega
          · intro i _ j _ hij; simpa using hij
          · intro q hq
            simp at hq
            refine ⟨q - a.consStart, ?_, ?_⟩
            · simp; omega
            · show a.consStart + (q - a.consStart) = q; omega
          · intro k _; rfl
        rw [e1, ← Finset.sum_add_distrib]
        refine Finset.sum_congr rfl fun q _ => ?_
        split <;> simp
      rw [hsplit, key, List.map_cons, List.sum_cons]
      congr 2
      apply List.map_congr_left
      intro b hb
      have := ho.1 b hb
      refine Finset.sum_congr rfl fun k hk => ?_
      rw [if_neg (by omega)]
    · intro q hq
      by_cases hc : a.consStart ≤ q ∧ q < a.consStart + a.numCons
      · rw [if_pos hc]
      · rw [if_neg hc]
        apply h
        intro sg hs k hk
        rcases List.mem_cons.1 hs with rfl | hs
        · omega
        · exact hq sg hs k hk

/-- The whole run of the `sx` driver on a well-used circuit. -/
theorem sx_run {c : Circ F} (hu : c.WellUsed) {n : ℕ} (hn : totalGates c.counts ≤ n)
    (hN : totalCons c.counts < 4 * n) {x : F} (hx : x ≠ 0) (y : F) :
    ∃ t e, orchestrate (sxDriver (xParams n x (floorPlan c.counts))) c
        { scope := { availD := none
                     curA := (xParams n x (floorPlan c.counts)).baseA
                     curB := (xParams n x (floorPlan c.counts)).baseB
                     curC := (xParams n x (floorPlan c.counts)).baseC
                     gates := 0
                     cons := 0 }
          result := List.replicate (4 * n) 0
          routine := 0 } = .ok (t, e) ∧
      t.routine + 1 = (floorPlan c.counts).length ∧
      t.scope.gates = (posRun c.main (Pos.gate {})).gates ∧
      t.scope.cons = (posRun c.main (Pos.gate {})).cons ∧
      t.result.length = 4 * n ∧
      (∀ q, (∀ sg ∈ floorPlan c.counts, ∀ k < sg.numCons, q ≠ sg.consStart + k) →
        t.result.getD q 0 = 0) ∧
      planSum y (floorPlan c.counts) t.result = wiringAt n (floorPlan c.counts) c x y := by
  obtain ⟨h', hh, _⟩ := hu
  set fp := floorPlan c.counts with hfp
  have ho : Ordered fp := floorPlanFrom_ordered _ _ _
  have hf := circ_fits c hn (show totalCons c.counts ≤ 4 * n - 1 by omega)
  have h0 : fp[0]? = some ⟨0, 0, (posRun c.main (Pos.gate {})).gates,
      (posRun c.main (Pos.gate {})).cons⟩ := rfl
  set P := xParams n x fp with hP
  let t0 : SxState F :=
        { scope := { availD := none
                     curA := P.baseA
                     curB := P.baseB
                     curC := P.baseC
                     gates := 0
                     cons := 0 }
          result := List.replicate (4 * n) 0
          routine := 0 }
  have hget : ∀ q, (List.replicate (4 * n) (0 : F)).getD q 0 = 0 := by
    intro q
    rw [List.getD_eq_getElem?_getD, List.getElem?_replicate]
    split <;> rfl
  let gh : SxGhost F := ⟨0, fun _ _ => False⟩
  have hR0 : SxRel n fp x y gh {} [] [] t0 [] := by
    refine ⟨rfl, List.Forall₂.nil, rfl, Nat.zero_lt_one, by simp [t0], fun _ _ h => h.elim, ?_, ?_,
      ⟨_, ⟨h0, rfl, rfl, ?_, ?_, ?_, rfl⟩⟩, ?_⟩
    · intro j k sg _ _ _; exact hget _
    · intro q _; exact hget _
    · simp [t0, hP]
    · simp [t0, hP]
    · simp [t0, hP]
    · simp only [t0, gh, planSum, chunkSum, hget, weigh]
      simp
  obtain ⟨t1, wa, wb, wc, wd, hgate, hR1⟩ :=
    (sx_sim (y := y) hx ho (abs_one c)).gate (va := 0) (vb := 0) (vc := 0) (vd := 0) hR0 hf.1
  have hR1' : SxRel n fp x y gh { pos := Pos.gate {} } [] [] t1 [] := by
    obtain ⟨_, _, h3⟩ := hR1
    exact ⟨rfl, List.Forall₂.nil, h3⟩
  obtain ⟨s, es, t, e, r1, r2, hR, hp⟩ := sim_run (sx_sim (y := y) hx ho (abs_one c)) c.main gh
    _ _ _ _ _ h' hR1' hh hf.2
  obtain ⟨_, _, hr, hns, hlen, hu', hz, hz', ⟨sg, hX⟩, hv⟩ := hR
  have hsg : sg = ⟨0, 0, (posRun c.main (Pos.gate {})).gates,
      (posRun c.main (Pos.gate {})).cons⟩ := by
    have := hX.seg
    rw [hp, posRun_seg] at this
    change fp[0]? = some sg at this
    rw [h0, Option.some.injEq] at this
    exact this.symm
  subst hsg
  refine ⟨t, e, ?_, ?_, ?_, ?_, hlen, ?_, ?_⟩
  · simp only [orchestrate, t0, hP] at hgate ⊢
    rw [hgate, bind_ok]
    exact r2
  · rw [hr, hp, posRun_nseg, hfp, floorPlan_length]
    simp [Circ.counts, Pos.gate]; omega
  · rw [hX.gates, hp]; simp
  · rw [hX.cons, hp]; simp
  · intro q hq
    refine hz' q ?_
    intro j k sg hj hk
    exact hq sg (List.mem_of_getElem? hj) k hk
  · rw [hv]
    have : constraints (fun b => x ^ wiringExp n (absGate fp b) b.kind) c = s.log :=
      constraints_eq r1
    rw [wiringAt, this]
    simp [gh]

theorem sxEval_eq {c : Circ F} (hu : c.WellUsed) {n : ℕ} (hn : totalGates c.counts ≤ n)
    (hN : totalCons c.counts < 4 * n) (x : F) :
    ∃ p, sxEval n (floorPlan c.counts) c x = .ok p ∧ Spec.WellFormed (4 * n) p ∧
      ∀ y, Sparse.eval (4 * n) p y = wiringAt n (floorPlan c.counts) c x y := by
  by_cases hx : x = 0
  · subst hx
    refine ⟨[], by simp [sxEval], trivial, fun y => ?_⟩
    rw [wiring_x_zero hu hn, Props.C11_eval (4 * n) [] (show Spec.WellFormed (4 * n) [] from trivial)]
    simp [Spec.coeff]
  obtain ⟨t, e, horch, hrt, hgs, hcs, hlen, hz, _⟩ := sx_run hu hn hN hx 0
  have hall : ∀ y, planSum y (floorPlan c.counts) t.result =
      wiringAt n (floorPlan c.counts) c x y := by
    intro y
    obtain ⟨t', e', horch', _, _, _, _, _, h⟩ := sx_run hu hn hN hx y
    rw [horch, Except.ok.injEq, Prod.mk.injEq] at horch'
    rw [horch'.1]; exact h
  have h0 : (floorPlan c.counts)[0]? = some ⟨0, 0, (posRun c.main (Pos.gate {})).gates,
      (posRun c.main (Pos.gate {})).cons⟩ := rfl
  set fp := floorPlan c.counts with hfp
  have ho : Ordered fp := floorPlanFrom_ordered _ _ _
  have hb : ∀ sg ∈ fp, sg.consStart + sg.numCons ≤ 4 * n := by
    intro sg hs
    have := (floorPlanFrom_bound c.counts 0 0 sg hs).2
    omega
  obtain ⟨res, hres, hrl, hin, hout⟩ := reverseAll_some ho (l := t.result) (by rw [hlen]; exact hb)
  have hsum : ∀ y, ∑ q ∈ range (4 * n), res.getD q 0 * y ^ q =
      wiringAt n fp c x y := by
    intro y
    rw [← hall y, sum_by_segments ho (fun q => res.getD q 0 * y ^ q) (4 * n) hb]
    · simp only [planSum]
      congr 1
      apply List.map_congr_left
      intro sg hs
      rw [chunkSum, ← Finset.sum_range_reflect]
      refine Finset.sum_congr rfl fun k hk => ?_
      rw [Finset.mem_range] at hk
      have e1 : sg.consStart + (sg.numCons - 1 - k) = sg.consStart + sg.numCons - 1 - k := by omega
      rw [e1, hin sg hs k hk]
      ring
    · intro q hq
      rw [hout q hq, hz q hq, zero_mul]
  have hn0 : 0 < 4 * n := by omega
  have hres0 : res[0]? = some (xParams n x fp).one := by
    have h1 := hsum 0
    rw [wiringAt, weigh_zero hu] at h1
    rw [Finset.sum_eq_single 0] at h1
    · simp only [pow_zero, mul_one] at h1
      have hl : 0 < res.length := by rw [hrl, hlen]; exact hn0
      rw [List.getElem?_eq_getElem hl]
      rw [List.getD_eq_getElem?_getD, List.getElem?_eq_getElem hl] at h1
      simp only [Option.getD_some] at h1
      rw [h1, one_eq]
      simp [wiringExp, absGate, h0]
    · intro q _ hq; rw [zero_pow hq, mul_zero]
    · intro h; simp at h; omega
  obtain ⟨p, hp, hwf, hco⟩ := Props.C09_from_coeffs (4 * n) res (by rw [hrl, hlen])
  refine ⟨p, ?_, hwf, fun y => ?_⟩
  · simp only [sxEval, if_neg hx]
    rw [horch, bind_ok]
    simp only [h0]
    rw [if_pos ⟨hrt, hgs, hcs⟩]
    simp only [hres, if_pos hres0, hp]
  · rw [Props.C11_eval _ _ hwf, ← hsum y]
    simp only [hco]

end Ragu.Circuit

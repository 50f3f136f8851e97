/-
C47, C48 and C49: the polynomial queries in circuit.
-/
import Verif.Lemmas.ComputeV
import Verif.Lemmas.TestField

set_option linter.unusedSectionVars false

namespace Ragu.Props
open Ragu Ragu.Circuit Ragu.Registry Ragu.Gadget Ragu.Spec Ragu.Pcd Finset
variable {F : Type} [Field F] [DecidableEq F]

/-- C49: in every satisfying assignment the two folded values are the two-layer folding of the
values of the claims' polynomials, as derived from the claimed evaluations; and honest inputs are
accepted. -/
theorem C49_circuit (q : QueryOutput (Element F))
    (z txz muInv muPrimeInv munu muPrimeNuPrime : Element F) :
    let claims := valueClaims (QueryOutput.map (·.wire) q)
    let a := twoLayer GROUP_SIZE NUM_GROUPS muInv.wire muPrimeInv.wire
      (claims.map (leftValue z.wire))
    let b := twoLayer GROUP_SIZE NUM_GROUPS munu.wire muPrimeNuPrime.wire
      (claims.map (rightValue (fun id => (q.fixedRegistry id).wire) txz.wire))
    (∀ r, (computeAxBx q z txz muInv muPrimeInv munu muPrimeNuPrime).sat r →
      r.1.wire = a ∧ r.2.wire = b) ∧
    (QueryOutput.Honest q → z.Honest → txz.Honest → muInv.Honest → muPrimeInv.Honest →
      munu.Honest → muPrimeNuPrime.Honest →
      ∃ r, (computeAxBx q z txz muInv muPrimeInv munu muPrimeNuPrime).sim = .ok r ∧
        (r.1.wire = a ∧ r.1.Honest) ∧ r.2.wire = b ∧ r.2.Honest) := by
  refine ⟨fun r hr => ?_, fun h1 h2 h3 h4 h5 h6 h7 => ?_⟩
  · have := (runs_computeAxBx (m := False) False.elim False.elim False.elim False.elim False.elim
      False.elim False.elim).sound id r hr
    exact ⟨this.1, this.2.1⟩
  · obtain ⟨r, h8, h9, h10, h11⟩ := (runs_computeAxBx (m := True) (fun _ => h1) (fun _ => h2)
      (fun _ => h3) (fun _ => h4) (fun _ => h5) (fun _ => h6) fun _ => h7).complete trivial
    exact ⟨r, h8, ⟨h9, (h11 trivial).1⟩, h10, (h11 trivial).2⟩

/-- C47: in every satisfying assignment `u` is none of the query points and the value of `f` at `u`
is the combination of the quotients, one for each query, in the order of the queries; and honest
inputs with such a `u` are accepted. -/
theorem C47_circuit (E : Env F) (u w x y z alpha : Element F) (pre : PreambleOutput F)
    (e : EvalOutput (Element F)) (q : QueryOutput (Element F)) (ax bx : Element F) :
    let p := wirePoints E pre w.wire y.wire z.wire x.wire
    let f := quotientSum alpha.wire u.wire p (evalOf (EvalOutput.map (·.wire) e))
      (answerOf (QueryOutput.map (·.wire) q) (fun s => (pre.v s).wire) ax.wire bx.wire)
    (∀ r, (quotientValue E u w x y z alpha pre e q ax bx).sat r →
      Avoids u.wire p ∧ r.wire = f) ∧
    (u.Honest → w.Honest → x.Honest → y.Honest → z.Honest → alpha.Honest → ax.Honest → bx.Honest →
      pre.HonestPoints → EvalOutput.Honest e → QueryOutput.Honest q → Avoids u.wire p →
      ∃ r, (quotientValue E u w x y z alpha pre e q ax bx).sim = .ok r ∧ r.wire = f ∧
        r.Honest) := by
  refine ⟨fun r hr => ?_, fun h1 h2 h3 h4 h5 h6 h7 h8 h9 h10 h11 h12 => ?_⟩
  · have := (runs_quotientValue (m := False) False.elim False.elim False.elim False.elim False.elim
      False.elim False.elim False.elim False.elim False.elim False.elim False.elim).sound id r hr
    exact ⟨this.1, this.2.1⟩
  · obtain ⟨r, h13, -, h14, h15⟩ := (runs_quotientValue (m := True) (fun _ => h1) (fun _ => h2)
      (fun _ => h3) (fun _ => h4) (fun _ => h5) (fun _ => h6) (fun _ => h9) (fun _ => h10)
      (fun _ => h11) (fun _ => h7) (fun _ => h8) fun _ => h12).complete trivial
    exact ⟨r, h13, h14, h15 trivial⟩

/-- The circuit establishes `VerifiedWith` for the wires of its public output. -/
def OutputVerifiedWith (Bits : ℕ → Prop) (E : Env F) (ec : EndoConsts F) (k : ℕ) (pre : PreambleOutput F)
    (q : QueryOutput (Element F)) (e : EvalOutput (Element F)) (o : UnifiedOutput F) : Prop :=
  VerifiedWith Bits ec.nbits (2 ^ k) ec.zeta
    (wirePoints E pre (Element.wire (o .w)) (Element.wire (o .y)) (Element.wire (o .z))
      (Element.wire (o .x)))
    (fun s => (pre.v s).wire) (QueryOutput.map (·.wire) q) (EvalOutput.map (·.wire) e)
    (Element.wire (o .mu)) (Element.wire (o .nu)) (Element.wire (o .muPrime))
    (Element.wire (o .nuPrime)) (Element.wire (o .alpha)) (Element.wire (o .u))
    (Element.wire (o .v))

/-- `OutputVerifiedWith` for the bits that the wire of `preBeta` determines. -/
abbrev OutputVerified (E : Env F) (ec : EndoConsts F) (k : ℕ) (pre : PreambleOutput F)
    (q : QueryOutput (Element F)) (e : EvalOutput (Element F)) (o : UnifiedOutput F) : Prop :=
  OutputVerifiedWith (SquareBits ec.nbits (Element.wire (o .preBeta))) E ec k pre q e o

/-- The conditions for an honest run of the circuit: honest stages with points on the curve, an
instance whose points are on the curve and in which `v` is not covered yet, and challenges that are
not degenerate. -/
structure VReady (E : Env F) (b : F) (pre : PreambleOutput F) (q : QueryOutput (Element F))
    (e : EvalOutput (Element F)) (inst : UnifiedInstance F) : Prop where
  points : pre.HonestPoints
  curve : pre.OnCurve b
  bridges : ∀ p ∈ UnifiedOutput.points pre.left.unified ++ UnifiedOutput.points pre.right.unified,
    Point.Honest p
  query : QueryOutput.Honest q
  eval : EvalOutput.Honest e
  valid : ∀ s, ValidNative b s.kind (inst.value s)
  fresh : inst.coverage .v = false
  x_ne : inst.value .x ≠ (0 : F)
  z_ne : inst.value .z ≠ (0 : F)
  mu_ne : inst.value .mu ≠ (0 : F)
  muPrime_ne : inst.value .muPrime ≠ (0 : F)
  avoids : Avoids (F := F) (inst.value .u)
    (wirePoints E pre (inst.value .w) (inst.value .y) (inst.value .z) (inst.value .x))

theorem evalList_wires (e : EvalOutput (Element F)) :
    e.write.map (·.wire) = evalList (EvalOutput.map (·.wire) e) := rfl

theorem eval_write_honest {e : EvalOutput (Element F)} (h : EvalOutput.Honest e) :
    ∀ x ∈ e.write, x.Honest := by
  have h1 : e.write.map (·.value) = e.write.map (·.wire) := by
    rw [evalList_wires, ← show EvalOutput.map (·.value) e = _ from h]; rfl
  intro x hx
  obtain ⟨i, hi, rfl⟩ := List.getElem_of_mem hx
  have := congrArg (fun l => l[i]?) h1
  simp only [List.getElem?_map, List.getElem?_eq_getElem hi, Option.map_some,
    Option.some.injEq] at this
  exact this

theorem runs_computeV [Finite F] {m : Prop} {E : Env F} {ec : EndoConsts F}
    (hgen : ¬ IsSquare ec.gen) (hs : SqrtSpec ec.sqrt) {b : F} {k : ℕ} {pre : PreambleOutput F}
    {q : QueryOutput (Element F)} {e : EvalOutput (Element F)} {inst : UnifiedInstance F}
    (hm : m → VReady E b pre q e inst) :
    Runs m (computeV E ec b k pre q e inst) (fun r => ∃ o : UnifiedOutput F,
      r.1 = o.write ++ [Element.zero] ∧ pre.OnCurve b ∧
      (∃ B : ℕ → Prop, OutputVerifiedWith B E ec k pre q e o ∧
        (∀ v, B v → SquareBits ec.nbits (Element.wire (o .preBeta)) v) ∧
        (m → ∀ v, B v → ExtractedBits ec.nbits (Element.wire (o .preBeta)) v)) ∧
      (∀ s, s ≠ .v → FromInst m b inst s (o s)) ∧
      (m → r.2 = ⟨inst.value, fun s => inst.coverage s || decide (s = .v)⟩)) := by
  rw [computeV]
  refine (runs_preambleConsistent fun h => ⟨(hm h).curve, (hm h).bridges⟩).bind fun _ hcurve => ?_
  refine (runs_read (T := []) rfl fun h => (hm h).valid _).bind fun r hr => ?_
  obtain ⟨w, B⟩ := r; obtain ⟨hw, hB⟩ := hr; dsimp only at hw hB ⊢; subst hB
  refine (runs_read rfl fun h => (hm h).valid _).bind fun r hr => ?_
  obtain ⟨y, B⟩ := r; obtain ⟨hy, hB⟩ := hr; dsimp only at hy hB ⊢; subst hB
  refine (runs_read rfl fun h => (hm h).valid _).bind fun r hr => ?_
  obtain ⟨z, B⟩ := r; obtain ⟨hz, hB⟩ := hr; dsimp only at hz hB ⊢; subst hB
  refine (runs_read rfl fun h => (hm h).valid _).bind fun r hr => ?_
  obtain ⟨x, B⟩ := r; obtain ⟨hx, hB⟩ := hr; dsimp only at hx hB ⊢; subst hB
  have hon : ∀ {s : SlotId} {g : s.kind.Gadget F}, FromInst m b inst s g → m →
      g = honestGadget s.kind (inst.value s) := fun h => h.2
  refine (runs_txz (fun h => ?_) fun h => ?_).bind fun txz htxz => ?_
  · rw [hon hx h]; exact ⟨rfl, (hm h).x_ne⟩
  · rw [hon hz h]; exact ⟨rfl, (hm h).z_ne⟩
  refine (runs_read rfl fun h => (hm h).valid _).bind fun r hr => ?_
  obtain ⟨mu, B⟩ := r; obtain ⟨hmu, hB⟩ := hr; dsimp only at hmu hB ⊢; subst hB
  refine (runs_read rfl fun h => (hm h).valid _).bind fun r hr => ?_
  obtain ⟨nu, B⟩ := r; obtain ⟨hnu, hB⟩ := hr; dsimp only at hnu hB ⊢; subst hB
  refine (runs_read rfl fun h => (hm h).valid _).bind fun r hr => ?_
  obtain ⟨mu', B⟩ := r; obtain ⟨hmu', hB⟩ := hr; dsimp only at hmu' hB ⊢; subst hB
  refine (runs_read rfl fun h => (hm h).valid _).bind fun r hr => ?_
  obtain ⟨nu', B⟩ := r; obtain ⟨hnu', hB⟩ := hr; dsimp only at hnu' hB ⊢; subst hB
  refine (Runs.invert fun h => ?_).bind fun muInv hmuInv => ?_
  · rw [hon hmu h]; exact ⟨rfl, (hm h).mu_ne⟩
  refine (Runs.invert fun h => ?_).bind fun muPrimeInv hmuPrimeInv => ?_
  · rw [hon hmu' h]; exact ⟨rfl, (hm h).muPrime_ne⟩
  refine (Runs.mul (fun h => ?_) fun h => ?_).bind fun munu hmunu => ?_
  · rw [hon hmu h]; rfl
  · rw [hon hnu h]; rfl
  refine (Runs.mul (fun h => ?_) fun h => ?_).bind fun mpnp hmpnp => ?_
  · rw [hon hmu' h]; rfl
  · rw [hon hnu' h]; rfl
  refine (runs_computeAxBx (fun h => (hm h).query) (fun h => by rw [hon hz h]; rfl) htxz.2.2.2
    hmuInv.2.2 hmuPrimeInv.2.2 hmunu.2 hmpnp.2).bind fun r hr => ?_
  obtain ⟨ax, bx⟩ := r; obtain ⟨hax, hbx, hab⟩ := hr; dsimp only at hax hbx hab ⊢
  refine (runs_read rfl fun h => (hm h).valid _).bind fun r hr => ?_
  obtain ⟨alpha, B⟩ := r; obtain ⟨halpha, hB⟩ := hr; dsimp only at halpha hB ⊢; subst hB
  refine (runs_read rfl fun h => (hm h).valid _).bind fun r hr => ?_
  obtain ⟨u, B⟩ := r; obtain ⟨hu, hB⟩ := hr; dsimp only at hu hB ⊢; subst hB
  refine (runs_quotientValue (fun h => ?_) (fun h => ?_) (fun h => ?_) (fun h => ?_) (fun h => ?_)
    (fun h => ?_) (fun h => (hm h).points) (fun h => (hm h).eval) (fun h => (hm h).query)
    (fun h => (hab h).1) (fun h => (hab h).2) fun h => ?_).bind fun fu hfu => ?_
  · rw [hon hu h]; rfl
  · rw [hon hw h]; rfl
  · rw [hon hx h]; rfl
  · rw [hon hy h]; rfl
  · rw [hon hz h]; rfl
  · rw [hon halpha h]; rfl
  · rw [hon hu h, hon hw h, hon hx h, hon hy h, hon hz h]; exact (hm h).avoids
  refine (runs_read rfl fun h => (hm h).valid _).bind fun r hr => ?_
  obtain ⟨preBeta, B⟩ := r; obtain ⟨hpre, hB⟩ := hr; dsimp only at hpre hB ⊢; subst hB
  refine (runs_beta ec.zeta hgen hs fun h => by rw [hon hpre h]; rfl).bind2 fun beta hbeta => ?_
  obtain ⟨bits, hb1, hb2, hb3⟩ := hbeta
  refine (Runs.of_computes (Horner.write_computes (fun h => (hb3 h).1) (fun _ e h => by cases h)
    _)).bind fun h1 hh1 => ?_
  subst hh1
  refine (Runs.of_computes (Horner.writeAll_computes (fun h => (hb3 h).1)
    (fun h => Horner.writeE_honest (hb3 h).1 (fun e h => by cases h) (hfu.2.2 h))
    fun h => eval_write_honest (hm h).eval)).bind fun h2 hh2 => ?_
  subst hh2
  refine (runs_provide rfl _).bind fun B hB => ?_
  subst hB
  refine (runs_finish (by simp only [List.map_cons, List.map_nil]; decide) (fun h => (hm h).valid)
    fun h s hs' => ?_).mono fun r hr => ?_
  · cases s
    case v => exact (hm h).fresh
    all_goals exact absurd hs' Bool.false_ne_true
  · obtain ⟨o, h1, h2⟩ := hr
    have ew := h2.slots ⟨.w, false, w⟩ (by simp only [List.mem_cons, true_or, or_true])
    have ey := h2.slots ⟨.y, false, y⟩ (by simp only [List.mem_cons, true_or, or_true])
    have ez := h2.slots ⟨.z, false, z⟩ (by simp only [List.mem_cons, true_or, or_true])
    have ex := h2.slots ⟨.x, false, x⟩ (by simp only [List.mem_cons, true_or, or_true])
    have emu := h2.slots ⟨.mu, false, mu⟩ (by simp only [List.mem_cons, true_or, or_true])
    have enu := h2.slots ⟨.nu, false, nu⟩ (by simp only [List.mem_cons, true_or, or_true])
    have emu' := h2.slots ⟨.muPrime, false, mu'⟩ (by simp only [List.mem_cons, true_or, or_true])
    have enu' := h2.slots ⟨.nuPrime, false, nu'⟩ (by simp only [List.mem_cons, true_or, or_true])
    have eal := h2.slots ⟨.alpha, false, alpha⟩ (by simp only [List.mem_cons, true_or, or_true])
    have eu := h2.slots ⟨.u, false, u⟩ (by simp only [List.mem_cons, true_or, or_true])
    have epre := h2.slots ⟨.preBeta, false, preBeta⟩
      (by simp only [List.mem_cons, true_or, or_true])
    have ev := h2.slots ⟨.v, true, _⟩ List.mem_cons_self
    dsimp only at ew ey ez ex emu enu emu' enu' eal eu epre ev
    refine ⟨o, h1, hcurve, ?_, fun s hsv => ?_, fun hk => ?_⟩
    · refine ⟨fun v => v = bits, ?_, fun v hv => by rw [hv, epre]; exact hb1,
        fun hk v hv => by rw [hv, epre]; exact (hb3 hk).2.2⟩
      unfold OutputVerifiedWith
      rw [ew, ey, ez, ex, emu, enu, emu', enu', eal, eu, ev]
      refine ⟨htxz.1, htxz.2.1, hmuInv.1, hmuPrimeInv.1, hfu.1, bits, rfl, ?_⟩
      rw [descending_eq]
      have : Horner.finish (e.write.foldl (Horner.writeE beta)
          (Horner.writeE beta none fu)) =
          hornerE beta (fu :: e.write) := by
        rw [← Horner.finish_foldl, List.foldl_cons]
      rw [this]
      show hornerVal beta.wire ((fu :: e.write).map (·.wire)) = _
      rw [hb2, List.map_cons, evalList_wires, hfu.2.1]
      congr 3
      rw [foldedA, foldedB, hax, hbx, hmuInv.2.1, hmuPrimeInv.2.1, hmunu.1, hmpnp.1, htxz.2.2.1]
      rfl
    · cases s
      case v => exact absurd rfl hsv
      case w => rw [ew]; exact hw
      case y => rw [ey]; exact hy
      case z => rw [ez]; exact hz
      case x => rw [ex]; exact hx
      case mu => rw [emu]; exact hmu
      case nu => rw [enu]; exact hnu
      case muPrime => rw [emu']; exact hmu'
      case nuPrime => rw [enu']; exact hnu'
      case alpha => rw [eal]; exact halpha
      case u => rw [eu]; exact hu
      case preBeta => rw [epre]; exact hpre
      all_goals exact h2.rest _ (by simp only [List.map_cons, List.map_nil]; decide)
    · rw [h2.after hk]
      congr 1
      funext s
      cases s <;> rfl

/-- C48: in every satisfying assignment the public output of the circuit for `v` is that of a unified
instance in which `v` is the combination, by the endoscalar of `pre_beta`, of the quotient sum and the
claimed evaluations; the other slots are allocated from the instance.  An honest run succeeds, puts
the instance's values on the wires of the other slots, takes the bits that the prover extracts, and
covers `v` and nothing else. -/
theorem C48_circuit [Finite F] (E : Env F) (ec : EndoConsts F) (hgen : ¬ IsSquare ec.gen)
    (hs : SqrtSpec ec.sqrt) (b : F) (k : ℕ) (pre : PreambleOutput F) (q : QueryOutput (Element F))
    (e : EvalOutput (Element F)) (inst : UnifiedInstance F) :
    (∀ r, (computeV E ec b k pre q e inst).sat r → ∃ o : UnifiedOutput F,
      r.1 = o.write ++ [Element.zero] ∧ pre.OnCurve b ∧ OutputVerified E ec k pre q e o ∧
      ∀ s, s ≠ .v → Allocated b s.kind (inst.value s) (o s)) ∧
    (VReady E b pre q e inst → ∃ r, (computeV E ec b k pre q e inst).sim = .ok r ∧
      ∃ o : UnifiedOutput F, r.1 = o.write ++ [Element.zero] ∧
      OutputVerifiedWith (ExtractedBits (F := F) ec.nbits (inst.value .preBeta)) E ec k pre q e o ∧
      (∀ s, s ≠ .v → o s = honestGadget s.kind (inst.value s)) ∧
      r.2 = ⟨inst.value, fun s => inst.coverage s || decide (s = .v)⟩) := by
  refine ⟨fun r hr => ?_, fun h => ?_⟩
  · obtain ⟨o, h1, h2, ⟨B, h3, hB, -⟩, h4, -⟩ :=
      (runs_computeV (m := False) hgen hs False.elim).sound id r hr
    exact ⟨o, h1, h2, h3.mono hB, fun s h => (h4 s h).1⟩
  · obtain ⟨r, h0, o, h1, h2, ⟨B, h3, -, hB⟩, h4, h5⟩ :=
      (runs_computeV (m := True) hgen hs fun _ => h).complete trivial
    have hp : o .preBeta = honestGadget SlotId.preBeta.kind (inst.value .preBeta) :=
      (h4 .preBeta (by decide)).2 trivial
    have hp : Element.wire (o .preBeta) = inst.value .preBeta := by rw [hp]; rfl
    rw [← hp]
    exact ⟨r, h0, o, h1, h3.mono (hB trivial), fun s h => (h4 s h).2 trivial, h5 trivial⟩

/-! ### Cases -/

/-- Square roots in F₁₃. -/
def vConsts : EndoConsts (ZMod 13) where
  nbits := 4
  sqrt v := (List.range 13).findSome? fun i =>
    if (i : ZMod 13) * i = v then some (i : ZMod 13) else none
  gen := 2
  zeta := 3

/-- Roots of unity of order 4 in F₁₃. -/
def vEnv : Env (ZMod 13) where
  consts := ⟨2, 5, 8, 10⟩
  threads := 2
  lowU64 := ZMod.val
  blake l := l
  toRepr f := [f.val]
  fromUniform l := (l.sum : ℕ)

/-- An honest element. -/
def vEl (v : ZMod 13) : Element (ZMod 13) := ⟨v, v⟩

/-- An instance over the curve y² = x³ + 1 of F₁₃. -/
def vInst : UnifiedInstance (ZMod 13) :=
  ⟨fun s => match s with
    | .bridgePreamble | .bridgeSPrime | .bridgeInnerError | .bridgeOuterError | .bridgeAb
    | .bridgeQuery | .bridgeF | .bridgeEval => some (2, 3)
    | .w => (3 : ZMod 13) | .y => (4 : ZMod 13) | .z => (7 : ZMod 13) | .x => (6 : ZMod 13)
    | .u => (2 : ZMod 13) | .mu => (5 : ZMod 13) | .nu => (11 : ZMod 13)
    | .muPrime => (10 : ZMod 13) | .nuPrime => (9 : ZMod 13) | .alpha => (8 : ZMod 13)
    | .preBeta => (1 : ZMod 13) | .c => (12 : ZMod 13) | .v => (0 : ZMod 13),
    fun s => decide (s = .w)⟩

/-- A child with `u = 9`, `y = 10`, `x = 11`, circuit identifier 7 and `v = 4`. -/
def vChild : ChildInputs (ZMod 13) where
  leftHeader := []
  rightHeader := []
  outputHeader := []
  circuitId := vEl 7
  unified s := match s with
    | .bridgePreamble | .bridgeSPrime | .bridgeInnerError | .bridgeOuterError | .bridgeAb
    | .bridgeQuery | .bridgeF | .bridgeEval => ⟨vEl 2, vEl 3⟩
    | .w => vEl 0 | .y => vEl 10 | .z => vEl 0 | .x => vEl 11
    | .u => vEl 9 | .mu => vEl 0 | .nu => vEl 0
    | .muPrime => vEl 0 | .nuPrime => vEl 0 | .alpha => vEl 0
    | .preBeta => vEl 0 | .c => vEl 0 | .v => vEl 4

def vQueryChild : QueryChild (Element (ZMod 13)) := ⟨fun _ => vEl 3, vEl 1, vEl 2, vEl 5, vEl 6, vEl 7⟩

def vQuery : QueryOutput (Element (ZMod 13)) := ⟨fun _ => vEl 8, vEl 9, vQueryChild, vQueryChild⟩

def vEvalChild : EvalChild (Element (ZMod 13)) := ⟨fun _ => vEl 3, vEl 1, vEl 2, vEl 5, vEl 6⟩

def vEval : EvalOutput (Element (ZMod 13)) :=
  ⟨vEvalChild, vEvalChild, vEl 9, vEl 8, vEl 7, vEl 6, vEl 5, vEl 4⟩

theorem vReady : VReady vEnv 1 ⟨vChild, vChild⟩ vQuery vEval vInst where
  points := by
    intro c hc
    have : c = vChild := by simpa using hc
    subst this
    exact ⟨rfl, rfl, rfl, rfl, rfl⟩
  curve := by
    intro p hp
    have : p = ⟨vEl 2, vEl 3⟩ := by simpa [UnifiedOutput.points, vChild] using hp
    subst this
    decide
  bridges := by
    intro p hp
    have : p = ⟨vEl 2, vEl 3⟩ := by simpa [UnifiedOutput.points, vChild] using hp
    subst this
    exact ⟨rfl, rfl⟩
  query := rfl
  eval := rfl
  valid s := by cases s <;> first | trivial | exact ⟨2, 3, rfl, by decide⟩
  fresh := rfl
  x_ne := show (6 : ZMod 13) ≠ 0 by decide
  z_ne := show (7 : ZMod 13) ≠ 0 by decide
  mu_ne := show (5 : ZMod 13) ≠ 0 by decide
  muPrime_ne := show (10 : ZMod 13) ≠ 0 by decide
  avoids := by
    show Avoids (2 : ZMod 13) (wirePoints vEnv ⟨vChild, vChild⟩ 3 4 7 6)
    rw [avoids_iff]
    decide +kernel

example : ∃ r, (computeV vEnv vConsts 1 3 ⟨vChild, vChild⟩ vQuery vEval vInst).sim = .ok r ∧
    r.2.coverage .v = true ∧ r.2.coverage .u = false := by
  obtain ⟨r, h1, o, -, -, -, h2⟩ := (C48_circuit vEnv vConsts (by decide +kernel)
    ⟨by decide +kernel, by decide +kernel⟩ 1 3 ⟨vChild, vChild⟩ vQuery vEval vInst).2 vReady
  exact ⟨r, h1, by rw [h2]; rfl, by rw [h2]; rfl⟩

example : ∃ r, (quotientValue vEnv (vEl 2) (vEl 3) (vEl 6) (vEl 4) (vEl 7) (vEl 8)
    ⟨vChild, vChild⟩ vEval vQuery (vEl 1) (vEl 2)).sim = .ok r ∧ r.Honest := by
  obtain ⟨r, h1, -, h2⟩ := (C47_circuit vEnv (vEl 2) (vEl 3) (vEl 6) (vEl 4) (vEl 7) (vEl 8)
    ⟨vChild, vChild⟩ vEval vQuery (vEl 1) (vEl 2)).2 rfl rfl rfl rfl rfl rfl rfl rfl vReady.points
    rfl rfl vReady.avoids
  exact ⟨r, h1, h2⟩

example : ∃ r, (computeAxBx vQuery (vEl 7) (vEl 5) (vEl 2) (vEl 3) (vEl 4) (vEl 6)).sim = .ok r ∧
    r.2.Honest := by
  obtain ⟨r, h1, -, -, h2⟩ := (C49_circuit vQuery (vEl 7) (vEl 5) (vEl 2) (vEl 3) (vEl 4)
    (vEl 6)).2 rfl rfl rfl rfl rfl rfl rfl
  exact ⟨r, h1, h2⟩

end Ragu.Props

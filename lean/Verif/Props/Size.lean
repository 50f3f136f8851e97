/-
Properties C72 and C73: how many gates and constraints gadgets and the internal circuits take.
-/
import Verif.Props.Stages
import Verif.Props.App
import Verif.Lemmas.SizeCircuits
import Verif.Lemmas.SizeCircuit

set_option linter.unusedSectionVars false

namespace Ragu.Props
open Ragu Ragu.Circuit Ragu.Registry Ragu.Gadget Ragu.Spec Ragu.Pcd Ragu.Unif
variable {F : Type} [Field F] [DecidableEq F]

/-! ### C72: gadgets -/

/-- C72: field arithmetic. -/
theorem C72_element (a b : Element F) (v : F) (l : List (Element F)) (k : ℕ) :
    Takes (Element.alloc v) 0 1 0 ∧ Takes (Element.allocSquare v) 1 0 1 ∧
    Takes (a.mul b) 1 0 2 ∧ Takes a.square 1 0 2 ∧ Takes a.invert 1 0 2 ∧ Takes (a.divNonzero b) 1 0 2 ∧
    Takes (isZero a) 2 0 4 ∧ Takes a.enforceZero 0 0 1 ∧
    Takes (Element.fold l a) (l.length - 1) 0 (2 * (l.length - 1)) ∧
    Takes (a.enforceRootOfUnity k) k 0 (2 * k + 1) :=
  ⟨Element.sized_alloc v, Element.sized_allocSquare v, Element.sized_mul a b, Element.sized_square a,
    Element.sized_invert a, Element.sized_divNonzero a b, sized_isZero a, Element.sized_zero a,
    Element.sized_fold l a, Element.sized_root a k⟩

/-- C72: sums and packing are free. -/
theorem C72_free {v : List (Element F)} {c : List F} (h : v.length = c.length) {cap : ℕ} (hc : cap ≠ 0)
    (bits : List (Boolean F)) : Takes (multiadd v c) 0 0 0 ∧ Takes (multipack cap bits) 0 0 0 :=
  ⟨sized_multiadd h, sized_multipack hc bits⟩

/-- C72: booleans. -/
theorem C72_boolean (c d : Boolean F) (v : Bool) (a b : Element F) :
    Takes (Boolean.alloc (F := F) v) 1 0 2 ∧ Takes (c.and d) 1 0 2 ∧
    Takes (c.conditionalSelect a b) 1 0 2 ∧ Takes (c.conditionalEnforceEqual a b) 1 0 3 ∧
    Takes c.enforceConsistent 1 0 3 :=
  ⟨Boolean.sized_alloc v, Boolean.sized_and c d, Boolean.sized_conditionalSelect c a b,
    Boolean.sized_conditionalEnforceEqual c a b, Boolean.sized_enforceConsistent c⟩

/-- C72: points. -/
theorem C72_point (b z : F) (v : Option (F × F)) (p q : Point F) (c : Boolean F) (n : Element F) :
    Takes (Point.alloc b v) 3 0 5 ∧ Takes (Point.enforceConsistent b p) 3 0 7 ∧
    Takes (Point.conditionalEndo z p c) 1 0 2 ∧ Takes (Point.conditionalNegate p c) 1 0 2 ∧
    Takes p.double 4 0 8 ∧ Takes (p.addIncomplete q none) 3 0 6 ∧
    Takes (p.addIncomplete q (some n)) 4 0 8 ∧ Takes (p.doubleAndAddIncomplete q) 5 0 10 :=
  ⟨Point.sized_alloc b v, Point.sized_enforceConsistent b p, Point.sized_conditionalEndo z p c,
    Point.sized_conditionalNegate p c, Point.sized_double p, Point.sized_addIncomplete_none p q,
    Point.sized_addIncomplete_some p q n, Point.sized_doubleAndAdd p q⟩

/-- C72: endoscalars of `n` bits. -/
theorem C72_endoscalar {n : ℕ} (v : ℕ) (sqrt : F → Option F) (gen z : F) (x : Element F) (p : Point F)
    {e : Endoscalar F} (he : e.bits.length = n) :
    Takes (Endoscalar.alloc (F := F) n v) n 0 (2 * n) ∧
    Takes (Endoscalar.extract n sqrt gen x) (3 * n) 0 (6 * n) ∧
    Takes (e.groupScale n z p) (7 * (1 + n / 2)) 0 (14 * (1 + n / 2)) ∧
    Takes (e.lift n z) (n / 2) 0 (2 * (n / 2)) :=
  ⟨(Endoscalar.sized_alloc n v).any, (Endoscalar.sized_extract n sqrt gen x).any,
    Endoscalar.sized_groupScale z he.ge p, Endoscalar.sized_lift z he.ge⟩

/-- C72: evaluating `t(x, z)` at the rank `2^k` and a polynomial with the coefficients `l`, and the
Poseidon permutation. -/
theorem C72_evaluate (k : ℕ) (x z : Element F) (l : List (Element F)) {p : PoseidonParams F}
    (hp : Poseidon.WF p) {s : List (Element F)} (hs : s.length = p.T) :
    Takes (Txz.evaluate k x z) (6 * k + 10) 0 (12 * k + 20) ∧
    Takes (Horner.writeAll z none l) (l.length - 1) 0 (2 * (l.length - 1)) ∧
    Takes (Poseidon.permutation p s) (Poseidon.permGates p) 0 (2 * Poseidon.permGates p) :=
  ⟨Txz.sized_evaluate k x z, (Horner.sized_writeAll_none z l).any, (Poseidon.sized_permutation hp hs).any⟩

/-- C72: folding a matrix of claims of size `n` takes `n² - 1` multiplications, whatever the error
terms and the values of `k(y)` are. -/
theorem C72_fold {n : ℕ} (hn : 1 ≤ n) (munu muInv : Element F) {es ks : List (Element F)}
    (h1 : n * n - n ≤ es.length) (h2 : n ≤ ks.length) :
    Takes (Fold.foldProducts n munu muInv es ks) (n * n - 1) 0 (2 * (n * n - 1)) :=
  sized_foldProducts hn _ _ h1 h2

/-! ### The codes of the internal circuits -/

section
variable {P : StepParams F}

theorem childLengths_ofElems {N : ℕ} {l : List (Element F)} (h : 3 * N ≤ l.length) :
    ChildLengths N (ChildInputs.ofElems N l) := by
  constructor <;> simp [ChildInputs.ofElems] <;> omega

theorem preG_lengths (w : Wit P) (σ : ℕ → F) :
    ChildLengths P.headerSize (preG P w σ).left ∧ ChildLengths P.headerSize (preG P w σ).right := by
  constructor <;> apply childLengths_ofElems <;> simp [injected] <;> omega

theorem outerG_lengths (w : Wit P) (σ : ℕ → F) :
    (outerG P w σ).errorTerms.length = NUM_GROUPS * NUM_GROUPS - NUM_GROUPS ∧
    (outerG P w σ).collapsed.length = NUM_GROUPS ∧ (outerG P w σ).spongeState.length = P.poseidon.T := by
  refine ⟨?_, ?_, ?_⟩ <;> simp [outerG, OuterErrorOutput.ofElems, injected, numErrorTerms, NUM_GROUPS] <;>
    omega

theorem innerErrorOfElems_lengths (k : ℕ) : ∀ (g : ℕ) (l : List (Element F)), g * k ≤ l.length →
    (innerErrorOfElems k g l).length = g ∧ ∀ e ∈ innerErrorOfElems k g l, e.length = k
  | 0, _, _ => ⟨rfl, by simp [innerErrorOfElems]⟩
  | g + 1, l, h => by
    have hg : g * k + k ≤ l.length := by rwa [Nat.succ_mul] at h
    obtain ⟨a, b⟩ := innerErrorOfElems_lengths k g (l.drop k) (by simp; omega)
    refine ⟨by simp [innerErrorOfElems, a], fun e he => ?_⟩
    rcases List.mem_cons.1 he with rfl | he
    · simp; omega
    · exact b e he

theorem sized_hashes1Code (hP : StepParamsOk P) (w : Wit P) {es : List F}
    (hes : es.length = firstWire (outerErrorStage P.headerSize P.poseidon.T) +
      2 * (outerErrorStage P.headerSize P.poseidon.T).numGates) :
    Sized (fun _ => True) (hashes1Code P w.1.1 w.2 es)
      (⟨2 * P.logCircuits + 10 * P.headerSize + 88, 10,
        4 * P.logCircuits + 20 * P.headerSize + 176 + P.poseidon.T⟩ +
        (Poseidon.permSize P.poseidon).times (permutations P.poseidon.rate false 0
          (hashes1Calls (1 + (chunks 16 P.tag).length)))) := by
  unfold hashes1Code
  rw [preambleGuard_eq w (by rw [hes]; exact (preamble_end _).trans (preamble_outer _ _)),
    outerErrorGuard_eq w (by rw [hes]; exact outerError_end _ _)]
  exact ((sized_hashes1 hP.poseidon hP.rate_pos hP.rate_le P.tag P.b P.logCircuits hP.header
    (preG_lengths w _).1 (preG_lengths w _).2 (outerG_lengths w _).2.2 w.2).bind' fun _ =>
      .pure trivial).cast (Size.add_zero _)

theorem sized_hashes2Code (hP : StepParamsOk P) (w : Wit P) {es : List F}
    (hes : es.length = firstWire (outerErrorStage P.headerSize P.poseidon.T) +
      2 * (outerErrorStage P.headerSize P.poseidon.T).numGates) :
    Sized (fun _ => True) (hashes2Code P w.1.1 w.2 es)
      (⟨24, 5, 40⟩ + (Poseidon.permSize P.poseidon).times (permutations P.poseidon.rate true
        P.poseidon.rate hashes2Calls)) := by
  unfold hashes2Code
  rw [outerErrorGuard_eq w (by rw [hes]; exact outerError_end _ _)]
  exact ((sized_hashes2 hP.poseidon hP.rate_pos hP.rate_le P.b (outerG_lengths w _).2.2 w.2).bind' fun _ =>
      .pure trivial).cast (Size.add_zero _)

theorem sized_innerCollapseCode (w : Wit P) {es : List F}
    (hes : es.length = firstWire (innerErrorStage P.headerSize P.poseidon.T) +
      2 * (innerErrorStage P.headerSize P.poseidon.T).numGates) :
    Sized (fun _ => True) (innerCollapseCode P w.1.1 w.2 es) ⟨938, 13, 1887⟩ := by
  unfold innerCollapseCode
  rw [preambleGuard_eq w (by
      rw [hes]; exact (preamble_end _).trans ((preamble_outer _ _).trans (outer_inner _ _))),
    outerErrorGuard_eq w (by rw [hes]; exact (outerError_end _ _).trans (outer_inner _ _)),
    innerErrorGuard_eq w (by rw [hes]; exact innerError_end _ _)]
  obtain ⟨a, b⟩ := innerErrorOfElems_lengths (numErrorTerms GROUP_SIZE) NUM_GROUPS
    (innerL P w (vals es)) (by simp [innerL, injected])
  refine ((sized_innerCollapse P.b (by decide) (preG P w (vals es)) b (by
    rw [a, (outerG_lengths w _).2.1]) w.2).bind' fun _ => .pure trivial).cast ?_
  rw [a]
  rfl

theorem sized_outerCollapseCode (hN : 1 ≤ P.headerSize) (w : Wit P) {es : List F}
    (hes : es.length = firstWire (outerErrorStage P.headerSize P.poseidon.T) +
      2 * (outerErrorStage P.headerSize P.poseidon.T).numGates) :
    Sized (fun _ => True) (outerCollapseCode P w.1.1 w.2 es) ⟨392, 13, 777⟩ := by
  unfold outerCollapseCode
  rw [preambleGuard_eq w (by rw [hes]; exact (preamble_end _).trans (preamble_outer _ _)),
    outerErrorGuard_eq w (by rw [hes]; exact outerError_end _ _)]
  exact ((sized_outerCollapse P.b hN (by decide) (preG_lengths w _).1.output (preG_lengths w _).2.output
    (outerG_lengths w _).1 (outerG_lengths w _).2.1 w.2).bind' fun _ => .pure trivial).cast rfl

theorem sized_computeVCode (w : Wit P) {es : List F}
    (hes : es.length = firstWire (evalStage P.headerSize) + 2 * (evalStage P.headerSize).numGates) :
    Sized (fun _ => True) (computeVCode P w.1.1 w.2 es)
      ⟨353 + 6 * P.logRank + 3 * P.endo.nbits + P.endo.nbits / 2, 12,
        714 + 12 * P.logRank + 6 * P.endo.nbits + 2 * (P.endo.nbits / 2)⟩ := by
  unfold computeVCode
  rw [preambleGuard_eq w (by
      rw [hes]; exact (preamble_end _).trans ((preamble_query _).trans (query_eval _))),
    queryGuard_eq w (by rw [hes]; exact (query_end _).trans (query_eval _)),
    evalGuard_eq w (by rw [hes]; exact eval_end _)]
  exact ((sized_computeV P.env P.endo P.b P.logRank _ _ _ w.2).bind' fun _ => .pure trivial).cast
    (Size.add_zero _)

end

/-! ### C73: the internal circuits -/

section
variable {P : StepParams F} {c : Circ F} {S : StepStages F} {inst : UnifiedInstance F}

theorem chainGates_stage (p : Chain) (v : ℕ) : chainGates (stage p v) = chainGates p + (v + 1) / 2 := rfl

theorem outerError_gates (N T : ℕ) : (outerErrorStage N T).skipGates + (outerErrorStage N T).numGates =
    3 * N + 31 + (368 + T) / 2 := by
  rw [skip_chain]
  simp only [chainGates_stage, outerErrorStage, preambleStage, chainGates, NUM_GROUPS, NUM_WIRES, numErrorTerms]
  omega

theorem innerError_gates (N T : ℕ) : (innerErrorStage N T).skipGates + (innerErrorStage N T).numGates =
    3 * N + 430 + (368 + T) / 2 := by
  rw [skip_chain]
  simp only [chainGates_stage, innerErrorStage, outerErrorStage, preambleStage, chainGates, NUM_GROUPS, NUM_WIRES,
    numErrorTerms, GROUP_SIZE]
  omega

theorem eval_gates (N : ℕ) : (evalStage N).skipGates + (evalStage N).numGates = 3 * N + 72 := by
  rw [skip_chain]
  simp only [chainGates_stage, evalStage, queryStage, preambleStage, chainGates, NUM_WIRES,
    NUM_INTERNAL_CIRCUITS]
  omega

/-- C73: a circuit that realizes the first hash circuit for one witness has this many gates and
constraints. -/
theorem C73_hashes1 (hP : StepParamsOk P) (hS : StageTypes P.headerSize P.poseidon.T S)
    (hc : c.body.AllocsOutside) (ho : c.outs.length = 29 + 2 * P.headerSize + 1)
    (hr : Realizes (outerErrorStage P.headerSize P.poseidon.T) c (hashes1Code P S inst)) :
    totalGates c.counts = 13 * P.headerSize + 2 * P.logCircuits + 124 + (368 + P.poseidon.T) / 2 +
      permutations P.poseidon.rate false 0 (hashes1Calls (1 + (chunks 16 P.tag).length)) *
        Poseidon.permGates P.poseidon ∧
    totalCons c.counts = 22 * P.headerSize + 4 * P.logCircuits + 207 + P.poseidon.T +
      2 * (permutations P.poseidon.rate false 0 (hashes1Calls (1 + (chunks 16 P.tag).length)) *
        Poseidon.permGates P.poseidon) := by
  obtain ⟨a, b⟩ := counts_of_realizes (outerError_fit _ _) hc hr fun es hes =>
    sized_hashes1Code hP (⟨⟨S, hS⟩, inst⟩ : Wit P) hes
  rw [a, b, outerError_gates, ho]
  simp only [Size.add_gates, Size.add_allocs, Size.add_cons, Size.times_gates, Size.times_allocs,
    Size.times_cons, Poseidon.permSize]
  generalize permutations _ _ _ _ = q
  constructor
  · omega
  · rw [Nat.mul_left_comm]; omega

/-- C73: the second hash circuit. -/
theorem C73_hashes2 (hP : StepParamsOk P) (hS : StageTypes P.headerSize P.poseidon.T S)
    (hc : c.body.AllocsOutside) (ho : c.outs.length = 30)
    (hr : Realizes (outerErrorStage P.headerSize P.poseidon.T) c (hashes2Code P S inst)) :
    totalGates c.counts = 3 * P.headerSize + 58 + (368 + P.poseidon.T) / 2 +
      permutations P.poseidon.rate true P.poseidon.rate hashes2Calls * Poseidon.permGates P.poseidon ∧
    totalCons c.counts = 71 +
      2 * (permutations P.poseidon.rate true P.poseidon.rate hashes2Calls *
        Poseidon.permGates P.poseidon) := by
  obtain ⟨a, b⟩ := counts_of_realizes (outerError_fit _ _) hc hr fun es hes =>
    sized_hashes2Code hP (⟨⟨S, hS⟩, inst⟩ : Wit P) hes
  rw [a, b, outerError_gates, ho]
  simp only [Size.add_gates, Size.add_allocs, Size.add_cons, Size.times_gates, Size.times_allocs,
    Size.times_cons, Poseidon.permSize]
  generalize permutations _ _ _ _ = q
  constructor
  · omega
  · rw [Nat.mul_left_comm]; omega

/-- C73: the circuit of the inner collapse. -/
theorem C73_innerCollapse (hS : StageTypes P.headerSize P.poseidon.T S)
    (hc : c.body.AllocsOutside) (ho : c.outs.length = 30)
    (hr : Realizes (innerErrorStage P.headerSize P.poseidon.T) c (innerCollapseCode P S inst)) :
    totalGates c.counts = 3 * P.headerSize + 1375 + (368 + P.poseidon.T) / 2 ∧
    totalCons c.counts = 1918 := by
  obtain ⟨a, b⟩ := counts_of_realizes (innerError_fit _ _) hc hr fun es hes =>
    sized_innerCollapseCode (⟨⟨S, hS⟩, inst⟩ : Wit P) hes
  rw [a, b, innerError_gates, ho]
  constructor <;> dsimp only <;> omega

/-- C73: the circuit of the outer collapse. -/
theorem C73_outerCollapse (hN : 1 ≤ P.headerSize) (hS : StageTypes P.headerSize P.poseidon.T S)
    (hc : c.body.AllocsOutside) (ho : c.outs.length = 30)
    (hr : Realizes (outerErrorStage P.headerSize P.poseidon.T) c (outerCollapseCode P S inst)) :
    totalGates c.counts = 3 * P.headerSize + 430 + (368 + P.poseidon.T) / 2 ∧
    totalCons c.counts = 808 := by
  obtain ⟨a, b⟩ := counts_of_realizes (outerError_fit _ _) hc hr fun es hes =>
    sized_outerCollapseCode hN (⟨⟨S, hS⟩, inst⟩ : Wit P) hes
  rw [a, b, outerError_gates, ho]
  constructor <;> dsimp only <;> omega

/-- C73: the circuit that computes `v`. -/
theorem C73_computeV (hS : StageTypes P.headerSize P.poseidon.T S)
    (hc : c.body.AllocsOutside) (ho : c.outs.length = 30)
    (hr : Realizes (evalStage P.headerSize) c (computeVCode P S inst)) :
    totalGates c.counts = 3 * P.headerSize + 431 + 6 * P.logRank + 3 * P.endo.nbits + P.endo.nbits / 2 ∧
    totalCons c.counts = 745 + 12 * P.logRank + 6 * P.endo.nbits + 2 * (P.endo.nbits / 2) := by
  obtain ⟨a, b⟩ := counts_of_realizes (eval_fit _) hc hr fun es hes =>
    sized_computeVCode (⟨⟨S, hS⟩, inst⟩ : Wit P) hes
  rw [a, b, eval_gates, ho]
  constructor <;> dsimp only <;> omega

end

/-! ### The parameters in use -/

/-- The numbers in the parameters in use: Poseidon of width 5 and rate 4 with 8 full and 56 partial
rounds (crates/ragu_pasta/src/poseidon_fp.rs:12-16), the tag `FIXME` (crates/ragu_pcd/src/lib.rs:51),
`ProductionRank` (crates/ragu_circuits/src/polynomials/mod.rs:114) and endoscalars of 128 bits. The field
and all constants are arbitrary, and so are the header size and the number of circuits. -/
structure InUse (P : StepParams F) : Prop where
  width : P.poseidon.T = 5
  rate : P.poseidon.rate = 4
  full : P.poseidon.fullRounds = 8
  partials : P.poseidon.partialRounds = 56
  tag : P.tag.length = 5
  rank : P.logRank = 11
  nbits : P.endo.nbits = 128

/-- The circuits of a fuse, as `C68_hashes1` and the others give them. -/
structure FiveCircuits (P : StepParams F) (h1 h2 ic oc cv : Circ F) : Prop where
  hashes1 : h1.WellUsed ∧ h1.body.AllocsOutside ∧ h1.outs.length = 29 + 2 * P.headerSize + 1 ∧
    ∀ S, StageTypes P.headerSize P.poseidon.T S → ∀ inst,
      Realizes (outerErrorStage P.headerSize P.poseidon.T) h1 (hashes1Code P S inst)
  hashes2 : h2.WellUsed ∧ h2.body.AllocsOutside ∧ h2.outs.length = 30 ∧
    ∀ S, StageTypes P.headerSize P.poseidon.T S → ∀ inst,
      Realizes (outerErrorStage P.headerSize P.poseidon.T) h2 (hashes2Code P S inst)
  innerCollapse : ic.WellUsed ∧ ic.body.AllocsOutside ∧ ic.outs.length = 30 ∧
    ∀ S, StageTypes P.headerSize P.poseidon.T S → ∀ inst,
      Realizes (innerErrorStage P.headerSize P.poseidon.T) ic (innerCollapseCode P S inst)
  outerCollapse : oc.WellUsed ∧ oc.body.AllocsOutside ∧ oc.outs.length = 30 ∧
    ∀ S, StageTypes P.headerSize P.poseidon.T S → ∀ inst,
      Realizes (outerErrorStage P.headerSize P.poseidon.T) oc (outerCollapseCode P S inst)
  computeV : cv.WellUsed ∧ cv.body.AllocsOutside ∧ cv.outs.length = 30 ∧
    ∀ S, StageTypes P.headerSize P.poseidon.T S → ∀ inst,
      Realizes (evalStage P.headerSize) cv (computeVCode P S inst)

/-- Stages of the right lengths, all zero. -/
def zeroStages (N T : ℕ) : StepStages F where
  preamble :=
    let c : ChildInputs F := ⟨List.replicate N Element.zero, List.replicate N Element.zero,
      List.replicate N Element.zero, Element.zero, .ofElems []⟩
    ⟨c, c⟩
  outerError := .ofElems NUM_GROUPS T (List.replicate (367 + T) Element.zero)
  innerError := List.replicate NUM_GROUPS (List.replicate 42 Element.zero)
  query := .ofElems []
  eval := .ofElems []

theorem zeroStages_types (N T : ℕ) : StageTypes N T (zeroStages (F := F) N T) := by
  constructor <;>
    simp [zeroStages, OuterErrorOutput.ofElems, numErrorTerms, NUM_GROUPS, GROUP_SIZE] <;> omega

/-- An instance, all zero. -/
def zeroInstance : UnifiedInstance F := ⟨fun s => match s.kind with
  | .point => (none : Option (F × F))
  | .element => (0 : F), fun _ => false⟩

theorem tag_chunks {P : StepParams F} (h : P.tag.length = 5) : (chunks 16 P.tag).length = 1 := by
  rw [chunks, dif_neg (by rintro (h' | h') <;> simp_all), chunks, dif_pos (by left; simp [h])]
  rfl

/-- C73: the numbers of gates and constraints at the parameters in use, for every field and whatever
the constants are. -/
theorem C73_inUse {P : StepParams F} (hP : StepParamsOk P) (hU : InUse P) {h1 h2 ic oc cv : Circ F}
    (h : FiveCircuits P h1 h2 ic oc cv) :
    (totalGates h1.counts = 13 * P.headerSize + 2 * P.logCircuits + 1174 ∧
      totalCons h1.counts = 22 * P.headerSize + 4 * P.logCircuits + 1940) ∧
    (totalGates h2.counts = 3 * P.headerSize + 1684 ∧ totalCons h2.counts = 2951) ∧
    (totalGates ic.counts = 3 * P.headerSize + 1561 ∧ totalCons ic.counts = 1918) ∧
    (totalGates oc.counts = 3 * P.headerSize + 616 ∧ totalCons oc.counts = 808) ∧
    (totalGates cv.counts = 3 * P.headerSize + 945 ∧ totalCons cv.counts = 1773) := by
  have hS := zeroStages_types (F := F) P.headerSize P.poseidon.T
  obtain ⟨a1, b1⟩ := C73_hashes1 hP hS h.hashes1.2.1 h.hashes1.2.2.1 (h.hashes1.2.2.2 _ hS zeroInstance)
  obtain ⟨a2, b2⟩ := C73_hashes2 hP hS h.hashes2.2.1 h.hashes2.2.2.1 (h.hashes2.2.2.2 _ hS zeroInstance)
  obtain ⟨a3, b3⟩ := C73_innerCollapse hS h.innerCollapse.2.1 h.innerCollapse.2.2.1
    (h.innerCollapse.2.2.2 _ hS zeroInstance)
  obtain ⟨a4, b4⟩ := C73_outerCollapse hP.header hS h.outerCollapse.2.1 h.outerCollapse.2.2.1
    (h.outerCollapse.2.2.2 _ hS zeroInstance)
  obtain ⟨a5, b5⟩ := C73_computeV hS h.computeV.2.1 h.computeV.2.2.1 (h.computeV.2.2.2 _ hS zeroInstance)
  have hg : Poseidon.permGates P.poseidon = 288 := by
    simp [Poseidon.permGates, hU.full, hU.width, hU.partials]
  rw [hg, hU.rate] at a1 b1 a2 b2
  rw [tag_chunks hU.tag] at a1 b1
  rw [hU.width] at *
  rw [hU.rank, hU.nbits] at a5 b5
  rw [show permutations 4 false 0 (hashes1Calls (1 + 1)) = 3 from rfl] at a1 b1
  rw [show permutations 4 true 4 hashes2Calls = 5 from rfl] at a2 b2
  refine ⟨⟨?_, ?_⟩, ⟨?_, ?_⟩, ⟨?_, ?_⟩, ⟨?_, ?_⟩, ?_, ?_⟩ <;> omega

theorem compiles_iff {n : ℕ} {c : Circ F} (hu : c.WellUsed) :
    Compiles n c ↔ totalCons c.counts < 4 * n ∧ totalGates c.counts ≤ n := by
  rw [← (C22_limits n c hu).2.2]
  constructor
  · rintro ⟨-, o, ho⟩
    unfold circuitObject at ho
    rcases h : intoCircuitObject n c with e | m
    · rw [h] at ho; cases ho
    · exact ⟨m, rfl⟩
  · rintro ⟨m, hm⟩
    exact ⟨hu, intoRawCircuitObject n c m, by simp only [circuitObject, hm, bind, Except.bind]⟩

/-- C73: the numbers that the project's own test records, for headers of 65 elements and the largest
registry. -/
theorem C73_recorded {P : StepParams F} (hP : StepParamsOk P) (hU : InUse P) (hN : P.headerSize = 65)
    (hk : P.logCircuits = 13) {h1 h2 ic oc cv : Circ F} (h : FiveCircuits P h1 h2 ic oc cv) :
    (totalGates h1.counts, totalCons h1.counts) = (2045, 3422) ∧
    (totalGates h2.counts, totalCons h2.counts) = (1879, 2951) ∧
    (totalGates ic.counts, totalCons ic.counts) = (1756, 1918) ∧
    (totalGates oc.counts, totalCons oc.counts) = (811, 808) ∧
    (totalGates cv.counts, totalCons cv.counts) = (1140, 1773) := by
  obtain ⟨⟨a1, b1⟩, ⟨a2, b2⟩, ⟨a3, b3⟩, ⟨a4, b4⟩, a5, b5⟩ := C73_inUse hP hU h
  simp only [a1, b1, a2, b2, a3, b3, a4, b4, a5, b5, hN, hk, and_self]

/-- C73: at the rank in use (`2048` gates) the five circuits compile exactly if
`13 HEADER_SIZE + 2 log2(circuits) ≤ 874`, and it is the first hash circuit that decides. -/
theorem C73_limit {P : StepParams F} (hP : StepParamsOk P) (hU : InUse P) {h1 h2 ic oc cv : Circ F}
    (h : FiveCircuits P h1 h2 ic oc cv) :
    (Compiles 2048 h1 ↔ 13 * P.headerSize + 2 * P.logCircuits ≤ 874) ∧
    (Compiles 2048 h1 → Compiles 2048 h2 ∧ Compiles 2048 ic ∧ Compiles 2048 oc ∧ Compiles 2048 cv) := by
  obtain ⟨⟨a1, b1⟩, ⟨a2, b2⟩, ⟨a3, b3⟩, ⟨a4, b4⟩, a5, b5⟩ := C73_inUse hP hU h
  rw [compiles_iff h.hashes1.1, compiles_iff h.hashes2.1, compiles_iff h.innerCollapse.1,
    compiles_iff h.outerCollapse.1, compiles_iff h.computeV.1]
  omega

/-- C73: headers of up to 65 elements work with any number of steps that the registry takes, headers
of 66 elements not with all of them, and longer ones with none. -/
theorem C73_header {P : StepParams F} (hP : StepParamsOk P) (hU : InUse P) {steps : ℕ}
    (hk : P.logCircuits = registryLog steps) {h1 h2 ic oc cv : Circ F} (h : FiveCircuits P h1 h2 ic oc cv) :
    (P.headerSize ≤ 65 → steps + 15 ≤ 4 * 2048 → Compiles 2048 h1 ∧ Compiles 2048 h2 ∧ Compiles 2048 ic ∧
      Compiles 2048 oc ∧ Compiles 2048 cv) ∧
    (P.headerSize = 66 → (Compiles 2048 h1 ↔ steps + 15 ≤ 256)) ∧
    (67 ≤ P.headerSize → ¬Compiles 2048 h1) := by
  obtain ⟨l1, l2⟩ := C73_limit hP hU h
  refine ⟨fun hN hs => ?_, fun hN => ?_, fun hN => ?_⟩
  · have : registryLog steps ≤ 13 := Nat.clog_le_of_le_pow (by omega)
    have h1' : Compiles 2048 h1 := l1.2 (by omega)
    exact ⟨h1', l2 h1'⟩
  · rw [l1, hN, hk, show (256 : ℕ) = 2 ^ 8 from rfl, ← Nat.clog_le_iff_le_pow (by norm_num), registryLog]
    omega
  · rw [l1, hk]
    have : registryLog 0 ≤ registryLog steps := Nat.clog_mono_right 2 (by omega)
    have : registryLog 0 = 4 := by decide
    omega

/-- C73: the circuits exist. -/
theorem C73_exist (P : StepParams F) (hP : StepParamsOk P) : ∃ h1 h2 ic oc cv,
    FiveCircuits P h1 h2 ic oc cv := by
  obtain ⟨c1, h1⟩ := C68_hashes1 P hP
  obtain ⟨c2, h2⟩ := C68_hashes2 P hP
  obtain ⟨c3, h3⟩ := C68_innerCollapse P
  obtain ⟨c4, h4⟩ := C68_outerCollapse P hP.header
  obtain ⟨c5, h5⟩ := C68_computeV P
  exact ⟨c1, c2, c3, c4, c5, h1, h2, h3, h4, h5⟩

/-! ### Examples -/

/-- Parameters in use over a small field. -/
def zParams (N k : ℕ) : StepParams (ZMod 13) where
  poseidon := ⟨5, 4, 8, 56, 5, List.replicate 64 (List.replicate 5 1), List.replicate 5 (List.replicate 5 1)⟩
  tag := [70, 73, 88, 77, 69]
  b := 1
  env := vEnv
  endo := { vConsts with nbits := 128 }
  logCircuits := k
  logRank := 11
  headerSize := N

theorem zParams_ok (N k : ℕ) (hN : 1 ≤ N) : StepParamsOk (zParams N k) where
  poseidon := by
    constructor <;> simp [zParams]
  rate_pos := by simp [zParams]
  rate_le := by simp [zParams]
  gen := sParams_ok.gen
  sqrt := sParams_ok.sqrt
  header := hN

theorem zParams_inUse (N k : ℕ) : InUse (zParams N k) := ⟨rfl, rfl, rfl, rfl, rfl, rfl, rfl⟩

/-- Non-vacuity of C73: the numbers of the project's test, and a header one element longer. -/
example : ∃ h1 h2 ic oc cv, FiveCircuits (zParams 65 13) h1 h2 ic oc cv ∧
    totalGates h1.counts = 2045 ∧ Compiles 2048 h1 ∧ Compiles 2048 cv := by
  obtain ⟨h1, h2, ic, oc, cv, h⟩ := C73_exist (zParams 65 13) (zParams_ok 65 13 (by decide))
  have a := C73_recorded (zParams_ok 65 13 (by decide)) (zParams_inUse 65 13) rfl rfl h
  have b := C73_limit (zParams_ok 65 13 (by decide)) (zParams_inUse 65 13) h
  have c : Compiles 2048 h1 := b.1.2 (by decide)
  exact ⟨h1, h2, ic, oc, cv, h, (Prod.mk.inj a.1).1, c, (b.2 c).2.2.2⟩

example : ∃ h1 h2 ic oc cv, FiveCircuits (zParams 66 13) h1 h2 ic oc cv ∧ ¬Compiles 2048 h1 := by
  obtain ⟨h1, h2, ic, oc, cv, h⟩ := C73_exist (zParams 66 13) (zParams_ok 66 13 (by decide))
  have b := C73_limit (zParams_ok 66 13 (by decide)) (zParams_inUse 66 13) h
  exact ⟨h1, h2, ic, oc, cv, h, fun c => absurd (b.1.1 c) (by decide)⟩

/-- Non-vacuity of C72: `t(x, z)` at the rank in use takes 76 gates and 152 constraints, and the
permutation in use 288 gates. -/
example (x z : Element (ZMod 13)) (s : List (Element (ZMod 13))) (hs : s.length = 5) :
    Takes (Txz.evaluate 11 x z) 76 0 152 ∧ Takes (Poseidon.permutation (zParams 65 13).poseidon s) 288 0 576 :=
  have h := C72_evaluate 11 x z [] (zParams_ok 65 13 (by decide)).poseidon (s := s) hs
  ⟨h.1, h.2.2⟩

end Ragu.Props

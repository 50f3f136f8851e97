/-
Property C88: all steps in the history of an accepted proof hold.
-/
import Verif.Lemmas.Derivation
import Verif.Props.Recursion

set_option linter.unusedSectionVars false

namespace Ragu.Props
open Ragu Ragu.Circuit Ragu.Registry Ragu.Spec Ragu.Gadget Ragu.Pcd Finset Function
variable {F G HC : Type} [Field F] [DecidableEq F] [Field G] [DecidableEq G]
  [AddCommGroup HC] [DecidableEq HC] [Module F HC]

/-- The registered step `d` is the program `s`: its circuit makes the calls of the code in its adapter.
The suffixes of its inputs are not zero as field elements. -/
structure Implements (N : ℕ) (d : StepDef F) (s : StepProgram F) : Prop where
  outs : d.circ.outs.length = 3 * N
  code : ∀ w, Realizes .base d.circ fun _ => adapterWires (s.adapter N w)
  left : (s.left.suffix.get : F) ≠ 0
  right : (s.right.suffix.get : F) ≠ 0

/-- A prover of `k` fuses: for each, the two children and the messages, as functions of the challenges
drawn in the fuses before it. -/
structure Strategy (F G HC : Type) (k : ℕ) where
  left : Fin k → List (Draw F) → FuseChild F G HC
  right : Fin k → List (Draw F) → FuseChild F G HC
  prover : Fin k → List (Draw F) → FuseProver F

section
variable {k : ℕ}

/-- The challenges drawn before fuse `i`. -/
def before (c : Fin k → Draw F) (i : Fin k) : List (Draw F) := (List.ofFn c).take i

/-- The runs of `k` fuses with challenges from `A`, and from `B` for `beta`. -/
def runs (k : ℕ) (A B : Finset F) : Finset (Fin k → Draw F) := Fintype.piFinset fun _ => draws A B

/-- The proof `p` came out of a fuse of the run `c`, and so did each of its children, unless its header
is trivial. -/
inductive Fused (C : CycleEnv F G HC) (n : ℕ) (P : StepParams F) (app : Application F G)
    (s : Strategy F G HC k) (c : Fin k → Draw F) : Proof F G HC → Prop
  | fuse {p : Proof F G HC} (i : Fin k) :
      ChildFit C n P.headerSize app (s.left i (before c i)) →
      ChildFit C n P.headerSize app (s.right i (before c i)) →
      Plays n P (omegaJ C.native) (s.left i (before c i)) (s.right i (before c i))
        (s.prover i (before c i)) (c i) p →
      ((s.left i (before c i)).header[P.headerSize - 1]? ≠ some 1 →
        Fused C n P app s c (s.left i (before c i)).proof) →
      ((s.right i (before c i)).header[P.headerSize - 1]? ≠ some 1 →
        Fused C n P app s c (s.right i (before c i)).proof) →
      Fused C n P app s c p

variable {C : CycleEnv F G HC} {n : ℕ} {P : StepParams F} {cs : Circuits F G} {zeta : G}
  {steps : List (StepDef F)} {app : Application F G} {progs : List (StepProgram F)}
  {l r : FuseChild F G HC} {σ : FuseProver F}

/-- A fuse whose prover wins although what it says of its children is false. -/
structure Mistaken (C : CycleEnv F G HC) (n : ℕ) (P : StepParams F) (app : Application F G)
    (l r : FuseChild F G HC) (σ : FuseProver F) (c : Draw F) : Prop where
  left : ChildFit C n P.headerSize app l
  right : ChildFit C n P.headerSize app r
  base : ¬ (l.header[P.headerSize - 1]? = some 1 ∧ r.header[P.headerSize - 1]? = some 1)
  bad : ¬ (ChildSound C n P app l ∧ ChildSound C n P app r)
  wins : FuseWins n P.headerSize (omegaJ C.native) (app.nativeRegistry.wxy C.native n) l r σ c

open Classical in
theorem mistaken_le [Finite F] (hA : AppOk C n P cs steps app) (A B : Finset F) :
    ((draws A B).filter (Mistaken C n P app l r σ)).card ≤
      (40 * n + 151) * (A.card ^ 9 * B.card) + 36 * A.card ^ 10 := by
  by_cases h : ∃ c, Mistaken C n P app l r σ c
  · obtain ⟨c, h⟩ := h
    refine le_trans (card_le_card fun c hc => ?_) (C87_children hA h.left h.right h.base h.bad σ A B)
    rw [mem_filter] at hc ⊢
    exact ⟨hc.1, hc.2.wins⟩
  · push Not at h
    rw [filter_false_of_mem fun c _ => h c, card_empty]
    exact Nat.zero_le _

open Classical in
/-- Few runs have a mistaken fuse. -/
theorem mistakes_le [Finite F] (hA : AppOk C n P cs steps app) (s : Strategy F G HC k) (A B : Finset F) :
    ((runs k A B).filter fun c => ∃ i, Mistaken C n P app (s.left i (before c i))
      (s.right i (before c i)) (s.prover i (before c i)) (c i)).card ≤
      k * (((40 * n + 151) * (A.card ^ 9 * B.card) + 36 * A.card ^ 10) *
        (A.card ^ 10 * B.card) ^ (k - 1)) := by
  have hone : ∀ i : Fin k, ((runs k A B).filter fun c => Mistaken C n P app (s.left i (before c i))
      (s.right i (before c i)) (s.prover i (before c i)) (c i)).card ≤
      ((40 * n + 151) * (A.card ^ 9 * B.card) + 36 * A.card ^ 10) *
        (A.card ^ 10 * B.card) ^ (k - 1) := by
    intro i
    rw [← draws_card]
    have : Inhabited (Draw F) := ⟨fun _ => 0⟩
    refine count_entry (T := draws A B) _ i _ fun c => ?_
    refine le_trans (card_le_card fun a ha => ?_) (mistaken_le (l := s.left i (before c i))
      (r := s.right i (before c i)) (σ := s.prover i (before c i)) hA A B)
    rw [mem_filter] at ha ⊢
    refine ⟨ha.1, ?_⟩
    have := ha.2
    simp only [before, before_update, update_self] at this
    exact this
  have hsub : ((runs k A B).filter fun c => ∃ i, Mistaken C n P app (s.left i (before c i))
      (s.right i (before c i)) (s.prover i (before c i)) (c i)) ⊆
      univ.biUnion fun i => (runs k A B).filter fun c => Mistaken C n P app (s.left i (before c i))
        (s.right i (before c i)) (s.prover i (before c i)) (c i) := by
    intro c hc
    rw [mem_filter] at hc
    obtain ⟨hc, i, hi⟩ := hc
    exact mem_biUnion.2 ⟨i, mem_univ i, mem_filter.2 ⟨hc, hi⟩⟩
  refine (card_le_card hsub).trans (card_biUnion_le.trans ((sum_le_card_nsmul _ _ _ fun i _ => hone i).trans
    (le_of_eq ?_)))
  rw [card_univ, Fintype.card_fin, smul_eq_mul]

/-- An index that is named belongs to a step. -/
theorem index_of {j m : ℕ} (h1 : NUM_INTERNAL_CIRCUITS ≤ j) (h2 : j < 15 + m) :
    ∃ i : Index, i.circuitIndex m = .ok j ∧ ∀ k, i = .application k → k < m := by
  rw [NUM_INTERNAL_CIRCUITS] at h1
  rcases (by omega : j = 13 ∨ j = 14 ∨ 15 ≤ j) with rfl | rfl | h
  · exact ⟨.internal .rerandomize, rfl, fun k h => by cases h⟩
  · exact ⟨.internal .trivial, rfl, fun k h => by cases h⟩
  · refine ⟨.application (j - 15), ?_, fun k h => ?_⟩
    · rw [Index.circuitIndex, if_neg (by omega)]
      simp only [NUM_INTERNAL_CIRCUITS, NUM_INTERNAL_STEPS, Except.ok.injEq]
      omega
    · cases h
      omega

/-- What a sound child's application trace means for its headers, and which circuit its wires satisfy. -/
theorem sound_trace (hA : AppOk C n P cs steps app) (hL : LibraryCircuits P zeta cs)
    (hI : List.Forall₂ (Implements P.headerSize) steps progs) {p : Proof F G HC} {header : List F}
    (hl : p.application.leftHeader.length = P.headerSize)
    (hr : p.application.rightHeader.length = P.headerSize)
    (hs : ChildSound C n P app ⟨p, header⟩) (hlast : header.getLastD 0 ≠ 0) :
    (header = p.application.leftHeader ∧ p.application.circuitId = NUM_INTERNAL_CIRCUITS) ∨
      header[P.headerSize - 1]? = some 1 ∨
      ∃ i d s, steps[i]? = some d ∧ progs[i]? = some s ∧
        p.application.circuitId = NUM_INTERNAL_CIRCUITS + NUM_INTERNAL_STEPS + i ∧
        GatesHold n (p.nativeRx (.rx .application)) ∧
        Satisfies (assignment n (floorPlan d.circ.counts) (p.nativeRx (.rx .application))) d.circ
          (p.application.leftHeader ++ p.application.rightHeader ++ header) ∧
        StepSat P.headerSize s p.application.leftHeader p.application.rightHeader header ∧
        p.application.leftHeader.getLastD 0 ≠ 0 ∧ p.application.rightHeader.getLastD 0 ≠ 0 := by
  have hN := hA.params.header
  obtain ⟨n1, n2⟩ := hs.traces.named hlast
  have hcirc : app.nativeRegistry.circuits.length = 15 + steps.length := by
    obtain ⟨b, hb, hf⟩ := hA.built
    exact (C42_positions hb hf).2.1
  rw [hcirc] at n2
  obtain ⟨i, hi, hk⟩ := index_of n1 n2
  have key : ∀ {c : Circ F}, stepCircuit cs steps i = some c → c.outs.length = 3 * P.headerSize →
      ∀ {x : Syn F (List F)}, (Realizes .base c fun _ => x) →
      x.sat (p.application.leftHeader ++ p.application.rightHeader ++ header) ∧
      GatesHold n (p.nativeRx (.rx .application)) ∧
      Satisfies (assignment n (floorPlan c.counts) (p.nativeRx (.rx .application))) c
        (p.application.leftHeader ++ p.application.rightHeader ++ header) := by
    intro c hc ho x hx
    obtain ⟨j, e1, -, hH⟩ := step_holds hA hc
    rw [hi] at e1
    obtain rfl := Except.ok.inj e1
    obtain ⟨o, o1, o2⟩ := hH.here
    obtain ⟨g1, g2⟩ := hs.traces.application c o hH.used ho o1 o2
    exact ⟨holds_sat hH hx g1 g2, g1, g2⟩
  cases i with
  | internal t =>
    cases t with
    | rerandomize =>
      exact .inl ⟨rerandomize_sat hN hl hr (key rfl hL.rerandomize.2.2.1
        (hL.rerandomize.2.2.2 _ _ _ (unit_encoded _))).1, (Except.ok.inj hi).symm⟩
    | trivial =>
      refine .inr (.inl ?_)
      rw [trivial_sat hN hl hr (key rfl hL.trivial.2.2.1 hL.trivial.2.2.2).1]
      exact unit_marked
  | application a =>
    have ha := hk a rfl
    have hb : a < progs.length := hI.length_eq ▸ ha
    have hi' : Implements P.headerSize steps[a] progs[a] := List.forall₂_iff_get.1 hI |>.2 a ha hb
    obtain ⟨k1, k2, k3⟩ := key (c := steps[a].circ)
      (by rw [stepCircuit, List.getElem?_eq_getElem ha]; rfl) hi'.outs (hi'.code progs[a].input)
    obtain ⟨w, gl, gr, go, d, h1, h2, h3, h4⟩ := program_sat hN hl hr k1
    have hid : p.application.circuitId = NUM_INTERNAL_CIRCUITS + NUM_INTERNAL_STEPS + a := by
      rw [Index.circuitIndex] at hi
      split at hi
      · cases hi
      · rw [← Except.ok.inj hi, Nat.add_comm NUM_INTERNAL_CIRCUITS]
    exact .inr (.inr ⟨a, _, _, List.getElem?_eq_getElem ha, List.getElem?_eq_getElem hb, hid, k2, k3,
      ⟨w, gl, gr, go, d, h1, h2, h3, h4⟩, by rw [headerWires_last h2]; exact hi'.left,
      by rw [headerWires_last h3]; exact hi'.right⟩)

/-- What a sound child's application trace means for its headers. -/
theorem sound_step (hA : AppOk C n P cs steps app) (hL : LibraryCircuits P zeta cs)
    (hI : List.Forall₂ (Implements P.headerSize) steps progs) {p : Proof F G HC} {header : List F}
    (hl : p.application.leftHeader.length = P.headerSize)
    (hr : p.application.rightHeader.length = P.headerSize)
    (hs : ChildSound C n P app ⟨p, header⟩) (hlast : header.getLastD 0 ≠ 0) :
    header = p.application.leftHeader ∨ header[P.headerSize - 1]? = some 1 ∨
      ∃ s ∈ progs, StepSat P.headerSize s p.application.leftHeader p.application.rightHeader header ∧
        p.application.leftHeader.getLastD 0 ≠ 0 ∧ p.application.rightHeader.getLastD 0 ≠ 0 := by
  rcases sound_trace hA hL hI hl hr hs hlast with h | h | ⟨i, d, s, -, h2, -, -, -, h6, h7⟩
  · exact .inl h.1
  · exact .inr (.inl h)
  · exact .inr (.inr ⟨s, List.mem_of_getElem? h2, h6, h7⟩)

/-- What came out of a fuse that is not mistaken has a history if its children have. -/
theorem fuse_derived (hA : AppOk C n P cs steps app) (hL : LibraryCircuits P zeta cs)
    (hI : List.Forall₂ (Implements P.headerSize) steps progs) {c : Draw F}
    (hno : ¬ Mistaken C n P app l r σ c) (fl : ChildFit C n P.headerSize app l)
    (fr : ChildFit C n P.headerSize app r) {p : Proof F G HC}
    (hplay : Plays n P (omegaJ C.native) l r σ c p)
    (ihl : l.header[P.headerSize - 1]? ≠ some 1 → ∀ {header}, ChildSound C n P app ⟨l.proof, header⟩ →
      header.getLastD 0 ≠ 0 → Derived P.headerSize progs header)
    (ihr : r.header[P.headerSize - 1]? ≠ some 1 → ∀ {header}, ChildSound C n P app ⟨r.proof, header⟩ →
      header.getLastD 0 ≠ 0 → Derived P.headerSize progs header) {header : List F}
    (hs : ChildSound C n P app ⟨p, header⟩) (hlast : header.getLastD 0 ≠ 0) :
    Derived P.headerSize progs header := by
  have hw := C87_wins hA hplay hs
  obtain ⟨S, s1, s2, s3, s4, -⟩ := hs.traces.stages
  obtain ⟨S', t1, t2, e1, e2, -⟩ := hplay.stages
  obtain ⟨u1, u2, -⟩ := stages_unique s1 s2 t1 t2
  have hl : p.application.leftHeader = l.header := by
    rw [s3, u1, e1]; rfl
  have hr : p.application.rightHeader = r.header := by
    rw [s4, u2, e2]; rfl
  have hchild : ∀ (ch : FuseChild F G HC), (¬ ch.header[P.headerSize - 1]? = some 1 →
      ChildSound C n P app ch) → (ch.header[P.headerSize - 1]? ≠ some 1 → ∀ {header},
      ChildSound C n P app ⟨ch.proof, header⟩ → header.getLastD 0 ≠ 0 →
      Derived P.headerSize progs header) → ch.header.getLastD 0 ≠ 0 →
      Derived P.headerSize progs ch.header := by
    intro ch h1 h2 h3
    by_cases hm : ch.header[P.headerSize - 1]? = some 1
    · exact .trivial hm
    · exact h2 hm (h1 hm) h3
  have hsound : ¬ (l.header[P.headerSize - 1]? = some 1 ∧ r.header[P.headerSize - 1]? = some 1) →
      ChildSound C n P app l ∧ ChildSound C n P app r := by
    intro hb
    by_contra hbad
    exact hno ⟨fl, fr, hb, hbad, hw⟩
  have hdl := hchild l (fun hm => (hsound fun h => hm h.1).1) ihl
  have hdr := hchild r (fun hm => (hsound fun h => hm h.2).2) ihr
  rcases sound_step hA hL hI (hl ▸ fl.header) (hr ▸ fr.header) hs hlast with h | h | ⟨t, ht, h, h1, h2⟩
  · rw [hl] at h
    subst h
    exact hdl hlast
  · exact .trivial h
  · rw [hl] at h h1
    rw [hr] at h h2
    exact .step ht (hdl h1) (hdr h2) h

/-- Without a mistaken fuse, what came out of a fuse has a history. -/
theorem fused_derived (hA : AppOk C n P cs steps app) (hL : LibraryCircuits P zeta cs)
    (hI : List.Forall₂ (Implements P.headerSize) steps progs) {s : Strategy F G HC k}
    {c : Fin k → Draw F} (hno : ∀ i, ¬ Mistaken C n P app (s.left i (before c i))
      (s.right i (before c i)) (s.prover i (before c i)) (c i)) {p : Proof F G HC}
    (hp : Fused C n P app s c p) : ∀ {header}, ChildSound C n P app ⟨p, header⟩ →
      header.getLastD 0 ≠ 0 → Derived P.headerSize progs header := by
  induction hp with
  | @fuse p i fl fr hplay _ _ ihl ihr =>
    intro header hs hlast
    exact fuse_derived hA hL hI (hno i) fl fr hplay ihl ihr hs hlast

open Classical in
/-- C88: whatever a prover does in `k` fuses, each with children of its choice from the fuses before, in
few of the runs a proof comes out that is what a proof should be, with a header that is not the end of a
history of the application's steps. -/
theorem C88_history [Finite F] (hA : AppOk C n P cs steps app) (hL : LibraryCircuits P zeta cs)
    (hI : List.Forall₂ (Implements P.headerSize) steps progs) (s : Strategy F G HC k) (A B : Finset F) :
    ((runs k A B).filter fun c => ∃ p header, Fused C n P app s c p ∧
      ChildSound C n P app ⟨p, header⟩ ∧ header.getLastD 0 ≠ 0 ∧
        ¬ Derived P.headerSize progs header).card ≤
      k * (((40 * n + 151) * (A.card ^ 9 * B.card) + 36 * A.card ^ 10) *
        (A.card ^ 10 * B.card) ^ (k - 1)) := by
  refine le_trans (card_le_card fun c hc => ?_) (mistakes_le hA s A B)
  rw [mem_filter] at hc ⊢
  obtain ⟨hc, p, header, hp, hs, hlast, hd⟩ := hc
  refine ⟨hc, ?_⟩
  by_contra hno
  push Not at hno
  exact hd (fused_derived hA hL hI hno hp hs hlast)

theorem runs_card (A B : Finset F) : (runs k A B).card = (A.card ^ 10 * B.card) ^ k := by
  rw [runs, Fintype.card_piFinset, prod_const, card_univ, Fintype.card_fin, draws_card]

variable {Data Out : Type} {H : Header F Data Out}

theorem encodedAs_last {N : ℕ} {data : Data} {header : List F} (h : EncodedAs N H data header) :
    header.getLastD 0 = (H.suffix.get : F) := by
  obtain ⟨g, -, -, rfl⟩ := h
  simp

open Classical in
/-- C88: the same for the verifier. Over all runs of `k` fuses in which the chosen proof came out of a
fuse, and all challenges of the verifier, few accept the proof with data whose header is not the end of a
history of the application's steps. -/
theorem C88_verified [Finite F] (hA : AppOk C n P cs steps app) (hL : LibraryCircuits P zeta cs)
    (hI : List.Forall₂ (Implements P.headerSize) steps progs) (hsuf : (H.suffix.get : F) ≠ 0)
    (s : Strategy F G HC k) (A B V : Finset F) (p : (Fin k → Draw F) → Proof F G HC)
    (data : (Fin k → Draw F) → Data) (hp : ∀ c, ProofTyped C n (p c))
    {ch : F → F → F → VerifyChallenges F G}
    (hch : ∀ w y z, (ch w y z).w = w ∧ (ch w y z).y = y ∧ (ch w y z).z = z) :
    ∑ c ∈ (runs k A B).filter (fun c => Fused C n P app s c (p c) ∧
        ¬ ∃ header, EncodedAs P.headerSize H (data c) header ∧ Derived P.headerSize progs header),
      (acceptedTriples C n P.headerSize app H (p c) (data c) ch V).card ≤
      k * (((40 * n + 151) * (A.card ^ 9 * B.card) + 36 * A.card ^ 10) *
        (A.card ^ 10 * B.card) ^ (k - 1)) * V.card ^ 3 +
      (A.card ^ 10 * B.card) ^ k * (8 * n * V.card ^ 2) := by
  have hone : ∀ c, (Fused C n P app s c (p c) ∧
      ¬ ∃ header, EncodedAs P.headerSize H (data c) header ∧ Derived P.headerSize progs header) →
      (acceptedTriples C n P.headerSize app H (p c) (data c) ch V).card ≤
      (if ∃ p header, Fused C n P app s c p ∧ ChildSound C n P app ⟨p, header⟩ ∧
        header.getLastD 0 ≠ 0 ∧ ¬ Derived P.headerSize progs header
        then V.card ^ 3 else 0) + 8 * n * V.card ^ 2 := by
    rintro c ⟨hc, hno⟩
    by_cases h : (acceptedTriples C n P.headerSize app H (p c) (data c) ch V).card ≤
        8 * n * V.card ^ 2
    · omega
    · obtain ⟨header, he, -, hs⟩ := C87_accepted hA (hp c) hch (not_le.1 h)
      rw [if_pos ⟨p c, header, hc, hs, by rw [encodedAs_last he]; exact hsuf,
        fun hd => hno ⟨header, he, hd⟩⟩]
      refine le_trans (card_filter_le _ _) ?_
      rw [card_product, card_product]
      have : V.card * (V.card * V.card) = V.card ^ 3 := by ring
      omega
  refine (sum_le_sum fun c hc => hone c (mem_filter.1 hc).2).trans
    ((sum_le_sum_of_subset (filter_subset _ _)).trans ?_)
  rw [sum_add_distrib, sum_const, ← sum_filter, sum_const, smul_eq_mul, smul_eq_mul]
  exact add_le_add (Nat.mul_le_mul_right _ (C88_history hA hL hI s A B))
    (le_of_eq (by rw [runs_card]))

end
end Ragu.Props

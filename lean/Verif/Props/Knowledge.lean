/-
Property C92: the witnesses of the history of an accepted proof can be read off the proofs that the prover
named in its questions.
-/
import Verif.Spec.Knowledge
import Verif.Props.Oracle

set_option linter.unusedSectionVars false

namespace Ragu.Props
open Ragu Ragu.Circuit Ragu.Registry Ragu.Spec Ragu.Gadget Ragu.Pcd Finset Function
variable {F G HC : Type} [Field F] [DecidableEq F] [Field G] [DecidableEq G]
  [AddCommGroup HC] [DecidableEq HC] [Module F HC]

/-- The proof is one of the two children in a question of the prover. -/
def Named {Q : ℕ} (s : Asker F G HC Q) (t : Fin Q → Answer F) (p : Proof F G HC) : Prop :=
  ∃ j, p = (s.asks t j).left.proof ∨ p = (s.asks t j).right.proof

section
variable {C : CycleEnv F G HC} {n : ℕ} {P : StepParams F} {cs : Circuits F G} {zeta : G}
  {steps : List (StepDef F)} {app : Application F G} {progs : List (StepProgram F)} {Q : ℕ}
  {l r : FuseChild F G HC} {σ : FuseProver F} {S : Proof F G HC → Prop}

/-- The witnesses of what came out of a fuse that is not mistaken can be read off it if those of its
children can. -/
theorem fuse_witnessed (hA : AppOk C n P cs steps app) (hL : LibraryCircuits P zeta cs)
    (hI : List.Forall₂ (Implements P.headerSize) steps progs) {c : Draw F}
    (hno : ¬ Mistaken C n P app l r σ c) (fl : ChildFit C n P.headerSize app l)
    (fr : ChildFit C n P.headerSize app r) {p : Proof F G HC}
    (hplay : Plays n P (omegaJ C.native) l r σ c p) (sl : S l.proof) (sr : S r.proof)
    (ihl : l.header[P.headerSize - 1]? ≠ some 1 → ∀ {header}, ChildSound C n P app ⟨l.proof, header⟩ →
      header.getLastD 0 ≠ 0 → Witnessed n P.headerSize steps S l.proof header)
    (ihr : r.header[P.headerSize - 1]? ≠ some 1 → ∀ {header}, ChildSound C n P app ⟨r.proof, header⟩ →
      header.getLastD 0 ≠ 0 → Witnessed n P.headerSize steps S r.proof header) {header : List F}
    (hs : ChildSound C n P app ⟨p, header⟩) (hlast : header.getLastD 0 ≠ 0) :
    Witnessed n P.headerSize steps S p header := by
  have hw := C87_wins hA hplay hs
  obtain ⟨T, s1, s2, s3, s4, -⟩ := hs.traces.stages
  obtain ⟨T', t1, t2, e1, e2, -⟩ := hplay.stages
  obtain ⟨u1, u2, -⟩ := stages_unique s1 s2 t1 t2
  have hl : p.application.leftHeader = l.header := by
    rw [s3, u1, e1]; rfl
  have hr : p.application.rightHeader = r.header := by
    rw [s4, u2, e2]; rfl
  have hchild : ∀ (ch : FuseChild F G HC), (¬ ch.header[P.headerSize - 1]? = some 1 →
      ChildSound C n P app ch) → (ch.header[P.headerSize - 1]? ≠ some 1 → ∀ {header},
      ChildSound C n P app ⟨ch.proof, header⟩ → header.getLastD 0 ≠ 0 →
      Witnessed n P.headerSize steps S ch.proof header) → ch.header.getLastD 0 ≠ 0 →
      Witnessed n P.headerSize steps S ch.proof ch.header := by
    intro ch h1 h2 h3
    by_cases hm : ch.header[P.headerSize - 1]? = some 1
    · exact .trivial hm
    · exact h2 hm (h1 hm) h3
  have hsound : ¬ (l.header[P.headerSize - 1]? = some 1 ∧ r.header[P.headerSize - 1]? = some 1) →
      ChildSound C n P app l ∧ ChildSound C n P app r := by
    intro hb
    by_contra hbad
    exact hno ⟨fl, fr, hb, hbad, hw⟩
  have hdl := hchild l (fun hm => (hsound fun h => hm h.1).1) ihl
  have hdr := hchild r (fun hm => (hsound fun h => hm h.2).2) ihr
  rcases sound_trace hA hL hI (hl ▸ fl.header) (hr ▸ fr.header) hs hlast with
    ⟨h, hid⟩ | h | ⟨i, d, s, h1, -, h3, h4, h5, -, h6, h7⟩
  · rw [hl] at h
    subst h
    exact .rerandomized hid sl (hdl hlast)
  · exact .trivial h
  · rw [hl] at h5 h6
    rw [hr] at h5 h7
    exact .step h1 h3 h4 h5 fl.header fr.header sl (hdl h6) sr (hdr h7)

open Classical in
/-- C92: whatever a prover asks, in few of the possible answers to its `Q` questions is there a proof that
came out of fuses with these answers as challenges and is what a proof should be for some header, but the
witnesses of a history of the header cannot be read off the proof and the children that the prover put
into its questions. -/
theorem C92_known [Finite F] (hA : AppOk C n P cs steps app) (hL : LibraryCircuits P zeta cs)
    (hI : List.Forall₂ (Implements P.headerSize) steps progs) (s : Asker F G HC Q) (A B : Finset F) :
    ((answers Q A B).filter fun t => ∃ p header, HashedFuse C n P app s t p ∧
      ChildSound C n P app ⟨p, header⟩ ∧ header.getLastD 0 ≠ 0 ∧
        ¬ Witnessed n P.headerSize steps (Named s t) p header).card ≤
      Q * (((16 * n + 55) * (A.card * B.card) + 36 * A.card ^ 2) * (A.card ^ 2 * B.card) ^ (Q - 1)) := by
  refine (card_le_card fun t ht => ?_).trans (C91_children hA s A B)
  rw [mem_filter] at ht ⊢
  obtain ⟨ht, p, header, hp, hs, hlast, hd⟩ := ht
  refine ⟨ht, ?_⟩
  by_contra hno
  push Not at hno
  refine hd ?_
  clear hd
  induction hp generalizing header with
  | @fuse p l r m c fl fr hplay hh _ _ ihl ihr =>
    obtain ⟨j, hj, -⟩ := hh 0 (by decide)
    exact fuse_witnessed hA hL hI (hno l r m c hh) fl fr hplay ⟨j, .inl (by rw [hj]; rfl)⟩
      ⟨j, .inr (by rw [hj]; rfl)⟩ (fun h header hs hl => ihl h header hs hl)
      (fun h header hs hl => ihr h header hs hl) hs hlast

variable {Data Out : Type} {H : Header F Data Out}

open Classical in
/-- C92: the same for the verifier. Over all answers to the prover's questions for which its proof came
out of fuses with these answers as challenges, and all challenges of the verifier, few accept the proof
with data for which no witnesses can be read off. -/
theorem C92_verified [Finite F] (hA : AppOk C n P cs steps app) (hL : LibraryCircuits P zeta cs)
    (hI : List.Forall₂ (Implements P.headerSize) steps progs) (hsuf : (H.suffix.get : F) ≠ 0)
    (s : Asker F G HC Q) (A B V : Finset F) (p : (Fin Q → Answer F) → Proof F G HC)
    (data : (Fin Q → Answer F) → Data) (hp : ∀ t, ProofTyped C n (p t))
    {ch : F → F → F → VerifyChallenges F G}
    (hch : ∀ w y z, (ch w y z).w = w ∧ (ch w y z).y = y ∧ (ch w y z).z = z) :
    ∑ t ∈ (answers Q A B).filter (fun t => HashedFuse C n P app s t (p t) ∧
        ¬ ∃ header, EncodedAs P.headerSize H (data t) header ∧
          Witnessed n P.headerSize steps (Named s t) (p t) header),
      (acceptedTriples C n P.headerSize app H (p t) (data t) ch V).card ≤
      Q * (((16 * n + 55) * (A.card * B.card) + 36 * A.card ^ 2) * (A.card ^ 2 * B.card) ^ (Q - 1)) *
        V.card ^ 3 + (A.card ^ 2 * B.card) ^ Q * (8 * n * V.card ^ 2) := by
  have hone : ∀ t, (HashedFuse C n P app s t (p t) ∧
      ¬ ∃ header, EncodedAs P.headerSize H (data t) header ∧
        Witnessed n P.headerSize steps (Named s t) (p t) header) →
      (acceptedTriples C n P.headerSize app H (p t) (data t) ch V).card ≤
      (if ∃ p header, HashedFuse C n P app s t p ∧ ChildSound C n P app ⟨p, header⟩ ∧
        header.getLastD 0 ≠ 0 ∧ ¬ Witnessed n P.headerSize steps (Named s t) p header
        then V.card ^ 3 else 0) + 8 * n * V.card ^ 2 := by
    rintro t ⟨ht, hno⟩
    by_cases h : (acceptedTriples C n P.headerSize app H (p t) (data t) ch V).card ≤
        8 * n * V.card ^ 2
    · omega
    · obtain ⟨header, he, -, hs⟩ := C87_accepted hA (hp t) hch (not_le.1 h)
      rw [if_pos ⟨p t, header, ht, hs, by rw [encodedAs_last he]; exact hsuf,
        fun hd => hno ⟨header, he, hd⟩⟩]
      refine le_trans (card_filter_le _ _) ?_
      rw [card_product, card_product]
      have : V.card * (V.card * V.card) = V.card ^ 3 := by ring
      omega
  refine (sum_le_sum fun t ht => hone t (mem_filter.1 ht).2).trans
    ((sum_le_sum_of_subset (filter_subset _ _)).trans ?_)
  rw [sum_add_distrib, sum_const, ← sum_filter, sum_const, smul_eq_mul, smul_eq_mul]
  exact add_le_add (Nat.mul_le_mul_right _ (C92_known hA hL hI s A B))
    (le_of_eq (by rw [answers_card]))

/-- C92: what can be read off is a history: the header is derived. -/
theorem C92_derived (hA : AppOk C n P cs steps app)
    (hI : List.Forall₂ (Implements P.headerSize) steps progs) {p : Proof F G HC} {header : List F}
    (h : Witnessed n P.headerSize steps S p header) : Derived P.headerSize progs header := by
  induction h with
  | trivial h => exact .trivial h
  | rerandomized _ _ _ ih => exact ih
  | @step p pl pr l r h i d hd _ hg hs hl hr _ _ _ _ ihl ihr =>
    obtain ⟨ha, rfl⟩ := List.getElem?_eq_some_iff.1 hd
    have hb : i < progs.length := hI.length_eq ▸ ha
    have hi' : Implements P.headerSize steps[i] progs[i] := List.forall₂_iff_get.1 hI |>.2 i ha hb
    obtain ⟨j, -, -, hH⟩ := step_holds hA (i := .application i) (c := steps[i].circ)
      (by rw [stepCircuit, List.getElem?_eq_getElem ha]; rfl)
    exact .step (List.getElem_mem hb) ihl ihr (program_sat hA.params.header hl hr
      (holds_sat hH (hi'.code progs[i].input) hg hs))

variable {K : NestedParams G HC} {nestedCommit : Sparse.Poly G → Option (F × F)}

/-- C92: the witnesses of a proof that was made can be read off proofs that were made, and trivial ones. -/
theorem C92_honest [Finite F] (hA : AppOk C n P cs steps app) (hK : HostOk K P.endo)
    (hcurve : ∀ q x y, nestedCommit q = some (x, y) → y ^ 2 = x ^ 3 + C.b)
    (hbig : 8 * n < Nat.card F) (hL : LibraryCircuits P zeta cs)
    (hI : List.Forall₂ (Implements P.headerSize) steps progs) {D O : Type} {H : Header F D O}
    {p : Proof F G HC} {data : D} (h : Made C K n nestedCommit P cs steps app H p data)
    (hsuf : (H.suffix.get : F) ≠ 0) :
    ∃ header, EncodedAs P.headerSize H data header ∧ Witnessed n P.headerSize steps (fun q =>
      trivialProof C n P.headerSize nestedCommit app.nativeRegistry = some q ∨
      ∃ (D O : Type) (H : Header F D O) (data : D), Made C K n nestedCommit P cs steps app H q data)
      p header := by
  set S : Proof F G HC → Prop := fun q =>
    trivialProof C n P.headerSize nestedCommit app.nativeRegistry = some q ∨
      ∃ (D O : Type) (H : Header F D O) (data : D), Made C K n nestedCommit P cs steps app H q data
    with hS
  suffices key : ∀ {D O : Type} {H : Header F D O} {p : Proof F G HC} {data : D},
      Made C K n nestedCommit P cs steps app H p data → ∀ header, EncodedAs P.headerSize H data header →
      header.getLastD 0 ≠ 0 → Witnessed n P.headerSize steps S p header by
    obtain ⟨header, e, -⟩ := made_sound hA hK hcurve hbig h
    exact ⟨header, e, key h header e (by rw [encodedAs_last e]; exact hsuf)⟩
  clear h hsuf p data H
  intro D O H p data h
  have one : ∀ {D1 O1 D2 O2 D3 O3 : Type} {HL : Header F D1 O1} {HR : Header F D2 O2}
      {HO : Header F D3 O3} {left right p : Proof F G HC} {dl : D1} {dr : D2} {data : D3},
      Fuses C K n nestedCommit P cs steps app HL HR HO left dl right dr p data →
      Made C K n nestedCommit P cs steps app HO p data → S left → S right →
      (∀ header, EncodedAs P.headerSize HL dl header → header.getLastD 0 ≠ 0 →
        Witnessed n P.headerSize steps S left header) →
      (∀ header, EncodedAs P.headerSize HR dr header → header.getLastD 0 ≠ 0 →
        Witnessed n P.headerSize steps S right header) →
      ∀ header, EncodedAs P.headerSize HO data header → header.getLastD 0 ≠ 0 →
        Witnessed n P.headerSize steps S p header := by
    intro D1 O1 D2 O2 D3 O3 HL HR HO left right p dl dr data hf hm sl sr ihl ihr header e hlast
    obtain ⟨header', e', -, fit, hs⟩ := made_sound hA hK hcurve hbig hm
    cases encodedAs_unique e e'
    obtain ⟨i, j, c0, code, out, t, h1, h2, h3, rfl, h4, hB, hE, h5⟩ := hf
    have hap := h4.application
    obtain ⟨-, -, f3, f4, -⟩ := fuse_fields h4.assembled
    have f3 := f3.trans hap.left
    have f4 := f4.trans hap.right
    have dl' := ihl _ h3.left
    have dr' := ihr _ h3.right
    have q1 : p.application.leftHeader.length = P.headerSize := fit.left
    have q2 : p.application.rightHeader.length = P.headerSize := fit.right
    rcases sound_trace hA hL hI q1 q2 hs hlast with
      ⟨h, hid⟩ | h | ⟨i, d, s, g1, -, g3, g4, g5, -, g6, g7⟩
    · rw [h.trans f3] at hlast ⊢
      exact .rerandomized hid sl (dl' hlast)
    · exact .trivial h
    · rw [f3] at g5 g6 q1
      rw [f4] at g5 g7 q2
      exact .step g1 g3 g4 g5 q1 q2 sl (dl' g6) sr (dr' g7)
  have hunit : ∀ (q : Proof F G HC) header, EncodedAs P.headerSize (Header.unit (F := F)) () header →
      header.getLastD 0 ≠ 0 → Witnessed n P.headerSize steps S q header := by
    intro q header e _
    cases encodedAs_unique e (unit_encoded P.headerSize)
    exact .trivial unit_marked
  induction h with
  | seed hq hf => exact one hf (.seed hq hf) (.inl hq) (.inl hq) (hunit _) (hunit _)
  | fuse hl hr hf ihl ihr =>
    exact one hf (.fuse hl hr hf) (.inr ⟨_, _, _, _, hl⟩) (.inr ⟨_, _, _, _, hr⟩) ihl ihr

end

section
open Ragu.Pasta

open Classical in
/-- Non-vacuity of C92_known and C92_derived: the application of squares over the Pasta cycle. Whatever a
prover asks in up to 2^80 questions, for fewer than a quarter of the answers there is a proof from fuses
with these answers that is what a proof should be for an element, without a history that can be read off;
and an element with such a history is a square. -/
example : ∃ (V : FuseEnvironment Fp Fq Vesta) (steps : List (StepDef Fp)), Prepared V steps ∧
    (∀ Q ≤ 2 ^ 80, ∀ s : Asker Fp Fq Vesta Q,
    4 * ((answers Q (univ : Finset Fp) univ).filter fun t => ∃ p x header,
      HashedFuse V.C V.n V.P V.app s t p ∧ EncodedAs V.P.headerSize (elementHeader Fp) x header ∧
      ChildSound V.C V.n V.P V.app ⟨p, header⟩ ∧
      ¬ Witnessed V.n V.P.headerSize steps (Named s t) p header).card <
      (answers Q (univ : Finset Fp) univ).card) ∧
    ∀ (S : Proof Fp Fq Vesta → Prop) p x header, EncodedAs V.P.headerSize (elementHeader Fp) x header →
      Witnessed V.n V.P.headerSize steps S p header → IsSquare x := by
  obtain ⟨V, steps, hV, hT, hn, hh, hL, hI⟩ := pasta_squares
  refine ⟨V, steps, hV, fun Q hQ s => ?_, fun S p x header he hw => ?_⟩
  · have hb := C92_known hV.app hL (by rw [hh]; exact hI) s univ univ
    rw [show 16 * V.n + 55 = 32823 by rw [hn]] at hb
    have hc : 2 ^ 100 < (univ : Finset Fp).card := by
      rw [card_univ, ← Nat.card_eq_fintype_card, Nat.card_zmod]
      exact pasta_huge
    rw [answers_card]
    refine small_answers hc hQ (le_trans (card_le_card fun t ht => ?_) hb)
    rw [mem_filter] at ht ⊢
    obtain ⟨ht, p, x, header, hp, he, hs, hx⟩ := ht
    exact ⟨ht, p, header, hp, hs, by rw [encodedAs_last he, element_suffix]; exact pasta_two.1, hx⟩
  · have hd := C92_derived (progs := [squareProgram Fp, productProgram Fp]) hV.app
      (by rw [hh]; exact hI) hw
    rw [hh] at he hd
    rw [encoded_element he] at hd
    obtain ⟨a, ha⟩ := squares_derived pasta_two.2 hd rfl
    exact ⟨a, by rw [← pow_two]; exact Option.some.inj ha⟩

/-- Non-vacuity of C92_honest: in the same application, the witnesses of every proof of an element that
was obtained from calls can be read off. -/
example : ∃ (V : FuseEnvironment Fp Fq Vesta) (steps : List (StepDef Fp)), Prepared V steps ∧
    ∀ {p : Proof Fp Fq Vesta} {x : Fp}, Obtained V steps (elementHeader Fp) p x →
      ∃ header S, EncodedAs V.P.headerSize (elementHeader Fp) x header ∧
        Witnessed V.n V.P.headerSize steps S p header := by
  obtain ⟨V, steps, hV, hT, hn, hh, hL, hI⟩ := pasta_squares
  have hbig : 8 * V.n < Nat.card Fp := by
    rw [hn, Nat.card_zmod]; exact lt_trans (by norm_num) pasta_huge
  refine ⟨V, steps, hV, fun h => ?_⟩
  obtain ⟨header, e, hw⟩ := C92_honest hV.app hV.host hV.curve hbig hL (by rw [hh]; exact hI)
    (C82_made hV h) (by rw [element_suffix]; exact pasta_two.1)
  exact ⟨header, _, e, hw⟩

open Classical in
/-- Non-vacuity of C92_verified: in the same application, with eight questions. -/
example : ∃ (V : FuseEnvironment Fp Fq Vesta) (steps : List (StepDef Fp)) (p : Proof Fp Fq Vesta),
    Prepared V steps ∧ ProofTyped V.C V.n p ∧
    ∀ (s : Asker Fp Fq Vesta 8) (ps : (Fin 8 → Answer Fp) → Proof Fp Fq Vesta)
      (x : (Fin 8 → Answer Fp) → Fp), (∀ t, ProofTyped V.C V.n (ps t)) → ∀ A : Finset Fp,
      ∑ t ∈ (answers 8 A A).filter (fun t => HashedFuse V.C V.n V.P V.app s t (ps t) ∧
          ¬ ∃ header, EncodedAs V.P.headerSize (elementHeader Fp) (x t) header ∧
            Witnessed V.n V.P.headerSize steps (Named s t) (ps t) header),
        (acceptedTriples V.C V.n V.P.headerSize V.app (elementHeader Fp) (ps t) (x t)
          (fun w y z => ⟨w, y, z, 0, 0⟩) A).card ≤
      8 * 32859 * A.card ^ 23 * A.card ^ 3 + A.card ^ 24 * (16384 * A.card ^ 2) := by
  obtain ⟨V, steps, hV, hT, hn, hh, hL, hI⟩ := pasta_squares
  obtain ⟨q, hq, -⟩ := seed_fits hV hT
  refine ⟨V, steps, q, hV, (trivial_fit hV.app hV.curve hq (hT q hq)).typed, fun s ps x hp A => ?_⟩
  have hb := C92_verified (H := elementHeader Fp) hV.app hL (by rw [hh]; exact hI)
    (by rw [element_suffix]; exact pasta_two.1) s A A A ps x hp
    (ch := fun w y z => ⟨w, y, z, 0, 0⟩) (fun _ _ _ => ⟨rfl, rfl, rfl⟩)
  rw [show 16 * V.n + 55 = 32823 by rw [hn], show 8 * V.n = 16384 by rw [hn]] at hb
  exact hb.trans (le_of_eq (by ring))

end
end Ragu.Props

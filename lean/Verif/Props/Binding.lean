/-
Property C90: commitments bind, unless a relation between the generators is found.
-/
import Verif.Spec.Binding
import Verif.Props.DerivationHonest
import Mathlib.LinearAlgebra.Vandermonde

set_option linter.unusedSectionVars false

namespace Ragu.Props
open Ragu Ragu.Circuit Ragu.Registry Ragu.Spec Ragu.Gadget Ragu.Pcd Finset Function
variable {F G HC : Type} [Field F] [DecidableEq F] [Field G] [DecidableEq G]
  [AddCommGroup HC] [DecidableEq HC] [Module F HC]

/-- C90: two polynomials with the same commitment are equal, or their difference is a relation between
the generators. -/
theorem C90_binding {n : ℕ} {g : List HC} {p q : ℕ → F} (h : commitTo n g p = commitTo n g q) :
    (∀ k < 4 * n, p k = q k) ∨ GeneratorRelation n g fun k => p k - q k := by
  by_cases he : ∀ k < 4 * n, p k = q k
  · exact .inl he
  push Not at he
  obtain ⟨k, hk, hne⟩ := he
  refine .inr ⟨⟨k, hk, sub_ne_zero.2 hne⟩, ?_⟩
  rw [commitTo, commitTo] at h
  simp only [commitTo, sub_smul, sum_sub_distrib, h, sub_self]

/-- Non-vacuity: with the generators 1, 2, 3, 4 of the group of integers modulo 5, the polynomials 2 and
X have the same commitment, and their difference is a relation. -/
example : commitTo 1 [(1 : ZMod 5), 2, 3, 4] (fun k => if k = 0 then (2 : ZMod 5) else 0) =
      commitTo 1 [(1 : ZMod 5), 2, 3, 4] (fun k => if k = 1 then (1 : ZMod 5) else 0) ∧
    GeneratorRelation 1 [(1 : ZMod 5), 2, 3, 4] fun k =>
      (if k = 0 then (2 : ZMod 5) else 0) - if k = 1 then 1 else 0 := by
  refine ⟨by decide, ⟨0, by decide, by decide⟩, by decide⟩

theorem commitTo_sum {ι : Type} (n : ℕ) (g : List HC) (s : Finset ι) (a : ι → F) (p : ι → ℕ → F) :
    commitTo n g (fun k => ∑ j ∈ s, a j * p j k) = ∑ j ∈ s, a j • commitTo n g (p j) := by
  simp only [commitTo, sum_smul, smul_sum, mul_smul]
  exact sum_comm

theorem commitTo_descending (n : ℕ) (g : List HC) (s : F) (ps : List (ℕ → F)) (m : ℕ)
    (hm : ps.length = m + 1) :
    commitTo n g (fun k => descending s (ps.map (· k))) = pointSum s (ps.map (commitTo n g)) m := by
  have h1 : (fun k => descending s (ps.map (· k))) =
      fun k => ∑ i ∈ range (m + 1), s ^ (m - i) * (ps.getD i 0) k := by
    funext k
    rw [descending, List.length_map, hm]
    refine sum_congr rfl fun i hi => ?_
    have := mem_range.1 hi
    simp [List.getD_eq_getElem?_getD, List.getElem?_eq_getElem (l := ps) (i := i) (by omega)]
  rw [h1, commitTo_sum, pointSum]
  refine sum_congr rfl fun i hi => ?_
  have := mem_range.1 hi
  simp [List.getD_eq_getElem?_getD, List.getElem?_eq_getElem (l := ps) (i := i) (by omega)]

theorem vandermonde_inverse {m : ℕ} {s : Fin (m + 1) → F} (hs : Injective s) :
    ∃ L : Fin (m + 1) → Fin (m + 1) → F, ∀ i i' : Fin (m + 1),
      ∑ j, L i j * s j ^ (m - i' : ℕ) = if i = i' then 1 else 0 := by
  have hd : (Matrix.vandermonde s).det ≠ 0 := Matrix.det_vandermonde_ne_zero_iff.2 hs
  refine ⟨fun i j => (Matrix.vandermonde s)⁻¹ (Fin.rev i) j, fun i i' => ?_⟩
  have h := Matrix.nonsing_inv_mul (Matrix.vandermonde s) (isUnit_iff_ne_zero.2 hd)
  have := congrFun (congrFun h (Fin.rev i)) (Fin.rev i')
  rw [Matrix.mul_apply, Matrix.one_apply] at this
  simp only [Matrix.vandermonde_apply, Fin.val_rev, Fin.rev_inj] at this
  rw [← this]
  refine sum_congr rfl fun j _ => ?_
  congr 2
  omega

/-- C90: the openings of batched commitments can be computed: if the combinations of the same points with
different multipliers are commitments to the polynomials `P`, as many as there are points, then each of
the points is the commitment to a combination of these polynomials, with coefficients that depend on the
multipliers alone. -/
theorem C90_extract {m : ℕ} {s : Fin (m + 1) → F} (hs : Injective s) :
    ∃ L : Fin (m + 1) → Fin (m + 1) → F, ∀ (n : ℕ) (g points : List HC) (P : Fin (m + 1) → ℕ → F),
      (∀ j, commitTo n g (P j) = pointSum (s j) points m) →
      ∀ i : Fin (m + 1), commitTo n g (fun k => ∑ j, L i j * P j k) = points.getD i 0 := by
  obtain ⟨L, hL⟩ := vandermonde_inverse hs
  refine ⟨L, fun n g points P h i => ?_⟩
  rw [commitTo_sum]
  simp only [h, pointSum, Finset.sum_range, smul_sum, ← mul_smul]
  rw [sum_comm]
  simp only [← sum_smul, hL, ite_smul, one_smul, zero_smul]
  simp

/-- Non-vacuity: the combinations of the commitments to any two polynomials with the multipliers 2 and
3. -/
example (p q : ℕ → ZMod 5) (g : List (ZMod 5)) :
    Injective (![2, 3] : Fin 2 → ZMod 5) ∧ ∀ j : Fin 2,
      commitTo 2 g (fun k => descending ((![2, 3] : Fin 2 → ZMod 5) j) [p k, q k]) =
        pointSum ((![2, 3] : Fin 2 → ZMod 5) j) [commitTo 2 g p, commitTo 2 g q] 1 :=
  ⟨by decide, fun j => commitTo_descending 2 g _ [p, q] 1 rfl⟩

section
variable {C : CycleEnv F G HC} {n : ℕ} {P : StepParams F} {cs : Circuits F G}
  {steps : List (StepDef F)} {app : Application F G} {l r : FuseChild F G HC} {σ : FuseProver F}
  {Data Out : Type} {H : Header F Data Out} {zeta : G} {progs : List (StepProgram F)} {k : ℕ}

/-- C90: so the openings of the commitments that a fuse batches can be computed from accepted proofs. Let 37
proofs be accepted whose batched commitments combine the same 37 points with different multipliers. Then
each of the points is the commitment to a combination of the batched polynomials of these proofs, with
coefficients that depend on the multipliers alone. (C90_honest has proofs of this kind, one for each
multiplier.) -/
theorem C90_accepted (hA : AppOk C n P cs steps app) {s : Fin 37 → F} (hs : Injective s) :
    ∃ L : Fin 37 → Fin 37 → F, ∀ (points : List HC) (p : Fin 37 → Proof F G HC) (data : Fin 37 → Data)
      (ch : Fin 37 → VerifyChallenges F G),
      (∀ j, ProofTyped C n (p j) ∧ verify C n P.headerSize app H (p j) (data j) (ch j) = .ok true ∧
        (p j).p.native.commitment = pointSum (s j) points 36) →
      ∀ i : Fin 37, commitTo n C.hostGens (fun k => ∑ j, L i j * coeff (p j).p.native.poly k) =
        points.getD i 0 := by
  obtain ⟨L, hL⟩ := C90_extract (HC := HC) (m := 36) hs
  refine ⟨L, fun points p data ch h i => hL n C.hostGens points (fun j => coeff (p j).p.native.poly)
    (fun j => ?_) i⟩
  obtain ⟨h1, h2, h3⟩ := h j
  rw [← h3, ← (C70_deferred hA h1 h2).2.2]
  rfl

/-- The proof `p` came out of this play as far as commitments tell: as `Plays`, but of the batched
polynomial only the commitment is known to be the combination, of the commitments recorded in the children
and in the proof, to which the children's polynomials and the messages are openings. -/
structure PlaysCommitted (g : List HC) (n : ℕ) (P : StepParams F) (om : ℕ → F) (l r : FuseChild F G HC)
    (σ : FuseProver F) (c : Draw F) (p : Proof F G HC) : Prop where
  challenges : [p.challenges.w, p.challenges.y, p.challenges.z, p.challenges.mu, p.challenges.nu,
    p.challenges.muPrime, p.challenges.nuPrime, p.challenges.x, p.challenges.alpha, p.challenges.u] =
      [c.w, c.y, c.z, c.mu, c.nu, c.muPrime, c.nuPrime, c.x, c.alpha, c.u]
  beta : ∀ bits, SquareBits P.endo.nbits p.challenges.preBeta bits →
    liftNative P.endo.nbits P.endo.zeta bits = c.beta
  stages : ∃ S, StageTypes P.headerSize P.poseidon.T S ∧
    StagesOf n P.headerSize P.poseidon.T (fun i => p.nativeRx (.rx i)) S ∧
    S.preamble.left.public = l.values om ∧ S.preamble.right.public = r.values om ∧
    (S.innerError.map fun l => l.map (·.wire)) = σ.innerErrs (c.upTo 3) ∧
    S.outerError.errorTerms.map (·.wire) = σ.outerErrs (c.upTo 5) ∧
    QueryOutput.map (·.wire) S.query = σ.query (c.upTo 8) ∧
    EvalOutput.map (·.wire) S.eval = σ.eval (c.upTo 10)
  a : ∀ k < 4 * n, coeff p.ab.native.aPoly k = σ.a (c.upTo 7) k
  b : ∀ k < 4 * n, coeff p.ab.native.bPoly k = σ.b (c.upTo 7) k
  xy : ∀ k < 4 * n, coeff p.query.native.registryXyPoly k = σ.xy (c.upTo 8) k
  opened : (fusePolys l r σ c).map (commitTo n g) = fuseCommitments l r p
  batch : p.p.native.commitment = pointSum c.beta (fuseCommitments l r p) 36

/-- What the coefficients of the batched polynomial have too much over the combination of the batched
ones. -/
def batchError (l r : FuseChild F G HC) (σ : FuseProver F) (c : Draw F) (p : Proof F G HC) (k : ℕ) : F :=
  coeff p.p.native.poly k - descending c.beta ((fusePolys l r σ c).map (· k))

theorem evalList_map' {α β : Type} (f : α → β) (e : EvalOutput α) :
    evalList (EvalOutput.map f e) = (evalList e).map f := by
  simp only [evalList, EvalOutput.map, EvalChild.map, List.flatMap_cons, List.flatMap_nil, List.map_append,
    List.map_map, List.map_cons, List.map_nil]
  rfl

theorem fusePolys_at (c : Draw F) (k : ℕ) : (fusePolys l r σ c).map (· k) =
    σ.f (c.upTo 9) k :: evalList (EvalOutput.map (· k) (batched l r σ c)) := by
  rw [fusePolys, List.map_cons, evalList_map']

theorem fusePolys_length (c : Draw F) : (fusePolys l r σ c).length = 37 := rfl

/-- C90: a play as far as commitments tell, with a proof whose batched polynomial opens its commitment, is
a play; or the prover has come upon a relation between the generators. -/
theorem C90_play {g : List HC} {om : ℕ → F} {c : Draw F} {p : Proof F G HC}
    (h : PlaysCommitted g n P om l r σ c p)
    (hp : commitTo n g (coeff p.p.native.poly) = p.p.native.commitment) :
    Plays n P om l r σ c p ∨ GeneratorRelation n g (batchError l r σ c p) := by
  have he : commitTo n g (coeff p.p.native.poly) =
      commitTo n g fun k => descending c.beta ((fusePolys l r σ c).map (· k)) := by
    rw [hp, h.batch, ← h.opened, commitTo_descending n g c.beta _ 36 (fusePolys_length c)]
  rcases C90_binding he with h1 | h1
  · exact .inl ⟨h.challenges, h.beta, h.stages, h.a, h.b, h.xy, fun k hk => by
      rw [h1 k hk, fusePolys_at]⟩
  · exact .inr h1

/-- Conversely a play with openings is a play as far as commitments tell, and shows no relation. -/
theorem plays_committed {g : List HC} {om : ℕ → F} {c : Draw F} {p : Proof F G HC}
    (h : Plays n P om l r σ c p) (ho : (fusePolys l r σ c).map (commitTo n g) = fuseCommitments l r p)
    (hp : commitTo n g (coeff p.p.native.poly) = p.p.native.commitment) :
    PlaysCommitted g n P om l r σ c p ∧ ¬ GeneratorRelation n g (batchError l r σ c p) := by
  refine ⟨⟨h.challenges, h.beta, h.stages, h.a, h.b, h.xy, ho, ?_⟩, fun ⟨⟨k, hk, hne⟩, _⟩ => hne ?_⟩
  · rw [← ho, ← commitTo_descending n g c.beta _ 36 (fusePolys_length c), ← hp]
    refine sum_congr rfl fun k hk => ?_
    dsimp only
    rw [h.batch k (mem_range.1 hk), fusePolys_at]
  · rw [batchError, h.batch k hk, fusePolys_at, sub_self]

open Classical in
/-- C90: a prover who opens its commitments and does not come upon a relation between the generators is
bound as in C87: if one of the children is not what a proof should be, then the verifier accepts for at
most a fraction `(40 n + 151) / |A| + 36 / |B| + 8 n / |V|` of all the challenges. -/
theorem C90_verified [Finite F] (hA : AppOk C n P cs steps app)
    (hl : ChildFit C n P.headerSize app l) (hr : ChildFit C n P.headerSize app r)
    (hnt : ¬ ((l.values (omegaJ C.native)).Trivial P.headerSize ∧
      (r.values (omegaJ C.native)).Trivial P.headerSize))
    (hbad : ¬ (ChildSound C n P app l ∧ ChildSound C n P app r)) (σ : FuseProver F) (A B V : Finset F)
    (p : Draw F → Proof F G HC) (data : Draw F → Data)
    (hp : ∀ c, ProofTyped C n (p c))
    {ch : F → F → F → VerifyChallenges F G}
    (hch : ∀ w y z, (ch w y z).w = w ∧ (ch w y z).y = y ∧ (ch w y z).z = z) :
    ∑ c ∈ (draws A B).filter (fun c =>
        PlaysCommitted C.hostGens n P (omegaJ C.native) l r σ c (p c) ∧
          ¬ GeneratorRelation n C.hostGens (batchError l r σ c (p c))),
        (acceptedTriples C n P.headerSize app H (p c) (data c) ch V).card ≤
      ((40 * n + 151) * (A.card ^ 9 * B.card) + 36 * A.card ^ 10) * V.card ^ 3 +
        (A.card ^ 10 * B.card) * (8 * n * V.card ^ 2) := by
  refine le_trans ?_ (C87_verified (H := H) hA hl hr hnt hbad σ A B V p data hp hch)
  rw [sum_filter, sum_filter]
  refine sum_le_sum fun c _ => ?_
  split
  · rename_i h
    by_cases hpl : Plays n P (omegaJ C.native) l r σ c (p c)
    · rw [if_pos hpl]
    · rw [if_neg hpl, Nat.le_zero, card_eq_zero, eq_empty_iff_forall_notMem]
      intro t ht
      have hv := (mem_filter.1 ht).2
      rcases C90_play h.1 (C70_deferred hA (hp c) hv).2.2 with h1 | h1
      · exact hpl h1
      · exact h.2 h1
  · exact Nat.zero_le _

/-- The proof `p` came out of a fuse of the run `c`, as far as commitments tell, and so did each of its
children, unless its header is trivial. No fuse on the way shows a relation between the generators, and
the batched polynomials of the children open their commitments. -/
inductive FusedCommitted (C : CycleEnv F G HC) (n : ℕ) (P : StepParams F) (app : Application F G)
    (s : Strategy F G HC k) (c : Fin k → Draw F) : Proof F G HC → Prop
  | fuse {p : Proof F G HC} (i : Fin k) :
      ChildFit C n P.headerSize app (s.left i (before c i)) →
      ChildFit C n P.headerSize app (s.right i (before c i)) →
      PlaysCommitted C.hostGens n P (omegaJ C.native) (s.left i (before c i)) (s.right i (before c i))
        (s.prover i (before c i)) (c i) p →
      ¬ GeneratorRelation n C.hostGens
        (batchError (s.left i (before c i)) (s.right i (before c i)) (s.prover i (before c i)) (c i) p) →
      ((s.left i (before c i)).header[P.headerSize - 1]? ≠ some 1 →
        FusedCommitted C n P app s c (s.left i (before c i)).proof) →
      ((s.right i (before c i)).header[P.headerSize - 1]? ≠ some 1 →
        FusedCommitted C n P app s c (s.right i (before c i)).proof) →
      FusedCommitted C n P app s c p

theorem opened_child {g : List HC} {om : ℕ → F} {c : Draw F} {p : Proof F G HC}
    (h : PlaysCommitted g n P om l r σ c p) :
    commitTo n g (coeff l.proof.p.native.poly) = l.proof.p.native.commitment ∧
      commitTo n g (coeff r.proof.p.native.poly) = r.proof.p.native.commitment := by
  have h1 := congrArg (fun l => l.getD 15 0) h.opened
  have h2 := congrArg (fun l => l.getD 30 0) h.opened
  exact ⟨h1, h2⟩

theorem fused_of_committed {s : Strategy F G HC k} {c : Fin k → Draw F} {p : Proof F G HC}
    (h : FusedCommitted C n P app s c p)
    (hp : commitTo n C.hostGens (coeff p.p.native.poly) = p.p.native.commitment) :
    Fused C n P app s c p := by
  induction h with
  | fuse i hl hr hpl hno _ _ ihl ihr =>
    obtain ⟨e1, e2⟩ := opened_child hpl
    rcases C90_play hpl hp with h1 | h1
    · exact .fuse i hl hr h1 (fun h => ihl h e1) fun h => ihr h e2
    · exact absurd h1 hno

open Classical in
/-- C90: the same over runs of any number of fuses, as in C88: if the prover opens its commitments and
comes upon no relation between the generators, then few runs with few of the verifier's challenges lead to
a proof that is accepted with data whose header is not the end of a history of the application's steps. -/
theorem C90_history [Finite F] (hA : AppOk C n P cs steps app) (hL : LibraryCircuits P zeta cs)
    (hI : List.Forall₂ (Implements P.headerSize) steps progs) (hsuf : (H.suffix.get : F) ≠ 0)
    (s : Strategy F G HC k) (A B V : Finset F) (p : (Fin k → Draw F) → Proof F G HC)
    (data : (Fin k → Draw F) → Data) (hp : ∀ c, ProofTyped C n (p c))
    {ch : F → F → F → VerifyChallenges F G}
    (hch : ∀ w y z, (ch w y z).w = w ∧ (ch w y z).y = y ∧ (ch w y z).z = z) :
    ∑ c ∈ (runs k A B).filter (fun c => FusedCommitted C n P app s c (p c) ∧
        ¬ ∃ header, EncodedAs P.headerSize H (data c) header ∧ Derived P.headerSize progs header),
      (acceptedTriples C n P.headerSize app H (p c) (data c) ch V).card ≤
      k * (((40 * n + 151) * (A.card ^ 9 * B.card) + 36 * A.card ^ 10) *
        (A.card ^ 10 * B.card) ^ (k - 1)) * V.card ^ 3 +
      (A.card ^ 10 * B.card) ^ k * (8 * n * V.card ^ 2) := by
  refine le_trans ?_ (C88_verified (H := H) hA hL hI hsuf s A B V p data hp hch)
  rw [sum_filter, sum_filter]
  refine sum_le_sum fun c _ => ?_
  split
  · rename_i h
    by_cases hpl : Fused C n P app s c (p c)
    · rw [if_pos ⟨hpl, h.2⟩]
    · rw [if_neg fun h' => hpl h'.1, Nat.le_zero, card_eq_zero, eq_empty_iff_forall_notMem]
      intro t ht
      exact hpl (fused_of_committed h.1 (C70_deferred hA (hp c) (mem_filter.1 ht).2).2.2)
  · exact Nat.zero_le _

/-! ### Honest provers -/

variable {K : NestedParams G HC} {nestedCommit : Sparse.Poly G → Option (F × F)} {k' : ℕ}

/-- C90: in an honest fuse of proofs that were made the prover opens its commitments, and comes upon no
relation between the generators. -/
theorem C90_honest [Finite F] (hA : AppOk C n P cs steps app) (hK : HostOk K P.endo)
    (hcurve : ∀ q x y, nestedCommit q = some (x, y) → y ^ 2 = x ^ 3 + C.b)
    (hbig : 8 * n < Nat.card F) {D1 O1 D2 O2 D3 O3 : Type} {HL : Header F D1 O1}
    {HR : Header F D2 O2} {HO : Header F D3 O3} {dl : D1} {dr : D2} {data : D3}
    {left right p : Proof F G HC}
    (hl : Made C K n nestedCommit P cs steps app HL left dl)
    (hr : Made C K n nestedCommit P cs steps app HR right dr)
    (hf : Fuses C K n nestedCommit P cs steps app HL HR HO left dl right dr p data)
    (hpb : ∀ i < P.endo.nbits, p.challenges.preBeta + (i : F) ≠ 0) :
    ∃ lh rh, EncodedAs P.headerSize HL dl lh ∧ EncodedAs P.headerSize HR dr rh ∧
      ChildFit C n P.headerSize app ⟨left, lh⟩ ∧ ChildFit C n P.headerSize app ⟨right, rh⟩ ∧
      ∃ σ c, PlaysCommitted C.hostGens n P (omegaJ C.native) ⟨left, lh⟩ ⟨right, rh⟩ σ c p ∧
        ¬ GeneratorRelation n C.hostGens (batchError ⟨left, lh⟩ ⟨right, rh⟩ σ c p) := by
  obtain ⟨lh, el, sl, fl, cl⟩ := made_sound hA hK hcurve hbig hl
  obtain ⟨rh, er, sr, fr, cr⟩ := made_sound hA hK hcurve hbig hr
  obtain ⟨i, j, c0, code, out, t, h1, h2, h3, rfl, h4, hB, hE, h5⟩ := hf
  obtain ⟨j', e, hj, hH⟩ := step_holds hA h1
  rw [h2] at e
  cases e
  cases encodedAs_unique el h3.left
  cases encodedAs_unique er h3.right
  obtain ⟨σ, c, hp, ho, hc⟩ := run_plays hA sl.childOk sr.childOk hcurve hH h4 (.inl ⟨sl, sr⟩) h5 hpb
  exact ⟨_, _, el, er, fl, fr, σ, c, plays_committed hp ho hc⟩

/-- A run as part of another. -/
theorem FusedCommitted.embed {s : Strategy F G HC k} {c : Fin k → Draw F} {s' : Strategy F G HC k'}
    {c' : Fin k' → Draw F} (e : Fin k → Fin k')
    (h1 : ∀ i, s'.left (e i) (before c' (e i)) = s.left i (before c i))
    (h2 : ∀ i, s'.right (e i) (before c' (e i)) = s.right i (before c i))
    (h3 : ∀ i, s'.prover (e i) (before c' (e i)) = s.prover i (before c i))
    (h4 : ∀ i, c' (e i) = c i) {p : Proof F G HC} (h : FusedCommitted C n P app s c p) :
    FusedCommitted C n P app s' c' p := by
  induction h with
  | @fuse p i fl fr hp hno _ _ ihl ihr =>
    refine .fuse (e i) ?_ ?_ ?_ ?_ ?_ ?_
    · rw [h1]; exact fl
    · rw [h2]; exact fr
    · rw [h1, h2, h3, h4]; exact hp
    · rw [h1, h2, h3, h4]; exact hno
    · rw [h1]; exact ihl
    · rw [h2]; exact ihr

/-- Two runs, and one more fuse. -/
theorem committed_fuse {s1 : Strategy F G HC k} {c1 : Fin k → Draw F} {s2 : Strategy F G HC k'}
    {c2 : Fin k' → Draw F} {l r : FuseChild F G HC}
    (hl : l.header[P.headerSize - 1]? ≠ some 1 → FusedCommitted C n P app s1 c1 l.proof)
    (hr : r.header[P.headerSize - 1]? ≠ some 1 → FusedCommitted C n P app s2 c2 r.proof)
    (fl : ChildFit C n P.headerSize app l) (fr : ChildFit C n P.headerSize app r) {σ : FuseProver F}
    {d : Draw F} {p : Proof F G HC}
    (hp : PlaysCommitted C.hostGens n P (omegaJ C.native) l r σ d p)
    (hno : ¬ GeneratorRelation n C.hostGens (batchError l r σ d p)) :
    ∃ (s : Strategy F G HC (k + k' + 1)) (c : Fin (k + k' + 1) → Draw F), FusedCommitted C n P app s c p := by
  let s : Strategy F G HC (k + k' + 1) := {
    left := fun i _ => Fin.append (Fin.append (fun i => s1.left i (before c1 i))
      fun i => s2.left i (before c2 i)) (fun _ => l) i
    right := fun i _ => Fin.append (Fin.append (fun i => s1.right i (before c1 i))
      fun i => s2.right i (before c2 i)) (fun _ => r) i
    prover := fun i _ => Fin.append (Fin.append (fun i => s1.prover i (before c1 i))
      fun i => s2.prover i (before c2 i)) (fun _ => σ) i }
  let c : Fin (k + k' + 1) → Draw F := Fin.append (Fin.append c1 c2) fun _ => d
  have e1 : ∀ {p}, FusedCommitted C n P app s1 c1 p → FusedCommitted C n P app s c p :=
    FusedCommitted.embed (fun i => Fin.castAdd 1 (Fin.castAdd k' i)) (by simp [s]) (by simp [s]) (by simp [s])
      (by simp [c])
  have e2 : ∀ {p}, FusedCommitted C n P app s2 c2 p → FusedCommitted C n P app s c p :=
    FusedCommitted.embed (fun i => Fin.castAdd 1 (Fin.natAdd k i)) (by simp [s]) (by simp [s]) (by simp [s])
      (by simp [c])
  have a1 : s.left (Fin.natAdd (k + k') 0) (before c (Fin.natAdd (k + k') 0)) = l := by simp [s]
  have a2 : s.right (Fin.natAdd (k + k') 0) (before c (Fin.natAdd (k + k') 0)) = r := by simp [s]
  have a3 : s.prover (Fin.natAdd (k + k') 0) (before c (Fin.natAdd (k + k') 0)) = σ := by simp [s]
  have a4 : c (Fin.natAdd (k + k') 0) = d := by simp [c]
  refine ⟨s, c, .fuse (Fin.natAdd (k + k') 0) ?_ ?_ ?_ ?_ ?_ ?_⟩
  · rw [a1]; exact fl
  · rw [a2]; exact fr
  · rw [a1, a2, a3, a4]; exact hp
  · rw [a1, a2, a3, a4]; exact hno
  · rw [a1]; exact fun h => e1 (hl h)
  · rw [a2]; exact fun h => e2 (hr h)

/-- C90: what `seed` makes came out of a run of such a prover. -/
theorem C90_seed [Finite F] (hA : AppOk C n P cs steps app)
    (hcurve : ∀ q x y, nestedCommit q = some (x, y) → y ^ 2 = x ^ 3 + C.b) {D O : Type}
    {H : Header F D O} {q p : Proof F G HC} {data : D}
    (hq : trivialProof C n P.headerSize nestedCommit app.nativeRegistry = some q)
    (hp : none ∉ bridgePoints q)
    (hf : Fuses C K n nestedCommit P cs steps app Header.unit Header.unit H q () q () p data)
    (hpb : ∀ i < P.endo.nbits, p.challenges.preBeta + (i : F) ≠ 0) :
    ∃ (s : Strategy F G HC 1) (c : Fin 1 → Draw F), FusedCommitted C n P app s c p := by
  obtain ⟨i, j, c0, code, out, t, h1, h2, h3, rfl, h4, hB, hE, h5⟩ := hf
  obtain ⟨j', e, hj, hH⟩ := step_holds hA h1
  rw [h2] at e
  cases e
  have hc := trivial_child hA hcurve hq hp
  have el := encodedAs_unique h3.left (unit_encoded P.headerSize)
  have er := encodedAs_unique h3.right (unit_encoded P.headerSize)
  obtain ⟨σ, c, hp', ho, hpc⟩ := run_plays hA hc hc hcurve hH h4
    (.inr ⟨by rw [el]; exact unit_marked, by rw [er]; exact unit_marked⟩) h5 hpb
  obtain ⟨g1, g2⟩ := plays_committed hp' ho hpc
  rw [el, er] at g1 g2
  have hfit := trivial_fit hA hcurve hq hp
  exact committed_fuse (k := 0) (k' := 0) (s1 := ⟨Fin.elim0, Fin.elim0, Fin.elim0⟩) (c1 := Fin.elim0)
    (s2 := ⟨Fin.elim0, Fin.elim0, Fin.elim0⟩) (c2 := Fin.elim0)
    (fun h => absurd unit_marked h) (fun h => absurd unit_marked h) hfit hfit g1 g2

/-- C90: what `fuse` makes of two proofs that came out of runs of such provers came out of one. -/
theorem C90_fuse [Finite F] (hA : AppOk C n P cs steps app) (hK : HostOk K P.endo)
    (hcurve : ∀ q x y, nestedCommit q = some (x, y) → y ^ 2 = x ^ 3 + C.b)
    (hbig : 8 * n < Nat.card F) {D1 O1 D2 O2 D3 O3 : Type} {HL : Header F D1 O1}
    {HR : Header F D2 O2} {HO : Header F D3 O3} {dl : D1} {dr : D2} {data : D3}
    {left right p : Proof F G HC}
    (hl : Made C K n nestedCommit P cs steps app HL left dl)
    (hr : Made C K n nestedCommit P cs steps app HR right dr)
    (hf : Fuses C K n nestedCommit P cs steps app HL HR HO left dl right dr p data)
    (hpb : ∀ i < P.endo.nbits, p.challenges.preBeta + (i : F) ≠ 0)
    {s1 : Strategy F G HC k} {c1 : Fin k → Draw F} (h1 : FusedCommitted C n P app s1 c1 left)
    {s2 : Strategy F G HC k'} {c2 : Fin k' → Draw F} (h2 : FusedCommitted C n P app s2 c2 right) :
    ∃ (s : Strategy F G HC (k + k' + 1)) (c : Fin (k + k' + 1) → Draw F),
      FusedCommitted C n P app s c p := by
  obtain ⟨lh, rh, -, -, fl, fr, σ, c, g1, g2⟩ := C90_honest hA hK hcurve hbig hl hr hf hpb
  exact committed_fuse (l := ⟨left, lh⟩) (r := ⟨right, rh⟩) (fun _ => h1) (fun _ => h2) fl fr g1 g2

end
end Ragu.Props

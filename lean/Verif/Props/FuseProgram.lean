/-
C82: `seed`, `fuse` and `rerandomize` as programs. Every proof that calls return is a proof of a history
in the sense of C74, so it is accepted; and a call on inputs in order has an outcome, and stops only for
one of a few reasons.
-/
import Verif.Lemmas.FuseProgress
import Verif.Props.Complete

set_option linter.unusedSectionVars false

namespace Ragu.Props
open Ragu Ragu.Circuit Ragu.Registry Ragu.Spec Ragu.Gadget Ragu.Pcd Finset
variable {F G HC : Type} [Field F] [DecidableEq F] [Field G] [DecidableEq G]
  [AddCommGroup HC] [DecidableEq HC] [Module F HC]

/-- The challenge `u` of the proof `p` is none of the points at which the fuse of `left` and `right`
queried the polynomials. -/
def UsablePoint (V : FuseEnvironment F G HC) (left right p : Proof F G HC) : Prop :=
  Avoids p.challenges.u (fusePoints V.C.native ⟨left, right, p.sPrime.native, p.innerError.native,
    p.ab.native, p.query.native⟩ p.challenges)

/-- The trivial proof. -/
def IsTrivial (V : FuseEnvironment F G HC) (q : Proof F G HC) : Prop :=
  trivialProof V.C V.n V.P.headerSize V.nestedCommit V.app.nativeRegistry = some q

/-- `code` is the synthesis of the step with index `i` in its adapter, on some witness: the step has the
circuit `c0`, at position `j` of the registry, and is correct for the data `dl` and `dr`. -/
structure RunsStep {D1 O1 D2 O2 D3 O3 : Type} (V : FuseEnvironment F G HC) (steps : List (StepDef F))
    (HL : Header F D1 O1) (HR : Header F D2 O2) (HO : Header F D3 O3) (dl : D1) (dr : D2) (c0 : Circ F)
    (j : ℕ) (code : Syn F (Except Pcd.Err (AdapterOut F D3))) : Prop where
  registered : ∃ i : Index, stepCircuit V.cs steps i = some c0 ∧ i.circuitIndex steps.length = .ok j
  correct : ∃ out, StepOk V.P.headerSize HL HR HO dl dr code out

/-- The proofs, with their data, that a program obtains from calls that return. -/
inductive Obtained (V : FuseEnvironment F G HC) (steps : List (StepDef F)) :
    {D O : Type} → Header F D O → Proof F G HC → D → Prop
  /-- from `seed` -/
  | seed {D O : Type} {H : Header F D O} {c0 : Circ F} {j : ℕ}
      {code : Syn F (Except Pcd.Err (AdapterOut F D))} {q p : Proof F G HC} {d : D} :
      RunsStep V steps Header.unit Header.unit H () () c0 j code →
      V.seed c0 j code (.ok (p, d)) → IsTrivial V q → UsablePoint V q q p → Obtained V steps H p d
  /-- from `fuse` -/
  | fuse {D1 O1 D2 O2 D3 O3 : Type} {HL : Header F D1 O1} {HR : Header F D2 O2} {HO : Header F D3 O3}
      {left right p : Proof F G HC} {dl : D1} {dr : D2} {d : D3} {c0 : Circ F} {j : ℕ}
      {code : Syn F (Except Pcd.Err (AdapterOut F D3))} :
      Obtained V steps HL left dl → Obtained V steps HR right dr →
      RunsStep V steps HL HR HO dl dr c0 j code →
      V.fuse c0 j code left right (.ok (p, d)) → UsablePoint V left right p → Obtained V steps HO p d
  /-- what the first `rerandomize` caches -/
  | cached {D O : Type} {H : Header F D O} {q p p' s : Proof F G HC} {d d' : D} :
      Obtained V steps H p d → V.rerandomize none H p d (.ok ((p', d'), s)) → IsTrivial V q →
      UsablePoint V q q s → Obtained V steps Header.unit s ()
  /-- from the first `rerandomize` -/
  | first {D O : Type} {H : Header F D O} {q p p' s : Proof F G HC} {d d' : D} :
      Obtained V steps H p d → V.rerandomize none H p d (.ok ((p', d'), s)) → IsTrivial V q →
      UsablePoint V q q s → UsablePoint V p s p' → Obtained V steps H p' d'
  /-- from a later `rerandomize` -/
  | rerandomize {D O : Type} {H : Header F D O} {p p' s s' : Proof F G HC} {d d' : D} :
      Obtained V steps H p d → Obtained V steps Header.unit s () →
      V.rerandomize (some s) H p d (.ok ((p', d'), s')) → UsablePoint V p s p' → Obtained V steps H p' d'

section
variable {V : FuseEnvironment F G HC} {steps : List (StepDef F)}

/-- `Made` for an environment. -/
abbrev MadeBy (V : FuseEnvironment F G HC) (steps : List (StepDef F)) {D O : Type} (H : Header F D O)
    (p : Proof F G HC) (d : D) : Prop :=
  Made V.C V.K V.n V.nestedCommit V.P V.cs steps V.app H p d

theorem runsStep_fuses {D1 O1 D2 O2 D3 O3 : Type} {HL : Header F D1 O1} {HR : Header F D2 O2}
    {HO : Header F D3 O3} {left right p : Proof F G HC} {dl : D1} {dr : D2} {d : D3} {c0 : Circ F}
    {j : ℕ} {code : Syn F (Except Pcd.Err (AdapterOut F D3))}
    (hs : RunsStep V steps HL HR HO dl dr c0 j code) (h : V.fuse c0 j code left right (.ok (p, d)))
    (hu : UsablePoint V left right p) :
    Fuses V.C V.K V.n V.nestedCommit V.P V.cs steps V.app HL HR HO left dl right dr p d := by
  obtain ⟨out', h1, h2, h3, h4⟩ := fuse_ok h
  obtain ⟨i, e1, e2⟩ := hs.registered
  obtain ⟨out, ho⟩ := hs.correct
  have := h2.application.aux
  rw [emulate_of_sim ho.sim] at this
  cases this
  exact ⟨i, j, c0, code, _, p.traces, e1, e2, ho, h1, h2, h3, h4, hu⟩

theorem trivial_runs (hN : 0 < V.P.headerSize) :
    RunsStep V steps Header.unit Header.unit Header.unit () () V.cs.trivial
      (NUM_INTERNAL_CIRCUITS + InternalStep.trivial.discr) (trivialStep V.P.headerSize) :=
  ⟨⟨.internal .trivial, rfl, rfl⟩, C74_trivial hN⟩

theorem rerandomize_runs (hN : 0 < V.P.headerSize) {D O : Type} {H : Header F D O} {d : D}
    {header : List F} (he : EncodedAs V.P.headerSize H d header) :
    RunsStep V steps H Header.unit H d () V.cs.rerandomize
      (NUM_INTERNAL_CIRCUITS + InternalStep.rerandomize.discr) (rerandomize V.P.headerSize H d) := by
  obtain ⟨out, h, -⟩ := C74_rerandomize hN H d he
  exact ⟨⟨.internal .rerandomize, rfl, rfl⟩, out, h⟩

theorem seed_made {D O : Type} {H : Header F D O} {c0 : Circ F} {j : ℕ}
    {code : Syn F (Except Pcd.Err (AdapterOut F D))} {q p : Proof F G HC} {d : D}
    (hs : RunsStep V steps Header.unit Header.unit H () () c0 j code)
    (h : V.seed c0 j code (.ok (p, d))) (hq : IsTrivial V q) (hu : UsablePoint V q q p) :
    MadeBy V steps H p d := by
  obtain ⟨q', h1, h2⟩ := Outcomes.bind_ok.1 h
  cases (must_ok.1 h1).symm.trans hq
  exact .seed hq (runsStep_fuses hs h2 hu)

theorem cell_made (hN : 0 < V.P.headerSize) {q s : Proof F G HC} (h : V.seededTrivial none (.ok s))
    (hq : IsTrivial V q) (hu : UsablePoint V q q s) : MadeBy V steps Header.unit s () := by
  obtain ⟨⟨s', u⟩, h1, h2⟩ := Outcomes.bind_ok.1 h
  cases h2
  exact seed_made (trivial_runs hN) h1 hq hu

theorem rerandomize_ok {D O : Type} {cell : Option (Proof F G HC)} {H : Header F D O}
    {p p' s : Proof F G HC} {d d' : D} (h : V.rerandomize cell H p d (.ok ((p', d'), s))) :
    V.seededTrivial cell (.ok s) ∧
    V.fuse V.cs.rerandomize (NUM_INTERNAL_CIRCUITS + InternalStep.rerandomize.discr)
      (rerandomize V.P.headerSize H d) p s (.ok (p', d')) := by
  obtain ⟨s', h1, h⟩ := Outcomes.bind_ok.1 h
  obtain ⟨r, h2, h3⟩ := Outcomes.bind_ok.1 h
  cases h3
  exact ⟨h1, h2⟩

/-- C82: a proof obtained from calls that return is a proof of a history in the sense of C74. -/
theorem C82_made [Finite F] (hV : Prepared V steps) {D O : Type} {H : Header F D O} {p : Proof F G HC}
    {d : D} (h : Obtained V steps H p d) : MadeBy V steps H p d := by
  have hN : 0 < V.P.headerSize := hV.app.params.header
  induction h with
  | seed hs h hq hu => exact seed_made hs h hq hu
  | fuse _ _ hs h hu ihl ihr => exact .fuse ihl ihr (runsStep_fuses hs h hu)
  | cached _ h hq hu _ => exact cell_made hN (rerandomize_ok h).1 hq hu
  | first _ h hq hu hu' ih =>
    obtain ⟨-, header, he, -⟩ := made_settled hV.app hV.host hV.curve ih
    obtain ⟨h1, h2⟩ := rerandomize_ok h
    exact .fuse ih (cell_made hN h1 hq hu) (runsStep_fuses (rerandomize_runs hN he) h2 hu')
  | rerandomize _ _ h hu ih ihs =>
    obtain ⟨-, header, he, -⟩ := made_settled hV.app hV.host hV.curve ih
    obtain ⟨h1, h2⟩ := rerandomize_ok h
    cases h1
    exact .fuse ih ihs (runsStep_fuses (rerandomize_runs hN he) h2 hu)

/-- C82: a proof that a program obtains from `seed`, `fuse` and `rerandomize`, in any order and number of
calls, is accepted with the data it came with, whatever challenges the verifier draws. -/
theorem C82_accepted [Finite F] (hV : Prepared V steps) {D O : Type} {H : Header F D O}
    {p : Proof F G HC} {d : D} (h : Obtained V steps H p d) (ch : VerifyChallenges F G) :
    verify V.C V.n V.P.headerSize V.app H p d ch = .ok true :=
  C74_accepted hV.app hV.host hV.curve (C82_made hV h) ch

/-- C82: `rerandomize` returns the data it was given. -/
theorem C82_rerandomize_data {D O : Type} (hN : 0 < V.P.headerSize) {cell : Option (Proof F G HC)}
    {H : Header F D O} {p p' s : Proof F G HC} {d d' : D} {header : List F}
    (he : EncodedAs V.P.headerSize H d header)
    (h : V.rerandomize cell H p d (.ok ((p', d'), s))) : d' = d := by
  obtain ⟨out', h1, h2, -⟩ := fuse_ok (rerandomize_ok h).2
  obtain ⟨out, ho, hd⟩ := C74_rerandomize hN H d he
  have := h2.application.aux
  rw [emulate_of_sim ho.sim] at this
  cases this
  exact h1.symm.trans hd

/-! ### Progress -/

theorem settled_fits {p : Proof F G HC} {header : List F}
    (h : Settled V.C V.n V.P.headerSize V.app p header) : ChildFits V p :=
  ⟨h.childOk, h.left, h.right⟩

/-- C82: a call of `fuse` on two proofs of a history, with a step that is registered and correct for
their data, has an outcome; and if it stops, then for one of the reasons in `Explained`. -/
theorem C82_fuse_progress [Finite F] (hV : Prepared V steps) {D1 O1 D2 O2 D3 O3 : Type}
    {HL : Header F D1 O1} {HR : Header F D2 O2} {HO : Header F D3 O3} {left right : Proof F G HC}
    {dl : D1} {dr : D2} (hl : MadeBy V steps HL left dl) (hr : MadeBy V steps HR right dr) {c0 : Circ F}
    {j : ℕ} {code : Syn F (Except Pcd.Err (AdapterOut F D3))}
    (hs : RunsStep V steps HL HR HO dl dr c0 j code)
    (hc : Realizes .base c0 fun _ => adapterWires code) :
    (∃ r, V.fuse c0 j code left right r) ∧
    ∀ stop, V.fuse c0 j code left right (.error stop) → Explained V stop := by
  have hN : 0 < V.P.headerSize := hV.app.params.header
  obtain ⟨-, h1, e1, s1⟩ := made_settled hV.app hV.host hV.curve hl
  obtain ⟨-, h2, e2, s2⟩ := made_settled hV.app hV.host hV.curve hr
  obtain ⟨i, r1, r2⟩ := hs.registered
  obtain ⟨out, ho⟩ := hs.correct
  obtain ⟨j', k1, -, hH⟩ := step_holds hV.app r1
  cases r2.symm.trans k1
  cases encodedAs_unique e1 ho.left
  cases encodedAs_unique e2 ho.right
  exact fuse_safe hV (settled_fits s1) (settled_fits s2) hH ho.sim hc (encodedAs_length hN ho.left)
    (encodedAs_length hN ho.right) (.inl ⟨s1, s2⟩)

/-- The commitment to the bridges of the trivial proof, which is fixed by the generators of the nested
curve, is not the identity. -/
def TrivialCommits (V : FuseEnvironment F G HC) : Prop :=
  ∀ q, IsTrivial V q → none ∉ bridgePoints q

theorem seed_fits [Finite F] (hV : Prepared V steps) (hT : TrivialCommits V) :
    ∃ q, IsTrivial V q ∧ ChildFits V q := by
  obtain ⟨bn, ss, hE⟩ := app_fuseEnv hV.app
  obtain ⟨q, h1, -, -, -, h2, h3, -⟩ := C63_trivial hE V.P.headerSize V.nestedCommit
  exact ⟨q, h1, trivial_child hV.app hV.curve h1 (hT q h1), by rw [h2, List.length_replicate],
    by rw [h3, List.length_replicate]⟩

/-- C82: a call of `seed` with a step that is registered and correct has an outcome; and if it stops,
then for one of the reasons in `Explained`. -/
theorem C82_seed_progress [Finite F] (hV : Prepared V steps) (hT : TrivialCommits V) {D O : Type}
    {H : Header F D O} {c0 : Circ F} {j : ℕ} {code : Syn F (Except Pcd.Err (AdapterOut F D))}
    (hs : RunsStep V steps Header.unit Header.unit H () () c0 j code)
    (hc : Realizes .base c0 fun _ => adapterWires code) :
    (∃ r, V.seed c0 j code r) ∧ ∀ stop, V.seed c0 j code (.error stop) → Explained V stop := by
  have hN : 0 < V.P.headerSize := hV.app.params.header
  obtain ⟨q, hq, hf⟩ := seed_fits hV hT
  obtain ⟨i, r1, r2⟩ := hs.registered
  obtain ⟨out, ho⟩ := hs.correct
  obtain ⟨j', k1, -, hH⟩ := step_holds hV.app r1
  cases r2.symm.trans k1
  refine (Safe.expect fun hn => ?_).bind fun q' hq' => ?_
  · cases hn.symm.trans hq
  · cases (must_ok.1 hq').symm.trans hq
    exact fuse_safe hV hf hf hH ho.sim hc (encodedAs_length hN ho.left)
      (encodedAs_length hN ho.right) (.inr ⟨unit_unitHeader ho.left, unit_unitHeader ho.right⟩)

/-- C82: a call of `rerandomize` on a proof of a history has an outcome, whether the seeded trivial proof
is cached or not; and if it stops, then for one of the reasons in `Explained`. If the seeded trivial
proof is not cached, the one that the call makes has to have a usable challenge `u`, or the call fuses
an unusable proof. -/
theorem C82_rerandomize_progress [Finite F] (hV : Prepared V steps) (hT : TrivialCommits V)
    {D O : Type} {H : Header F D O} {p : Proof F G HC} {d : D} (hp : MadeBy V steps H p d)
    (hr : ∀ header, EncodedAs V.P.headerSize H d header →
      Realizes .base V.cs.rerandomize fun _ => adapterWires (Pcd.rerandomize V.P.headerSize H d))
    (ht : Realizes .base V.cs.trivial fun _ => adapterWires (trivialStep V.P.headerSize))
    (cell : Option (Proof F G HC))
    (hc : ∀ s, V.seededTrivial cell (.ok s) → MadeBy V steps Header.unit s ()) :
    (∃ r, V.rerandomize cell H p d r) ∧
    ∀ stop, V.rerandomize cell H p d (.error stop) → Explained V stop := by
  have hN : 0 < V.P.headerSize := hV.app.params.header
  obtain ⟨-, header, he, -⟩ := made_settled hV.app hV.host hV.curve hp
  have h1 : Safe (Explained V) (V.seededTrivial cell) := by
    cases cell with
    | some s => exact .pure s
    | none => exact Safe.bind (C82_seed_progress hV hT (trivial_runs hN) ht) fun _ _ => .pure _
  refine h1.bind fun s hs => ?_
  exact Safe.bind (C82_fuse_progress hV hp (hc s hs) (rerandomize_runs hN he) (hr header he))
    fun _ _ => .pure _

end

/-! ### Over the Pasta cycle -/

section
open Ragu.Pasta

/-- An application over the Pasta cycle at the rank in use; `commit` is the commitment with the
generators of Pallas. -/
def pastaEnvironment (M : Machine Fp) (M' : Machine Fq) (sqrt : Fp → Option Fp) (gens : List Vesta)
    (commit : Sparse.Poly Fq → Pallas) (headerSize : ℕ) (cs : Circuits Fp Fq)
    (steps : List (StepDef Fp)) (app : Application Fp Fq) : FuseEnvironment Fp Fq Vesta :=
  ⟨pastaCycle M M' gens, pastaHost, 2048, fun q => coordinates (commit q),
    pastaParams M sqrt steps.length headerSize, cs, app⟩

/-- C82: over the Pasta cycle an application meets all assumptions of the theorems above: with the
library's own circuits, for every list of steps in order, headers of up to 65 elements and up to 8177
steps. -/
theorem C82_pasta {M : Machine Fp} {M' : Machine Fq} (hM : 0 < M.threads) (hM' : 0 < M'.threads)
    {sqrt : Fp → Option Fp} (hs : SqrtSpec sqrt) {gens : List Vesta} (hg : 8192 ≤ gens.length)
    (commit : Sparse.Poly Fq → Pallas) {headerSize : ℕ} (hh : 1 ≤ headerSize) (hh' : headerSize ≤ 65)
    {steps : List (StepDef Fp)} (hsteps : StepsInOrder 2048 steps) (hn : steps.length ≤ 8177)
    {cs : Circuits Fp Fq}
    (hcs : LibraryCircuits (pastaParams M sqrt steps.length headerSize) (zetaQ : Fq) cs) :
    ∃ app, Prepared (pastaEnvironment M M' sqrt gens commit headerSize cs steps app) steps := by
  obtain ⟨app, hA⟩ := (C81_pasta hM hM' hs hg hh hh' hsteps hn).2 cs hcs
  refine ⟨app, hA, C75_host sqrt, ?_, ?_, ?_⟩
  · rintro (_ | ⟨x, y, h⟩) hP
    · rfl
    · cases hP
  · intro q x y hq
    change coordinates (commit q) = some (x, y) at hq
    revert hq
    rcases commit q with _ | ⟨x', y', h'⟩
    · intro hq; cases hq
    · intro hq; cases hq
      have := (WeierstrassCurve.Affine.equation_iff _ _).1 h'.1
      simpa [curve, pastaEnvironment, pastaCycle, curveB] using this
  · intro step h
    exact (hcs.endoscaling step h).2.2.2

/-! ### Examples -/

/-- The generator of Pallas, for the examples. -/
theorem pallas_gen : (curve (5 : Fp)).Nonsingular (-1) 2 :=
  nonsingular_curve goodCurve_p (by ring)

theorem generator_commits {M : Machine Fp} {M' : Machine Fq} {sqrt : Fp → Option Fp}
    {gens : List Vesta} {headerSize : ℕ} {cs : Circuits Fp Fq} {steps : List (StepDef Fp)}
    {app : Application Fp Fq} : TrivialCommits (pastaEnvironment M M' sqrt gens
      (fun _ => (.some (-1) 2 pallas_gen : Pallas)) headerSize cs steps app) := by
  intro q hq hn
  obtain ⟨r, hr⟩ := trivial_points hq _ hn
  cases hr

/-- Non-vacuity of C82_pasta, C82_seed_progress and C82_accepted: there is an application over the Pasta
cycle, and in it `seed` with the trivial step has an outcome, which is either a proof that the verifier
accepts, if its challenge `u` is usable, or a stop for one of the reasons. -/
example : ∃ (V : FuseEnvironment Fp Fq Vesta) (steps : List (StepDef Fp)),
    Prepared V steps ∧ TrivialCommits V ∧
    ∃ r, V.seed V.cs.trivial (NUM_INTERNAL_CIRCUITS + 1) (trivialStep V.P.headerSize) r ∧
      match r with
      | .ok (p, d) => ∀ q, IsTrivial V q → UsablePoint V q q p → ∀ ch,
          verify V.C V.n V.P.headerSize V.app Header.unit p d ch = .ok true
      | .error stop => Explained V stop := by
  classical
  obtain ⟨sqrt, hs⟩ : ∃ sqrt : Fp → Option Fp, SqrtSpec sqrt := by
    refine ⟨fun v => if h : IsSquare v then some h.choose else none, fun v s h => ?_, fun v h => ?_⟩
    · split at h
      · next hv =>
        rw [Option.some.injEq] at h
        subst h
        exact hv.choose_spec.symm
      · cases h
    · rw [dif_pos h]
      exact Option.some_ne_none _
  let M : Machine Fp := ⟨1, fun _ => [], fun _ => 0⟩
  let M' : Machine Fq := ⟨1, fun _ => [], fun _ => 0⟩
  have hsteps : StepsInOrder 2048 ([] : List (StepDef Fp)) := by
    refine ⟨?_, ?_, ?_⟩ <;> simp [allHeaders, Consistent]
  obtain ⟨cs, hcs⟩ := C80_exist _ (pasta_ok M hs ([] : List (StepDef Fp)).length
    (headerSize := 4) (by omega)) (zetaQ : Fq)
  obtain ⟨app, hV⟩ := C82_pasta (M := M) (M' := M') Nat.one_pos Nat.one_pos hs
    (gens := List.replicate 8192 (.some (-1) 2 vesta_gen)) (List.length_replicate ..).ge
    (fun _ => (.some (-1) 2 pallas_gen : Pallas)) (headerSize := 4) (by omega) (by omega) hsteps
    (by simp) hcs
  refine ⟨_, [], hV, generator_commits, ?_⟩
  obtain ⟨⟨r, hr⟩, h⟩ := C82_seed_progress hV generator_commits (trivial_runs hV.app.params.header)
    hcs.trivial.2.2.2
  refine ⟨r, hr, ?_⟩
  cases r with
  | error stop => exact h stop hr
  | ok r =>
    obtain ⟨p, d⟩ := r
    exact fun q hq hu ch => C82_accepted hV (.seed (trivial_runs hV.app.params.header) hr hq hu) ch

end
end Ragu.Props

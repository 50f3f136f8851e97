/-
Property C88: honest proofs have histories, and an application whose headers are all squares.
-/
import Verif.Props.Derivation
import Verif.Props.RecursionHonest

set_option linter.unusedSectionVars false

namespace Ragu.Props
open Ragu Ragu.Circuit Ragu.Registry Ragu.Spec Ragu.Gadget Ragu.Pcd Finset Function Ragu.Unif
variable {F G HC : Type} [Field F] [DecidableEq F] [Field G] [DecidableEq G]
  [AddCommGroup HC] [DecidableEq HC] [Module F HC]

section
variable {C : CycleEnv F G HC} {n : ℕ} {P : StepParams F} {cs : Circuits F G} {zeta : G}
  {steps : List (StepDef F)} {app : Application F G} {progs : List (StepProgram F)}
  {K : NestedParams G HC} {nestedCommit : Sparse.Poly G → Option (F × F)}

/-- C88: a proof that was made has a history. -/
theorem C88_honest [Finite F] (hA : AppOk C n P cs steps app) (hK : HostOk K P.endo)
    (hcurve : ∀ q x y, nestedCommit q = some (x, y) → y ^ 2 = x ^ 3 + C.b)
    (hbig : 8 * n < Nat.card F) (hL : LibraryCircuits P zeta cs)
    (hI : List.Forall₂ (Implements P.headerSize) steps progs) {D O : Type} {H : Header F D O}
    {p : Proof F G HC} {data : D} (h : Made C K n nestedCommit P cs steps app H p data)
    (hsuf : (H.suffix.get : F) ≠ 0) :
    ∃ header, EncodedAs P.headerSize H data header ∧ Derived P.headerSize progs header := by
  suffices key : ∀ {D O : Type} {H : Header F D O} {p : Proof F G HC} {data : D},
      Made C K n nestedCommit P cs steps app H p data → ∀ header, EncodedAs P.headerSize H data header →
      header.getLastD 0 ≠ 0 → Derived P.headerSize progs header by
    obtain ⟨header, e, -⟩ := made_sound hA hK hcurve hbig h
    exact ⟨header, e, key h header e (by rw [encodedAs_last e]; exact hsuf)⟩
  clear h hsuf p data H
  intro D O H p data h
  have one : ∀ {D1 O1 D2 O2 D3 O3 : Type} {HL : Header F D1 O1} {HR : Header F D2 O2}
      {HO : Header F D3 O3} {left right p : Proof F G HC} {dl : D1} {dr : D2} {data : D3},
      Fuses C K n nestedCommit P cs steps app HL HR HO left dl right dr p data →
      Made C K n nestedCommit P cs steps app HO p data →
      (∀ header, EncodedAs P.headerSize HL dl header → header.getLastD 0 ≠ 0 →
        Derived P.headerSize progs header) →
      (∀ header, EncodedAs P.headerSize HR dr header → header.getLastD 0 ≠ 0 →
        Derived P.headerSize progs header) →
      ∀ header, EncodedAs P.headerSize HO data header → header.getLastD 0 ≠ 0 →
        Derived P.headerSize progs header := by
    intro D1 O1 D2 O2 D3 O3 HL HR HO left right p dl dr data hf hm ihl ihr header e hlast
    obtain ⟨header', e', -, fit, hs⟩ := made_sound hA hK hcurve hbig hm
    cases encodedAs_unique e e'
    obtain ⟨i, j, c0, code, out, t, h1, h2, h3, rfl, h4, hB, hE, h5⟩ := hf
    have hap := h4.application
    obtain ⟨-, -, f3, f4, -⟩ := fuse_fields h4.assembled
    have f3 := f3.trans hap.left
    have f4 := f4.trans hap.right
    have dl' := ihl _ h3.left
    have dr' := ihr _ h3.right
    rcases sound_step hA hL hI fit.left fit.right hs hlast with h | h | ⟨s, ms, h, g1, g2⟩
    · rw [h.trans f3] at hlast ⊢
      exact dl' hlast
    · exact .trivial h
    · change StepSat _ _ p.application.leftHeader p.application.rightHeader _ at h
      change p.application.leftHeader.getLastD 0 ≠ 0 at g1
      change p.application.rightHeader.getLastD 0 ≠ 0 at g2
      rw [f3] at h g1
      rw [f4] at h g2
      exact .step ms (dl' g1) (dr' g2) h
  have hunit : ∀ header, EncodedAs P.headerSize (Header.unit (F := F)) () header →
      header.getLastD 0 ≠ 0 → Derived P.headerSize progs header := by
    intro header e _
    cases encodedAs_unique e (unit_encoded P.headerSize)
    exact .trivial unit_marked
  induction h with
  | seed hq hf => exact one hf (.seed hq hf) hunit hunit
  | fuse hl hr hf ihl ihr => exact one hf (.fuse hl hr hf) ihl ihr

/-! ### Honest proofs come out of runs -/

variable {k k' : ℕ}

/-- A run as part of another. -/
theorem Fused.embed {s : Strategy F G HC k} {c : Fin k → Draw F} {s' : Strategy F G HC k'}
    {c' : Fin k' → Draw F} (e : Fin k → Fin k')
    (h1 : ∀ i, s'.left (e i) (before c' (e i)) = s.left i (before c i))
    (h2 : ∀ i, s'.right (e i) (before c' (e i)) = s.right i (before c i))
    (h3 : ∀ i, s'.prover (e i) (before c' (e i)) = s.prover i (before c i))
    (h4 : ∀ i, c' (e i) = c i) {p : Proof F G HC} (h : Fused C n P app s c p) :
    Fused C n P app s' c' p := by
  induction h with
  | @fuse p i fl fr hp _ _ ihl ihr =>
    refine .fuse (e i) ?_ ?_ ?_ ?_ ?_
    · rw [h1]; exact fl
    · rw [h2]; exact fr
    · rw [h1, h2, h3, h4]; exact hp
    · rw [h1]; exact ihl
    · rw [h2]; exact ihr

/-- Two runs, and one more fuse. -/
theorem fused_fuse {s1 : Strategy F G HC k} {c1 : Fin k → Draw F} {s2 : Strategy F G HC k'}
    {c2 : Fin k' → Draw F} {l r : FuseChild F G HC}
    (hl : l.header[P.headerSize - 1]? ≠ some 1 → Fused C n P app s1 c1 l.proof)
    (hr : r.header[P.headerSize - 1]? ≠ some 1 → Fused C n P app s2 c2 r.proof)
    (fl : ChildFit C n P.headerSize app l) (fr : ChildFit C n P.headerSize app r) {σ : FuseProver F}
    {d : Draw F} {p : Proof F G HC} (hp : Plays n P (omegaJ C.native) l r σ d p) :
    ∃ (s : Strategy F G HC (k + k' + 1)) (c : Fin (k + k' + 1) → Draw F), Fused C n P app s c p := by
  let s : Strategy F G HC (k + k' + 1) := {
    left := fun i _ => Fin.append (Fin.append (fun i => s1.left i (before c1 i))
      fun i => s2.left i (before c2 i)) (fun _ => l) i
    right := fun i _ => Fin.append (Fin.append (fun i => s1.right i (before c1 i))
      fun i => s2.right i (before c2 i)) (fun _ => r) i
    prover := fun i _ => Fin.append (Fin.append (fun i => s1.prover i (before c1 i))
      fun i => s2.prover i (before c2 i)) (fun _ => σ) i }
  let c : Fin (k + k' + 1) → Draw F := Fin.append (Fin.append c1 c2) fun _ => d
  have e1 : ∀ {p}, Fused C n P app s1 c1 p → Fused C n P app s c p :=
    Fused.embed (fun i => Fin.castAdd 1 (Fin.castAdd k' i)) (by simp [s]) (by simp [s]) (by simp [s])
      (by simp [c])
  have e2 : ∀ {p}, Fused C n P app s2 c2 p → Fused C n P app s c p :=
    Fused.embed (fun i => Fin.castAdd 1 (Fin.natAdd k i)) (by simp [s]) (by simp [s]) (by simp [s])
      (by simp [c])
  have a1 : s.left (Fin.natAdd (k + k') 0) (before c (Fin.natAdd (k + k') 0)) = l := by simp [s]
  have a2 : s.right (Fin.natAdd (k + k') 0) (before c (Fin.natAdd (k + k') 0)) = r := by simp [s]
  have a3 : s.prover (Fin.natAdd (k + k') 0) (before c (Fin.natAdd (k + k') 0)) = σ := by simp [s]
  have a4 : c (Fin.natAdd (k + k') 0) = d := by simp [c]
  refine ⟨s, c, .fuse (Fin.natAdd (k + k') 0) ?_ ?_ ?_ ?_ ?_⟩
  · rw [a1]; exact fl
  · rw [a2]; exact fr
  · rw [a1, a2, a3, a4]; exact hp
  · rw [a1]; exact fun h => e1 (hl h)
  · rw [a2]; exact fun h => e2 (hr h)

/-- A trivial proof can be a child, with the trivial header. -/
theorem trivial_fit [Finite F] (hA : AppOk C n P cs steps app)
    (hcurve : ∀ q x y, nestedCommit q = some (x, y) → y ^ 2 = x ^ 3 + C.b) {q : Proof F G HC}
    (hq : trivialProof C n P.headerSize nestedCommit app.nativeRegistry = some q)
    (hp : none ∉ bridgePoints q) : ChildFit C n P.headerSize app ⟨q, unitEncoding F P.headerSize⟩ := by
  obtain ⟨bn, ss, hE⟩ := app_fuseEnv hA
  obtain ⟨q', h1, h2, -, hid, hl, hr, -⟩ := C63_trivial hE P.headerSize nestedCommit
  cases h1.symm.trans hq
  have hc := trivial_child hA hcurve hq hp
  obtain ⟨f1, f2⟩ := app_fits hA
  have hin := hc.inDomain
  refine ⟨⟨fun c => (h2.traces c).1, fun c r h => trivial_nested_wf hE.pos hq c h, h2.p_wf,
    (xy_wf hE.ready hE.final h2.registry).1, hc.curve, lt_of_lt_of_le hin (f1.trans f2)⟩,
    lt_of_lt_of_le hin f1, ?_, ?_, ?_, hp⟩
  · show q.application.leftHeader.length = _
    rw [hl, List.length_replicate]
  · show q.application.rightHeader.length = _
    rw [hr, List.length_replicate]
  · exact encoding_length hA.params.header _ _ (Nat.zero_le _)

/-- C88: what `seed` makes came out of a run. -/
theorem C88_seed [Finite F] (hA : AppOk C n P cs steps app)
    (hcurve : ∀ q x y, nestedCommit q = some (x, y) → y ^ 2 = x ^ 3 + C.b) {D O : Type}
    {H : Header F D O} {q p : Proof F G HC} {data : D}
    (hq : trivialProof C n P.headerSize nestedCommit app.nativeRegistry = some q)
    (hp : none ∉ bridgePoints q)
    (hf : Fuses C K n nestedCommit P cs steps app Header.unit Header.unit H q () q () p data)
    (hpb : ∀ i < P.endo.nbits, p.challenges.preBeta + (i : F) ≠ 0) :
    ∃ (s : Strategy F G HC 1) (c : Fin 1 → Draw F), Fused C n P app s c p := by
  obtain ⟨i, j, c0, code, out, t, h1, h2, h3, rfl, h4, hB, hE, h5⟩ := hf
  obtain ⟨j', e, hj, hH⟩ := step_holds hA h1
  rw [h2] at e
  cases e
  have hc := trivial_child hA hcurve hq hp
  have el := encodedAs_unique h3.left (unit_encoded P.headerSize)
  have er := encodedAs_unique h3.right (unit_encoded P.headerSize)
  obtain ⟨σ, c, hp', -⟩ := run_plays hA hc hc hcurve hH h4
    (.inr ⟨by rw [el]; exact unit_marked, by rw [er]; exact unit_marked⟩) h5 hpb
  rw [el, er] at hp'
  have hfit := trivial_fit hA hcurve hq hp
  exact fused_fuse (k := 0) (k' := 0) (s1 := ⟨Fin.elim0, Fin.elim0, Fin.elim0⟩) (c1 := Fin.elim0)
    (s2 := ⟨Fin.elim0, Fin.elim0, Fin.elim0⟩) (c2 := Fin.elim0)
    (fun h => absurd unit_marked h) (fun h => absurd unit_marked h) hfit hfit hp'

/-- C88: what `fuse` makes of two proofs that came out of runs came out of a run. -/
theorem C88_fuse [Finite F] (hA : AppOk C n P cs steps app) (hK : HostOk K P.endo)
    (hcurve : ∀ q x y, nestedCommit q = some (x, y) → y ^ 2 = x ^ 3 + C.b)
    (hbig : 8 * n < Nat.card F) {D1 O1 D2 O2 D3 O3 : Type} {HL : Header F D1 O1}
    {HR : Header F D2 O2} {HO : Header F D3 O3} {dl : D1} {dr : D2} {data : D3}
    {left right p : Proof F G HC}
    (hl : Made C K n nestedCommit P cs steps app HL left dl)
    (hr : Made C K n nestedCommit P cs steps app HR right dr)
    (hf : Fuses C K n nestedCommit P cs steps app HL HR HO left dl right dr p data)
    (hpb : ∀ i < P.endo.nbits, p.challenges.preBeta + (i : F) ≠ 0)
    {s1 : Strategy F G HC k} {c1 : Fin k → Draw F} (h1 : Fused C n P app s1 c1 left)
    {s2 : Strategy F G HC k'} {c2 : Fin k' → Draw F} (h2 : Fused C n P app s2 c2 right) :
    ∃ (s : Strategy F G HC (k + k' + 1)) (c : Fin (k + k' + 1) → Draw F), Fused C n P app s c p := by
  obtain ⟨lh, rh, -, -, fl, fr, -, -, σ, c, hp, -⟩ := C87_honest hA hK hcurve hbig hl hr hf hpb
  exact fused_fuse (l := ⟨left, lh⟩) (r := ⟨right, rh⟩) (fun _ => h1) (fun _ => h2) fl fr hp

end

/-! ### An application of squares -/

section
variable (F)

/-- A header that is one element. -/
def elementHeader : Header F F (Element F) := ⟨Suffix.new 0, 1, Element.alloc, fun e => [e]⟩

/-- A step without inputs that outputs a square. -/
def squareProgram : StepProgram F where
  W := F
  left := Header.unit
  right := Header.unit
  output := elementHeader F
  code a := do
    let x ← Element.alloc a
    let z ← x.mul x
    return ((), (), z, z.value)
  input := 0

/-- A step that multiplies its inputs. -/
def productProgram : StepProgram F where
  W := F × F
  left := elementHeader F
  right := elementHeader F
  output := elementHeader F
  code w := do
    let x ← Element.alloc w.1
    let y ← Element.alloc w.2
    let z ← x.mul y
    return (x, y, z, z.value)
  input := (0, 0)

end

variable {N m : ℕ}

theorem element_suffix : (((elementHeader F).suffix.get : ℕ) : F) = 2 := by
  show ((2 : ℕ) : F) = 2
  norm_num

theorem square_wires (w : F) : adapterWires ((squareProgram F).adapter 4 w) = do
      let x ← Element.alloc w
      let z ← x.mul x
      return ([0, 0, 0, 1] ++ [0, 0, 0, 1] ++ [z.wire, 0, 0, 2]) := by
  refine (adapter_wires (N := 4) (by decide) (squareProgram F) w (fun _ => Nat.zero_le _)
    (fun _ => Nat.zero_le _) (fun _ => (by decide : 1 ≤ 4 - 1))).trans ?_
  have e1 : (((Header.unit (F := F)).suffix.get : ℕ) : F) = 1 := Nat.cast_one
  simp only [squareProgram, e1, element_suffix]
  rfl

theorem product_wires (w : F × F) : adapterWires ((productProgram F).adapter 4 w) = do
      let x ← Element.alloc w.1
      let y ← Element.alloc w.2
      let z ← x.mul y
      return ([x.wire, 0, 0, 2] ++ [y.wire, 0, 0, 2] ++ [z.wire, 0, 0, 2]) := by
  refine (adapter_wires (N := 4) (by decide) (productProgram F) w (fun _ => (by decide : 1 ≤ 4 - 1))
    (fun _ => (by decide : 1 ≤ 4 - 1)) (fun _ => (by decide : 1 ≤ 4 - 1))).trans ?_
  simp only [productProgram, element_suffix]
  rfl

theorem unif_squareStep : UnifR (OutsR (3 * 4)) m fun (w : F) (_ : ℕ → F) =>
    adapterWires ((squareProgram F).adapter 4 w) := by
  refine UnifR.congr (y := fun w _ => do
      let x ← Element.alloc w
      let z ← x.mul x
      return ([0, 0, 0, 1] ++ [0, 0, 0, 1] ++ [z.wire, 0, 0, 2])) ?_ fun w _ => square_wires w
  · refine Unif.bind (unif_alloc (fun _ _ _ _ => rfl)) (fun _ _ _ _ => rfl) ?_
    intro m' x _ hx
    refine Unif.bind (unif_mul hx hx) (fun _ _ _ _ => rfl) ?_
    intro m'' z _ hz
    refine UnifR.pure ?_
    refine ⟨[fun _ _ => 0, fun _ _ => 0, fun _ _ => 0, fun _ _ => 1, fun _ _ => 0, fun _ _ => 0,
      fun _ _ => 0, fun _ _ => 1, fun w σ => (z w σ).wire, fun _ _ => 0, fun _ _ => 0, fun _ _ => 2],
      rfl, ?_, fun w σ => rfl⟩
    have h := hz.1
    simp only [List.mem_cons, List.not_mem_nil, or_false]
    rintro f (rfl | rfl | rfl | rfl | rfl | rfl | rfl | rfl | rfl | rfl | rfl | rfl) <;>
      first | exact h | exact Aff.const _ _

theorem unif_productStep : UnifR (OutsR (3 * 4)) m fun (w : F × F) (_ : ℕ → F) =>
    adapterWires ((productProgram F).adapter 4 w) := by
  refine UnifR.congr (y := fun w _ => do
      let x ← Element.alloc w.1
      let y ← Element.alloc w.2
      let z ← x.mul y
      return ([x.wire, 0, 0, 2] ++ [y.wire, 0, 0, 2] ++ [z.wire, 0, 0, 2])) ?_ fun w _ => product_wires w
  · refine Unif.bind (unif_alloc (fun _ _ _ _ => rfl)) (fun _ _ _ _ => rfl) ?_
    intro m1 x h1 hx
    refine Unif.bind (unif_alloc (fun _ _ _ _ => rfl)) (fun w σ τ ag => ?_) ?_
    · simp only [rel_loc hx w ag]
    intro m2 y h2 hy
    have hx := rel_up h2 hx
    refine Unif.bind (unif_mul hx hy) (fun w σ τ ag => ?_) ?_
    · simp only [rel_loc hx w ag, rel_loc hy w ag]
    intro m3 z h3 hz
    have hx := rel_up h3 hx
    have hy := rel_up h3 hy
    refine UnifR.pure ?_
    refine ⟨[fun w σ => (x w σ).wire, fun _ _ => 0, fun _ _ => 0, fun _ _ => 2, fun w σ => (y w σ).wire,
      fun _ _ => 0, fun _ _ => 0, fun _ _ => 2, fun w σ => (z w σ).wire, fun _ _ => 0, fun _ _ => 0,
      fun _ _ => 2], rfl, ?_, fun w σ => rfl⟩
    have h1 := hx.1
    have h2 := hy.1
    have h3 := hz.1
    simp only [List.mem_cons, List.not_mem_nil, or_false]
    rintro f (rfl | rfl | rfl | rfl | rfl | rfl | rfl | rfl | rfl | rfl | rfl | rfl) <;>
      first | exact h1 | exact h2 | exact h3 | exact Aff.const _ _

/-- A circuit for code in an adapter with few gates and constraints. -/
theorem program_circuit {W : Type} {x : W → Syn F (List F)}
    (hx : UnifR (OutsR (3 * 4)) 0 fun (w : W) (_ : ℕ → F) => x w) (w : W) {R : List F → Prop} {s : Size}
    (hs : Sized R (x w) s) (h1 : s.gates + (s.allocs + 1) / 2 ≤ 2047) (h2 : s.cons ≤ 8000) :
    ∃ c : Circ F, Compiles 2048 c ∧ c.outs.length = 3 * 4 ∧ ∀ w, Realizes .base c fun _ => x w := by
  obtain ⟨c, c1, c2, c3, c4⟩ := realize (ch := .base) (by exact trivial) (x := fun w _ => x w) hx
    fun _ _ _ => rfl
  obtain ⟨a, b⟩ := counts_of_realizes (by exact trivial) c2 (c4 w) fun _ _ => hs
  refine ⟨c, (compiles_iff c1).2 ?_, c3, c4⟩
  rw [a, b, c3]
  have e1 : (Chain.base).skipGates = 1 := rfl
  have e2 : (Chain.base).numGates = 0 := rfl
  rw [e1, e2]
  omega

/-- The two programs as steps. -/
theorem squares_steps (h2 : (2 : F) ≠ 0) : ∃ steps : List (StepDef F), StepsInOrder 2048 steps ∧
    steps.length = 2 ∧ List.Forall₂ (Implements 4) steps [squareProgram F, productProgram F] := by
  obtain ⟨c, c1, c2, c3⟩ := program_circuit (F := F) unif_squareStep 0 (s := ⟨1, 1, 2⟩)
    (R := fun _ => True) (by
      rw [square_wires]
      exact ((Element.sized_alloc _).bind' fun _ => (Element.sized_mul _ _).bind' fun _ =>
        .pure trivial).cast rfl) (by decide) (by decide)
  obtain ⟨d, d1, d2, d3⟩ := program_circuit (F := F) unif_productStep (0, 0) (s := ⟨1, 2, 2⟩)
    (R := fun _ => True) (by
      rw [product_wires]
      exact ((Element.sized_alloc _).bind' fun _ => (Element.sized_alloc _).bind' fun _ =>
        (Element.sized_mul _ _).bind' fun _ => .pure trivial).cast rfl) (by decide) (by decide)
  have e1 : (((Header.unit (F := F)).suffix.get : ℕ) : F) = 1 := Nat.cast_one
  refine ⟨[⟨.application 0, ⟨.internal 1, 0⟩, ⟨.internal 1, 0⟩, ⟨Suffix.new 0, 1⟩, c⟩,
    ⟨.application 1, ⟨Suffix.new 0, 1⟩, ⟨Suffix.new 0, 1⟩, ⟨Suffix.new 0, 1⟩, d⟩], ⟨?_, ?_, ?_⟩, rfl,
    .cons ⟨c2, c3, ?_, ?_⟩ (.cons ⟨d2, d3, ?_, ?_⟩ .nil)⟩
  · rintro (_ | _ | i) s h
    · cases h; rfl
    · cases h; rfl
    · simp at h
  · simp only [allHeaders, Consistent, List.flatMap_cons, List.flatMap_nil, headersOf]
    decide
  · intro s h
    simp only [List.mem_cons, List.not_mem_nil, or_false] at h
    rcases h with rfl | rfl
    · exact c1
    · exact d1
  · show (((Header.unit (F := F)).suffix.get : ℕ) : F) ≠ 0
    rw [e1]; exact one_ne_zero
  · show (((Header.unit (F := F)).suffix.get : ℕ) : F) ≠ 0
    rw [e1]; exact one_ne_zero
  · show (((elementHeader F).suffix.get : ℕ) : F) ≠ 0
    rw [element_suffix]; exact h2
  · show (((elementHeader F).suffix.get : ℕ) : F) ≠ 0
    rw [element_suffix]; exact h2

/-- In this application a header of an element at the end of a history has a square. -/
theorem squares_derived (h2 : (2 : F) ≠ 1) {h : List F}
    (hd : Derived 4 [squareProgram F, productProgram F] h) : h[3]? = some 2 →
      ∃ a, h[0]? = some (a ^ 2) := by
  induction hd with
  | trivial h1 =>
    intro h
    rw [h1, Option.some.injEq] at h
    exact absurd h.symm h2
  | @step s l r h hs _ _ hsat ihl ihr =>
    intro _
    simp only [List.mem_cons, List.not_mem_nil, or_false] at hs
    rcases hs with rfl | rfl
    · obtain ⟨w, gl, gr, go, d, s1, -, -, -, rfl⟩ := hsat
      simp only [squareProgram, Syn.sat_bind, Syn.sat_pure, Element.mul_sat] at s1
      obtain ⟨x, -, z, rfl, e⟩ := s1
      obtain ⟨-, -, rfl, -⟩ := e
      refine ⟨x.wire, ?_⟩
      rw [pow_two]
      rfl
    · obtain ⟨w, gl, gr, go, d, s1, ⟨-, rfl⟩, ⟨-, rfl⟩, -, rfl⟩ := hsat
      simp only [productProgram, Syn.sat_bind, Syn.sat_pure, Element.mul_sat] at s1
      obtain ⟨x, -, y, -, z, rfl, e⟩ := s1
      obtain ⟨rfl, rfl, rfl, -⟩ := e
      obtain ⟨a, ha⟩ := ihl (congrArg some element_suffix)
      obtain ⟨b, hb⟩ := ihr (congrArg some element_suffix)
      refine ⟨a * b, ?_⟩
      have ha : gl.wire = a ^ 2 := Option.some.inj ha
      have hb : gr.wire = b ^ 2 := Option.some.inj hb
      rw [mul_pow, ← ha, ← hb]
      rfl

theorem encoded_element {x : F} {header : List F} (h : EncodedAs 4 (elementHeader F) x header) :
    header = [x, 0, 0, 2] := by
  obtain ⟨g, h1, -, rfl⟩ := h
  obtain rfl := Except.ok.inj (h1 : Except.ok _ = Except.ok g)
  rw [element_suffix]
  rfl

section
open Ragu.Pasta

theorem pasta_huge : 2 ^ 100 < Ragu.Pasta.p := by
  rw [Ragu.Pasta.p]; norm_num

theorem pasta_two : (2 : Fp) ≠ 0 ∧ (2 : Fp) ≠ 1 := by
  refine ⟨fun h => ?_, fun h => ?_⟩
  · have := (ZMod.natCast_eq_zero_iff 2 Ragu.Pasta.p).1 (by exact_mod_cast h)
    exact absurd (Nat.le_of_dvd (by norm_num) this) (not_le.2 (lt_trans (by norm_num) pasta_huge))
  · exact one_ne_zero (α := Fp) (by linear_combination h)

theorem pasta_squares : ∃ (V : FuseEnvironment Fp Fq Vesta) (steps : List (StepDef Fp)),
    Prepared V steps ∧ TrivialCommits V ∧ V.n = 2048 ∧ V.P.headerSize = 4 ∧
    LibraryCircuits V.P (zetaQ : Fq) V.cs ∧
    List.Forall₂ (Implements 4) steps [squareProgram Fp, productProgram Fp] := by
  classical
  obtain ⟨sqrt, hs⟩ : ∃ sqrt : Fp → Option Fp, SqrtSpec sqrt := by
    refine ⟨fun v => if h : IsSquare v then some h.choose else none, fun v s h => ?_, fun v h => ?_⟩
    · split at h
      · next hv =>
        rw [Option.some.injEq] at h
        subst h
        exact hv.choose_spec.symm
      · cases h
    · rw [dif_pos h]
      exact Option.some_ne_none _
  let M : Machine Fp := ⟨1, fun _ => [], fun _ => 0⟩
  let M' : Machine Fq := ⟨1, fun _ => [], fun _ => 0⟩
  obtain ⟨steps, hsteps, hlen, hI⟩ := squares_steps pasta_two.1
  obtain ⟨cs, hcs⟩ := C80_exist _ (pasta_ok M hs steps.length (headerSize := 4) (by omega)) (zetaQ : Fq)
  obtain ⟨app, hV⟩ := C82_pasta (M := M) (M' := M') Nat.one_pos Nat.one_pos hs
    (gens := List.replicate 8192 (.some (-1) 2 vesta_gen)) (List.length_replicate ..).ge
    (fun _ => (.some (-1) 2 pallas_gen : Pallas)) (headerSize := 4) (by omega) (by omega) hsteps
    (by omega) hcs
  exact ⟨_, steps, hV, generator_commits, rfl, rfl, hcs, hI⟩

theorem small_runs {k N b : ℕ} (h : 2 ^ 100 < N) (hk : k ≤ 2 ^ 80)
    (hb : b ≤ k * ((82071 * (N ^ 9 * N) + 36 * N ^ 10) * (N ^ 10 * N) ^ (k - 1))) :
    4 * b < (N ^ 10 * N) ^ k := by
  have hN : 0 < N := by omega
  rcases k with _ | k
  · simp at hb ⊢; omega
  have e : 82071 * (N ^ 9 * N) + 36 * N ^ 10 = 82107 * N ^ 10 := by ring
  rw [e, Nat.add_sub_cancel] at hb
  have h1 : 4 * (k + 1) * 82107 < N := by omega
  calc 4 * b ≤ 4 * ((k + 1) * (82107 * N ^ 10 * (N ^ 10 * N) ^ k)) := Nat.mul_le_mul_left _ hb
    _ = 4 * (k + 1) * 82107 * (N ^ 10 * (N ^ 10 * N) ^ k) := by ring
    _ < N * (N ^ 10 * (N ^ 10 * N) ^ k) := Nat.mul_lt_mul_of_pos_right h1 (by positivity)
    _ = _ := by ring

open Classical in
/-- Non-vacuity of C88_history: an application over the Pasta cycle with two steps, one that outputs a
square and one that multiplies. Whatever a prover does in up to 2^80 fuses, fewer than a quarter of the
runs make a proof that is what a proof should be for an element that is not a square. -/
example : ∃ (V : FuseEnvironment Fp Fq Vesta) (steps : List (StepDef Fp)), Prepared V steps ∧
    ∀ k ≤ 2 ^ 80, ∀ s : Strategy Fp Fq Vesta k,
    4 * ((runs k (univ : Finset Fp) univ).filter fun c => ∃ p x header, Fused V.C V.n V.P V.app s c p ∧
      EncodedAs V.P.headerSize (elementHeader Fp) x header ∧ ChildSound V.C V.n V.P V.app ⟨p, header⟩ ∧
      ¬ IsSquare x).card < (runs k (univ : Finset Fp) univ).card := by
  obtain ⟨V, steps, hV, hT, hn, hh, hL, hI⟩ := pasta_squares
  refine ⟨V, steps, hV, fun k hk s => ?_⟩
  have hb := C88_history hV.app hL (by rw [hh]; exact hI) s univ univ
  rw [show 40 * V.n + 151 = 82071 by rw [hn]] at hb
  have hc : 2 ^ 100 < (univ : Finset Fp).card := by
    rw [card_univ, ← Nat.card_eq_fintype_card, Nat.card_zmod]
    exact pasta_huge
  rw [runs_card]
  refine small_runs hc hk (le_trans (card_le_card fun c hc => ?_) hb)
  rw [mem_filter] at hc ⊢
  obtain ⟨hc, p, x, header, hp, he, hs, hx⟩ := hc
  rw [hh] at he ⊢
  refine ⟨hc, p, header, hp, hs, ?_, fun hd => hx ?_⟩
  · rw [encodedAs_last he, element_suffix]; exact pasta_two.1
  · rw [encoded_element he] at hd
    obtain ⟨a, ha⟩ := squares_derived pasta_two.2 hd rfl
    exact ⟨a, by rw [← pow_two]; exact Option.some.inj ha⟩

/-- Non-vacuity of C88_honest, C88_seed and C88_fuse: in the same application, every proof of an element
that was obtained from calls is of a square, and comes out of a run if it is from a `seed`, or from a
`fuse` of two that do. -/
example : ∃ (V : FuseEnvironment Fp Fq Vesta) (steps : List (StepDef Fp)), Prepared V steps ∧
    (∀ {p : Proof Fp Fq Vesta} {x : Fp}, Obtained V steps (elementHeader Fp) p x → IsSquare x) ∧
    (∀ {D O : Type} {H : Header Fp D O} {q p : Proof Fp Fq Vesta} {d : D} {c0 : Circ Fp} {j : ℕ}
      {code : Syn Fp (Except Pcd.Err (AdapterOut Fp D))}, IsTrivial V q →
      RunsStep V steps Header.unit Header.unit H () () c0 j code →
      V.fuse c0 j code q q (.ok (p, d)) → UsablePoint V q q p →
      (∀ i < V.P.endo.nbits, p.challenges.preBeta + (i : Fp) ≠ 0) →
      ∃ (s : Strategy Fp Fq Vesta 1) (c : Fin 1 → Draw Fp), Fused V.C V.n V.P V.app s c p) ∧
    (∀ {D1 O1 D2 O2 D3 O3 : Type} {HL : Header Fp D1 O1} {HR : Header Fp D2 O2} {HO : Header Fp D3 O3}
      {left right p : Proof Fp Fq Vesta} {dl : D1} {dr : D2} {d : D3} {c0 : Circ Fp} {j : ℕ}
      {code : Syn Fp (Except Pcd.Err (AdapterOut Fp D3))} {k k' : ℕ} {s1 : Strategy Fp Fq Vesta k}
      {c1 : Fin k → Draw Fp} {s2 : Strategy Fp Fq Vesta k'} {c2 : Fin k' → Draw Fp},
      Obtained V steps HL left dl → Obtained V steps HR right dr →
      RunsStep V steps HL HR HO dl dr c0 j code →
      V.fuse c0 j code left right (.ok (p, d)) → UsablePoint V left right p →
      (∀ i < V.P.endo.nbits, p.challenges.preBeta + (i : Fp) ≠ 0) →
      Fused V.C V.n V.P V.app s1 c1 left → Fused V.C V.n V.P V.app s2 c2 right →
      ∃ (s : Strategy Fp Fq Vesta (k + k' + 1)) (c : Fin (k + k' + 1) → Draw Fp),
        Fused V.C V.n V.P V.app s c p) := by
  obtain ⟨V, steps, hV, hT, hn, hh, hL, hI⟩ := pasta_squares
  have hbig : 8 * V.n < Nat.card Fp := by
    rw [hn, Nat.card_zmod]; exact lt_trans (by norm_num) pasta_huge
  refine ⟨V, steps, hV, fun h => ?_, fun hq hs h hu hpb => ?_, fun hl hr hs h hu hpb h1 h2 => ?_⟩
  · obtain ⟨header, e, hd⟩ := C88_honest hV.app hV.host hV.curve hbig hL (by rw [hh]; exact hI)
      (C82_made hV h) (by rw [element_suffix]; exact pasta_two.1)
    rw [hh] at e hd
    rw [encoded_element e] at hd
    obtain ⟨a, ha⟩ := squares_derived pasta_two.2 hd rfl
    exact ⟨a, by rw [← pow_two]; exact Option.some.inj ha⟩
  · exact C88_seed hV.app hV.curve hq (hT _ hq) (runsStep_fuses hs h hu) hpb
  · exact C88_fuse hV.app hV.host hV.curve hbig (C82_made hV hl) (C82_made hV hr)
      (runsStep_fuses hs h hu) hpb h1 h2

open Classical in
/-- Non-vacuity of C88_verified: in the same application, over runs of one fuse. -/
example : ∃ (V : FuseEnvironment Fp Fq Vesta) (steps : List (StepDef Fp)) (p : Proof Fp Fq Vesta),
    Prepared V steps ∧ ProofTyped V.C V.n p ∧
    ∀ (s : Strategy Fp Fq Vesta 1) (ps : (Fin 1 → Draw Fp) → Proof Fp Fq Vesta)
      (x : (Fin 1 → Draw Fp) → Fp), (∀ c, ProofTyped V.C V.n (ps c)) → ∀ A : Finset Fp,
      ∑ c ∈ (runs 1 A A).filter (fun c => Fused V.C V.n V.P V.app s c (ps c) ∧ ¬ IsSquare (x c)),
        (acceptedTriples V.C V.n V.P.headerSize V.app (elementHeader Fp) (ps c) (x c)
          (fun w y z => ⟨w, y, z, 0, 0⟩) A).card ≤
      82107 * A.card ^ 10 * A.card ^ 3 + A.card ^ 11 * (16384 * A.card ^ 2) := by
  obtain ⟨V, steps, hV, hT, hn, hh, hL, hI⟩ := pasta_squares
  obtain ⟨q, hq, -⟩ := seed_fits hV hT
  refine ⟨V, steps, q, hV, (trivial_fit hV.app hV.curve hq (hT q hq)).typed, fun s ps x hp A => ?_⟩
  have hb := C88_verified (H := elementHeader Fp) hV.app hL (by rw [hh]; exact hI)
    (by rw [element_suffix]; exact pasta_two.1) s A A A ps x hp
    (ch := fun w y z => ⟨w, y, z, 0, 0⟩) (fun _ _ _ => ⟨rfl, rfl, rfl⟩)
  rw [show 40 * V.n + 151 = 82071 by rw [hn], show 8 * V.n = 16384 by rw [hn]] at hb
  refine (sum_le_sum_of_subset fun c hc => ?_).trans (hb.trans (le_of_eq (by ring)))
  rw [mem_filter] at hc ⊢
  refine ⟨hc.1, hc.2.1, ?_⟩
  rintro ⟨header, e, hd⟩
  rw [hh] at e hd
  rw [encoded_element e] at hd
  obtain ⟨a, ha⟩ := squares_derived pasta_two.2 hd rfl
  exact hc.2.2 ⟨a, by rw [← pow_two]; exact Option.some.inj ha⟩

end
end Ragu.Props

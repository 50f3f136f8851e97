/-
Property C93: what proofs of the example application mean.
-/
import Verif.Model.Pcd.Nontrivial
import Verif.Lemmas.Nontrivial
import Verif.Props.Knowledge

set_option linter.unusedSectionVars false

namespace Ragu.Props
open Ragu Ragu.Circuit Ragu.Registry Ragu.Spec Ragu.Gadget Ragu.Pcd Ragu.Unif Finset Function
variable {F G HC : Type} [Field F] [DecidableEq F] [Field G] [DecidableEq G]
  [AddCommGroup HC] [DecidableEq HC] [Module F HC] {p : PoseidonParams F} {N : ℕ}

/-! ### The sponge of a step -/

theorem hash_of_run (hr : 1 ≤ p.rate) (hT : p.rate ≤ p.T) {m : List F} (hm : m ≠ [])
    {x : F} {md : Mode F}
    (h : SpongeSpec.run (Poseidon.native p) p.rate (m.map .absorb ++ [.squeeze]) (Sponge.new 0 p.T) =
      ([.ok x], md)) : x = hashOf p m := by
  obtain ⟨outs, h1, h2⟩ := C37_duplex (Poseidon.native p) p.T p.rate (fun l _ => nativeLength p l) hr hT 0 0
    [(m, 1)] (by simpa using hm) []
  have h3 : (SpongeSpec.run (Poseidon.native p) p.rate (m.map .absorb ++ [.squeeze])
      (Sponge.new 0 p.T)).1 = outs.map .ok := by
    simpa using h2
  rw [h] at h3
  obtain ⟨y, rfl⟩ : ∃ y, outs = [y] := List.length_eq_one_iff.1 (by simpa using (congrArg List.length h3).symm)
  have hxy : x = y := by simpa using h3
  have h4 : streamAt (poseidonOf p) p.rate (absorbAll (poseidonOf p) p.rate (List.replicate p.T 0) m) 0 =
      some y := by
    have := h1
    simp only [duplex, List.range_one, List.map_cons, List.map_nil, List.append_nil] at this
    exact List.cons.inj this |>.1
  rw [hxy, hashOf, h4]
  rfl

theorem new_follows {m : Prop} : Follows m p (Sponge.new (0 : F) p.T) [] [] (Sponge.new Element.zero p.T) := by
  have hnew : Sponge.mapMode Element.wire (Sponge.new (Element.zero (F := F)) p.T) =
      Sponge.new 0 p.T := by simp [Sponge.new, Sponge.mapMode]
  exact ⟨by rw [hnew]; rfl, by rw [hnew]; simp [Sponge.new, Sponge.state], fun _ => ⟨by simp,
      fun e he => by rw [(List.mem_replicate.1 he).2]; simp [Element.Honest], by simp⟩⟩

theorem runs_hash1 (hp : Poseidon.WF p) (hr : 1 ≤ p.rate) (hT : p.rate ≤ p.T) {m : Prop} {a : Element F}
    (ha : m → a.Honest) :
    Runs m (do
      let sponge ← transcriptWrite p a (Sponge.new Element.zero p.T)
      let r ← transcriptChallenge p sponge
      return ((), (), r.1, r.1.value)) fun r => r.2.2.1.wire = hashOf p [a.wire] ∧ r.2.2.2 = r.2.2.1.value ∧
        (m → r.2.2.1.Honest) := by
  refine (runs_write hp hr ha new_follows).bind fun t ht => ?_
  refine (runs_challenge hp hr hT ht.1 ht.2.live).bind fun r hr' => Runs.pure ⟨?_, rfl, hr'.2.2⟩
  exact hash_of_run hr hT (m := [a.wire]) (by simp) hr'.1.run

theorem runs_hash2 (hp : Poseidon.WF p) (hr : 1 ≤ p.rate) (hT : p.rate ≤ p.T) {m : Prop} {a b : Element F}
    (ha : m → a.Honest) (hb : m → b.Honest) :
    Runs m (do
      let sponge ← transcriptWrite p a (Sponge.new Element.zero p.T)
      let sponge ← transcriptWrite p b sponge
      let r ← transcriptChallenge p sponge
      return (a, b, r.1, r.1.value)) fun r => r.1 = a ∧ r.2.1 = b ∧
        r.2.2.1.wire = hashOf p [a.wire, b.wire] ∧ r.2.2.2 = r.2.2.1.value ∧ (m → r.2.2.1.Honest) := by
  refine (runs_write hp hr ha new_follows).bind fun t ht => ?_
  refine (runs_write hp hr hb ht.1).bind fun t ht => ?_
  refine (runs_challenge hp hr hT ht.1 ht.2.live).bind fun r hr' => Runs.pure ⟨rfl, rfl, ?_, rfl, hr'.2.2⟩
  exact hash_of_run hr hT (m := [a.wire, b.wire]) (by simp) hr'.1.run

/-! ### What the steps mean -/

/-- The header of one element: the element, zeros, and the suffix. -/
def oneElement (N : ℕ) (x suffix : F) : List F := [x] ++ List.replicate (N - 1 - 1) 0 ++ [suffix]

/-- The trivial header. -/
def noElement (N : ℕ) : List F := List.replicate (N - 1) 0 ++ [1]

theorem leaf_suffix : (((leafNode (F := F)).suffix.get : ℕ) : F) = 2 := by
  show ((2 : ℕ) : F) = 2
  norm_num

theorem node_suffix : (((internalNode (F := F)).suffix.get : ℕ) : F) = 3 := by
  show ((3 : ℕ) : F) = 3
  norm_num

theorem leaf_wires {g : Element F} {h : List F} :
    HeaderWires N leafNode g h ↔ 1 ≤ N - 1 ∧ h = oneElement N g.wire 2 := by
  rw [HeaderWires, leaf_suffix]
  exact Iff.rfl

theorem node_wires {g : Element F} {h : List F} :
    HeaderWires N internalNode g h ↔ 1 ≤ N - 1 ∧ h = oneElement N g.wire 3 := by
  rw [HeaderWires, node_suffix]
  exact Iff.rfl

theorem unit_wires {g : Unit} {h : List F} : HeaderWires N Header.unit g h ↔ h = noElement N := by
  have e1 : (((Header.unit (F := F)).suffix.get : ℕ) : F) = 1 := Nat.cast_one
  rw [HeaderWires, e1]
  simp [Header.unit, noElement]

section
variable (hp : Poseidon.WF p) (hr : 1 ≤ p.rate) (hT : p.rate ≤ p.T)
include hp hr hT

theorem leaf_satBy {S : F → Prop} {l r h : List F} (hs : StepSatBy S N (witnessLeaf p) l r h) :
    1 ≤ N - 1 ∧ l = noElement N ∧ r = noElement N ∧ ∃ a, S a ∧ h = oneElement N (hashOf p [a]) 2 := by
  obtain ⟨w, gl, gr, go, d, s1, s2, s3, s4⟩ := hs
  obtain ⟨x, hx, s1⟩ := (Syn.satBy_bind _ _ _).1 s1
  obtain ⟨v, hv, hx⟩ := (Syn.satBy_bind _ _ _).1 hx
  obtain ⟨v', hS, hv⟩ := hv
  cases (hv : v = v')
  cases (hx : x = _)
  obtain ⟨e, -⟩ := (runs_hash1 (m := False) hp hr hT (fun h => h.elim)).sound not_false _
    (Syn.satBy_sat s1)
  obtain ⟨h1, rfl⟩ := leaf_wires.1 s4
  refine ⟨h1, unit_wires.1 s2, unit_wires.1 s3, v, hS, ?_⟩
  rw [show go.wire = _ from e]

theorem node_satBy {S : F → Prop} {l r h : List F} (hs : StepSatBy S N (hash2 p) l r h) :
    1 ≤ N - 1 ∧ ∃ a b, l = oneElement N a 2 ∧ r = oneElement N b 2 ∧
      h = oneElement N (hashOf p [a, b]) 3 := by
  obtain ⟨w, gl, gr, go, d, s1, s2, s3, s4⟩ := hs
  obtain ⟨x, -, s1⟩ := (Syn.satBy_bind _ _ _).1 s1
  obtain ⟨y, -, s1⟩ := (Syn.satBy_bind _ _ _).1 s1
  obtain ⟨e1, e2, e3, -⟩ := (runs_hash2 (m := False) hp hr hT (fun h => h.elim)
    (fun h => h.elim)).sound not_false _ (Syn.satBy_sat s1)
  cases (e1 : gl = x)
  cases (e2 : gr = y)
  obtain ⟨h1, rfl⟩ := node_wires.1 s4
  obtain ⟨-, rfl⟩ := leaf_wires.1 s2
  obtain ⟨-, rfl⟩ := leaf_wires.1 s3
  refine ⟨h1, gl.wire, gr.wire, rfl, rfl, ?_⟩
  rw [show go.wire = _ from e3]

end

theorem Syn.satBy_true {α : Type} {x : Syn F α} {r : α} (h : x.sat r) : x.satBy (fun _ => True) r := by
  induction x with
  | ret a => exact h
  | gate w k ih =>
    obtain ⟨a, b, c, d, h1, h2, h3⟩ := h
    exact ⟨a, b, c, d, trivial, trivial, trivial, trivial, h1, h2, ih _ _ _ _ h3⟩
  | alloc w k ih => obtain ⟨v, h⟩ := h; exact ⟨v, trivial, ih _ h⟩
  | enforce v k ih => exact ⟨h.1, ih h.2⟩
  | check e k ih => exact ih h
  | panic => exact h

theorem stepSat_by {s : StepProgram F} {l r h : List F} (hs : StepSat N s l r h) :
    StepSatBy (fun _ => True) N s l r h := by
  obtain ⟨w, gl, gr, go, d, s1, s2⟩ := hs
  exact ⟨w, gl, gr, go, d, Syn.satBy_true s1, s2⟩

/-- C93: the step `WitnessLeaf` on the element `a` succeeds and returns the hash of `a` as data, and its
output is the element of that value. -/
theorem C93_leaf_runs (hp : Poseidon.WF p) (hr : 1 ≤ p.rate) (hT : p.rate ≤ p.T) (a : F) :
    ∃ g : Element F, ((witnessLeaf p).code a).sim = .ok ((), (), g, hashOf (F := F) p [a]) ∧
      g.wire = hashOf p [a] ∧ g.value = hashOf p [a] := by
  obtain ⟨⟨⟨⟩, ⟨⟩, g, d⟩, h1, h2, hd, h3⟩ :=
    (runs_hash1 (a := ⟨a, a⟩) (m := True) hp hr hT (fun _ => rfl)).complete trivial
  have hv : g.wire = g.value := Eq.symm (h3 trivial)
  have hg : g.value = hashOf p [a] := hv.symm.trans h2
  have hd : d = g.value := hd
  refine ⟨g, ?_, h2, hg⟩
  rw [← hg, ← hd]
  exact h1

/-- C93: the step `Hash2` on the data `a` and `b` of its inputs succeeds and returns the hash of both as
data; its inputs are the elements of these values and its output is the element of the hash. -/
theorem C93_node_runs (hp : Poseidon.WF p) (hr : 1 ≤ p.rate) (hT : p.rate ≤ p.T) (a b : F) :
    ∃ g : Element F, ((hash2 p).code (a, b)).sim =
        .ok ((⟨a, a⟩ : Element F), (⟨b, b⟩ : Element F), g, hashOf (F := F) p [a, b]) ∧
      g.wire = hashOf p [a, b] ∧ g.value = hashOf p [a, b] := by
  obtain ⟨⟨x, y, g, d⟩, h1, hx, hy, h2, hd, h3⟩ :=
    (runs_hash2 (a := ⟨a, a⟩) (b := ⟨b, b⟩) (m := True) hp hr hT (fun _ => rfl) (fun _ => rfl)).complete
      trivial
  cases (hx : x = _)
  cases (hy : y = _)
  have hv : g.wire = g.value := Eq.symm (h3 trivial)
  have hg : g.value = hashOf p [a, b] := hv.symm.trans h2
  have hd : d = g.value := hd
  refine ⟨g, ?_, h2, hg⟩
  rw [← hg, ← hd]
  exact h1

/-- C93: the constraints of `WitnessLeaf` can be satisfied exactly when both inputs are the trivial header
and the output is the header of the hash of some element. -/
theorem C93_leaf (hp : Poseidon.WF p) (hr : 1 ≤ p.rate) (hT : p.rate ≤ p.T) (hN : 1 ≤ N - 1)
    {l r h : List F} : StepSat N (witnessLeaf p) l r h ↔
      l = noElement N ∧ r = noElement N ∧ ∃ a, h = oneElement N (hashOf p [a]) 2 := by
  constructor
  · intro hs
    obtain ⟨-, h1, h2, a, -, h3⟩ := leaf_satBy hp hr hT (stepSat_by hs)
    exact ⟨h1, h2, a, h3⟩
  · rintro ⟨rfl, rfl, a, rfl⟩
    obtain ⟨g, h1, h2, -⟩ := C93_leaf_runs hp hr hT a
    exact ⟨a, (), (), g, _, Syn.sim_sat h1, unit_wires.2 rfl, unit_wires.2 rfl,
      leaf_wires.2 ⟨hN, by rw [h2]⟩⟩

/-- C93: the constraints of `Hash2` can be satisfied exactly when the inputs are headers of leaves and the
output is the header of the hash of their elements. -/
theorem C93_node (hp : Poseidon.WF p) (hr : 1 ≤ p.rate) (hT : p.rate ≤ p.T) (hN : 1 ≤ N - 1)
    {l r h : List F} : StepSat N (hash2 p) l r h ↔
      ∃ a b, l = oneElement N a 2 ∧ r = oneElement N b 2 ∧ h = oneElement N (hashOf p [a, b]) 3 := by
  constructor
  · intro hs
    exact (node_satBy hp hr hT (stepSat_by hs)).2
  · rintro ⟨a, b, rfl, rfl, rfl⟩
    obtain ⟨g, h1, h2, -⟩ := C93_node_runs hp hr hT a b
    exact ⟨(a, b), _, _, g, _, Syn.sim_sat h1, leaf_wires.2 ⟨hN, rfl⟩, leaf_wires.2 ⟨hN, rfl⟩,
      node_wires.2 ⟨hN, by rw [h2]⟩⟩

theorem one_last {x s : F} (hN : 1 ≤ N - 1) : (oneElement N x s)[N - 1]? = some s := by
  rw [oneElement, List.getElem?_append_right (by simp; omega),
    show N - 1 - ([x] ++ List.replicate (N - 1 - 1) (0 : F)).length = 0 by simp; omega]
  rfl

theorem no_last : (noElement (F := F) N)[N - 1]? = some 1 := by
  rw [noElement, List.getElem?_append_right (by simp)]
  simp

theorem one_inj {x y s t : F} (h : oneElement N x s = oneElement N y t) : x = y ∧ s = t := by
  simp only [oneElement, List.cons_append, List.nil_append, List.cons.injEq] at h
  exact ⟨h.1, by simpa using List.append_cancel_left h.2⟩

/-- C93: the headers at the end of a history are those with the mark of the trivial header, those of leaves
with the hash of some element, and those of nodes with the hash of two hashes. -/
theorem C93_derived (hp : Poseidon.WF p) (hr : 1 ≤ p.rate) (hT : p.rate ≤ p.T) (hN : 1 ≤ N - 1)
    {h : List F} : Derived N [witnessLeaf p, hash2 p] h ↔ h[N - 1]? = some 1 ∨
      (∃ a, h = oneElement N (hashOf p [a]) 2) ∨
      ∃ a b, h = oneElement N (hashOf p [hashOf p [a], hashOf p [b]]) 3 := by
  have h12 : (2 : F) ≠ 1 := fun h => one_ne_zero (α := F) (by linear_combination h)
  have h23 : (2 : F) ≠ 3 := fun h => one_ne_zero (α := F) (by linear_combination -h)
  have hleaf : ∀ a : F, Derived N [witnessLeaf p, hash2 p] (oneElement N (hashOf p [a]) 2) := fun a =>
    .step (s := witnessLeaf p) (by simp) (.trivial no_last) (.trivial no_last)
      ((C93_leaf hp hr hT hN).2 ⟨rfl, rfl, a, rfl⟩)
  constructor
  · intro hd
    induction hd with
    | trivial h => exact .inl h
    | @step s l r h hs _ _ hsat ihl ihr =>
      simp only [List.mem_cons, List.not_mem_nil, or_false] at hs
      rcases hs with rfl | rfl
      · exact .inr (.inl ((C93_leaf hp hr hT hN).1 hsat).2.2)
      · obtain ⟨x, y, rfl, rfl, rfl⟩ := (C93_node hp hr hT hN).1 hsat
        have key : ∀ x : F, ((oneElement N x 2)[N - 1]? = some 1 ∨
            (∃ a, oneElement N x 2 = oneElement N (hashOf p [a]) 2) ∨
            ∃ a b, oneElement N x 2 = oneElement N (hashOf p [hashOf p [a], hashOf p [b]]) 3) →
            ∃ a, x = hashOf p [a] := by
          rintro x (h | ⟨a, h⟩ | ⟨a, b, h⟩)
          · rw [one_last hN, Option.some.injEq] at h
            exact absurd h h12
          · exact ⟨a, (one_inj h).1⟩
          · exact absurd (one_inj h).2 h23
        obtain ⟨a, rfl⟩ := key x ihl
        obtain ⟨b, rfl⟩ := key y ihr
        exact .inr (.inr ⟨a, b, rfl⟩)
  · rintro (h | ⟨a, rfl⟩ | ⟨a, b, rfl⟩)
    · exact .trivial h
    · exact hleaf a
    · exact .step (s := hash2 p) (by simp) (hleaf a) (hleaf b)
        ((C93_node hp hr hT hN).2 ⟨_, _, rfl, rfl, rfl⟩)

/-! ### The leaves can be read off the proofs -/

section
variable {C : CycleEnv F G HC} {n : ℕ} {P : StepParams F} {cs : Circuits F G} {zeta : G}
  {steps : List (StepDef F)} {app : Application F G} {progs : List (StepProgram F)} {Q : ℕ}
  {S : Proof F G HC → Prop}

/-- If the application trace of a proof satisfies the circuit of a step, the constraints of the step hold
for values in the trace. -/
theorem step_inTrace (hA : AppOk C n P cs steps app)
    (hI : List.Forall₂ (Implements P.headerSize) steps progs) {q : Proof F G HC} {l r h : List F} {i : ℕ}
    {d : StepDef F} (hd : steps[i]? = some d) (hg : GatesHold n (q.nativeRx (.rx .application)))
    (hs : Satisfies (assignment n (floorPlan d.circ.counts) (q.nativeRx (.rx .application))) d.circ
      (l ++ r ++ h)) (hl : l.length = P.headerSize) (hr : r.length = P.headerSize) :
    ∃ s ∈ progs, StepSatBy (InTrace q) P.headerSize s l r h := by
  obtain ⟨ha, rfl⟩ := List.getElem?_eq_some_iff.1 hd
  have hb : i < progs.length := hI.length_eq ▸ ha
  have hi' : Implements P.headerSize steps[i] progs[i] := List.forall₂_iff_get.1 hI |>.2 i ha hb
  obtain ⟨j, -, -, hH⟩ := step_holds hA (i := .application i) (c := steps[i].circ)
    (by rw [stepCircuit, List.getElem?_eq_getElem ha]; rfl)
  exact ⟨_, List.getElem_mem hb, program_satBy hA.params.header hl hr
    (holds_satBy hH (hi'.code progs[i].input) hg hs)⟩

variable (hp : Poseidon.WF p) (hr : 1 ≤ p.rate) (hT : p.rate ≤ p.T)
include hp hr hT

/-- C93: if the witnesses of a leaf can be read off a proof and proofs of `S`, one of these has an element
in its trace whose hash is that of the leaf. -/
theorem C93_read_leaf (hA : AppOk C n P cs steps app) (hN : 2 ≤ P.headerSize)
    (hI : List.Forall₂ (Implements P.headerSize) steps [witnessLeaf p, hash2 p]) {q : Proof F G HC} {x : F}
    (h : Witnessed n P.headerSize steps S q (oneElement P.headerSize x 2)) :
    HasLeaf p (fun q' => q' = q ∨ S q') x := by
  have h12 : (2 : F) ≠ 1 := fun h => one_ne_zero (α := F) (by linear_combination h)
  have h23 : (2 : F) ≠ 3 := fun h => one_ne_zero (α := F) (by linear_combination -h)
  generalize hh : oneElement P.headerSize x 2 = header at h
  induction h with
  | trivial h =>
    rw [← hh, one_last (by omega), Option.some.injEq] at h
    exact absurd h h12
  | rerandomized _ hS _ ih =>
    obtain ⟨q', a, hq, ha, e⟩ := ih hh
    exact ⟨q', a, .inr (hq.elim (fun h => h ▸ hS) id), ha, e⟩
  | @step q ql qr l r h i d hd _ hg hs hl hr' _ _ _ _ _ _ =>
    obtain ⟨s, ms, hs⟩ := step_inTrace hA hI hd hg hs hl hr'
    subst hh
    simp only [List.mem_cons, List.not_mem_nil, or_false] at ms
    rcases ms with rfl | rfl
    · obtain ⟨-, -, -, a, ha, e⟩ := leaf_satBy hp hr hT hs
      exact ⟨q, a, .inl rfl, ha, (one_inj e).1⟩
    · obtain ⟨-, a, b, -, -, e⟩ := node_satBy hp hr hT hs
      exact absurd (one_inj e).2 h23

/-- C93: if the witnesses of a node can be read off a proof and proofs of `S`, two proofs of `S` have
elements in their traces whose hashes hash to that of the node. -/
theorem C93_read_node (hA : AppOk C n P cs steps app) (hN : 2 ≤ P.headerSize) (h2 : (2 : F) ≠ 0)
    (hI : List.Forall₂ (Implements P.headerSize) steps [witnessLeaf p, hash2 p]) {q : Proof F G HC} {x : F}
    (h : Witnessed n P.headerSize steps S q (oneElement P.headerSize x 3)) : HasLeaves p S x := by
  have h13 : (3 : F) ≠ 1 := fun h => h2 (by linear_combination h)
  have h23 : (3 : F) ≠ 2 := fun h => one_ne_zero (α := F) (by linear_combination h)
  generalize hh : oneElement P.headerSize x 3 = header at h
  induction h with
  | trivial h =>
    rw [← hh, one_last (by omega), Option.some.injEq] at h
    exact absurd h h13
  | rerandomized _ _ _ ih => exact ih hh
  | @step q ql qr l r h i d hd _ hg hs hl hr' sl wl sr wr _ _ =>
    obtain ⟨s, ms, hs⟩ := step_inTrace hA hI hd hg hs hl hr'
    subst hh
    simp only [List.mem_cons, List.not_mem_nil, or_false] at ms
    rcases ms with rfl | rfl
    · obtain ⟨-, -, -, a, ha, e⟩ := leaf_satBy hp hr hT hs
      exact absurd (one_inj e).2 h23
    · obtain ⟨-, x, y, rfl, rfl, e⟩ := node_satBy hp hr hT hs
      obtain ⟨q, a, s1, t1, rfl⟩ := C93_read_leaf hp hr hT hA hN hI wl
      obtain ⟨r, b, s2, t2, rfl⟩ := C93_read_leaf hp hr hT hA hN hI wr
      exact ⟨q, r, a, b, s1.elim (fun h => h ▸ sl) id, s2.elim (fun h => h ▸ sr) id, t1, t2, (one_inj e).1⟩

omit hp hr hT in
theorem leaf_encoded {x : F} {header : List F} (h : EncodedAs N leafNode x header) :
    header = oneElement N x 2 := by
  obtain ⟨g, h1, -, rfl⟩ := h
  obtain rfl := Except.ok.inj (h1 : Except.ok _ = Except.ok g)
  rw [leaf_suffix]
  rfl

omit hp hr hT in
theorem node_encoded {x : F} {header : List F} (h : EncodedAs N internalNode x header) :
    header = oneElement N x 3 := by
  obtain ⟨g, h1, -, rfl⟩ := h
  obtain rfl := Except.ok.inj (h1 : Except.ok _ = Except.ok g)
  rw [node_suffix]
  rfl

open Classical in
/-- C93: whatever a prover asks, in few of the possible answers to its `Q` questions is there a proof that
came out of fuses with these answers as challenges and is what a proof of a node should be, but no two of
the children that the prover put into its questions have elements in their traces whose hashes hash to
that of the node; or one that is what a proof of a leaf should be, but neither it nor a child has an element
in its trace whose hash is that of the leaf. -/
theorem C93_known [Finite F] (hA : AppOk C n P cs steps app) (hL : LibraryCircuits P zeta cs)
    (hN : 2 ≤ P.headerSize) (h2 : (2 : F) ≠ 0) (h3 : (3 : F) ≠ 0)
    (hI : List.Forall₂ (Implements P.headerSize) steps [witnessLeaf p, hash2 p]) (s : Asker F G HC Q)
    (A B : Finset F) :
    ((answers Q A B).filter fun t => ∃ q x header, HashedFuse C n P app s t q ∧
      ChildSound C n P app ⟨q, header⟩ ∧
      (EncodedAs P.headerSize internalNode x header ∧ ¬ HasLeaves p (Named s t) x ∨
       EncodedAs P.headerSize leafNode x header ∧ ¬ HasLeaf p (fun q' => q' = q ∨ Named s t q') x)).card ≤
      Q * (((16 * n + 55) * (A.card * B.card) + 36 * A.card ^ 2) * (A.card ^ 2 * B.card) ^ (Q - 1)) := by
  refine (card_le_card fun t ht => ?_).trans (C92_known hA hL hI s A B)
  rw [mem_filter] at ht ⊢
  obtain ⟨ht, q, x, header, hq, hs, ⟨he, hx⟩ | ⟨he, hx⟩⟩ := ht
  · refine ⟨ht, q, header, hq, hs, by rw [encodedAs_last he, node_suffix]; exact h3, fun hw => hx ?_⟩
    rw [node_encoded he] at hw
    exact C93_read_node hp hr hT hA hN h2 hI hw
  · refine ⟨ht, q, header, hq, hs, by rw [encodedAs_last he, leaf_suffix]; exact h2, fun hw => hx ?_⟩
    rw [leaf_encoded he] at hw
    exact C93_read_leaf hp hr hT hA hN hI hw

open Classical in
/-- C93: the same for the verifier. Over all answers to the prover's questions for which its proof came
out of fuses with these answers as challenges, and all challenges of the verifier, few accept the proof
of a node for which no leaves can be read off. -/
theorem C93_verified [Finite F] (hA : AppOk C n P cs steps app) (hL : LibraryCircuits P zeta cs)
    (hN : 2 ≤ P.headerSize) (h2 : (2 : F) ≠ 0) (h3 : (3 : F) ≠ 0)
    (hI : List.Forall₂ (Implements P.headerSize) steps [witnessLeaf p, hash2 p]) (s : Asker F G HC Q)
    (A B V : Finset F) (q : (Fin Q → Answer F) → Proof F G HC) (x : (Fin Q → Answer F) → F)
    (hq : ∀ t, ProofTyped C n (q t)) {ch : F → F → F → VerifyChallenges F G}
    (hch : ∀ w y z, (ch w y z).w = w ∧ (ch w y z).y = y ∧ (ch w y z).z = z) :
    ∑ t ∈ (answers Q A B).filter (fun t => HashedFuse C n P app s t (q t) ∧
        ¬ HasLeaves p (Named s t) (x t)),
      (acceptedTriples C n P.headerSize app internalNode (q t) (x t) ch V).card ≤
      Q * (((16 * n + 55) * (A.card * B.card) + 36 * A.card ^ 2) * (A.card ^ 2 * B.card) ^ (Q - 1)) *
        V.card ^ 3 + (A.card ^ 2 * B.card) ^ Q * (8 * n * V.card ^ 2) := by
  refine (sum_le_sum_of_subset fun t ht => ?_).trans (C92_verified (H := internalNode) hA hL hI
    (by rw [node_suffix]; exact h3) s A B V q x hq hch)
  rw [mem_filter] at ht ⊢
  refine ⟨ht.1, ht.2.1, ?_⟩
  rintro ⟨header, he, hw⟩
  rw [node_encoded he] at hw
  exact ht.2.2 (C93_read_node hp hr hT hA hN h2 hI hw)

variable {K : NestedParams G HC} {nestedCommit : Sparse.Poly G → Option (F × F)}

/-- C93: a proof of a node that was made has leaves, in the traces of proofs that were made. -/
theorem C93_honest [Finite F] (hA : AppOk C n P cs steps app) (hK : HostOk K P.endo)
    (hcurve : ∀ q x y, nestedCommit q = some (x, y) → y ^ 2 = x ^ 3 + C.b)
    (hbig : 8 * n < Nat.card F) (hL : LibraryCircuits P zeta cs)
    (hN : 2 ≤ P.headerSize) (h2 : (2 : F) ≠ 0) (h3 : (3 : F) ≠ 0)
    (hI : List.Forall₂ (Implements P.headerSize) steps [witnessLeaf p, hash2 p])
    {q : Proof F G HC} {x : F} (h : Made C K n nestedCommit P cs steps app internalNode q x) :
    HasLeaves p (fun q =>
      trivialProof C n P.headerSize nestedCommit app.nativeRegistry = some q ∨
      ∃ (D O : Type) (H : Header F D O) (data : D), Made C K n nestedCommit P cs steps app H q data) x := by
  obtain ⟨header, he, hw⟩ := C92_honest hA hK hcurve hbig hL hI h (by rw [node_suffix]; exact h3)
  rw [node_encoded he] at hw
  exact C93_read_node hp hr hT hA hN h2 hI hw

end
/-! ### The program of the tests -/

/-- A step program that succeeds with gadgets that encode the data of its inputs and its output is correct. -/
theorem program_ok (hN : 0 < N) (s : StepProgram F) {dl : s.DL} {dr : s.DR} {w : s.W} {g1 : s.OL} {g2 : s.OR}
    {g3 : s.OO} {data : s.DO} (hs : (s.code w).sim = .ok (g1, g2, g3, data))
    (h1 : EncodesData N s.left dl g1) (h2 : EncodesData N s.right dr g2)
    (h3 : EncodesData N s.output data g3) :
    ∃ out, StepOk N s.left s.right s.output dl dr (s.adapter N w) out ∧ out.data = data := by
  obtain ⟨l, l1, l2, l3⟩ := encodes_write hN h1
  obtain ⟨r, r1, r2, r3⟩ := encodes_write hN h2
  obtain ⟨o, o1, o2, o3⟩ := encodes_write hN h3
  refine ⟨⟨l ++ r ++ o, l.map (·.value), r.map (·.value), data⟩, ⟨?_, l2, r2, _, o2, ?_⟩, rfl⟩
  · rw [StepProgram.adapter, Syn.sim_bind_ok hs]
    exact congrArg Except.ok (finishAdapter hN (l := .gadget g1) (r := .gadget g2) (o := .gadget g3)
      trivial trivial trivial data l1 r1 o1)
  · simp only [List.map_append, l3, r3, o3]

theorem unit_encodes : EncodesData N (Header.unit (F := F)) () () :=
  ⟨by simp [Header.unit], by simp [Header.unit], (), rfl, rfl⟩

theorem leaf_encodes (hN : 2 ≤ N) {x : F} {g : Element F} (h1 : g.wire = x) (h2 : g.value = x) :
    EncodesData N leafNode x g :=
  ⟨by simp [leafNode, Element.Honest, h1, h2], by simp [leafNode]; omega, ⟨x, x⟩, rfl, by simp [leafNode, h2]⟩

theorem node_encodes (hN : 2 ≤ N) {x : F} {g : Element F} (h1 : g.wire = x) (h2 : g.value = x) :
    EncodesData N internalNode x g :=
  ⟨by simp [internalNode, Element.Honest, h1, h2], by simp [internalNode]; omega, ⟨x, x⟩, rfl,
    by simp [internalNode, h2]⟩

section
variable (hp : Poseidon.WF p) (hr : 1 ≤ p.rate) (hT : p.rate ≤ p.T)
include hp hr hT

theorem leaf_ok (hN : 2 ≤ N) (a : F) : ∃ out, StepOk N Header.unit Header.unit leafNode () ()
    ((witnessLeaf p).adapter N a) out ∧ out.data = hashOf (F := F) p [a] := by
  obtain ⟨g, h1, h2, h3⟩ := C93_leaf_runs hp hr hT a
  exact program_ok (by omega) (witnessLeaf p) h1 unit_encodes unit_encodes (leaf_encodes hN h2 h3)

theorem node_ok (hN : 2 ≤ N) (a b : F) : ∃ out, StepOk N leafNode leafNode internalNode a b
    ((hash2 p).adapter N (a, b)) out ∧ out.data = hashOf (F := F) p [a, b] := by
  obtain ⟨g, h1, h2, h3⟩ := C93_node_runs hp hr hT a b
  exact program_ok (by omega) (hash2 p) h1 (leaf_encodes hN rfl rfl) (leaf_encodes hN rfl rfl)
    (node_encodes hN h2 h3)

variable {V : FuseEnvironment F G HC} {steps : List (StepDef F)}

/-- C93: the program of the tests. It seeds a leaf with `a` and a leaf with `b`, and fuses them; the data
that it obtains are the hashes, and the three proofs are accepted with them, whatever challenges the
verifier draws. -/
theorem C93_program [Finite F] (hV : Prepared V steps) (hN : 2 ≤ V.P.headerSize) {s1 s2 : StepDef F}
    (hs1 : steps[0]? = some s1) (hs2 : steps[1]? = some s2) {j1 j2 : ℕ}
    (hj1 : (Index.application 0).circuitIndex steps.length = .ok j1)
    (hj2 : (Index.application 1).circuitIndex steps.length = .ok j2) {a b d1 d2 d : F}
    {q leaf1 leaf2 node : Proof F G HC}
    (h1 : V.seed s1.circ j1 ((witnessLeaf p).adapter V.P.headerSize a) (.ok (leaf1, d1)))
    (h2 : V.seed s1.circ j1 ((witnessLeaf p).adapter V.P.headerSize b) (.ok (leaf2, d2)))
    (h3 : V.fuse s2.circ j2 ((hash2 p).adapter V.P.headerSize (d1, d2)) leaf1 leaf2 (.ok (node, d)))
    (hq : IsTrivial V q) (u1 : UsablePoint V q q leaf1) (u2 : UsablePoint V q q leaf2)
    (u3 : UsablePoint V leaf1 leaf2 node) :
    d1 = hashOf p [a] ∧ d2 = hashOf p [b] ∧ d = hashOf p [hashOf p [a], hashOf p [b]] ∧
    ∀ ch, verify V.C V.n V.P.headerSize V.app leafNode leaf1 d1 ch = .ok true ∧
      verify V.C V.n V.P.headerSize V.app leafNode leaf2 d2 ch = .ok true ∧
      verify V.C V.n V.P.headerSize V.app internalNode node d ch = .ok true := by
  have r1 : ∀ a, RunsStep V steps Header.unit Header.unit leafNode () () s1.circ j1
      ((witnessLeaf p).adapter V.P.headerSize a) := fun a =>
    ⟨⟨.application 0, by rw [stepCircuit, hs1]; rfl, hj1⟩, (leaf_ok hp hr hT hN a).imp fun _ h => h.1⟩
  have r2 : RunsStep V steps leafNode leafNode internalNode d1 d2 s2.circ j2
      ((hash2 p).adapter V.P.headerSize (d1, d2)) :=
    ⟨⟨.application 1, by rw [stepCircuit, hs2]; rfl, hj2⟩, (node_ok hp hr hT hN d1 d2).imp fun _ h => h.1⟩
  have o1 : Obtained V steps leafNode leaf1 d1 := .seed (r1 a) h1 hq u1
  have o2 : Obtained V steps leafNode leaf2 d2 := .seed (r1 b) h2 hq u2
  have o3 : Obtained V steps internalNode node d := .fuse o1 o2 r2 h3 u3
  have data : ∀ {D1 O1 D2 O2 D3 O3 : Type} {HL : Header F D1 O1} {HR : Header F D2 O2}
      {HO : Header F D3 O3} {dl : D1} {dr : D2} {code : Syn F (Except Pcd.Err (AdapterOut F D3))}
      {c0 : Circ F} {j : ℕ} {left right q : Proof F G HC} {d e : D3},
      (∃ out, StepOk V.P.headerSize HL HR HO dl dr code out ∧ out.data = e) →
      V.fuse c0 j code left right (.ok (q, d)) → d = e := by
    rintro D1 O1 D2 O2 D3 O3 HL HR HO dl dr code c0 j left right q d e ⟨out, ho, hd⟩ h
    obtain ⟨out', h1, h2, -⟩ := fuse_ok h
    have := h2.application.aux
    rw [emulate_of_sim ho.sim] at this
    cases this
    exact h1.symm.trans hd
  have seedData : ∀ {a d : F} {l : Proof F G HC},
      V.seed s1.circ j1 ((witnessLeaf p).adapter V.P.headerSize a) (.ok (l, d)) → d = hashOf p [a] := by
    intro a d l h
    obtain ⟨q', -, h⟩ := Outcomes.bind_ok.1 h
    exact data (leaf_ok hp hr hT hN a) h
  obtain rfl := seedData h1
  obtain rfl := seedData h2
  exact ⟨rfl, rfl, data (node_ok hp hr hT hN _ _) h3, fun ch =>
    ⟨C82_accepted hV o1 ch, C82_accepted hV o2 ch, C82_accepted hV o3 ch⟩⟩

/-- C93: a call of `seed` with `WitnessLeaf` has an outcome; and if it stops, then for one of the reasons
in `Explained`. -/
theorem C93_seed_progress [Finite F] (hV : Prepared V steps) (hC : TrivialCommits V)
    (hN : 2 ≤ V.P.headerSize)
    (hI : List.Forall₂ (Implements V.P.headerSize) steps [witnessLeaf p, hash2 p]) {s : StepDef F}
    (hs : steps[0]? = some s) {j : ℕ} (hj : (Index.application 0).circuitIndex steps.length = .ok j) (a : F) :
    (∃ r, V.seed s.circ j ((witnessLeaf p).adapter V.P.headerSize a) r) ∧
      ∀ stop, V.seed s.circ j ((witnessLeaf p).adapter V.P.headerSize a) (.error stop) →
        Explained V stop := by
  obtain ⟨t1, t2, rfl⟩ : ∃ t1 t2, steps = [t1, t2] := List.length_eq_two.1 hI.length_eq
  cases hs
  exact C82_seed_progress hV hC ⟨⟨.application 0, rfl, hj⟩,
    (leaf_ok hp hr hT hN a).imp fun _ h => h.1⟩ ((List.forall₂_cons.1 hI).1.code a)

/-- C93: a call of `fuse` with `Hash2` on two proofs of leaves that were obtained from calls has an outcome;
and if it stops, then for one of the reasons in `Explained`. -/
theorem C93_fuse_progress [Finite F] (hV : Prepared V steps) (hN : 2 ≤ V.P.headerSize)
    (hI : List.Forall₂ (Implements V.P.headerSize) steps [witnessLeaf p, hash2 p]) {s : StepDef F}
    (hs : steps[1]? = some s) {j : ℕ} (hj : (Index.application 1).circuitIndex steps.length = .ok j)
    {d1 d2 : F} {leaf1 leaf2 : Proof F G HC} (o1 : Obtained V steps leafNode leaf1 d1)
    (o2 : Obtained V steps leafNode leaf2 d2) :
    (∃ r, V.fuse s.circ j ((hash2 p).adapter V.P.headerSize (d1, d2)) leaf1 leaf2 r) ∧
      ∀ stop, V.fuse s.circ j ((hash2 p).adapter V.P.headerSize (d1, d2)) leaf1 leaf2 (.error stop) →
        Explained V stop := by
  obtain ⟨t1, t2, rfl⟩ : ∃ t1 t2, steps = [t1, t2] := List.length_eq_two.1 hI.length_eq
  cases hs
  exact C82_fuse_progress hV (C82_made hV o1) (C82_made hV o2) ⟨⟨.application 1, rfl, hj⟩,
    (node_ok hp hr hT hN d1 d2).imp fun _ h => h.1⟩
    ((List.forall₂_cons.1 (List.forall₂_cons.1 hI).2).1.code (d1, d2))

end

/-! ### The application can be registered -/

section
variable (hp : Poseidon.WF p) (hr : 1 ≤ p.rate) (hT : p.rate ≤ p.T) {m : ℕ}

theorem bind_syn {α β : Type} (x : Syn F α) (f : α → Syn F β) : x >>= f = x.bind f := rfl

theorem leafStep_wires (w : F) : adapterWires ((witnessLeaf p).adapter 4 w) = do
      let leaf ← Element.alloc w
      let sponge ← transcriptWrite p leaf (Sponge.new Element.zero p.T)
      let r ← transcriptChallenge p sponge
      return ([0, 0, 0, 1] ++ [0, 0, 0, 1] ++ [r.1.wire, 0, 0, 2]) := by
  refine (adapter_wires (N := 4) (by decide) (witnessLeaf p) w (fun _ => Nat.zero_le _)
    (fun _ => Nat.zero_le _) (fun _ => (by decide : 1 ≤ 4 - 1))).trans ?_
  have e1 : (((Header.unit (F := F)).suffix.get : ℕ) : F) = 1 := Nat.cast_one
  simp only [witnessLeaf, e1, leaf_suffix]
  simp only [bind_syn, bind_assoc_syn]
  rfl

theorem nodeStep_wires (w : F × F) : adapterWires ((hash2 p).adapter 4 w) = do
      let left ← Element.alloc w.1
      let right ← Element.alloc w.2
      let sponge ← transcriptWrite p left (Sponge.new Element.zero p.T)
      let sponge ← transcriptWrite p right sponge
      let r ← transcriptChallenge p sponge
      return ([left.wire, 0, 0, 2] ++ [right.wire, 0, 0, 2] ++ [r.1.wire, 0, 0, 3]) := by
  refine (adapter_wires (N := 4) (by decide) (hash2 p) w (fun _ => (by decide : 1 ≤ 4 - 1))
    (fun _ => (by decide : 1 ≤ 4 - 1)) (fun _ => (by decide : 1 ≤ 4 - 1))).trans ?_
  simp only [hash2, leaf_suffix, node_suffix]
  simp only [bind_syn, bind_assoc_syn]
  rfl

include hp hr hT

theorem unif_leafStep : UnifR (OutsR (3 * 4)) m fun (w : F) (_ : ℕ → F) =>
    adapterWires ((witnessLeaf p).adapter 4 w) := by
  refine UnifR.congr ?_ fun w _ => leafStep_wires w
  refine Unif.bind (unif_alloc (fun _ _ _ _ => rfl)) (fun _ _ _ _ => rfl) ?_
  intro m1 x _ hx
  have hnew : AbsR p.T 0 m1 fun (_ : F) (_ : ℕ → F) => Sponge.new (Element.zero (F := F)) p.T :=
    ⟨fun _ _ => [], _, ListN.nil, ListN.replicate p.T rel_zero, fun _ _ => rfl⟩
  refine UnifR.bindR (unif_write hp hr hT hx hnew.mode) (fun _ _ _ _ => rfl) ?_
  intro m2 t _ ht
  refine UnifR.bind2R (unif_challenge hp hr hT ht.ready) (fun _ _ _ _ => rfl) ?_
  intro m3 z u _ hz _
  refine UnifR.pure ?_
  refine ⟨[fun _ _ => 0, fun _ _ => 0, fun _ _ => 0, fun _ _ => 1, fun _ _ => 0, fun _ _ => 0,
    fun _ _ => 0, fun _ _ => 1, fun w σ => (z w σ).wire, fun _ _ => 0, fun _ _ => 0, fun _ _ => 2],
    rfl, ?_, fun w σ => rfl⟩
  have h := hz.1
  simp only [List.mem_cons, List.not_mem_nil, or_false]
  rintro f (rfl | rfl | rfl | rfl | rfl | rfl | rfl | rfl | rfl | rfl | rfl | rfl) <;>
    first | exact h | exact Aff.const _ _

theorem unif_nodeStep : UnifR (OutsR (3 * 4)) m fun (w : F × F) (_ : ℕ → F) =>
    adapterWires ((hash2 p).adapter 4 w) := by
  refine UnifR.congr ?_ fun w _ => nodeStep_wires w
  refine Unif.bind (unif_alloc (fun _ _ _ _ => rfl)) (fun _ _ _ _ => rfl) ?_
  intro m1 x _ hx
  refine Unif.bind (unif_alloc (fun _ _ _ _ => rfl)) (fun w σ τ ag => ?_) ?_
  · simp only [rel_loc hx w ag]
  intro m2 y h2 hy
  have hx := rel_up h2 hx
  have hnew : AbsR p.T 0 m2 fun (_ : F × F) (_ : ℕ → F) => Sponge.new (Element.zero (F := F)) p.T :=
    ⟨fun _ _ => [], _, ListN.nil, ListN.replicate p.T rel_zero, fun _ _ => rfl⟩
  refine UnifR.bindR (unif_write hp hr hT hx hnew.mode) (fun w σ τ ag => ?_) ?_
  · simp only [rel_loc hx w ag, rel_loc hy w ag]
  intro m3 t h3 ht
  have hx := rel_up h3 hx
  have hy := rel_up h3 hy
  refine UnifR.bindR (unif_write hp hr hT hy ht.mode) (fun w σ τ ag => ?_) ?_
  · simp only [rel_loc hx w ag, rel_loc hy w ag]
  intro m4 t h4 ht
  have hx := rel_up h4 hx
  have hy := rel_up h4 hy
  refine UnifR.bind2R (unif_challenge hp hr hT ht.ready) (fun w σ τ ag => ?_) ?_
  · simp only [rel_loc hx w ag, rel_loc hy w ag]
  intro m5 z u h5 hz _
  have hx := rel_up h5 hx
  have hy := rel_up h5 hy
  refine UnifR.pure ?_
  refine ⟨[fun w σ => (x w σ).wire, fun _ _ => 0, fun _ _ => 0, fun _ _ => 2, fun w σ => (y w σ).wire,
    fun _ _ => 0, fun _ _ => 0, fun _ _ => 2, fun w σ => (z w σ).wire, fun _ _ => 0, fun _ _ => 0,
    fun _ _ => 3], rfl, ?_, fun w σ => rfl⟩
  have h1 := hx.1
  have h2 := hy.1
  have h3 := hz.1
  simp only [List.mem_cons, List.not_mem_nil, or_false]
  rintro f (rfl | rfl | rfl | rfl | rfl | rfl | rfl | rfl | rfl | rfl | rfl | rfl) <;>
    first | exact h1 | exact h2 | exact h3 | exact Aff.const _ _

theorem sized_leafStep (w : F) : Sized (fun _ => True) (adapterWires ((witnessLeaf p).adapter 4 w))
    ⟨Poseidon.permGates p, 1, 2 * Poseidon.permGates p⟩ := by
  rw [leafStep_wires]
  refine ((Element.sized_alloc _).bind' fun x => (sized_absorb_room hp hr x (j := 0) (by omega)
    (by simp [Phase, Sponge.new])).bind fun t ht => (sized_squeeze_absorbing hp hr hT le_rfl ht).bind
      fun r _ => .pure trivial).cast ?_
  apply Size.ext <;> simp [Poseidon.permSize]

theorem sized_nodeStep (h2 : 2 ≤ p.rate) (w : F × F) :
    Sized (fun _ => True) (adapterWires ((hash2 p).adapter 4 w))
    ⟨Poseidon.permGates p, 2, 2 * Poseidon.permGates p⟩ := by
  rw [nodeStep_wires]
  refine ((Element.sized_alloc _).bind' fun x => (Element.sized_alloc _).bind' fun y =>
    (sized_absorb_room hp hr x (j := 0) (by omega) (by simp [Phase, Sponge.new])).bind fun t ht =>
    (sized_absorb_room hp hr y (j := 1) (by omega) ht).bind fun t ht =>
    (sized_squeeze_absorbing hp hr hT (by omega) ht).bind fun r _ => .pure trivial).cast ?_
  apply Size.ext <;> simp [Poseidon.permSize]

/-- C93: the two steps can be registered, with circuits of the sizes of one permutation: they fit into the
rank of the tests if the permutation has up to 2000 gates. -/
theorem C93_steps (h2 : (2 : F) ≠ 0) (hrate : 2 ≤ p.rate)
    (hg : Poseidon.permGates p ≤ 2000) : ∃ steps : List (StepDef F), StepsInOrder 2048 steps ∧
    steps.length = 2 ∧ List.Forall₂ (Implements 4) steps [witnessLeaf p, hash2 p] := by
  obtain ⟨c, c1, c2, c3⟩ := program_circuit (F := F) (unif_leafStep hp hr hT) 0
    (sized_leafStep hp hr hT 0) (by simp only; omega) (by simp only; omega)
  obtain ⟨d, d1, d2, d3⟩ := program_circuit (F := F) (unif_nodeStep hp hr hT) (0, 0)
    (sized_nodeStep hp hr hT hrate (0, 0)) (by simp only; omega) (by simp only; omega)
  have e1 : (((Header.unit (F := F)).suffix.get : ℕ) : F) = 1 := Nat.cast_one
  refine ⟨[⟨.application 0, ⟨.internal 1, 0⟩, ⟨.internal 1, 0⟩, ⟨Suffix.new 0, 1⟩, c⟩,
    ⟨.application 1, ⟨Suffix.new 0, 1⟩, ⟨Suffix.new 0, 1⟩, ⟨Suffix.new 1, 2⟩, d⟩], ⟨?_, ?_, ?_⟩, rfl,
    .cons ⟨c2, c3, ?_, ?_⟩ (.cons ⟨d2, d3, ?_, ?_⟩ .nil)⟩
  · rintro (_ | _ | i) s h
    · cases h; rfl
    · cases h; rfl
    · simp at h
  · simp only [allHeaders, Consistent, List.flatMap_cons, List.flatMap_nil, headersOf]
    decide
  · intro s h
    simp only [List.mem_cons, List.not_mem_nil, or_false] at h
    rcases h with rfl | rfl
    · exact c1
    · exact d1
  · show (((Header.unit (F := F)).suffix.get : ℕ) : F) ≠ 0
    rw [e1]; exact one_ne_zero
  · show (((Header.unit (F := F)).suffix.get : ℕ) : F) ≠ 0
    rw [e1]; exact one_ne_zero
  · show (((leafNode (F := F)).suffix.get : ℕ) : F) ≠ 0
    rw [leaf_suffix]; exact h2
  · show (((leafNode (F := F)).suffix.get : ℕ) : F) ≠ 0
    rw [leaf_suffix]; exact h2

end

section
open Ragu.Pasta

theorem pasta_three : (3 : Fp) ≠ 0 := fun h => by
  have := (ZMod.natCast_eq_zero_iff 3 Ragu.Pasta.p).1 (by exact_mod_cast h)
  exact absurd (Nat.le_of_dvd (by norm_num) this) (not_le.2 (lt_trans (by norm_num) pasta_huge))

/-- C93: over the Pasta cycle, with its Poseidon parameters, the rank and the header size of the tests,
the example application can be built. -/
theorem C93_pasta : ∃ (V : FuseEnvironment Fp Fq Vesta) (steps : List (StepDef Fp)),
    Prepared V steps ∧ TrivialCommits V ∧ V.n = 2048 ∧ V.P.headerSize = 4 ∧
    LibraryCircuits V.P (zetaQ : Fq) V.cs ∧
    List.Forall₂ (Implements 4) steps [witnessLeaf poseidonFp, hash2 poseidonFp] := by
  classical
  obtain ⟨sqrt, hs⟩ : ∃ sqrt : Fp → Option Fp, SqrtSpec sqrt := by
    refine ⟨fun v => if h : IsSquare v then some h.choose else none, fun v s h => ?_, fun v h => ?_⟩
    · split at h
      · next hv =>
        rw [Option.some.injEq] at h
        subst h
        exact hv.choose_spec.symm
      · cases h
    · rw [dif_pos h]
      exact Option.some_ne_none _
  let M : Machine Fp := ⟨1, fun _ => [], fun _ => 0⟩
  let M' : Machine Fq := ⟨1, fun _ => [], fun _ => 0⟩
  obtain ⟨steps, hsteps, hlen, hI⟩ := C93_steps (p := poseidonFp) wf_p (by change 1 ≤ 4; omega)
    (by change 4 ≤ 5; omega) pasta_two.1 (by change 2 ≤ 4; omega)
    (by change 3 * (2 * (8 / 2 * 5) + 56) ≤ 2000; norm_num)
  obtain ⟨cs, hcs⟩ := C80_exist _ (pasta_ok M hs steps.length (headerSize := 4) (by omega)) (zetaQ : Fq)
  obtain ⟨app, hV⟩ := C82_pasta (M := M) (M' := M') Nat.one_pos Nat.one_pos hs
    (gens := List.replicate 8192 (.some (-1) 2 vesta_gen)) (List.length_replicate ..).ge
    (fun _ => (.some (-1) 2 pallas_gen : Pallas)) (headerSize := 4) (by omega) (by omega) hsteps
    (by omega) hcs
  exact ⟨_, steps, hV, generator_commits, rfl, rfl, hcs, hI⟩

theorem poseidon_rate : 1 ≤ poseidonFp.rate ∧ poseidonFp.rate ≤ poseidonFp.T := by
  change 1 ≤ 4 ∧ 4 ≤ 5
  omega

/-- Non-vacuity of C93_leaf_runs, C93_node_runs, C93_leaf, C93_node and C93_derived: with the parameters
of Pasta and headers of four elements, on every two elements. -/
example (a b : Fp) :
    (∃ g : Element Fp, ((witnessLeaf poseidonFp).code a).sim =
      .ok ((), (), g, hashOf (F := Fp) poseidonFp [a])) ∧
    (∃ g : Element Fp, ((hash2 poseidonFp).code (a, b)).sim =
      .ok ((⟨a, a⟩ : Element Fp), (⟨b, b⟩ : Element Fp), g, hashOf (F := Fp) poseidonFp [a, b])) ∧
    StepSat 4 (witnessLeaf poseidonFp) [0, 0, 0, 1] [0, 0, 0, 1] [hashOf poseidonFp [a], 0, 0, 2] ∧
    StepSat 4 (hash2 poseidonFp) [a, 0, 0, 2] [b, 0, 0, 2] [hashOf poseidonFp [a, b], 0, 0, 3] ∧
    ¬ StepSat 4 (hash2 poseidonFp) [a, 0, 0, 2] [b, 0, 0, 2] [hashOf poseidonFp [a, b] + 1, 0, 0, 3] ∧
    Derived 4 [witnessLeaf poseidonFp, hash2 poseidonFp]
      [hashOf poseidonFp [hashOf poseidonFp [a], hashOf poseidonFp [b]], 0, 0, 3] ∧
    ¬ Derived 4 [witnessLeaf poseidonFp, hash2 poseidonFp] [a, 0, 0, 5] := by
  obtain ⟨hr, hT⟩ := poseidon_rate
  refine ⟨(C93_leaf_runs wf_p hr hT a).imp fun _ h => h.1, (C93_node_runs wf_p hr hT a b).imp fun _ h => h.1,
    (C93_leaf wf_p hr hT (N := 4) (by decide)).2 ⟨rfl, rfl, a, rfl⟩,
    (C93_node wf_p hr hT (N := 4) (by decide)).2 ⟨a, b, rfl, rfl, rfl⟩, fun h => ?_,
    (C93_derived wf_p hr hT (N := 4) (by decide)).2 (.inr (.inr ⟨a, b, rfl⟩)), fun h => ?_⟩
  · obtain ⟨x, y, h1, h2, h3⟩ := (C93_node wf_p hr hT (N := 4) (by decide)).1 h
    obtain rfl := (one_inj (N := 4) (s := (2 : Fp)) h1).1
    obtain rfl := (one_inj (N := 4) (s := (2 : Fp)) h2).1
    exact one_ne_zero (α := Fp) (by linear_combination (one_inj (N := 4) (s := (3 : Fp)) h3).1)
  · rcases (C93_derived wf_p hr hT (N := 4) (by decide)).1 h with h | ⟨x, h⟩ | ⟨x, y, h⟩
    · have h : (5 : Fp) = 1 := Option.some.inj h
      exact pasta_two.1 (pow_eq_zero_iff (n := 2) (by decide) |>.1 (by linear_combination h))
    · have := (one_inj (N := 4) (s := (5 : Fp)) h).2
      exact pasta_three (by linear_combination this)
    · have := (one_inj (N := 4) (s := (5 : Fp)) h).2
      exact pasta_two.1 (by linear_combination this)

open Classical in
/-- Non-vacuity of C93_known, C93_read_leaf, C93_read_node and C93_verified: the example application over
Pasta. Whatever a prover asks in up to 2^80 questions, for fewer than a quarter of the answers there is a
proof from fuses with these answers that is what a proof of a node should be, without leaves. -/
example : ∃ (V : FuseEnvironment Fp Fq Vesta) (steps : List (StepDef Fp)), Prepared V steps ∧
    (∀ Q ≤ 2 ^ 80, ∀ s : Asker Fp Fq Vesta Q,
    4 * ((answers Q (univ : Finset Fp) univ).filter fun t => ∃ q x header,
      HashedFuse V.C V.n V.P V.app s t q ∧ ChildSound V.C V.n V.P V.app ⟨q, header⟩ ∧
      EncodedAs V.P.headerSize internalNode x header ∧ ¬ HasLeaves poseidonFp (Named s t) x).card <
      (answers Q (univ : Finset Fp) univ).card) ∧
    (∀ (s : Asker Fp Fq Vesta 8) (q : (Fin 8 → Answer Fp) → Proof Fp Fq Vesta)
      (x : (Fin 8 → Answer Fp) → Fp), (∀ t, ProofTyped V.C V.n (q t)) → ∀ A : Finset Fp,
      ∑ t ∈ (answers 8 A A).filter (fun t => HashedFuse V.C V.n V.P V.app s t (q t) ∧
          ¬ HasLeaves poseidonFp (Named s t) (x t)),
        (acceptedTriples V.C V.n V.P.headerSize V.app internalNode (q t) (x t)
          (fun w y z => ⟨w, y, z, 0, 0⟩) A).card ≤
      8 * 32859 * A.card ^ 23 * A.card ^ 3 + A.card ^ 24 * (16384 * A.card ^ 2)) ∧
    ∀ (S : Proof Fp Fq Vesta → Prop) q x, Witnessed V.n V.P.headerSize steps S q
        (oneElement V.P.headerSize x 3) → ∃ a b, x = hashOf poseidonFp [hashOf poseidonFp [a],
          hashOf poseidonFp [b]] := by
  obtain ⟨hr, hT⟩ := poseidon_rate
  obtain ⟨V, steps, hV, hC, hn, hh, hL, hI⟩ := C93_pasta
  rw [← hh] at hI
  refine ⟨V, steps, hV, fun Q hQ s => ?_, fun s q x hq A => ?_, fun S q x h => ?_⟩
  · have hb := C93_known wf_p hr hT hV.app hL (by omega) pasta_two.1 pasta_three hI s univ univ
    rw [show 16 * V.n + 55 = 32823 by rw [hn]] at hb
    have hc : 2 ^ 100 < (univ : Finset Fp).card := by
      rw [card_univ, ← Nat.card_eq_fintype_card, Nat.card_zmod]
      exact pasta_huge
    rw [answers_card]
    refine small_answers hc hQ (le_trans (card_le_card fun t ht => ?_) hb)
    rw [mem_filter] at ht ⊢
    obtain ⟨ht, q, x, header, hq, hs, he, hx⟩ := ht
    exact ⟨ht, q, x, header, hq, hs, .inl ⟨he, hx⟩⟩
  · have hb := C93_verified wf_p hr hT hV.app hL (by omega) pasta_two.1 pasta_three hI s A A A q x hq
      (ch := fun w y z => ⟨w, y, z, 0, 0⟩) (fun _ _ _ => ⟨rfl, rfl, rfl⟩)
    rw [show 16 * V.n + 55 = 32823 by rw [hn], show 8 * V.n = 16384 by rw [hn]] at hb
    exact hb.trans (le_of_eq (by ring))
  · obtain ⟨_, _, a, b, -, -, -, -, e⟩ := C93_read_node wf_p hr hT hV.app (by omega) pasta_two.1 hI h
    exact ⟨a, b, e⟩

/-- Non-vacuity of C93_honest, C93_program, C93_seed_progress and C93_fuse_progress: in the same
application, every proof of a node that was obtained from calls has leaves; the first call of the tests has
an outcome, and the third has one on two proofs that were obtained; and if all three return, the data is
the hash of hashes. -/
example : ∃ (V : FuseEnvironment Fp Fq Vesta) (steps : List (StepDef Fp)) (s1 s2 : StepDef Fp) (j1 j2 : ℕ),
    Prepared V steps ∧
    (∀ {q : Proof Fp Fq Vesta} {x : Fp}, Obtained V steps internalNode q x →
      ∃ S : Proof Fp Fq Vesta → Prop, HasLeaves poseidonFp S x) ∧
    (∃ r, V.seed s1.circ j1 ((witnessLeaf poseidonFp).adapter V.P.headerSize (42 : Fp)) r) ∧
    (∀ {leaf1 leaf2 : Proof Fp Fq Vesta} {d1 d2 : Fp}, Obtained V steps leafNode leaf1 d1 →
      Obtained V steps leafNode leaf2 d2 → ∃ r, V.fuse s2.circ j2
        ((hash2 poseidonFp).adapter V.P.headerSize ((d1, d2) : Fp × Fp)) leaf1 leaf2 r) ∧
    ∀ {q leaf1 leaf2 node : Proof Fp Fq Vesta} {d1 d2 d : Fp},
      V.seed s1.circ j1 ((witnessLeaf poseidonFp).adapter V.P.headerSize (42 : Fp)) (.ok (leaf1, d1)) →
      V.seed s1.circ j1 ((witnessLeaf poseidonFp).adapter V.P.headerSize (42 : Fp)) (.ok (leaf2, d2)) →
      V.fuse s2.circ j2 ((hash2 poseidonFp).adapter V.P.headerSize ((d1, d2) : Fp × Fp)) leaf1 leaf2
        (.ok (node, d)) → IsTrivial V q → UsablePoint V q q leaf1 → UsablePoint V q q leaf2 →
      UsablePoint V leaf1 leaf2 node →
      d = hashOf poseidonFp [hashOf poseidonFp [42], hashOf poseidonFp [42]] ∧
      ∀ ch, verify V.C V.n V.P.headerSize V.app internalNode node d ch = .ok true := by
  obtain ⟨hr, hT⟩ := poseidon_rate
  obtain ⟨V, steps, hV, hC, hn, hh, hL, hI⟩ := C93_pasta
  rw [← hh] at hI
  have hbig : 8 * V.n < Nat.card Fp := by
    rw [hn, Nat.card_zmod]; exact lt_trans (by norm_num) pasta_huge
  obtain ⟨s1, s2, rfl⟩ := List.length_eq_two.1 (hI.length_eq : steps.length = 2)
  obtain ⟨j1, e1, -⟩ := step_holds hV.app (i := .application 0) (c := s1.circ) rfl
  obtain ⟨j2, e2, -⟩ := step_holds hV.app (i := .application 1) (c := s2.circ) rfl
  refine ⟨V, _, s1, s2, j1, j2, hV, fun h => ⟨_, C93_honest wf_p hr hT hV.app hV.host hV.curve hbig hL
    (by omega) pasta_two.1 pasta_three hI (C82_made hV h)⟩, ?_, fun o1 o2 =>
    (C93_fuse_progress wf_p hr hT hV (by omega) hI rfl e2 o1 o2).1, fun h1 h2 h3 hq u1 u2 u3 => ?_⟩
  · exact (C93_seed_progress wf_p hr hT hV hC (by omega) hI rfl e1 42).1
  · obtain ⟨-, -, h, h'⟩ := C93_program wf_p hr hT hV (by omega) rfl rfl e1 e2 h1 h2 h3 hq u1 u2 u3
    exact ⟨h, fun ch => (h' ch).2.2⟩

end
end Ragu.Props

/-
Properties C41 and C42: registration of steps and positions in the registry.
-/
import Verif.Model.Pcd.App
import Verif.Props.Registry

set_option linter.unusedSectionVars false

namespace Ragu.Props
open Ragu Ragu.Circuit Ragu.Registry Ragu.Pcd Ragu.Spec
variable {F G : Type} [Field F] [DecidableEq F] [Field G] [DecidableEq G]

/-! ### C41 -/

/-- The builder after a sequence of `register` calls; a failing call consumes the builder. -/
def registerSteps (n : ℕ) : List (StepDef F) → AppBuilder F G → Except Pcd.Err (AppBuilder F G)
  | [], b => .ok b
  | s :: ss, b => do
    let b ← b.register n s
    registerSteps n ss b

/-- The header types a step names. -/
def headersOf (s : StepDef F) : List HeaderId := [s.output, s.left, s.right]

/-- No two of the header types share a suffix. -/
def Consistent (hs : List HeaderId) : Prop :=
  ∀ h ∈ hs, ∀ h' ∈ hs, h.suffix = h'.suffix → h.typeId = h'.typeId

/-- The steps declare the indices 0, 1, 2, … from `k` on. -/
def Sequential (k : ℕ) (ss : List (StepDef F)) : Prop :=
  ∀ (i : ℕ) (s : StepDef F), ss[i]? = some s → s.index = .application (k + i)

/-- All header types the steps name. -/
def allHeaders (ss : List (StepDef F)) : List HeaderId := ss.flatMap headersOf

/-- What the map of a builder records. -/
def MapInv (m : List (Suffix × ℕ)) (hs : List HeaderId) : Prop :=
  ∀ s t, m.lookup s = some t ↔ ⟨s, t⟩ ∈ hs

theorem preventDuplicate_spec {m : List (Suffix × ℕ)} {hs : List HeaderId} (hm : MapInv m hs)
    (h : HeaderId) :
    ((∀ h' ∈ hs, h'.suffix = h.suffix → h'.typeId = h.typeId) →
      ∃ m', preventDuplicate m h = .ok m' ∧ MapInv m' (hs ++ [h])) ∧
    ((∃ h' ∈ hs, h'.suffix = h.suffix ∧ h'.typeId ≠ h.typeId) →
      preventDuplicate m h = .error .initialization) := by
  refine ⟨fun hc => ?_, fun ⟨h', hh, he, hne⟩ => ?_⟩
  · rw [preventDuplicate]
    rcases hl : m.lookup h.suffix with _ | t
    · refine ⟨_, rfl, fun s t => ?_⟩
      rw [List.lookup_cons]
      by_cases hs' : s = h.suffix
      · subst hs'
        simp only [beq_self_eq_true, List.mem_append, List.mem_singleton]
        constructor
        · intro h1; cases h1; exact .inr rfl
        · rintro (h1 | h1)
          · have := (hm _ _).2 h1; rw [hl] at this; cases this
          · rw [← h1]
      · rw [show (s == h.suffix) = false by simpa using hs']
        simp only [List.mem_append, List.mem_singleton]
        rw [hm]
        constructor
        · exact .inl
        · rintro (h1 | h1)
          · exact h1
          · rw [← h1] at hs'; exact absurd rfl hs'
    · have hmem := (hm _ _).1 hl
      have ht : t = h.typeId := hc _ hmem rfl
      simp only [ht, ne_eq, not_true_eq_false, if_false]
      refine ⟨_, rfl, fun s t' => ?_⟩
      rw [hm, List.mem_append, List.mem_singleton]
      constructor
      · exact .inl
      · rintro (h1 | h1)
        · exact h1
        · rw [h1]; rw [ht] at hmem; exact hmem
  · rw [preventDuplicate, (hm h.suffix h'.typeId).2 (by rw [← he]; exact hh)]
    simp only [ne_eq, hne, not_false_eq_true, if_true]

/-- The state a builder is in after the steps `ss` were registered. -/
structure HoldsSteps (n : ℕ) (ss : List (StepDef F)) (b : AppBuilder F G) : Prop where
  count : b.numApplicationSteps = ss.length
  seq : Sequential 0 ss
  cons : Consistent (allHeaders ss)
  map : MapInv b.headerMap (allHeaders ss)
  apps : Compiled n (ss.map (·.circ)) b.native.applicationSteps
  ic : b.native.internalCircuits = []
  bo : b.native.bonding = []
  is : b.native.internalSteps = []
  nested : b.nested = {}

theorem holds_empty (n : ℕ) : HoldsSteps n ([] : List (StepDef F)) ({} : AppBuilder F G) :=
  ⟨rfl, fun _ _ h => by simp at h, fun _ h => by simp [allHeaders] at h, fun s t => by simp [allHeaders], .nil,
    rfl, rfl, rfl, rfl⟩

theorem allHeaders_append (ss : List (StepDef F)) (s : StepDef F) :
    allHeaders (ss ++ [s]) = ((allHeaders ss ++ [s.output]) ++ [s.left]) ++ [s.right] := by
  simp [allHeaders, headersOf]

theorem consistent_append {hs : List HeaderId} {h : HeaderId} :
    Consistent (hs ++ [h]) ↔
      Consistent hs ∧ ∀ h' ∈ hs, h'.suffix = h.suffix → h'.typeId = h.typeId := by
  constructor
  · intro hc
    exact ⟨fun a ha b hb => hc a (by simp [ha]) b (by simp [hb]),
      fun a ha => hc a (by simp [ha]) h (by simp)⟩
  · rintro ⟨h1, h2⟩ a ha b hb he
    rw [List.mem_append, List.mem_singleton] at ha hb
    rcases ha with ha | rfl <;> rcases hb with hb | rfl
    · exact h1 a ha b hb he
    · exact h2 a ha he
    · exact (h2 b hb he.symm).symm
    · rfl

/-- How a `register` call on a builder that holds the steps `ss` ends: the declared index is
checked first, then the three headers, then the circuit. -/
theorem register_spec {n : ℕ} {ss : List (StepDef F)} {b : AppBuilder F G} (hb : HoldsSteps n ss b)
    (s : StepDef F) :
    (∀ i, s.index = .internal i → b.register n s = .error .panic) ∧
    (∀ i, s.index = .application i → i ≠ ss.length → b.register n s = .error .initialization) ∧
    (s.index = .application ss.length → ¬Consistent (allHeaders (ss ++ [s])) →
      b.register n s = .error .initialization) ∧
    (s.index = .application ss.length → Consistent (allHeaders (ss ++ [s])) →
      ∀ e, circuitObject n s.circ = .error e → b.register n s = .error (.synth e)) ∧
    (s.index = .application ss.length → Consistent (allHeaders (ss ++ [s])) →
      ∀ o, circuitObject n s.circ = .ok o → ∃ b', b.register n s = .ok b' ∧
        HoldsSteps n (ss ++ [s]) b') := by
  have hsplit : s.index = .application ss.length → Consistent (allHeaders (ss ++ [s])) →
      ∃ m, MapInv m (allHeaders (ss ++ [s])) ∧ b.register n s = (do
        let native ← liftErr (b.native.registerCircuit n s.circ)
        .ok { b with
          native := native
          numApplicationSteps := b.numApplicationSteps + 1
          headerMap := m }) := by
    intro hi hc
    rw [allHeaders_append] at hc
    have h3 := consistent_append.1 hc
    have h2 := consistent_append.1 h3.1
    have h1 := consistent_append.1 h2.1
    obtain ⟨m1, e1, i1⟩ := (preventDuplicate_spec hb.map s.output).1 h1.2
    obtain ⟨m2, e2, i2⟩ := (preventDuplicate_spec i1 s.left).1 h2.2
    obtain ⟨m3, e3, i3⟩ := (preventDuplicate_spec i2 s.right).1 h3.2
    refine ⟨m3, by rw [allHeaders_append]; exact i3, ?_⟩
    rw [AppBuilder.register, hi, hb.count, Index.assertIndex, if_neg (by simp)]
    simp only [bind, Except.bind, e1, e2, e3]
  refine ⟨fun i hi => ?_, fun i hi hne => ?_, fun hi hc => ?_, fun hi hc e he => ?_,
    fun hi hc o ho => ?_⟩
  · rw [AppBuilder.register, hi, Index.assertIndex]; rfl
  · rw [AppBuilder.register, hi, hb.count, Index.assertIndex, if_pos hne]; rfl
  · rw [AppBuilder.register, hi, hb.count, Index.assertIndex, if_neg (by simp)]
    simp only [bind, Except.bind]
    have bad : ∀ (hs : List HeaderId) (h : HeaderId),
        ¬(∀ h' ∈ hs, h'.suffix = h.suffix → h'.typeId = h.typeId) →
        ∃ h' ∈ hs, h'.suffix = h.suffix ∧ h'.typeId ≠ h.typeId := by
      intro hs h hn; push Not at hn; exact hn
    rw [allHeaders_append, consistent_append] at hc
    by_cases c1 : ∀ h' ∈ allHeaders ss, h'.suffix = s.output.suffix → h'.typeId = s.output.typeId
    · obtain ⟨m1, e1, i1⟩ := (preventDuplicate_spec hb.map s.output).1 c1
      simp only [e1]
      have k1 : Consistent (allHeaders ss ++ [s.output]) := consistent_append.2 ⟨hb.cons, c1⟩
      by_cases c2 : ∀ h' ∈ allHeaders ss ++ [s.output],
          h'.suffix = s.left.suffix → h'.typeId = s.left.typeId
      · obtain ⟨m2, e2, i2⟩ := (preventDuplicate_spec i1 s.left).1 c2
        simp only [e2]
        have k2 : Consistent (allHeaders ss ++ [s.output] ++ [s.left]) :=
          consistent_append.2 ⟨k1, c2⟩
        have c3 := fun h => hc ⟨k2, h⟩
        rw [(preventDuplicate_spec i2 s.right).2 (bad _ _ c3)]
      · rw [(preventDuplicate_spec i1 s.left).2 (bad _ _ c2)]
    · rw [(preventDuplicate_spec hb.map s.output).2 (bad _ _ c1)]
  · obtain ⟨m, -, e⟩ := hsplit hi hc
    rw [e, Builder.registerCircuit, he]; rfl
  · obtain ⟨m, hm, e⟩ := hsplit hi hc
    rw [Builder.registerCircuit, ho] at e
    refine ⟨_, e, ⟨?_, ?_, hc, hm, ?_, hb.ic, hb.bo, hb.is, hb.nested⟩⟩
    · simp [hb.count]
    · intro i s' hs'
      rw [List.getElem?_append] at hs'
      split at hs'
      · exact hb.seq i s' hs'
      · rename_i hlt
        rw [List.getElem?_eq_some_iff] at hs'
        obtain ⟨h1, h2⟩ := hs'
        simp only [List.length_singleton] at h1
        have : i = ss.length := by omega
        subst this
        simp only [Nat.sub_self, List.getElem_cons_zero] at h2
        rw [← h2, hi, Nat.zero_add]
    · rw [List.map_append, List.map_singleton]
      exact compiled_append hb.apps ho

theorem registerSteps_holds {n : ℕ} : ∀ (ss ss0 : List (StepDef F)) (b b' : AppBuilder F G),
    HoldsSteps n ss0 b → registerSteps n ss b = .ok b' → HoldsSteps n (ss0 ++ ss) b'
  | [], ss0, b, b', hb, h => by cases h; simpa using hb
  | s :: ss, ss0, b, b', hb, h => by
    obtain ⟨h1, h2, h3, h4, h5⟩ := register_spec hb s
    rw [registerSteps] at h
    have hnext : ∃ b1, b.register n s = .ok b1 ∧ HoldsSteps n (ss0 ++ [s]) b1 := by
      rcases hi : s.index with i | i
      · rw [h1 i hi] at h; cases h
      · by_cases hne : i = ss0.length
        · rw [hne] at hi
          by_cases hc : Consistent (allHeaders (ss0 ++ [s]))
          · rcases ho : circuitObject n s.circ with e | o
            · rw [h4 hi hc e ho] at h; cases h
            · exact h5 hi hc o ho
          · rw [h3 hi hc] at h; cases h
        · rw [h2 i hi hne] at h; cases h
    obtain ⟨b1, e1, k1⟩ := hnext
    rw [e1] at h
    have := registerSteps_holds ss (ss0 ++ [s]) b1 b' k1 h
    rwa [List.append_assoc, List.singleton_append] at this

theorem registerSteps_total {n : ℕ} : ∀ (ss ss0 : List (StepDef F)) (b : AppBuilder F G),
    HoldsSteps n ss0 b → Sequential ss0.length ss → Consistent (allHeaders (ss0 ++ ss)) →
    (∀ s ∈ ss, ∃ o, circuitObject n s.circ = .ok o) → ∃ b', registerSteps n ss b = .ok b'
  | [], _, b, _, _, _, _ => ⟨b, rfl⟩
  | s :: ss, ss0, b, hb, hs, hc, ho => by
    have hi := hs 0 s rfl
    rw [Nat.add_zero] at hi
    obtain ⟨o, ho1⟩ := ho s (by simp)
    rw [show ss0 ++ s :: ss = (ss0 ++ [s]) ++ ss by simp] at hc
    have hc1 : Consistent (allHeaders (ss0 ++ [s])) := by
      intro a ha c hc'
      rw [allHeaders, List.flatMap_append] at hc
      exact hc a (List.mem_append_left _ ha) c (List.mem_append_left _ hc')
    obtain ⟨b1, e1, k1⟩ := (register_spec hb s).2.2.2.2 hi hc1 o ho1
    rw [registerSteps, e1]
    refine registerSteps_total ss (ss0 ++ [s]) b1 k1 ?_ hc (fun s' h' => ho s' (by simp [h']))
    intro i s' hs'
    rw [List.length_append, List.length_singleton, hs (i + 1) s' hs']
    congr 1; omega

/-- C41: a sequence of `register` calls on a new builder succeeds exactly when the steps declare the
indices 0, 1, 2, … in call order, no two different header types among all their outputs and inputs
share a suffix, and every step compiles. The builder then counts the steps, and holds the compiled
steps in call order. -/
theorem C41_register (n : ℕ) (ss : List (StepDef F)) :
    ((∃ b, registerSteps (G := G) n ss {} = .ok b) ↔
      (∀ (i : ℕ) (s : StepDef F), ss[i]? = some s → s.index = .application i) ∧ Consistent (allHeaders ss) ∧
        ∀ s ∈ ss, ∃ o, circuitObject n s.circ = .ok o) ∧
    ∀ b, registerSteps (G := G) n ss {} = .ok b → b.numApplicationSteps = ss.length ∧
      Compiled n (ss.map (·.circ)) b.native.applicationSteps := by
  refine ⟨⟨?_, ?_⟩, fun b hb => ?_⟩
  · rintro ⟨b, hb⟩
    have h := registerSteps_holds ss [] {} b (holds_empty n) hb
    rw [List.nil_append] at h
    refine ⟨fun i s hs => by rw [h.seq i s hs, Nat.zero_add], h.cons, fun s hs => ?_⟩
    have key : ∀ (l : List (StepDef F)) os, Compiled n (l.map (·.circ)) os → ∀ s ∈ l,
        ∃ o, circuitObject n s.circ = .ok o := by
      intro l
      induction l with
      | nil => intro os _ s hs; cases hs
      | cons a l ih =>
        intro os hc s hs
        rw [Compiled, List.map_cons] at hc
        cases hc with
        | cons h1 h2 =>
          rcases List.mem_cons.1 hs with rfl | hs
          · exact ⟨_, h1⟩
          · exact ih _ h2 s hs
    exact key ss _ h.apps s hs
  · rintro ⟨h1, h2, h3⟩
    refine registerSteps_total ss [] {} (holds_empty n) (fun i s hs => ?_) h2 h3
    rw [h1 i s hs, List.length_nil, Nat.zero_add]
  · have h := registerSteps_holds ss [] {} b (holds_empty n) hb
    rw [List.nil_append] at h
    exact ⟨h.count, h.apps⟩

/-- C41: how the next call ends after the calls `ss` succeeded. A step declaring any index other
than the number of steps registered so far is rejected with an error; so is one that names a header
type whose suffix is already that of another type, among the earlier steps or its own three headers;
otherwise the call ends as the compilation of the step does. -/
theorem C41_next {n : ℕ} {ss : List (StepDef F)} {b : AppBuilder F G}
    (hb : registerSteps n ss {} = .ok b) (s : StepDef F) :
    (∀ i, s.index = .application i → i ≠ ss.length → b.register n s = .error .initialization) ∧
    (s.index = .application ss.length →
      (∃ h ∈ allHeaders ss ++ headersOf s, ∃ h' ∈ allHeaders ss ++ headersOf s,
        h.suffix = h'.suffix ∧ h.typeId ≠ h'.typeId) → b.register n s = .error .initialization) ∧
    (s.index = .application ss.length → Consistent (allHeaders ss ++ headersOf s) →
      (∀ e, circuitObject n s.circ = .error e → b.register n s = .error (.synth e)) ∧
      (∀ o, circuitObject n s.circ = .ok o → ∃ b', b.register n s = .ok b')) := by
  have h := registerSteps_holds ss [] {} b (holds_empty n) hb
  rw [List.nil_append] at h
  have e : allHeaders (ss ++ [s]) = allHeaders ss ++ headersOf s := by
    simp [allHeaders, List.flatMap_append]
  obtain ⟨-, h2, h3, h4, h5⟩ := register_spec h s
  rw [e] at h3 h4 h5
  refine ⟨h2, fun hi ⟨a, ha, c, hc, he, hne⟩ => h3 hi fun hcon => hne (hcon a ha c hc he),
    fun hi hc => ⟨h4 hi hc, fun o ho => ?_⟩⟩
  obtain ⟨b', hb', -⟩ := h5 hi hc o ho
  exact ⟨b', hb'⟩

/-! ### C42 -/

/-- `o` is the mask leaving out the gates `skip`, …, `skip + num - 1`. -/
def MaskAt (n skip num : ℕ) (o : CircuitObject F) : Prop :=
  ∃ m, StageMask.new n skip num = .ok m ∧ o = m.object n

/-- `o` is the mask leaving out the gates from `skip` on. -/
def FinalMaskAt (n skip : ℕ) (o : CircuitObject F) : Prop :=
  ∃ m, StageMask.newFinal n skip = .ok m ∧ o = m.object n

/-- The object of each internal circuit, with the gates of each stage written out: `h` is the header
size, `T` the width of the sponge, `k` the logarithm of the size of the registry. -/
def NativePlaced (n h T k : ℕ) (cs : Circuits F G) : NativeId → CircuitObject F → Prop
  | .hashes1Circuit, o => circuitObject n (cs.hashes1 k) = .ok o
  | .hashes2Circuit, o => circuitObject n cs.hashes2 = .ok o
  | .innerCollapseCircuit, o => circuitObject n cs.innerCollapse = .ok o
  | .outerCollapseCircuit, o => circuitObject n cs.outerCollapse = .ok o
  | .computeVCircuit, o => circuitObject n cs.computeV = .ok o
  | .preambleStage, o => MaskAt n 1 (3 * h + 30) o
  | .outerErrorStage, o => MaskAt n (3 * h + 31) ((368 + T) / 2) o
  | .innerErrorStage, o => MaskAt n (3 * h + 31 + (368 + T) / 2) 399 o
  | .queryStage, o => MaskAt n (3 * h + 31) 23 o
  | .evalStage, o => MaskAt n (3 * h + 54) 18 o
  | .innerErrorFinalStaged, o => FinalMaskAt n (3 * h + 31 + (368 + T) / 2 + 399) o
  | .outerErrorFinalStaged, o => FinalMaskAt n (3 * h + 31 + (368 + T) / 2) o
  | .evalFinalStaged, o => FinalMaskAt n (3 * h + 72) o

/-- The same for the nested field. -/
def NestedPlaced (n : ℕ) (cs : Circuits F G) : NestedId → CircuitObject G → Prop
  | .endoscalingStep i, o => circuitObject n (cs.endoscaling i) = .ok o
  | .endoscalarStage, o => MaskAt n 1 64 o
  | .pointsStage, o => MaskAt n 65 46 o
  | .pointsFinalStaged, o => FinalMaskAt n 111 o
  | .bridgePreamble, o => MaskAt n 1 13 o
  | .bridgeSPrime, o => MaskAt n 14 2 o
  | .bridgeInnerError, o => MaskAt n 16 2 o
  | .bridgeOuterError, o => MaskAt n 18 1 o
  | .bridgeAB, o => MaskAt n 19 2 o
  | .bridgeQuery, o => MaskAt n 21 2 o
  | .bridgeF, o => MaskAt n 23 1 o
  | .bridgeEval, o => MaskAt n 24 1 o

/-- The object an entry of a registration loop stands for. -/
def EntryObj (n : ℕ) : Entry F → CircuitObject F → Prop
  | .circuit c, o => circuitObject n c = .ok o
  | .mask m, o => ∃ s, m = .ok s ∧ o = s.object n

/-- The entry is a circuit. -/
def Entry.IsCircuit : Entry F → Prop
  | .circuit _ => True
  | .mask _ => False

theorem registerEntries_masks {n : ℕ} : ∀ (es : List (Entry F)) (b r : Builder F),
    (∀ e ∈ es, ¬Entry.IsCircuit e) → registerEntries n b es = .ok r →
    ∃ os, List.Forall₂ (EntryObj n) es os ∧ r = { b with
      bonding := b.bonding ++ os }
  | [], b, r, _, h => by cases h; exact ⟨[], .nil, by simp⟩
  | .circuit c :: es, b, r, hm, h => absurd trivial (hm (.circuit c) (by simp))
  | .mask m :: es, b, r, hm, h => by
    rw [registerEntries, registerEntry] at h
    rcases m with e | s
    · cases h
    · obtain ⟨os, h1, h2⟩ := registerEntries_masks es (b.registerBonding (s.object n)) r
        (fun e he => hm e (by simp [he])) h
      refine ⟨s.object n :: os, .cons ⟨s, rfl, rfl⟩ h1, ?_⟩
      rw [h2, Builder.registerBonding]
      simp

theorem registerEntries_circuits {n : ℕ} : ∀ (es es' : List (Entry F)) (b r : Builder F),
    (∀ e ∈ es, Entry.IsCircuit e) → registerEntries n b (es ++ es') = .ok r →
    ∃ os, List.Forall₂ (EntryObj n) es os ∧ registerEntries n { b with
      internalCircuits := b.internalCircuits ++ os } es' = .ok r
  | [], es', b, r, _, h => ⟨[], .nil, by simpa using h⟩
  | .mask m :: es, es', b, r, hm, h => absurd (hm (.mask m) (by simp)) id
  | .circuit c :: es, es', b, r, hm, h => by
    rw [List.cons_append, registerEntries, registerEntry, Builder.registerInternalCircuit] at h
    rcases ho : circuitObject n c with e | o
    · rw [ho] at h; cases h
    · rw [ho] at h
      obtain ⟨os, h1, h2⟩ := registerEntries_circuits es es' { b with
        internalCircuits := b.internalCircuits ++ [o] } r (fun e he => hm e (by simp [he])) h
      refine ⟨o :: os, .cons ho h1, ?_⟩
      simpa using h2

theorem registerEntries_split {n : ℕ} {es es' : List (Entry F)} {b r : Builder F}
    (h1 : ∀ e ∈ es, Entry.IsCircuit e) (h2 : ∀ e ∈ es', ¬Entry.IsCircuit e)
    (h : registerEntries n b (es ++ es') = .ok r) :
    ∃ os os', List.Forall₂ (EntryObj n) es os ∧ List.Forall₂ (EntryObj n) es' os' ∧ r = { b with
      internalCircuits := b.internalCircuits ++ os
      bonding := b.bonding ++ os' } := by
  obtain ⟨os, k1, k2⟩ := registerEntries_circuits es es' b r h1 h
  obtain ⟨os', k3, k4⟩ := registerEntries_masks es' _ r h2 k2
  exact ⟨os, os', k1, k3, k4⟩

theorem registerEntries_total {n : ℕ} : ∀ (es : List (Entry F)) (b : Builder F),
    (∀ e ∈ es, ∃ o, EntryObj n e o) → ∃ r, registerEntries n b es = .ok r
  | [], b, _ => ⟨b, rfl⟩
  | .mask m :: es, b, h => by
    obtain ⟨o, s, rfl, -⟩ := h (.mask m) (by simp)
    obtain ⟨r, hr⟩ := registerEntries_total es (b.registerBonding (s.object n))
      fun e he => h e (by simp [he])
    exact ⟨r, by rw [registerEntries, registerEntry]; exact hr⟩
  | .circuit c :: es, b, h => by
    obtain ⟨o, ho⟩ := h (.circuit c) (by simp)
    have ho : circuitObject n c = .ok o := ho
    obtain ⟨r, hr⟩ := registerEntries_total es { b with
      internalCircuits := b.internalCircuits ++ [o] } fun e he => h e (by simp [he])
    exact ⟨r, by rw [registerEntries, registerEntry, Builder.registerInternalCircuit, ho]; exact hr⟩

theorem forall₂_get {α β : Type} {R : α → β → Prop} : ∀ {l : List α} {l' : List β},
    List.Forall₂ R l l' → ∀ {i : ℕ} {a : α}, l[i]? = some a → ∃ b, l'[i]? = some b ∧ R a b
  | _, _, .nil, i, a, h => by simp at h
  | _, _, .cons h1 _, 0, a, h => by cases h; exact ⟨_, rfl, h1⟩
  | _, _, .cons _ h2, i + 1, a, h => by
    simp only [List.getElem?_cons_succ] at h ⊢
    exact forall₂_get h2 h

theorem native_split (n h T k : ℕ) (cs : Circuits F G) :
    ∃ es es', NativeId.all.map (nativeEntry n h T k cs) = es ++ es' ∧
      (∀ e ∈ es, Entry.IsCircuit e) ∧ (∀ e ∈ es', ¬Entry.IsCircuit e) := by
  refine ⟨(NativeId.all.take 5).map (nativeEntry n h T k cs),
    (NativeId.all.drop 5).map (nativeEntry n h T k cs), by rw [← List.map_append]; rfl, ?_, ?_⟩
  · intro e he
    simp only [NativeId.all, List.take, List.map_cons, List.map_nil, List.mem_cons,
      List.not_mem_nil, or_false] at he
    rcases he with rfl | rfl | rfl | rfl | rfl <;> exact trivial
  · intro e he
    simp only [NativeId.all, List.drop, List.map_cons, List.map_nil, List.mem_cons,
      List.not_mem_nil, or_false] at he
    rcases he with rfl | rfl | rfl | rfl | rfl | rfl | rfl | rfl <;> exact id

theorem steps_eq : NUM_ENDOSCALING_STEPS = 9 := rfl

theorem nested_split (n : ℕ) (cs : Circuits F G) :
    ∃ es es', NestedId.all.map (nestedEntry n cs) = es ++ es' ∧
      (∀ e ∈ es, Entry.IsCircuit e) ∧ (∀ e ∈ es', ¬Entry.IsCircuit e) := by
  rw [NestedId.all, List.map_append]
  refine ⟨_, _, rfl, ?_, ?_⟩
  · intro e he
    simp only [List.map_map, List.mem_map, Function.comp_def] at he
    obtain ⟨i, -, rfl⟩ := he
    exact trivial
  · intro e he
    simp only [List.map_cons, List.map_nil, List.mem_cons, List.not_mem_nil, or_false] at he
    rcases he with rfl | rfl | rfl | rfl | rfl | rfl | rfl | rfl | rfl | rfl | rfl <;> exact id

theorem mask_at {n : ℕ} {c : Chain} {skip num : ℕ} (h1 : c.skipGates = skip)
    (h2 : c.numGates = num) {o : CircuitObject F} :
    EntryObj n (.mask (c.mask n)) o ↔ MaskAt n skip num o := by
  rw [EntryObj, MaskAt, Chain.mask, h1, h2]

theorem final_at {n : ℕ} {c : Chain} {skip : ℕ} (h1 : c.skipGates + c.numGates = skip)
    {o : CircuitObject F} : EntryObj n (.mask (c.finalMask n)) o ↔ FinalMaskAt n skip o := by
  rw [EntryObj, FinalMaskAt, Chain.finalMask, h1]

theorem native_entry {n h T k : ℕ} {cs : Circuits F G} (id : NativeId) {o : CircuitObject F} :
    EntryObj n (nativeEntry n h T k cs id) o ↔ NativePlaced n h T k cs id o := by
  have hp : (preambleStage h).skipGates = 1 ∧ (preambleStage h).numGates = 3 * h + 30 := by
    constructor
    · simp [preambleStage, stage, Chain.skipGates, Chain.numGates, Chain.values]
    · simp only [preambleStage, stage, Chain.numGates, Chain.values, NUM_WIRES]; omega
  have ho : (outerErrorStage h T).skipGates = 3 * h + 31 ∧
      (outerErrorStage h T).numGates = (368 + T) / 2 := by
    constructor
    · rw [outerErrorStage, stage, Chain.skipGates, hp.1, hp.2]; omega
    · simp only [outerErrorStage, stage, Chain.numGates, Chain.values, numErrorTerms, NUM_GROUPS]
      omega
  have hi : (innerErrorStage h T).skipGates = 3 * h + 31 + (368 + T) / 2 ∧
      (innerErrorStage h T).numGates = 399 := by
    constructor
    · rw [innerErrorStage, stage, Chain.skipGates, ho.1, ho.2]
    · simp [innerErrorStage, stage, Chain.numGates, Chain.values, numErrorTerms, NUM_GROUPS, GROUP_SIZE]
  have hq : (queryStage h).skipGates = 3 * h + 31 ∧ (queryStage h).numGates = 23 := by
    constructor
    · rw [queryStage, stage, Chain.skipGates, hp.1, hp.2]; omega
    · simp [queryStage, stage, Chain.numGates, Chain.values, NUM_INTERNAL_CIRCUITS]
  have he : (evalStage h).skipGates = 3 * h + 54 ∧ (evalStage h).numGates = 18 := by
    constructor
    · rw [evalStage, stage, Chain.skipGates, hq.1, hq.2]
    · simp [evalStage, stage, Chain.numGates, Chain.values]
  cases id with
  | hashes1Circuit => rfl
  | hashes2Circuit => rfl
  | innerCollapseCircuit => rfl
  | outerCollapseCircuit => rfl
  | computeVCircuit => rfl
  | preambleStage => exact mask_at hp.1 hp.2
  | innerErrorStage => exact mask_at hi.1 hi.2
  | outerErrorStage => exact mask_at ho.1 ho.2
  | queryStage => exact mask_at hq.1 hq.2
  | evalStage => exact mask_at he.1 he.2
  | innerErrorFinalStaged => exact final_at (by rw [hi.1, hi.2])
  | outerErrorFinalStaged => exact final_at (by rw [ho.1, ho.2])
  | evalFinalStaged => exact final_at (by rw [he.1, he.2])

theorem nested_entry {n : ℕ} {cs : Circuits F G} (id : NestedId) {o : CircuitObject G} :
    EntryObj n (nestedEntry n cs id) o ↔ NestedPlaced n cs id o := by
  cases id with
  | endoscalingStep i => rfl
  | endoscalarStage => exact mask_at rfl rfl
  | pointsStage => exact mask_at rfl rfl
  | pointsFinalStaged => exact final_at rfl
  | bridgePreamble => exact mask_at rfl rfl
  | bridgeSPrime => exact mask_at rfl rfl
  | bridgeInnerError => exact mask_at rfl rfl
  | bridgeOuterError => exact mask_at rfl rfl
  | bridgeAB => exact mask_at rfl rfl
  | bridgeQuery => exact mask_at rfl rfl
  | bridgeF => exact mask_at rfl rfl
  | bridgeEval => exact mask_at rfl rfl

theorem finalize_circuits {E : Env F} {n : ℕ} {b : Builder F} {r : Registry F}
    (hr : b.finalize E n = .ok r) : r.circuits = allCircuits b := by
  rw [Builder.finalize] at hr
  split at hr
  · cases hr
  · rcases hp : b.provisional E with _ | r0
    · rw [hp] at hr; cases hr
    · rw [hp] at hr
      simp only at hr
      rcases hd : r0.computeDigest E n with _ | k
      · rw [hd] at hr; cases hr
      · rw [hd] at hr; cases hr
        rw [Builder.provisional] at hp
        rcases hn : Fft.Domain.new E.consts b.log2Circuits with _ | d
        · rw [hn] at hp; cases hp
        · rw [hn] at hp; cases hp; rfl

/-- The logarithm of the size of the registry of an application with `steps` steps. -/
def registryLog (steps : ℕ) : ℕ := Nat.clog 2 (steps + 15)

theorem counts_eq (k : ℕ) : totalCircuitCounts k = (k + 15, registryLog k) := by
  rw [totalCircuitCounts, Fft.nextPow2, Nat.log_pow (by norm_num), registryLog]
  simp only [NUM_INTERNAL_STEPS, NUM_INTERNAL_CIRCUITS]

/-- What the builders hold that `finalize` turns into registries, and why its assertions hold. -/
theorem registries_spec {n h T : ℕ} {cs : Circuits F G} {ss : List (StepDef F)}
    {b : AppBuilder F G} (hb : HoldsSteps n ss b) :
    b.registries n h T cs ≠ .error .panic ∧
    ∀ bn be, b.registries n h T cs = .ok (bn, be) →
      ∃ os o1 o2 os', allCircuits bn = os ++ [o1, o2] ++ b.native.applicationSteps ∧
        List.Forall₂ (NativePlaced n h T (registryLog ss.length) cs) NativeId.all os ∧
        circuitObject n cs.rerandomize = .ok o1 ∧ circuitObject n cs.trivial = .ok o2 ∧
        allCircuits be = os' ∧ List.Forall₂ (NestedPlaced n cs) NestedId.all os' := by
  have hN : ∀ r, registerEntries n b.native
      (NativeId.all.map (nativeEntry n h T (registryLog ss.length) cs)) = .ok r →
      ∃ os os', r = { b.native with
        internalCircuits := os
        bonding := os' } ∧ List.Forall₂ (NativePlaced n h T (registryLog ss.length) cs)
          NativeId.all (os ++ os') := by
    intro r hr
    obtain ⟨es, es', e1, e2, e3⟩ := native_split n h T (registryLog ss.length) cs
    rw [e1] at hr
    obtain ⟨os, os', h1, h2, h3⟩ := registerEntries_split e2 e3 hr
    refine ⟨os, os', by rw [h3, hb.ic, hb.bo]; simp, ?_⟩
    have := List.rel_append h1 h2
    simp only at this
    rw [← e1, List.forall₂_map_left_iff] at this
    exact this.imp fun _ _ => (native_entry _).1
  have hNe : ∀ r, registerEntries n b.nested (NestedId.all.map (nestedEntry n cs)) = .ok r →
      ∃ os os', r = { ({} : Builder G) with
        internalCircuits := os
        bonding := os' } ∧ List.Forall₂ (NestedPlaced n cs) NestedId.all (os ++ os') := by
    intro r hr
    obtain ⟨es, es', e1, e2, e3⟩ := nested_split n cs
    rw [e1] at hr
    obtain ⟨os, os', h1, h2, h3⟩ := registerEntries_split e2 e3 hr
    refine ⟨os, os', by rw [h3, hb.nested]; simp, ?_⟩
    have := List.rel_append h1 h2
    simp only at this
    rw [← e1, List.forall₂_map_left_iff] at this
    exact this.imp fun _ _ => (nested_entry _).1
  have lenN : NativeId.all.length = 13 := rfl
  have lenNe : NestedId.all.length = 20 := rfl
  have hlen := hb.apps.length_eq
  rw [List.length_map] at hlen
  rw [AppBuilder.registries, hb.count, counts_eq, registerAllNative]
  rcases hr : registerEntries n b.native
    (NativeId.all.map (nativeEntry n h T (registryLog ss.length) cs)) with e | r
  · simp only [liftErr, bind, Except.bind]
    exact ⟨fun h => by simp at h, fun _ _ h => by simp at h⟩
  · obtain ⟨os, os', rfl, hf⟩ := hN r hr
    have hl := hf.length_eq
    rw [lenN, List.length_append] at hl
    simp only [liftErr, bind, Except.bind, Builder.numInternalCircuits, hb.ic, hb.bo,
      List.length_nil, NUM_INTERNAL_CIRCUITS]
    rw [if_pos (by omega)]
    simp only [Builder.registerInternalStep, bind, Except.bind, hb.is, List.nil_append]
    rcases h1 : circuitObject n cs.rerandomize with e | o1
    · simp only
      exact ⟨fun h => by simp at h, fun _ _ h => by simp at h⟩
    · rcases h2 : circuitObject n cs.trivial with e | o2
      · simp only
        exact ⟨fun h => by simp at h, fun _ _ h => by simp at h⟩
      · simp only
        have hcount : Builder.numCircuits ({
            internalCircuits := os
            bonding := os'
            internalSteps := [o1] ++ [o2]
            applicationSteps := b.native.applicationSteps } : Builder F) = ss.length + 15 := by
          simp only [Builder.numCircuits, Builder.numInternalCircuits, List.length_append,
            List.length_singleton]
          omega
        rw [if_neg (by rw [log2_eq, hcount, registryLog]; simp), if_neg (by rw [hcount]; simp),
          registerAllNested]
        rcases hr' : registerEntries n b.nested (NestedId.all.map (nestedEntry n cs)) with e | r'
        · simp only [liftErr, bind, Except.bind]
          exact ⟨fun h => by simp at h, fun _ _ h => by simp at h⟩
        · obtain ⟨ns, ns', rfl, hf'⟩ := hNe r' hr'
          have hl' := hf'.length_eq
          rw [lenNe, List.length_append] at hl'
          simp only [liftErr, bind, Except.bind, Builder.numInternalCircuits, hb.nested,
            List.length_nil, NESTED_INTERNAL_CIRCUITS, steps_eq]
          rw [if_pos (by omega)]
          refine ⟨fun h => by simp at h, fun bn be h => ?_⟩
          simp only [Except.ok.injEq, Prod.mk.injEq] at h
          obtain ⟨rfl, rfl⟩ := h
          exact ⟨os ++ os', o1, o2, ns ++ ns', by simp [allCircuits], hf, rfl, rfl,
            by simp [allCircuits], hf'⟩

/-- C42: the assertions of `finalize` about the numbers of circuits never fail, whatever steps were
registered and however the circuits turn out. -/
theorem C42_assertions {n h T : ℕ} {cs : Circuits F G} {ss : List (StepDef F)}
    {b : AppBuilder F G} (hb : registerSteps n ss {} = .ok b) :
    b.registries n h T cs ≠ .error .panic := by
  have h := registerSteps_holds ss [] {} b (holds_empty n) hb
  rw [List.nil_append] at h
  exact (registries_spec h).1

theorem native_index : ∀ id : NativeId, ∃ i, id.circuitIndex = some i ∧ i < 13 ∧
    NativeId.all[i]? = some id := by
  intro id
  cases id
  · exact ⟨0, rfl, by omega, rfl⟩
  · exact ⟨1, rfl, by omega, rfl⟩
  · exact ⟨2, rfl, by omega, rfl⟩
  · exact ⟨3, rfl, by omega, rfl⟩
  · exact ⟨4, rfl, by omega, rfl⟩
  · exact ⟨5, rfl, by omega, rfl⟩
  · exact ⟨6, rfl, by omega, rfl⟩
  · exact ⟨7, rfl, by omega, rfl⟩
  · exact ⟨8, rfl, by omega, rfl⟩
  · exact ⟨9, rfl, by omega, rfl⟩
  · exact ⟨10, rfl, by omega, rfl⟩
  · exact ⟨11, rfl, by omega, rfl⟩
  · exact ⟨12, rfl, by omega, rfl⟩

/-- The identifiers of the nested circuits that exist. -/
def NestedExists : NestedId → Prop
  | .endoscalingStep i => i < 9
  | _ => True

theorem nested_index {id : NestedId} (h : NestedExists id) : ∃ i, id.circuitIndex = some i ∧
    NestedId.all[i]? = some id := by
  cases id with
  | endoscalingStep i =>
    have h : i < 9 := h
    refine ⟨i, ?_, ?_⟩ <;> interval_cases i <;> rfl
  | endoscalarStage => exact ⟨9, rfl, rfl⟩
  | pointsStage => exact ⟨10, rfl, rfl⟩
  | pointsFinalStaged => exact ⟨11, rfl, rfl⟩
  | bridgePreamble => exact ⟨12, rfl, rfl⟩
  | bridgeSPrime => exact ⟨13, rfl, rfl⟩
  | bridgeInnerError => exact ⟨14, rfl, rfl⟩
  | bridgeOuterError => exact ⟨15, rfl, rfl⟩
  | bridgeAB => exact ⟨16, rfl, rfl⟩
  | bridgeQuery => exact ⟨17, rfl, rfl⟩
  | bridgeF => exact ⟨18, rfl, rfl⟩
  | bridgeEval => exact ⟨19, rfl, rfl⟩

/-- The circuit of an internal step. -/
def internalStepCircuit (cs : Circuits F G) : InternalStep → Circ F
  | .rerandomize => cs.rerandomize
  | .trivial => cs.trivial

/-- C42: in a finalized application, the position computed for an internal circuit holds the object
of that circuit; that computed for an internal step holds the compiled internal step; that computed
for the `i`-th application step holds the compiled `i`-th step registered; an application step out of
range is an error. The registry holds nothing else. -/
theorem C42_positions {E : Env F} {E' : Env G} {n h T : ℕ} {cs : Circuits F G}
    {ss : List (StepDef F)} {b : AppBuilder F G} (hb : registerSteps n ss {} = .ok b)
    {app : Application F G} (ha : b.finalize E E' n h T cs = .ok app) :
    app.numApplicationSteps = ss.length ∧
    app.nativeRegistry.circuits.length = 15 + ss.length ∧
    (∀ id : NativeId, ∃ i o, id.circuitIndex = some i ∧ app.nativeRegistry.circuits[i]? = some o ∧
      NativePlaced n h T (registryLog ss.length) cs id o) ∧
    (∀ s : InternalStep, ∃ i o, (Index.internal s).circuitIndex app.numApplicationSteps = .ok i ∧
      app.nativeRegistry.circuits[i]? = some o ∧
      circuitObject n (internalStepCircuit cs s) = .ok o) ∧
    (∀ (k : ℕ) (s : StepDef F), ss[k]? = some s → ∃ i o,
      (Index.application k).circuitIndex app.numApplicationSteps = .ok i ∧
      app.nativeRegistry.circuits[i]? = some o ∧ circuitObject n s.circ = .ok o) ∧
    (∀ k, ss.length ≤ k →
      (Index.application k).circuitIndex app.numApplicationSteps = .error .initialization) := by
  have hh := registerSteps_holds ss [] {} b (holds_empty n) hb
  rw [List.nil_append] at hh
  rw [AppBuilder.finalize] at ha
  rcases hr : b.registries n h T cs with e | ⟨bn, be⟩
  · rw [hr] at ha; cases ha
  · rw [hr] at ha
    obtain ⟨os, o1, o2, os', h1, h2, h3, h4, -, -⟩ := (registries_spec hh).2 bn be hr
    simp only [bind, Except.bind] at ha
    rcases hn : bn.finalize E n with e | r
    · rw [hn] at ha; cases e <;> cases ha
    · rw [hn] at ha
      simp only [liftFinalize] at ha
      rcases he : be.finalize E' n with e | r'
      · rw [he] at ha; cases e <;> cases ha
      · rw [he] at ha
        cases ha
        simp only [hh.count]
        have hc := finalize_circuits hn
        rw [h1] at hc
        have l1 : os.length = 13 := h2.length_eq.symm
        have l2 : b.native.applicationSteps.length = ss.length := by
          have := hh.apps.length_eq; rw [List.length_map] at this; exact this.symm
        refine ⟨trivial, ?_, fun id => ?_, fun s => ?_, fun k s hs => ?_, fun k hk => ?_⟩
        · rw [hc, List.length_append, List.length_append, l1, l2]; simp
        · obtain ⟨i, i1, i2, i3⟩ := native_index id
          obtain ⟨o, k1, k2⟩ := forall₂_get h2 i3
          refine ⟨i, o, i1, ?_, k2⟩
          rw [hc, List.append_assoc, List.getElem?_append_left (by omega), k1]
        · cases s with
          | rerandomize =>
            refine ⟨13, o1, rfl, ?_, h3⟩
            rw [hc, List.append_assoc, List.getElem?_append_right (by omega), l1]; rfl
          | trivial =>
            refine ⟨14, o2, rfl, ?_, h4⟩
            rw [hc, List.append_assoc, List.getElem?_append_right (by omega), l1]; rfl
        · have hk := (List.getElem?_eq_some_iff.1 hs).1
          obtain ⟨o, k1, k2⟩ := forall₂_get hh.apps (i := k) (a := s.circ)
            (by rw [List.getElem?_map, hs]; rfl)
          refine ⟨15 + k, o, ?_, ?_, k2⟩
          · rw [Index.circuitIndex, if_neg (by omega)]; rfl
          · rw [hc, List.getElem?_append_right (by simp [l1]), ← k1]
            congr 1
            simp [l1]
        · rw [Index.circuitIndex, if_pos (by omega)]

/-- C42: the same for the nested registry, which depends on the steps in no way. -/
theorem C42_nested {E : Env F} {E' : Env G} {n h T : ℕ} {cs : Circuits F G}
    {ss : List (StepDef F)} {b : AppBuilder F G} (hb : registerSteps n ss {} = .ok b)
    {app : Application F G} (ha : b.finalize E E' n h T cs = .ok app) :
    app.nestedRegistry.circuits.length = 20 ∧
    ∀ id : NestedId, NestedExists id → ∃ i o, id.circuitIndex = some i ∧
      app.nestedRegistry.circuits[i]? = some o ∧ NestedPlaced n cs id o := by
  have hh := registerSteps_holds ss [] {} b (holds_empty n) hb
  rw [List.nil_append] at hh
  rw [AppBuilder.finalize] at ha
  rcases hr : b.registries n h T cs with e | ⟨bn, be⟩
  · rw [hr] at ha; cases ha
  · rw [hr] at ha
    obtain ⟨os, o1, o2, os', -, -, -, -, h1, h2⟩ := (registries_spec hh).2 bn be hr
    simp only [bind, Except.bind] at ha
    rcases hn : bn.finalize E n with e | r
    · rw [hn] at ha; cases e <;> cases ha
    · rw [hn] at ha
      simp only [liftFinalize] at ha
      rcases he : be.finalize E' n with e | r'
      · rw [he] at ha; cases e <;> cases ha
      · rw [he] at ha
        cases ha
        have hc := finalize_circuits he
        rw [h1] at hc
        refine ⟨by simp only [hc]; exact h2.length_eq.symm, fun id hid => ?_⟩
        obtain ⟨i, i1, i2⟩ := nested_index hid
        obtain ⟨o, k1, k2⟩ := forall₂_get h2 i2
        exact ⟨i, o, i1, by simp only [hc, k1], k2⟩

/-- Something with a position in the native registry. -/
inductive Occupant where
  | circuit (id : NativeId)
  | step (s : Index)
deriving DecidableEq

/-- The position computed for it in an application of `k` steps. -/
def Occupant.position (k : ℕ) : Occupant → Option ℕ
  | .circuit id => id.circuitIndex
  | .step s => (s.circuitIndex k).toOption

/-- C42: no two internal circuits, internal steps or application steps have the same position. -/
theorem C42_distinct (k : ℕ) (a c : Occupant) (i : ℕ) (ha : a.position k = some i)
    (hc : c.position k = some i) : a = c := by
  have lo : ∀ id : NativeId, Occupant.position k (.circuit id) = some i →
      i < 13 ∧ NativeId.all[i]? = some id := by
    intro id h
    obtain ⟨j, j1, j2, j3⟩ := native_index id
    rw [Occupant.position, j1] at h
    cases h; exact ⟨j2, j3⟩
  have int : ∀ s, Occupant.position k (.step (.internal s)) = some i → i = 13 + s.discr := by
    intro s h; cases h; rfl
  have ap : ∀ m, Occupant.position k (.step (.application m)) = some i → i = 15 + m := by
    intro m h
    rw [Occupant.position, Index.circuitIndex] at h
    split_ifs at h <;> cases h
    rfl
  have d : ∀ s : InternalStep, s.discr < 2 := by intro s; cases s <;> decide
  rcases a with id | s | m <;> rcases c with id' | s' | m'
  · have h1 := (lo _ ha).2; rw [(lo _ hc).2] at h1; cases h1; rfl
  · have := (lo _ ha).1; have := int _ hc; omega
  · have := (lo _ ha).1; have := ap _ hc; omega
  · have := (lo _ hc).1; have := int _ ha; omega
  · have h1 := int _ ha; have h2 := int _ hc
    cases s <;> cases s' <;> simp [InternalStep.discr] at h1 h2 <;> first | rfl | omega
  · have := int _ ha; have := ap _ hc; have := d s; omega
  · have := (lo _ hc).1; have := ap _ ha; omega
  · have := int _ hc; have := ap _ ha; have := d s'; omega
  · have h1 := ap _ ha; have h2 := ap _ hc
    have : m = m' := by omega
    rw [this]

/-- C42: no two nested circuits have the same position. -/
theorem C42_nested_distinct (a c : NestedId) (i : ℕ) (ha : a.circuitIndex = some i)
    (hc : c.circuitIndex = some i) : a = c := by
  rw [NestedId.circuitIndex, List.findIdx?_eq_some_iff_getElem] at ha hc
  obtain ⟨h1, h2, -⟩ := ha
  obtain ⟨_, h3, -⟩ := hc
  rw [beq_iff_eq] at h2 h3
  rw [← h2, ← h3]

theorem allImplement_exists {n : ℕ} : ∀ (os : List (CircuitObject F)),
    (∀ o ∈ os, ∃ s, Implements n o s) → ∃ ss, AllImplement n os ss
  | [], _ => ⟨[], .nil⟩
  | o :: os, h => by
    obtain ⟨s, hs⟩ := h o (by simp)
    obtain ⟨ss, hss⟩ := allImplement_exists os fun o' h' => h o' (by simp [h'])
    exact ⟨s :: ss, .cons hs hss⟩

theorem maskAt_implements {n skip num : ℕ} {o : CircuitObject F} (h : MaskAt n skip num o) :
    ∃ s, Implements n o s := by
  obtain ⟨m, hm, rfl⟩ := h
  rw [StageMask.new] at hm
  split_ifs at hm with h1 h2
  cases hm
  exact ⟨_, mask_implements h1 (by simp only; omega)⟩

theorem finalMaskAt_implements {n skip : ℕ} {o : CircuitObject F} (h : FinalMaskAt n skip o) :
    ∃ s, Implements n o s := by
  obtain ⟨m, hm, rfl⟩ := h
  rw [StageMask.newFinal] at hm
  split_ifs at hm with h1 h2
  cases hm
  exact ⟨_, mask_implements h1 (by simp only; omega)⟩

theorem maskAt_exists {n skip num : ℕ} (h0 : 0 < skip) (h : skip + num ≤ n) :
    ∃ o : CircuitObject F, MaskAt n skip num o :=
  ⟨_, ⟨skip, num⟩, by rw [StageMask.new, if_pos h0, if_neg (by omega)], rfl⟩

theorem finalMaskAt_exists {n skip : ℕ} (h0 : 0 < skip) (h : skip ≤ n) :
    ∃ o : CircuitObject F, FinalMaskAt n skip o :=
  ⟨_, ⟨skip, n - skip⟩, by rw [StageMask.newFinal, if_pos h0, if_neg (by omega)], rfl⟩

/-- A circuit uses its wires properly and compiles at the rank. -/
def Compiles (n : ℕ) (c : Circ F) : Prop := c.WellUsed ∧ ∃ o, circuitObject n c = .ok o

/-- All internal circuits and steps of an application of `k` steps compile. -/
structure CircuitsOk (n k : ℕ) (cs : Circuits F G) : Prop where
  hashes1 : Compiles n (cs.hashes1 (registryLog k))
  hashes2 : Compiles n cs.hashes2
  inner : Compiles n cs.innerCollapse
  outer : Compiles n cs.outerCollapse
  computeV : Compiles n cs.computeV
  rerandomize : Compiles n cs.rerandomize
  trivial : Compiles n cs.trivial
  endoscaling : ∀ i < 9, Compiles n (cs.endoscaling i)

theorem compiles_implements {n : ℕ} {c : Circ F} (h : Compiles n c) {o : CircuitObject F}
    (ho : circuitObject n c = .ok o) : ∃ s, Implements n o s :=
  ⟨_, circuit_implements h.1 ho⟩

theorem nested_exists {id : NestedId} (h : id ∈ NestedId.all) : NestedExists id := by
  rw [NestedId.all, List.mem_append] at h
  rcases h with h | h
  · obtain ⟨i, hi, rfl⟩ := List.mem_map.1 h
    exact List.mem_range.1 hi
  · simp only [List.mem_cons, List.not_mem_nil, or_false] at h
    rcases h with rfl | rfl | rfl | rfl | rfl | rfl | rfl | rfl | rfl | rfl | rfl <;> exact trivial

theorem forall₂_mem {α β : Type} {R : α → β → Prop} : ∀ {l : List α} {l' : List β},
    List.Forall₂ R l l' → ∀ b ∈ l', ∃ a ∈ l, R a b
  | _, _, .nil, b, h => by cases h
  | _, _, .cons h1 h2, b, h => by
    rcases List.mem_cons.1 h with rfl | h
    · exact ⟨_, by simp, h1⟩
    · obtain ⟨a, ha, hr⟩ := forall₂_mem h2 b h
      exact ⟨a, by simp [ha], hr⟩

/-- Every object of the two registries implements a polynomial. -/
theorem registries_implement {n h T : ℕ} {cs : Circuits F G} {ss : List (StepDef F)}
    {b : AppBuilder F G} (hh : HoldsSteps n ss b) (hu : ∀ s ∈ ss, s.circ.WellUsed)
    (hcs : CircuitsOk n ss.length cs) {bn : Builder F} {be : Builder G}
    (hreg : b.registries n h T cs = .ok (bn, be)) :
    (∀ o ∈ allCircuits bn, ∃ s, Implements n o s) ∧ ∀ o ∈ allCircuits be, ∃ s, Implements n o s := by
  obtain ⟨os, o1', o2', os', h1, h2, h3, h4, h5, h6⟩ := (registries_spec hh).2 bn be hreg
  constructor
  · intro o ho
    rw [h1, List.mem_append, List.mem_append] at ho
    rcases ho with (ho | ho) | ho
    · obtain ⟨id, -, hid⟩ := forall₂_mem h2 o ho
      cases id with
      | hashes1Circuit => exact compiles_implements hcs.hashes1 hid
      | hashes2Circuit => exact compiles_implements hcs.hashes2 hid
      | innerCollapseCircuit => exact compiles_implements hcs.inner hid
      | outerCollapseCircuit => exact compiles_implements hcs.outer hid
      | computeVCircuit => exact compiles_implements hcs.computeV hid
      | preambleStage => exact maskAt_implements hid
      | innerErrorStage => exact maskAt_implements hid
      | outerErrorStage => exact maskAt_implements hid
      | queryStage => exact maskAt_implements hid
      | evalStage => exact maskAt_implements hid
      | innerErrorFinalStaged => exact finalMaskAt_implements hid
      | outerErrorFinalStaged => exact finalMaskAt_implements hid
      | evalFinalStaged => exact finalMaskAt_implements hid
    · simp only [List.mem_cons, List.not_mem_nil, or_false] at ho
      rcases ho with rfl | rfl
      · exact compiles_implements hcs.rerandomize h3
      · exact compiles_implements hcs.trivial h4
    · obtain ⟨c, hc, hco⟩ := forall₂_mem hh.apps o ho
      obtain ⟨s, hs, rfl⟩ := List.mem_map.1 hc
      exact ⟨_, circuit_implements (hu s hs) hco⟩
  · intro o ho
    rw [h5] at ho
    obtain ⟨id, hid, hp⟩ := forall₂_mem h6 o ho
    have hid := nested_exists hid
    cases id with
    | endoscalingStep i => exact compiles_implements (hcs.endoscaling i hid) hp
    | pointsFinalStaged => exact finalMaskAt_implements hp
    | _ => exact maskAt_implements hp

/-- C42: finalisation succeeds whenever the internal circuits and the registered steps are well-formed
and compile, the stages fit (`3 HEADER_SIZE + (368 + T)/2 + 430` gates; at the
production rank of 2048 gates with `T = 5` that is `HEADER_SIZE ≤ 477`) and there are at most `4n` circuits;
with more it reports the limit. -/
theorem C42_total {E : Env F} {E' : Env G} (hE : EnvOk E) (hE' : EnvOk E') {n q h T : ℕ}
    (hq : 4 * n = 2 ^ q) (hS : q ≤ E.consts.S) (hS' : q ≤ E'.consts.S) (hk : KeysDistinct E q)
    (hk' : KeysDistinct E' q) {cs : Circuits F G} {ss : List (StepDef F)} {b : AppBuilder F G}
    (hb : registerSteps n ss {} = .ok b) (hu : ∀ s ∈ ss, s.circ.WellUsed)
    (hcs : CircuitsOk n ss.length cs) (hfit : 3 * h + (368 + T) / 2 + 430 ≤ n) :
    (ss.length + 15 ≤ 4 * n → ∃ app, b.finalize E E' n h T cs = .ok app) ∧
    (4 * n < ss.length + 15 → b.finalize E E' n h T cs = .error (.circuitBound (4 * n))) := by
  have hh := registerSteps_holds ss [] {} b (holds_empty n) hb
  rw [List.nil_append] at hh
  -- the registration loops succeed
  have e1 : ∀ e ∈ NativeId.all.map (nativeEntry n h T (registryLog ss.length) cs),
      ∃ o, EntryObj n e o := by
    intro e he
    obtain ⟨id, -, rfl⟩ := List.mem_map.1 he
    simp only [native_entry]
    cases id with
    | hashes1Circuit => exact hcs.hashes1.2
    | hashes2Circuit => exact hcs.hashes2.2
    | innerCollapseCircuit => exact hcs.inner.2
    | outerCollapseCircuit => exact hcs.outer.2
    | computeVCircuit => exact hcs.computeV.2
    | preambleStage => exact maskAt_exists (by omega) (by omega)
    | innerErrorStage => exact maskAt_exists (by omega) (by omega)
    | outerErrorStage => exact maskAt_exists (by omega) (by omega)
    | queryStage => exact maskAt_exists (by omega) (by omega)
    | evalStage => exact maskAt_exists (by omega) (by omega)
    | innerErrorFinalStaged => exact finalMaskAt_exists (by omega) (by omega)
    | outerErrorFinalStaged => exact finalMaskAt_exists (by omega) (by omega)
    | evalFinalStaged => exact finalMaskAt_exists (by omega) (by omega)
  have e2 : ∀ e ∈ NestedId.all.map (nestedEntry n cs), ∃ o, EntryObj n e o := by
    intro e he
    obtain ⟨id, hid, rfl⟩ := List.mem_map.1 he
    have hid := nested_exists hid
    simp only [nested_entry]
    cases id with
    | endoscalingStep i => exact (hcs.endoscaling i hid).2
    | pointsFinalStaged => exact finalMaskAt_exists (by omega) (by omega)
    | _ => exact maskAt_exists (by omega) (by omega)
  obtain ⟨r1, hr1⟩ := registerEntries_total _ b.native e1
  obtain ⟨r2, hr2⟩ := registerEntries_total _ b.nested e2
  obtain ⟨o1, ho1⟩ := hcs.rerandomize.2
  obtain ⟨o2, ho2⟩ := hcs.trivial.2
  have hex : ∃ bs, b.registries n h T cs = .ok bs := by
    rcases hreg : b.registries n h T cs with e | bs
    · exfalso
      have hne := (registries_spec (h := h) (T := T) (cs := cs) hh).1
      apply hne
      rw [AppBuilder.registries, hh.count, counts_eq, registerAllNative, hr1] at hreg ⊢
      simp only [liftErr, bind, Except.bind, Builder.registerInternalStep] at hreg ⊢
      split_ifs at hreg ⊢ with h1
      · simp only [ho1, ho2] at hreg ⊢
        split_ifs at hreg ⊢ with h2 h3
        · rfl
        · rfl
        · rw [registerAllNested, hr2] at hreg ⊢
          simp only [liftErr, bind, Except.bind] at hreg ⊢
          split_ifs at hreg ⊢ with h4
          rfl
      · rfl
    · exact ⟨bs, rfl⟩
  obtain ⟨⟨bn, be⟩, hreg⟩ := hex
  obtain ⟨os, o1', o2', os', h1, h2, h3, h4, h5, h6⟩ := (registries_spec hh).2 bn be hreg
  have cn : bn.numCircuits = ss.length + 15 := by
    have l1 : os.length = 13 := h2.length_eq.symm
    have l2 : b.native.applicationSteps.length = ss.length := by
      have := hh.apps.length_eq; rw [List.length_map] at this; exact this.symm
    rw [← allCircuits_length, h1, List.length_append, List.length_append, l1, l2]
    simp only [List.length_cons, List.length_nil]; omega
  have ce : be.numCircuits = 20 := by
    rw [← allCircuits_length, h5]; exact h6.length_eq.symm
  obtain ⟨in1, in2⟩ := registries_implement hh hu hcs hreg
  obtain ⟨s1, hs1⟩ := allImplement_exists _ in1
  obtain ⟨s2, hs2⟩ := allImplement_exists _ in2
  rw [AppBuilder.finalize, hreg]
  refine ⟨fun hcap => ?_, fun hcap => ?_⟩
  · obtain ⟨rn, hrn, -⟩ := finalize_good (⟨hE, hq, hS, hk, hs1⟩ : Ready E n q bn s1) (by omega)
    obtain ⟨re, hre, -⟩ := finalize_good (⟨hE', hq, hS', hk', hs2⟩ : Ready E' n q be s2) (by omega)
    exact ⟨⟨rn, re, b.numApplicationSteps⟩, by simp only [bind, Except.bind, hrn, hre, liftFinalize]⟩
  · have : bn.finalize E n = .error (.circuitBound (4 * n)) := by
      rw [Builder.finalize, if_pos (by omega)]
    simp only [bind, Except.bind, this, liftFinalize]

/-! ### A concrete application -/

/-- A field with enough roots of unity for a rank the internal stages fit. -/
def env12289 : Env (ZMod 12289) where
  consts := ⟨12, 1331, 7968, 6145⟩
  threads := 2
  lowU64 := ZMod.val
  blake l := l.reverse
  toRepr f := [f.val]
  fromUniform l := (l.sum : ℕ)

theorem env12289_ok : EnvOk env12289 := by
  refine ⟨⟨?_, by decide +kernel, by decide +kernel⟩, by decide, by decide⟩
  have h : (1331 : ZMod 12289) ^ 2 ^ 11 ≠ 1 := by
    intro h
    have h : ((1331 ^ 2048 : ℕ) : ZMod 12289) = ((1 : ℕ) : ZMod 12289) := by
      push_cast; exact h
    rw [ZMod.natCast_eq_natCast_iff'] at h
    revert h; decide +kernel
  have h' : (1331 : ZMod 12289) ^ 2 ^ (11 + 1) = 1 := by
    have : ((1331 ^ 4096 : ℕ) : ZMod 12289) = ((1 : ℕ) : ZMod 12289) := by
      rw [ZMod.natCast_eq_natCast_iff']; decide +kernel
    push_cast at this; exact this
  have := IsPrimitiveRoot.orderOf (1331 : ZMod 12289)
  rwa [orderOf_eq_prime_pow h h'] at this

theorem env12289_keys (k : ℕ) : KeysDistinct env12289 k := by
  intro a b _ _ h
  have h := ZMod.val_injective 12289 h
  have h5 : (5 : ZMod 12289) ≠ 0 := by decide +kernel
  refine mul_left_cancel₀ h5 ?_
  linear_combination h

/-- A circuit with a gate and a constraint. -/
def tiny : Circ (ZMod 12289) where
  body := .mul 3 5 15 <| .enforce [.term (.idx 0) .one, .term (.idx 1) .two] .done
  outs := [.idx 2]
  cleanup := [0, 1, 2]

theorem tiny_ok : Compiles 1024 tiny :=
  ⟨⟨_, rfl, by decide⟩, _, show (intoCircuitObject 1024 tiny).map (intoRawCircuitObject 1024 tiny) = _ from rfl⟩

/-- Two steps: the second takes the output of the first. -/
def demoSteps : List (StepDef (ZMod 12289)) :=
  [{ index := .application 0, left := ⟨.internal 0, 0⟩, right := ⟨.internal 0, 0⟩,
     output := ⟨.application 3, 7⟩, circ := tiny },
   { index := .application 1, left := ⟨.application 3, 7⟩, right := ⟨.internal 0, 0⟩,
     output := ⟨.application 4, 8⟩, circ := tiny }]

def demoCircuits : Circuits (ZMod 12289) (ZMod 12289) :=
  ⟨fun _ => tiny, tiny, tiny, tiny, tiny, tiny, tiny, fun _ => tiny⟩

theorem demoSteps_registered :
    ∃ b : AppBuilder (ZMod 12289) (ZMod 12289), registerSteps 1024 demoSteps {} = .ok b := by
  refine (C41_register 1024 demoSteps).1.2 ⟨?_, ?_, ?_⟩
  · intro i s h
    match i, h with
    | 0, h => cases h; rfl
    | 1, h => cases h; rfl
  · unfold Consistent allHeaders demoSteps headersOf
    decide
  · intro s hs
    simp only [demoSteps, List.mem_cons, List.not_mem_nil, or_false] at hs
    rcases hs with rfl | rfl <;> exact tiny_ok.2

-- the hypotheses of the theorems of C42 are met: an application with two steps is finalized
example : ∃ (b : AppBuilder (ZMod 12289) (ZMod 12289)) (app : Application _ _),
    registerSteps 1024 demoSteps {} = .ok b ∧
    b.finalize env12289 env12289 1024 4 5 demoCircuits = .ok app := by
  obtain ⟨b, hb⟩ := demoSteps_registered
  obtain ⟨app, ha⟩ := (C42_total env12289_ok env12289_ok (n := 1024) (q := 12) (h := 4) (T := 5)
    (by norm_num) (by decide) (by decide) (env12289_keys _) (env12289_keys _) (cs := demoCircuits)
    hb (by
      intro s hs
      simp only [demoSteps, List.mem_cons, List.not_mem_nil, or_false] at hs
      rcases hs with rfl | rfl <;> exact tiny_ok.1)
    ⟨tiny_ok, tiny_ok, tiny_ok, tiny_ok, tiny_ok, tiny_ok, tiny_ok, fun _ _ => tiny_ok⟩
    (by norm_num)).1 (by decide)
  exact ⟨b, app, hb, ha⟩

-- a third step must declare index 2, and may not use suffix 3 for another type
example {b : AppBuilder (ZMod 12289) (ZMod 12289)} (hb : registerSteps 1024 demoSteps {} = .ok b) :
    b.register 1024 ⟨.application 3, ⟨.application 3, 7⟩, ⟨.internal 0, 0⟩, ⟨.application 4, 8⟩,
      tiny⟩ =
        .error .initialization ∧
    b.register 1024 ⟨.application 2, ⟨.application 3, 9⟩, ⟨.internal 0, 0⟩, ⟨.application 4, 8⟩,
      tiny⟩ =
        .error .initialization :=
  ⟨(C41_next hb _).1 3 rfl (by decide), (C41_next hb _).2.1 rfl
    ⟨⟨.application 3, 7⟩, by decide, ⟨.application 3, 9⟩, by decide, by decide, by decide⟩⟩

end Ragu.Props

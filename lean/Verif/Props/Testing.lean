/-
Property C94: what the example circuits prove.
Property C95: the handles of the test registry builder.
-/
import Verif.Lemmas.Testing
import Verif.Props.Realize

set_option linter.unusedSectionVars false

namespace Ragu.Props
open Ragu Ragu.Circuit Ragu.Registry Ragu.Spec Ragu.Gadget Ragu.Gadget.Syn Ragu.Testing Ragu.Unif
variable {F : Type} [Field F] [DecidableEq F]

/-! ### C94 -/

/-- C94: the constraints of the simple example can be satisfied with the public values `c` and `d`
exactly when they are the sum and the difference of an `a` and a `b` with `a⁵ = b²`, whatever witness
the prover's code was given. -/
theorem C94_simple_meaning (w : F × F) (inst : List F) :
    (simpleWires w).sat inst ↔ ∃ a b c d, SimpleRel a b c d ∧ inst = [c, d] := by
  simp only [simpleWires, simpleWitness, sat_bind, Element.alloc_sat, Element.square_sat,
    Element.mul_sat, enforceZero_sat, sat_pure]
  constructor
  · rintro ⟨r, ⟨a, -, b, -, a2, rfl, a4, rfl, a5, rfl, b2, rfl, -, h, rfl⟩, rfl⟩
    refine ⟨a.wire, b.wire, _, _, ⟨?_, Element.add_wire a b, Element.sub_wire a b⟩, rfl⟩
    simp only [lin_add_sub] at h
    linear_combination h
  · rintro ⟨a, b, c, d, ⟨h, rfl, rfl⟩, rfl⟩
    refine ⟨_, ⟨⟨a, w.1⟩, rfl, ⟨b, w.2⟩, rfl, _, rfl, _, rfl, _, rfl, _, rfl, (), ?_, rfl⟩, ?_⟩
    · simp only [lin_add_sub]
      linear_combination h
    · simp

/-- C94: the prover's code of the simple example accepts `a` and `b` exactly when `a⁵ = b²`, and then
outputs `a + b` and `a − b`. -/
theorem C94_simple_runs (a b : F) : (simpleWires (a, b)).sim =
    if a ^ 5 = b ^ 2 then .ok [a + b, a - b] else .error .invalidWitness := by
  have h : (a * a * (a * a) * a - b * b = 0) ↔ a ^ 5 = b ^ 2 := by
    rw [sub_eq_zero]
    ring_nf
  simp only [simpleWires, simpleWitness, sim_bind, Element.alloc_sim, Element.square,
    Element.mul_sim_eq, and_self, if_true, bind_ok', enforceZero_sim, lin_add_sub, sim_pure,
    h]
  split
  · show Except.ok [_, _] = _
    rw [Element.add_wire, Element.sub_wire]
  · rfl

/-- C94: the constraints of the squaring example can be satisfied with the public value `v` exactly when
`v` is a `2^times`-th power. -/
theorem C94_square_meaning (times : ℕ) (w : F) (inst : List F) :
    (squareWires times w).sat inst ↔ ∃ a, inst = [a ^ 2 ^ times] := by
  simp only [squareWires, squareWitness, sat_bind, Element.alloc_sat, squares_eq,
    Element.squareLoop_sat, sat_pure]
  constructor
  · rintro ⟨r, ⟨a, -, rfl⟩, rfl⟩
    exact ⟨a.wire, rfl⟩
  · rintro ⟨a, rfl⟩
    exact ⟨_, ⟨⟨a, w⟩, rfl, rfl⟩, rfl⟩

/-- C94: the prover's code of the squaring example accepts every witness and outputs its
`2^times`-th power. -/
theorem C94_square_runs (times : ℕ) (w : F) : (squareWires times w).sim = .ok [w ^ 2 ^ times] := by
  have h : ∀ (k : ℕ) (v : F), (Element.squareLoop k ⟨v, v⟩).sim = .ok ⟨v ^ 2 ^ k, v ^ 2 ^ k⟩ := by
    intro k
    induction k with
    | zero => intro v; simp [Element.squareLoop]
    | succ k ih =>
      intro v
      rw [Element.squareLoop, Element.square, sim_bind_ok (Element.mul_sim (a := ⟨v, v⟩) (b := ⟨v, v⟩) rfl rfl), ih]
      simp only [← pow_two, ← pow_mul, pow_succ' 2 k]
  simp only [squareWires, squareWitness, sim_bind, Element.alloc_sim, bind_ok', squares_eq, h, sim_pure]

/-- C94: the public inputs that the verifier derives from `(c, d)` and from `v` are these values. -/
theorem C94_instance (c d v : F) :
    (simpleInstance (c, d)).sim = .ok (⟨c, c⟩, ⟨d, d⟩) ∧ (squareInstance v).sim = .ok ⟨v, v⟩ :=
  ⟨rfl, rfl⟩

/-- C94: the simple example is one circuit for all witnesses, of 6 gates and 12 constraints. -/
theorem C94_simple_circuit : ∃ c : Circ F, c.WellUsed ∧ c.outs.length = 2 ∧
    (∀ w, Realizes .base c fun _ => simpleWires w) ∧
    totalGates c.counts = 6 ∧ totalCons c.counts = 12 := by
  obtain ⟨c, h1, h2, h3, h4⟩ := realize (ch := .base) trivial
    (x := fun (w : F × F) (_ : List F) => simpleWires w) unif_simple fun w es hes => rfl
  obtain ⟨a, b⟩ := counts_of_realizes (ch := .base) trivial h2 (h4 (0, 0)) fun es hes => sized_simple _
  refine ⟨c, h1, h3, h4, a, ?_⟩
  rw [b, h3]

/-- C94: the squaring example is one circuit for all witnesses. It takes one gate for every squaring,
one for the witness and one for the constant wire, and two constraints for every squaring, one for
the output and one for the constant wire. -/
theorem C94_square_circuit (times : ℕ) : ∃ c : Circ F, c.WellUsed ∧ c.outs.length = 1 ∧
    (∀ w, Realizes .base c fun _ => squareWires times w) ∧
    totalGates c.counts = times + 2 ∧ totalCons c.counts = 2 * times + 2 := by
  obtain ⟨c, h1, h2, h3, h4⟩ := realize (ch := .base) trivial
    (x := fun (w : F) (_ : List F) => squareWires times w) (unif_squares times) fun w es hes => rfl
  obtain ⟨a, b⟩ := counts_of_realizes (ch := .base) trivial h2 (h4 0) fun es hes => sized_squares times _
  refine ⟨c, h1, h3, h4, ?_, ?_⟩
  · rw [a]
    show 1 + 0 + times + (1 + 1) / 2 = times + 2
    omega
  · rw [b, h3]

theorem simple_satBy {S : F → Prop} {w : F × F} {inst : List F} (h : (simpleWires w).satBy S inst) :
    ∃ a b c d, S a ∧ S b ∧ SimpleRel a b c d ∧ inst = [c, d] := by
  simp only [simpleWires, simpleWitness, Syn.satBy_bind, Syn.satBy_pure, Element.alloc, allocWire,
    Syn.satBy] at h
  obtain ⟨r, ⟨a, ⟨x, ⟨x', hx, rfl⟩, rfl⟩, b, ⟨y, ⟨y', hy, rfl⟩, rfl⟩, a2, h2, a4, h4, a5, h5, b2, hb,
    u, hz, rfl⟩, rfl⟩ := h
  have h2 := (Element.square_sat _ _).1 (Syn.satBy_sat h2)
  have h4 := (Element.square_sat _ _).1 (Syn.satBy_sat h4)
  have h5 := (Element.mul_sat _ _ _).1 (Syn.satBy_sat h5)
  have hb := (Element.square_sat _ _).1 (Syn.satBy_sat hb)
  have hz := (enforceZero_sat _ _).1 (Syn.satBy_sat hz)
  subst h2 h4 h5 hb
  refine ⟨x, y, _, _, hx, hy, ⟨?_, Element.add_wire _ _, Element.sub_wire _ _⟩, rfl⟩
  simp only [lin_add_sub] at hz
  linear_combination hz

theorem square_satBy {S : F → Prop} {times : ℕ} {w : F} {inst : List F}
    (h : (squareWires times w).satBy S inst) : ∃ a, S a ∧ inst = [a ^ 2 ^ times] := by
  simp only [squareWires, squareWitness, Syn.satBy_bind, Syn.satBy_pure, Element.alloc, allocWire,
    Syn.satBy, squares_eq] at h
  obtain ⟨r, ⟨a, ⟨x, ⟨x', hx, rfl⟩, rfl⟩, hr⟩, rfl⟩ := h
  have hr := (Element.squareLoop_sat _ _ _).1 (Syn.satBy_sat hr)
  subst hr
  exact ⟨x, hx, rfl⟩

open Classical in
theorem registered_satBy {E : Env F} {n : ℕ} {R : Registry F} {i : ℕ} {circ : Circ F}
    (hR : Holds E n R i circ) {x : Syn F (List F)} (hx : Realizes .base circ fun _ => x)
    {r : Sparse.Poly F} (hr : WellFormed (4 * n) r) {inst : List F}
    (hl : inst.length = circ.outs.length) (S : Finset F)
    (hmany : (4 * n - 1) * S.card <
      ((S ×ˢ S).filter fun p => RegistryClaim E n R i r inst p.1 p.2).card) :
    x.satBy (fun a => ∃ k, a = coeff r k) inst := by
  by_contra hbad
  have := C61_soundness hR hr hl (fun h => hbad (holds_satBy hR hx h.1 h.2)) S
  omega

open Classical in
/-- C94: the verifier's side of the simple example. If a polynomial passes the check with public
inputs `c` and `d` for more than `(4 n − 1) |S|` of the pairs of challenges from a set `S`, then an `a`
and a `b` with `a⁵ = b²`, `c = a + b` and `d = a − b` can be read off its coefficients. -/
theorem C94_simple_sound {E : Env F} {n : ℕ} {R : Registry F} {i : ℕ} {circ : Circ F}
    (hR : Holds E n R i circ) {w : F × F} (hx : Realizes .base circ fun _ => simpleWires w)
    (ho : circ.outs.length = 2) {r : Sparse.Poly F} (hr : WellFormed (4 * n) r) (c d : F)
    (S : Finset F) (hmany : (4 * n - 1) * S.card <
      ((S ×ˢ S).filter fun p => RegistryClaim E n R i r [c, d] p.1 p.2).card) :
    ∃ j k, SimpleRel (coeff r j) (coeff r k) c d := by
  obtain ⟨a, b, c', d', ⟨j, rfl⟩, ⟨k, rfl⟩, h, e⟩ :=
    simple_satBy (registered_satBy hR hx hr (by simp [ho]) S hmany)
  simp only [List.cons.injEq, and_true] at e
  obtain ⟨rfl, rfl⟩ := e
  exact ⟨j, k, h⟩

open Classical in
/-- C94: the verifier's side of the squaring example: a `2^times`-th root of the public input can be
read off the coefficients. -/
theorem C94_square_sound {E : Env F} {n : ℕ} {R : Registry F} {i : ℕ} {circ : Circ F}
    (hR : Holds E n R i circ) {times : ℕ} {w : F} (hx : Realizes .base circ fun _ => squareWires times w)
    (ho : circ.outs.length = 1) {r : Sparse.Poly F} (hr : WellFormed (4 * n) r) (v : F)
    (S : Finset F) (hmany : (4 * n - 1) * S.card <
      ((S ×ˢ S).filter fun p => RegistryClaim E n R i r [v] p.1 p.2).card) :
    ∃ k, v = coeff r k ^ 2 ^ times := by
  obtain ⟨a, ⟨k, rfl⟩, e⟩ := square_satBy (registered_satBy hR hx hr (by simp [ho]) S hmany)
  simp only [List.cons.injEq, and_true] at e
  exact ⟨k, e⟩

theorem registered_passes {E : Env F} {n : ℕ} {R : Registry F} {i : ℕ} {circ : Circ F}
    (hR : Holds E n R i circ) {x : Syn F (List F)} (hx : Realizes .base circ fun _ => x)
    {inst : List F} (hs : x.sim = .ok inst) (alpha : F) :
    ∃ c' t r, c'.SameShape circ ∧ Synthesizes .base c' [] x ∧ TraceEval c' t ∧
      R.assembleWithAlpha n (t.map Prod.snd) i alpha = some (.ok r) ∧ WellFormed (4 * n) r ∧
      ∀ y z, RegistryClaim E n R i r inst y z := by
  obtain ⟨c', h1, h2, h3⟩ := C67_synthesis hx (es := []) rfl
  have hu : c'.WellUsed := h1.wellUsed.2 hR.used
  obtain ⟨t, ht⟩ := C18_produced hu
  obtain ⟨hn, hN, -⟩ := circuitY_coeff hR (0 : F)
  obtain ⟨q, b, ss, hr, hf⟩ := hR.registry
  obtain ⟨o, ho, hi⟩ := hR.here
  obtain ⟨_, hg, hc⟩ := finalize_cases hr hf
  obtain ⟨m, hm, ho'⟩ := circuitObject_ok ho
  have hseg := (registered hR.used hm).2.2
  have hn' : totalGates c'.counts ≤ n := by rw [h1.counts]; exact hn
  obtain ⟨r, hr1, hwf, -⟩ := C18_assemble hu hn' ht alpha
  have hasm : R.assembleWithAlpha n (t.map Prod.snd) i alpha = some (.ok r) := by
    rw [Registry.assembleWithAlpha, hg.plans, List.getElem?_map, hi, Option.map_some,
      Option.map_some, ho', intoRawCircuitObject]
    simp only [hseg, ← h1.counts, hr1]
  refine ⟨c', t, r, h1, h2, ht, hasm, hwf, fun y z => ?_⟩
  exact C67_complete hR h1 (parts := []) (by simp) (by simp) .nil
    ⟨rfl, by simp, fun d hd => by
      rcases hd with rfl | hd
      · intro _ j hj
        exact absurd (show j < 0 from hj) (Nat.not_lt_zero _)
      · cases hd⟩ h2 hs ht hasm hwf (by simp) y z

/-- C94: the prover's side of the simple example. For every `a` and `b` with `a⁵ = b²` the prover's
synthesis has a trace, the registry assembles it, and the result passes the check with public inputs
`a + b` and `a − b` at every `y` and `z`. -/
theorem C94_simple_complete {E : Env F} {n : ℕ} {R : Registry F} {i : ℕ} {circ : Circ F}
    (hR : Holds E n R i circ) {a b c d : F} (hx : Realizes .base circ fun _ => simpleWires (a, b))
    (h : SimpleRel a b c d) (alpha : F) :
    ∃ c' t r, c'.SameShape circ ∧ Synthesizes .base c' [] (simpleWires (a, b)) ∧ TraceEval c' t ∧
      R.assembleWithAlpha n (t.map Prod.snd) i alpha = some (.ok r) ∧ WellFormed (4 * n) r ∧
      ∀ y z, RegistryClaim E n R i r [c, d] y z := by
  obtain ⟨h, rfl, rfl⟩ := h
  exact registered_passes hR hx (by rw [C94_simple_runs, if_pos h]) alpha

/-- C94: the prover's side of the squaring example. -/
theorem C94_square_complete {E : Env F} {n : ℕ} {R : Registry F} {i : ℕ} {circ : Circ F}
    (hR : Holds E n R i circ) {times : ℕ} {w : F} (hx : Realizes .base circ fun _ => squareWires times w)
    (alpha : F) :
    ∃ c' t r, c'.SameShape circ ∧ Synthesizes .base c' [] (squareWires times w) ∧ TraceEval c' t ∧
      R.assembleWithAlpha n (t.map Prod.snd) i alpha = some (.ok r) ∧ WellFormed (4 * n) r ∧
      ∀ y z, RegistryClaim E n R i r [w ^ 2 ^ times] y z :=
  registered_passes hR hx (C94_square_runs times w) alpha

/-! ### C95 -/

theorem counted_new : Counted ({} : TestBuilder F) {} := ⟨rfl, rfl, rfl, rfl, rfl⟩

/-- C95: after any successful sequence of registrations and `finalize`, the handle of a circuit is the
place of that circuit in the registry. The handle of a bonding object is short of its place by the
number of circuits registered after it: it is right if there are none. -/
theorem C95_handles {E : Env F} {n : ℕ} {hist : List (TestReg F)} {hs : List Handle} {b : TestBuilder F}
    (hb : registerAll n hist {} = .ok (hs, b)) {R : Registry F} (hR : b.finalize E n = .ok R) :
    hs.length = hist.length ∧ ∀ j h, hs[j]? = some h →
      (∀ c, hist[j]? = some (.circuit c) →
        ∃ o, circuitObject n c = .ok o ∧ R.circuits[h.index]? = some o) ∧
      (∀ o, hist[j]? = some (.bonding o) →
        R.circuits[h.index + circuitCount (hist.drop (j + 1))]? = some o) := by
  obtain ⟨B, h1, -, -, h4, h5, h6⟩ := registerAll_spec hist counted_new hb
  have hc : R.circuits = B.internalCircuits ++ B.bonding := by
    rw [TestBuilder.finalize, h1.inner] at hR
    rw [finalize_circuits hR, allCircuits, h1.steps, h1.applications, List.append_nil, List.append_nil]
  refine ⟨h5, fun j h hh => ⟨fun c hg => ?_, fun o hg => ?_⟩⟩
  · obtain ⟨o, e1, e2⟩ := h6 j _ h hg hh
    refine ⟨o, e1, ?_⟩
    rw [hc, List.getElem?_append_left (List.getElem?_eq_some_iff.1 e2).1, e2]
  · obtain ⟨e1, e2⟩ := h6 j _ h hg hh
    rw [hc, List.getElem?_append_right e1, e2]

/-- C95: in general the handles of circuits count the circuits, and the handles of bonding objects
count all registrations. -/
theorem C95_index {n : ℕ} {hist : List (TestReg F)} {hs : List Handle} {b : TestBuilder F}
    (hb : registerAll n hist {} = .ok (hs, b)) {j : ℕ} {h : Handle} (hh : hs[j]? = some h) :
    (∀ c, hist[j]? = some (.circuit c) → h.index = circuitCount (hist.take j)) ∧
    (∀ o, hist[j]? = some (.bonding o) → h.index = j) :=
  ⟨fun c hg => by simpa using registerAll_index hist hb j _ h hg hh,
    fun o hg => by simpa using registerAll_index hist hb j _ h hg hh⟩

/-- C95: if all circuits are registered before any bonding object, every handle is right, and the
handles count the registrations, so no two are the same. -/
theorem C95_circuits_first {E : Env F} {n : ℕ} {cs : List (Circ F)} {os : List (CircuitObject F)}
    {hs : List Handle} {b : TestBuilder F}
    (hb : registerAll n (cs.map .circuit ++ os.map .bonding) {} = .ok (hs, b))
    {R : Registry F} (hR : b.finalize E n = .ok R) :
    hs = (List.range (cs.length + os.length)).map Handle.mk ∧
    (∀ (j : ℕ) c, cs[j]? = some c → ∃ o, circuitObject n c = .ok o ∧ R.circuits[j]? = some o) ∧
    (∀ (j : ℕ) o, os[j]? = some o → R.circuits[cs.length + j]? = some o) := by
  obtain ⟨hl, hp⟩ := C95_handles hb hR
  have hl' : hs.length = cs.length + os.length := by rw [hl]; simp
  have hleft : ∀ j < cs.length, (cs.map TestReg.circuit ++ os.map TestReg.bonding)[j]? =
      (cs[j]?).map TestReg.circuit := by
    intro j hj
    rw [List.getElem?_append_left (by simpa using hj), List.getElem?_map]
  have hright : ∀ j, (cs.map TestReg.circuit ++ os.map TestReg.bonding)[cs.length + j]? =
      (os[j]?).map TestReg.bonding := by
    intro j
    rw [List.getElem?_append_right (by simp), List.getElem?_map]
    simp
  have hcount : ∀ l : List (Circ F), circuitCount (l.map TestReg.circuit) = l.length := by
    intro l
    induction l with
    | nil => rfl
    | cons c l ih => simp [circuitCount, ih]
  have hnone : ∀ l : List (CircuitObject F), circuitCount (l.map TestReg.bonding) = 0 := by
    intro l
    induction l with
    | nil => rfl
    | cons c l ih => simp [circuitCount, ih]
  have hidx : ∀ (j : ℕ) (h : Handle), hs[j]? = some h → h = ⟨j⟩ := by
    intro j h hh
    have hj := (List.getElem?_eq_some_iff.1 hh).1
    obtain ⟨i1, i2⟩ := C95_index hb hh
    obtain ⟨i⟩ := h
    congr 1
    by_cases hjc : j < cs.length
    · refine (i1 cs[j] (by rw [hleft j hjc, List.getElem?_eq_getElem hjc]; rfl)).trans ?_
      rw [List.take_append_of_le_length (by simpa using hjc.le), ← List.map_take, hcount,
        List.length_take]
      omega
    · obtain ⟨k, rfl⟩ := Nat.exists_eq_add_of_le (Nat.le_of_not_lt hjc)
      have hk : k < os.length := by omega
      exact i2 os[k] (by rw [hright k, List.getElem?_eq_getElem hk]; rfl)
  refine ⟨?_, fun j c hc => ?_, fun j o ho => ?_⟩
  · refine List.ext_getElem? fun j => ?_
    rw [List.getElem?_map]
    by_cases hj : j < cs.length + os.length
    · rw [List.getElem?_range hj, Option.map_some]
      have := List.getElem?_eq_getElem (l := hs) (i := j) (by omega)
      rw [this, hidx j _ this]
    · rw [List.getElem?_eq_none (by omega), List.getElem?_eq_none (by simp; omega)]
      rfl
  · have hj := (List.getElem?_eq_some_iff.1 hc).1
    have hh := List.getElem?_eq_getElem (l := hs) (i := j) (by omega)
    have := (hp j _ hh).1 c (by rw [hleft j hj, hc]; rfl)
    rwa [hidx j _ hh] at this
  · have hj := (List.getElem?_eq_some_iff.1 ho).1
    have hh := List.getElem?_eq_getElem (l := hs) (i := cs.length + j) (by omega)
    have := (hp (cs.length + j) _ hh).2 o (by rw [hright j, ho]; rfl)
    rw [hidx _ _ hh] at this
    rw [List.drop_append, List.drop_eq_nil_of_le (by simp; omega), List.nil_append,
      ← List.map_drop, hnone] at this
    exact this

/-- C95: once a registration has failed, every later call on the builder panics. -/
theorem C95_poisoned {E : Env F} {n : ℕ} {b b' : TestBuilder F} {c : Circ F} {e : Err}
    (h : b.registerCircuit n c = (.error e, b')) :
    (∀ c', b'.registerCircuit n c' = (.error .panic, b')) ∧
    (∀ o, b'.registerBonding o = (.error .panic, b')) ∧ b'.finalize E n = .error .panic := by
  have hi : b'.inner = none := by
    unfold TestBuilder.registerCircuit at h
    split at h
    · next h0 => obtain ⟨-, rfl⟩ := Prod.mk.inj h; exact h0
    · split at h
      · obtain ⟨-, rfl⟩ := Prod.mk.inj h; rfl
      · obtain ⟨h, -⟩ := Prod.mk.inj h; cases h
  refine ⟨fun c' => ?_, fun o => ?_, ?_⟩
  · simp only [TestBuilder.registerCircuit, hi]
  · simp only [TestBuilder.registerBonding, hi]
  · simp only [TestBuilder.finalize, hi]

theorem allImplement_of {n : ℕ} : ∀ (os : List (CircuitObject F)), (∀ o ∈ os, ∃ s, Implements n o s) →
    ∃ ss, AllImplement n os ss
  | [], _ => ⟨[], .nil⟩
  | o :: os, h => by
    obtain ⟨s, hs⟩ := h o (by simp)
    obtain ⟨ss, hss⟩ := allImplement_of os fun o' ho' => h o' (by simp [ho'])
    exact ⟨s :: ss, .cons hs hss⟩

theorem test_ready {E : Env F} (hE : EnvOk E) {n q : ℕ} (hq : 4 * n = 2 ^ q) (hqS : q ≤ E.consts.S)
    (hk : KeysDistinct E q) {hist : List (TestReg F)} (hu : ∀ c, .circuit c ∈ hist → c.WellUsed)
    (ho : ∀ o, .bonding o ∈ hist → ∃ s, Implements n o s) {hs : List Handle} {b : TestBuilder F}
    (hb : registerAll n hist {} = .ok (hs, b)) {R : Registry F} (hR : b.finalize E n = .ok R) :
    ∃ B ss, Ready E n q B ss ∧ B.finalize E n = .ok R := by
  obtain ⟨B, h1, h2⟩ := registerAll_build hist (B := {}) rfl hb
  rw [TestBuilder.finalize, h1] at hR
  obtain ⟨bs, hbs⟩ := allImplement_of (n := n) (Reg.bondings (hist.map TestReg.reg)) (by
    intro o h
    simp only [Reg.bondings, List.mem_filterMap, List.mem_map] at h
    obtain ⟨g, ⟨t, ht, rfl⟩, e⟩ := h
    cases t with
    | circuit c => simp [TestReg.reg] at e
    | bonding o' =>
      simp only [TestReg.reg, Option.some.injEq] at e
      subst e
      exact ho _ ht)
  refine ⟨B, _, ready_of_history hE hq hqS hk _ (fun c hc => ?_) hbs h2, hR⟩
  simp only [Reg.internalCircuits, Reg.internalSteps, Reg.applications, List.mem_filterMap,
    List.mem_map] at hc
  rcases hc with ⟨g, ⟨t, ht, rfl⟩, e⟩ | ⟨g, ⟨t, ht, rfl⟩, e⟩ | ⟨g, ⟨t, ht, rfl⟩, e⟩ <;> cases t <;>
    simp only [TestReg.reg, Option.some.injEq, reduceCtorEq] at e
  subst e
  exact hu _ ht

theorem entry_values {E : Env F} {n q : ℕ} {B : Builder F} {ss : List (F → F → F)}
    (h : Ready E n q B ss) {R : Registry F} (hf : B.finalize E n = .ok R) {i : ℕ} {o : CircuitObject F}
    (hi : R.circuits[i]? = some o) {s : F → F → F} (hs : Implements n o s) (x y : F) :
    R.circuitXY E n i x y = some (s x y + R.digest * (x * y) ^ (4 * n - 1)) ∧
    ∃ p, R.circuitY E n i y = some p ∧
      Sparse.eval (4 * n) p x = s x y + R.digest * (x * y) ^ (4 * n - 1) := by
  have hc := finalize_circuits hf
  rw [hc] at hi
  obtain ⟨s', h1, h2⟩ := allImplement_get h.objects hi
  have e : s' x y = s x y := by
    have := h2.sxy x y
    rw [hs.sxy, Option.some.injEq] at this
    exact this.symm
  have := (C23_circuit h hf i x y).1 s' h1
  rwa [e] at this

/-- C95: a handle of a circuit opens the circuit's own polynomial: with circuits that use their wires
properly and bonding objects that implement some polynomial, `xy` and `y` at the handle are the wiring
polynomial of the circuit plus the key term, and the check under the handle is the check of the circuit. -/
theorem C95_circuit {E : Env F} (hE : EnvOk E) {n q : ℕ} (hq : 4 * n = 2 ^ q) (hqS : q ≤ E.consts.S)
    (hk : KeysDistinct E q) {hist : List (TestReg F)} (hu : ∀ c, .circuit c ∈ hist → c.WellUsed)
    (ho : ∀ o, .bonding o ∈ hist → ∃ s, Implements n o s) {hs : List Handle} {b : TestBuilder F}
    (hb : registerAll n hist {} = .ok (hs, b)) {R : Registry F} (hR : b.finalize E n = .ok R)
    {j : ℕ} {h : Handle} (hh : hs[j]? = some h) {c : Circ F} (hj : hist[j]? = some (.circuit c)) :
    Holds E n R h.index c ∧ ∀ x y,
      xyAt E n R h x y = some (wiringOf n c x y + R.digest * (x * y) ^ (4 * n - 1)) ∧
      ∃ p, yAt E n R h y = some p ∧
        Sparse.eval (4 * n) p x = wiringOf n c x y + R.digest * (x * y) ^ (4 * n - 1) := by
  obtain ⟨B, ss, h1, h2⟩ := test_ready hE hq hqS hk hu ho hb hR
  have hcu : c.WellUsed := hu c (List.mem_of_getElem? hj)
  obtain ⟨o, e1, e2⟩ := ((C95_handles hb hR).2 j h hh).1 c hj
  refine ⟨⟨hcu, ⟨q, B, ss, h1, h2⟩, o, e1, e2⟩, fun x y => ?_⟩
  have hi := circuit_implements hcu e1
  obtain ⟨m, hm, rfl⟩ := circuitObject_ok e1
  have h3 := (registered hcu hm).2.2
  refine entry_values h1 h2 e2 (s := wiringOf n c) ?_ x y
  simpa only [intoRawCircuitObject, h3, wiringOf] using hi

/-- C95: every trace is assembled under a circuit's handle as the circuit's floor plan says, and the
trace of a run of the circuit then passes the check under the handle, with what the run returns. -/
theorem C95_assemble {E : Env F} (hE : EnvOk E) {n q : ℕ} (hq : 4 * n = 2 ^ q) (hqS : q ≤ E.consts.S)
    (hk : KeysDistinct E q) {hist : List (TestReg F)} (hu : ∀ c, .circuit c ∈ hist → c.WellUsed)
    (ho : ∀ o, .bonding o ∈ hist → ∃ s, Implements n o s) {hs : List Handle} {b : TestBuilder F}
    (hb : registerAll n hist {} = .ok (hs, b)) {R : Registry F} (hR : b.finalize E n = .ok R)
    {j : ℕ} {h : Handle} (hh : hs[j]? = some h) {c : Circ F} (hj : hist[j]? = some (.circuit c))
    (alpha : F) :
    (∀ t, assembleAt n R t h alpha = some (assemble n (floorPlan c.counts) t alpha)) ∧
    ∀ inst t, simulate c = .ok inst → TraceEval c t →
      ∃ r, assembleAt n R (t.map Prod.snd) h alpha = some (.ok r) ∧
        ∀ y z, RegistryClaim E n R h.index r inst y z := by
  have hc := (C95_circuit hE hq hqS hk hu ho hb hR hh hj).1
  refine ⟨fun t => ?_, fun inst t h1 h2 => C61_honest hc h1 h2 alpha⟩
  obtain ⟨q, b, ss, hr, hf⟩ := hc.registry
  obtain ⟨o, ho, hi⟩ := hc.here
  obtain ⟨_, hg, -⟩ := finalize_cases hr hf
  obtain ⟨m, hm, ho'⟩ := circuitObject_ok ho
  have hseg := (registered hc.used hm).2.2
  rw [assembleAt, Registry.assembleWithAlpha, hg.plans, List.getElem?_map, hi, Option.map_some,
    Option.map_some, ho', intoRawCircuitObject]
  simp only [hseg]

/-- C95: the handle of a bonding object after which no circuit was registered opens the object's
polynomial. -/
theorem C95_bonding {E : Env F} (hE : EnvOk E) {n q : ℕ} (hq : 4 * n = 2 ^ q) (hqS : q ≤ E.consts.S)
    (hk : KeysDistinct E q) {hist : List (TestReg F)} (hu : ∀ c, .circuit c ∈ hist → c.WellUsed)
    (ho : ∀ o, .bonding o ∈ hist → ∃ s, Implements n o s) {hs : List Handle} {b : TestBuilder F}
    (hb : registerAll n hist {} = .ok (hs, b)) {R : Registry F} (hR : b.finalize E n = .ok R)
    {j : ℕ} {h : Handle} (hh : hs[j]? = some h) {o : CircuitObject F} (hj : hist[j]? = some (.bonding o))
    (hlast : circuitCount (hist.drop (j + 1)) = 0) {s : F → F → F} (hi : Implements n o s) (x y : F) :
    xyAt E n R h x y = some (s x y + R.digest * (x * y) ^ (4 * n - 1)) ∧
    ∃ p, yAt E n R h y = some p ∧
      Sparse.eval (4 * n) p x = s x y + R.digest * (x * y) ^ (4 * n - 1) := by
  obtain ⟨B, ss, h1, h2⟩ := test_ready hE hq hqS hk hu ho hb hR
  have := ((C95_handles hb hR).2 j h hh).2 o hj
  rw [hlast, Nat.add_zero] at this
  exact entry_values h1 h2 this hi x y

/-- C95: the order matters. If a bonding object is registered before a circuit, both get the same
handle, and it opens the circuit. -/
theorem C95_order_matters {E : Env F} {n : ℕ} {c : Circ F} {o : CircuitObject F} {hs : List Handle}
    {b : TestBuilder F} (hb : registerAll n [.bonding o, .circuit c] {} = .ok (hs, b))
    {R : Registry F} (hR : b.finalize E n = .ok R) :
    hs = [⟨0⟩, ⟨0⟩] ∧ ∃ oc, circuitObject n c = .ok oc ∧ R.circuits[0]? = some oc ∧
      R.circuits[1]? = some o := by
  obtain ⟨hl, hp⟩ := C95_handles hb hR
  match hs, hl with
  | [h1, h2], _ =>
    have e1 : h1.index = 0 := (C95_index hb (j := 0) rfl).2 o rfl
    have e2 : h2.index = 0 := (C95_index hb (j := 1) rfl).1 c rfl
    obtain ⟨oc, a1, a2⟩ := (hp 1 h2 rfl).1 c rfl
    have a3 := (hp 0 h1 rfl).2 o rfl
    rw [e2] at a2
    rw [e1] at a3
    obtain ⟨i1⟩ := h1
    obtain ⟨i2⟩ := h2
    simp only at e1 e2
    subst e1 e2
    exact ⟨rfl, oc, a1, a2, a3⟩

/-! ### Both examples in one registry -/

example : (simpleWires ((4, 32) : ZMod 97 × ZMod 97)).sim = .ok [36, -28] ∧
    (simpleWires ((4, 31) : ZMod 97 × ZMod 97)).sim = .error .invalidWitness := by
  rw [C94_simple_runs, C94_simple_runs]
  decide +kernel

theorem testing_demo : ∃ (c1 c2 : Circ (ZMod 97)) (hs : List Handle) (b : TestBuilder (ZMod 97))
    (R : Registry (ZMod 97)), c1.WellUsed ∧ c2.WellUsed ∧ c1.outs.length = 2 ∧ c2.outs.length = 1 ∧
    (∀ w, Realizes .base c1 fun _ => simpleWires w) ∧
    (∀ w, Realizes .base c2 fun _ => squareWires 3 w) ∧
    registerAll 8 [.circuit c1, .circuit c2, .bonding ((StageMask.mk 2 3).object 8)] {} = .ok (hs, b) ∧
    hs = [⟨0⟩, ⟨1⟩, ⟨2⟩] ∧ b.finalize env97 8 = .ok R := by
  obtain ⟨c1, a1, a2, a3, a4, a5⟩ := C94_simple_circuit (F := ZMod 97)
  obtain ⟨c2, b1, b2, b3, b4, b5⟩ := C94_square_circuit (F := ZMod 97) 3
  obtain ⟨m1, hm1⟩ := (C22_limits 8 c1 a1).2.2.2 ⟨by omega, by omega⟩
  obtain ⟨m2, hm2⟩ := (C22_limits 8 c2 b1).2.2.2 ⟨by omega, by omega⟩
  have o1 : circuitObject 8 c1 = .ok (intoRawCircuitObject 8 c1 m1) := by
    simp only [circuitObject, hm1]; rfl
  have o2 : circuitObject 8 c2 = .ok (intoRawCircuitObject 8 c2 m2) := by
    simp only [circuitObject, hm2]; rfl
  have hb : ∃ b, registerAll 8 [.circuit c1, .circuit c2, .bonding ((StageMask.mk 2 3).object 8)] {} =
      .ok ([⟨0⟩, ⟨1⟩, ⟨2⟩], b) := by
    simp only [registerAll, TestReg.apply, TestBuilder.registerCircuit, TestBuilder.registerBonding,
      Builder.registerInternalCircuit, o1, o2]
    exact ⟨_, rfl⟩
  obtain ⟨b, hb⟩ := hb
  obtain ⟨B, e1, e2⟩ := registerAll_build _ (B := {}) rfl hb
  have hbs : AllImplement 8 (Reg.bondings ([.circuit c1, .circuit c2,
      .bonding ((StageMask.mk 2 3).object 8)].map TestReg.reg)) [maskAt (F := ZMod 97) 8 2 3] :=
    .cons (mask_implements (m := ⟨2, 3⟩) (by decide) (by decide)) .nil
  have hr := ready_of_history env97_ok (n := 8) (q := 5) (by norm_num) (by decide) env97_keys _
    (fun c hc => by
      have : c = c1 ∨ c = c2 := by
        simpa [TestReg.reg, Reg.internalCircuits, Reg.internalSteps, Reg.applications] using hc
      rcases this with rfl | rfl
      exacts [a1, b1]) hbs e2
  have hlen : B.numCircuits = 3 := by
    rw [← allCircuits_length, List.Forall₂.length_eq hr.objects]
    rfl
  obtain ⟨R, hR, -⟩ := (C25_capacity hr).2 (by omega)
  refine ⟨c1, c2, _, b, R, a1, b1, a2, b2, a3, b3, hb, rfl, ?_⟩
  rw [TestBuilder.finalize, e1]
  exact hR

-- under its handle, the simple example is complete, and what passes has a witness in its coefficients
example : ∃ (c1 : Circ (ZMod 97)) (R : Registry (ZMod 97)) (h : Handle) (r : Sparse.Poly (ZMod 97)),
    Holds env97 8 R h.index c1 ∧ (∀ y z, RegistryClaim env97 8 R h.index r [36, -28] y z) ∧
    ∃ j k, SimpleRel (coeff r j) (coeff r k) 36 (-28) := by
  classical
  obtain ⟨c1, c2, hs, b, R, a1, a2, a3, a4, a5, a6, a7, rfl, a9⟩ := testing_demo
  obtain ⟨hh, -⟩ := C95_circuit env97_ok (n := 8) (q := 5) (by norm_num) (by decide) env97_keys
    (by
      intro c hc
      simp only [List.mem_cons, TestReg.circuit.injEq, reduceCtorEq, List.not_mem_nil, or_false] at hc
      rcases hc with rfl | rfl
      exacts [a1, a2])
    (by
      intro o ho
      simp only [List.mem_cons, TestReg.bonding.injEq, reduceCtorEq, List.not_mem_nil, or_false,
        false_or] at ho
      subst ho
      exact ⟨_, mask_implements (m := ⟨2, 3⟩) (by decide) (by decide)⟩)
    a7 a9 (j := 0) rfl (c := c1) rfl
  obtain ⟨c', t, r, -, -, ht, hr, hwf, hp⟩ := C94_simple_complete hh (a5 (4, 32))
    (c := 36) (d := -28) (by unfold SimpleRel; decide +kernel) 7
  refine ⟨c1, R, ⟨0⟩, r, hh, hp, ?_⟩
  have hcard : (Finset.univ : Finset (ZMod 97)).card = 97 := ZMod.card 97
  exact C94_simple_sound hh (a5 (4, 32)) a3 hwf 36 (-28) Finset.univ (by
    rw [Finset.filter_true_of_mem fun q _ => hp q.1 q.2, Finset.card_product, hcard]; norm_num)

-- the squaring example and the bonding object under their handles
example : ∃ (c2 : Circ (ZMod 97)) (R : Registry (ZMod 97)) (r : Sparse.Poly (ZMod 97)),
    Holds env97 8 R 1 c2 ∧ (∀ y z, RegistryClaim env97 8 R 1 r [5 ^ 8] y z) ∧
    (∃ k, 5 ^ 8 = coeff r k ^ 2 ^ 3) ∧
    ∀ x y, xyAt env97 8 R ⟨2⟩ x y = some (maskAt 8 2 3 x y + R.digest * (x * y) ^ 31) := by
  classical
  obtain ⟨c1, c2, hs, b, R, a1, a2, a3, a4, a5, a6, a7, rfl, a9⟩ := testing_demo
  have hu : ∀ c, TestReg.circuit c ∈ [TestReg.circuit c1, .circuit c2,
      .bonding ((StageMask.mk 2 3).object 8)] → c.WellUsed := by
    intro c hc
    simp only [List.mem_cons, TestReg.circuit.injEq, reduceCtorEq, List.not_mem_nil, or_false] at hc
    rcases hc with rfl | rfl
    exacts [a1, a2]
  have hm : Implements 8 ((StageMask.mk 2 3).object 8) (maskAt (F := ZMod 97) 8 2 3) :=
    mask_implements (m := ⟨2, 3⟩) (by decide) (by decide)
  have hi : ∀ o, TestReg.bonding o ∈ [TestReg.circuit c1, .circuit c2,
      .bonding ((StageMask.mk 2 3).object 8)] → ∃ s, Implements 8 o s := by
    intro o ho
    simp only [List.mem_cons, TestReg.bonding.injEq, reduceCtorEq, List.not_mem_nil, or_false,
      false_or] at ho
    subst ho
    exact ⟨_, hm⟩
  obtain ⟨hh, -⟩ := C95_circuit env97_ok (n := 8) (q := 5) (by norm_num) (by decide) env97_keys hu hi
    a7 a9 (j := 1) rfl (c := c2) rfl
  obtain ⟨c', t, r, -, -, ht, hr, hwf, hp⟩ := C94_square_complete hh (a6 5) 7
  have hcard : (Finset.univ : Finset (ZMod 97)).card = 97 := ZMod.card 97
  refine ⟨c2, R, r, hh, hp, ?_, fun x y => ?_⟩
  · exact C94_square_sound hh (a6 5) a4 hwf _ Finset.univ (by
      rw [Finset.filter_true_of_mem fun q _ => hp q.1 q.2, Finset.card_product, hcard]; norm_num)
  · exact (C95_bonding env97_ok (n := 8) (q := 5) (by norm_num) (by decide) env97_keys hu hi
      a7 a9 (j := 2) rfl rfl rfl hm x y).1

-- a circuit that is too large leaves the builder poisoned
example : ∃ (c : Circ (ZMod 97)) (b : TestBuilder (ZMod 97)),
    TestBuilder.registerCircuit 8 {} c = (.error (.gateBound 8), b) ∧
    b.finalize env97 8 = .error .panic := by
  obtain ⟨c, h1, -, -, h4, h5⟩ := C94_square_circuit (F := ZMod 97) 7
  have hm := (C22_limits 8 c h1).2.1.2 ⟨by omega, by omega⟩
  have ho : circuitObject 8 c = .error (.gateBound 8) := by
    simp only [circuitObject, hm]; rfl
  have hb : TestBuilder.registerCircuit 8 {} c = (.error (.gateBound 8), { inner := none }) := by
    simp only [TestBuilder.registerCircuit, Builder.registerInternalCircuit, ho]; rfl
  exact ⟨c, _, hb, (C95_poisoned (E := env97) hb).2.2⟩

-- a bonding object first, then a circuit: the registry is built, and the handle of the bonding
-- object, 0, is that of the circuit
example : ∃ (c : Circ (ZMod 97)) (b : TestBuilder (ZMod 97)),
    registerAll 8 [.bonding ((StageMask.mk 2 3).object 8), .circuit c] {} = .ok ([⟨0⟩, ⟨0⟩], b) ∧
    ∃ R, b.finalize env97 8 = .ok R := by
  obtain ⟨c1, a1, a2, a3, a4, a5⟩ := C94_simple_circuit (F := ZMod 97)
  obtain ⟨m1, hm1⟩ := (C22_limits 8 c1 a1).2.2.2 ⟨by omega, by omega⟩
  have o1 : circuitObject 8 c1 = .ok (intoRawCircuitObject 8 c1 m1) := by
    simp only [circuitObject, hm1]; rfl
  have hb : ∃ b, registerAll 8 [.bonding ((StageMask.mk 2 3).object 8), .circuit c1] {} =
      .ok ([⟨0⟩, ⟨0⟩], b) := by
    simp only [registerAll, TestReg.apply, TestBuilder.registerCircuit, TestBuilder.registerBonding,
      Builder.registerInternalCircuit, o1]
    exact ⟨_, rfl⟩
  obtain ⟨b, hb⟩ := hb
  obtain ⟨B, e1, e2⟩ := registerAll_build _ (B := {}) rfl hb
  have hbs : AllImplement 8 (Reg.bondings ([.bonding ((StageMask.mk 2 3).object 8),
      .circuit c1].map TestReg.reg)) [maskAt (F := ZMod 97) 8 2 3] :=
    .cons (mask_implements (m := ⟨2, 3⟩) (by decide) (by decide)) .nil
  have hr := ready_of_history env97_ok (n := 8) (q := 5) (by norm_num) (by decide) env97_keys _
    (fun c hc => by
      have : c = c1 := by
        simpa [TestReg.reg, Reg.internalCircuits, Reg.internalSteps, Reg.applications] using hc
      rw [this]; exact a1) hbs e2
  have hlen : B.numCircuits = 2 := by
    rw [← allCircuits_length, List.Forall₂.length_eq hr.objects]
    rfl
  obtain ⟨R, hR, -⟩ := (C25_capacity hr).2 (by omega)
  refine ⟨c1, b, hb, R, ?_⟩
  rw [TestBuilder.finalize, e1]
  exact hR

-- a run under a handle: a circuit registered second, with a bonding object after it
example : ∃ (R : Registry (ZMod 97)) (t : List (ASeg (ZMod 97))) (r : Sparse.Poly (ZMod 97)),
    TraceEval demoSat t ∧ assembleAt 8 R (t.map Prod.snd) ⟨1⟩ 7 = some (.ok r) ∧
    ∀ y z, RegistryClaim env97 8 R 1 r [15, 28] y z := by
  obtain ⟨o, ho⟩ := demoSat_object
  obtain ⟨o', ho'⟩ := demo_object
  have hb : ∃ b, registerAll 8 [.circuit demo, .circuit demoSat,
      .bonding ((StageMask.mk 2 3).object 8)] {} = .ok ([⟨0⟩, ⟨1⟩, ⟨2⟩], b) := by
    simp only [registerAll, TestReg.apply, TestBuilder.registerCircuit, TestBuilder.registerBonding,
      Builder.registerInternalCircuit, ho, ho']
    exact ⟨_, rfl⟩
  obtain ⟨b, hb⟩ := hb
  have hu : ∀ c, TestReg.circuit c ∈ [TestReg.circuit demo, .circuit demoSat,
      .bonding ((StageMask.mk 2 3).object 8)] → c.WellUsed := by
    intro c hc
    simp only [List.mem_cons, TestReg.circuit.injEq, reduceCtorEq, List.not_mem_nil, or_false] at hc
    rcases hc with rfl | rfl
    exacts [demo_wellUsed, demoSat_wellUsed]
  have hm : Implements 8 ((StageMask.mk 2 3).object 8) (maskAt (F := ZMod 97) 8 2 3) :=
    mask_implements (m := ⟨2, 3⟩) (by decide) (by decide)
  have hi : ∀ o, TestReg.bonding o ∈ [TestReg.circuit demo, .circuit demoSat,
      .bonding ((StageMask.mk 2 3).object 8)] → ∃ s, Implements 8 o s := by
    intro o ho
    simp only [List.mem_cons, TestReg.bonding.injEq, reduceCtorEq, List.not_mem_nil, or_false,
      false_or] at ho
    subst ho
    exact ⟨_, hm⟩
  obtain ⟨B, e1, e2⟩ := registerAll_build _ (B := {}) rfl hb
  have hbs : AllImplement 8 (Reg.bondings ([.circuit demo, .circuit demoSat,
      .bonding ((StageMask.mk 2 3).object 8)].map TestReg.reg)) [maskAt (F := ZMod 97) 8 2 3] :=
    .cons hm .nil
  have hr := ready_of_history env97_ok (n := 8) (q := 5) (by norm_num) (by decide) env97_keys _
    (fun c hc => by
      have : c = demo ∨ c = demoSat := by
        simpa [TestReg.reg, Reg.internalCircuits, Reg.internalSteps, Reg.applications] using hc
      rcases this with rfl | rfl
      exacts [demo_wellUsed, demoSat_wellUsed])
    hbs e2
  have hlen : B.numCircuits = 3 := by
    rw [← allCircuits_length, List.Forall₂.length_eq hr.objects]
    rfl
  obtain ⟨R, hR, -⟩ := (C25_capacity hr).2 (by omega)
  have hR' : b.finalize env97 8 = .ok R := by
    rw [TestBuilder.finalize, e1]; exact hR
  obtain ⟨t, ht⟩ := C18_produced demoSat_wellUsed
  obtain ⟨r, h1, h2⟩ := (C95_assemble env97_ok (n := 8) (q := 5) (by norm_num) (by decide) env97_keys
    hu hi hb hR' (j := 1) rfl (c := demoSat) rfl 7).2 [15, 28] t (by decide +kernel) ht
  exact ⟨R, t, r, ht, h1, h2⟩

end Ragu.Props

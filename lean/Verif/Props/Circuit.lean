/-
Properties C15, C16, C17 and C22: wiring polynomial evaluators, the virtual wire
table, metrics, floor plan and capacity limits.
-/
import Verif.Lemmas.SySim
import Verif.Lemmas.TestField

set_option linter.unusedSectionVars false

namespace Ragu.Props
open Ragu Ragu.Circuit Finset
variable {F : Type} [Field F] [DecidableEq F]

/-! ### A concrete circuit used below to show that hypotheses can be met -/

/-- Nested routines, shared virtual wires, explicit clones and drops. -/
def demo : Circ (ZMod 97) where
  body := .mul 3 5 15 <| .alloc 7 <|
    .add [.term (.idx 0) .one, .gain .two, .term (.idx 3) .negativeOne, .term .one (.arbitrary 4)] <|
    .clone 4 <|
    .routine { known := true, nin := 1, nout := 1 }
      (.alloc 9 <| .add [.term (.idx 4) .two, .term (.idx 5) .one] <|
        .enforce [.term (.idx 6) .one, .gain .negativeOne, .term (.idx 1) .two] <|
        .routine {} (.gate 1 2 2 0 <| .enforce [.term (.idx 7) .one] <| .drop 4 .done) <|
        .enforce [.term (.idx 8) .one, .term (.idx 4) .two] .done) <|
    .add [.term (.idx 6) .one, .term (.idx 4) .one] <|
    .drop 6 .done
  outs := [.idx 2, .idx 11]
  cleanup := [0, 1, 2, 3, 4, 5, 7, 8, 9, 10, 11]

theorem demo_wellUsed : demo.WellUsed := ⟨_, rfl, by decide⟩

/-! ### C17 -/

/-- C17: measuring a circuit succeeds and reports the number of gates and
constraints synthesis creates in total and per routine call. -/
theorem C17_metrics (c : Circ F) (hu : c.WellUsed) :
    ∃ m, metricsEval c = .ok m ∧ m.segments = c.counts ∧ m.numGates = totalGates c.counts ∧
      m.numCons = totalCons c.counts ∧ m.degreeKy = c.outs.length :=
  ⟨_, metricsEval_eq c hu, rfl, rfl, rfl, rfl⟩

example : metricsEval demo = .ok ⟨6, 5, 2, [(3, 3), (1, 2), (1, 1)]⟩ := by rfl

theorem starts_eq (rs : List (ℕ × ℕ)) {i : ℕ} {r : ℕ × ℕ} (h : rs[i]? = some r) :
    (floorPlan rs)[i]? = some ⟨totalGates (rs.take i), totalCons (rs.take i), r.1, r.2⟩ := by
  rw [floorPlan, floorPlan_getElem, h]; simp

/-- C17: the floor plan has one segment per record, in the same order, with the
record's counts, each starting where the previous ones end; the root starts at
the origin. -/
theorem C17_floor_plan (rs : List (ℕ × ℕ)) :
    (floorPlan rs).length = rs.length ∧
    ∀ (i : ℕ) (r : ℕ × ℕ), rs[i]? = some r → (floorPlan rs)[i]? =
      some ⟨((rs.take i).map Prod.fst).sum, ((rs.take i).map Prod.snd).sum, r.1, r.2⟩ :=
  ⟨floorPlan_length rs, fun _ _ h => starts_eq rs h⟩

theorem cover_aux (f : ℕ × ℕ → ℕ) (rs : List (ℕ × ℕ)) : ∀ g < (rs.map f).sum,
    ∃! i : ℕ, ∃ r : ℕ × ℕ, rs[i]? = some r ∧ ((rs.take i).map f).sum ≤ g ∧
      g < ((rs.take i).map f).sum + f r := by
  induction rs with
  | nil => intro g hg; simp at hg
  | cons a rs ih =>
    intro g hg
    simp only [List.map_cons, List.sum_cons] at hg
    by_cases hlt : g < f a
    · refine ⟨0, ⟨a, by simp, by simp, by simpa using hlt⟩, ?_⟩
      rintro i ⟨r, hr, h1, h2⟩
      cases i with
      | zero => rfl
      | succ i =>
        simp only [List.take_succ_cons, List.map_cons, List.sum_cons] at h1
        omega
    · obtain ⟨i, ⟨r, hr, h1, h2⟩, huniq⟩ := ih (g - f a) (by omega)
      refine ⟨i + 1, ⟨r, by simpa using hr, ?_, ?_⟩, ?_⟩
      · simp only [List.take_succ_cons, List.map_cons, List.sum_cons]; omega
      · simp only [List.take_succ_cons, List.map_cons, List.sum_cons]; omega
      · rintro j ⟨r', hr', h1', h2'⟩
        cases j with
        | zero =>
          simp only [List.getElem?_cons_zero, Option.some.injEq] at hr'
          subst hr'
          simp at h2'
          omega
        | succ j =>
          simp only [List.getElem?_cons_succ] at hr'
          simp only [List.take_succ_cons, List.map_cons, List.sum_cons] at h1' h2'
          rw [huniq j ⟨r', hr', by omega, by omega⟩]

/-- C17: every gate index below the total belongs to exactly one segment, and
no segment reaches beyond the total. -/
theorem C17_gates_partition (rs : List (ℕ × ℕ)) :
    (∀ g < totalGates rs, ∃! i : ℕ, ∃ sg : Seg, (floorPlan rs)[i]? = some sg ∧
      sg.gateStart ≤ g ∧ g < sg.gateStart + sg.numGates) ∧
    ∀ sg ∈ floorPlan rs, sg.gateStart + sg.numGates ≤ totalGates rs := by
  refine ⟨fun g hg => ?_, fun sg hs => by
    have := (floorPlanFrom_bound rs 0 0 sg hs).1; omega⟩
  obtain ⟨i, ⟨r, hr, h1, h2⟩, hu⟩ := cover_aux Prod.fst rs g hg
  refine ⟨i, ⟨_, starts_eq rs hr, h1, h2⟩, ?_⟩
  rintro j ⟨sg, hsg, h1', h2'⟩
  have hj : j < rs.length := by
    by_contra hc
    rw [List.getElem?_eq_none (by rw [floorPlan_length]; omega)] at hsg
    simp at hsg
  have hrj : rs[j]? = some rs[j] := List.getElem?_eq_getElem hj
  rw [starts_eq rs hrj, Option.some.injEq] at hsg
  subst hsg
  exact hu j ⟨_, hrj, h1', h2'⟩

/-- C17: the same for constraints. -/
theorem C17_constraints_partition (rs : List (ℕ × ℕ)) :
    (∀ q < totalCons rs, ∃! i : ℕ, ∃ sg : Seg, (floorPlan rs)[i]? = some sg ∧
      sg.consStart ≤ q ∧ q < sg.consStart + sg.numCons) ∧
    ∀ sg ∈ floorPlan rs, sg.consStart + sg.numCons ≤ totalCons rs := by
  refine ⟨fun g hg => ?_, fun sg hs => by
    have := (floorPlanFrom_bound rs 0 0 sg hs).2; omega⟩
  obtain ⟨i, ⟨r, hr, h1, h2⟩, hu⟩ := cover_aux Prod.snd rs g hg
  refine ⟨i, ⟨_, starts_eq rs hr, h1, h2⟩, ?_⟩
  rintro j ⟨sg, hsg, h1', h2'⟩
  have hj : j < rs.length := by
    by_contra hc
    rw [List.getElem?_eq_none (by rw [floorPlan_length]; omega)] at hsg
    simp at hsg
  have hrj : rs[j]? = some rs[j] := List.getElem?_eq_getElem hj
  rw [starts_eq rs hrj, Option.some.injEq] at hsg
  subst hsg
  exact hu j ⟨_, hrj, h1', h2'⟩

example : floorPlan [(3, 3), (1, 2), (1, 1)] = [⟨0, 0, 3, 3⟩, ⟨3, 3, 1, 2⟩, ⟨4, 5, 1, 1⟩] := by rfl

/-! ### C22 -/

/-- C22: registering a circuit fails with a constraint-bound error exactly when
it has at least `4n` constraints, otherwise with a gate-bound error exactly when
it needs more than `n` gates, and succeeds in all other cases. -/
theorem C22_limits (n : ℕ) (c : Circ F) (hu : c.WellUsed) :
    (intoCircuitObject n c = .error (.constraintBound (4 * n - 1)) ↔
      4 * n ≤ totalCons c.counts) ∧
    (intoCircuitObject n c = .error (.gateBound n) ↔
      totalCons c.counts < 4 * n ∧ n < totalGates c.counts) ∧
    ((∃ m, intoCircuitObject n c = .ok m) ↔
      totalCons c.counts < 4 * n ∧ totalGates c.counts ≤ n) := by
  simp only [intoCircuitObject, metricsEval_eq c hu, bind_ok, capacityCheck]
  by_cases h1 : totalCons c.counts ≥ 4 * n
  · have : ¬ totalCons c.counts < 4 * n := by omega
    simp only [if_pos h1]
    refine ⟨⟨fun _ => h1, fun _ => rfl⟩, ⟨fun h => ?_, fun h => absurd h.1 this⟩,
      ⟨fun h => ?_, fun h => absurd h.1 this⟩⟩
    · cases h
    · obtain ⟨m, hm⟩ := h; cases hm
  · simp only [if_neg h1]
    by_cases h2 : totalGates c.counts > n
    · simp only [if_pos h2]
      refine ⟨⟨fun h => ?_, fun h => absurd h h1⟩, ⟨fun _ => ⟨by omega, h2⟩, fun _ => rfl⟩,
        ⟨fun h => ?_, fun h => by omega⟩⟩
      · cases h
      · obtain ⟨m, hm⟩ := h; cases hm
    · simp only [if_neg h2]
      refine ⟨⟨fun h => ?_, fun h => absurd h h1⟩, ⟨fun h => ?_, fun h => by omega⟩,
        ⟨fun _ => ⟨by omega, by omega⟩, fun _ => ⟨_, rfl⟩⟩⟩
      · cases h
      · cases h

theorem registered {n : ℕ} {c : Circ F} (hu : c.WellUsed) {m : Metrics}
    (h : intoCircuitObject n c = .ok m) :
    totalGates c.counts ≤ n ∧ totalCons c.counts < 4 * n ∧ m.segments = c.counts := by
  have h1 := ((C22_limits n c hu).2.2).1 ⟨m, h⟩
  refine ⟨h1.2, h1.1, ?_⟩
  have h2 : intoCircuitObject n c = .ok ⟨totalCons c.counts, totalGates c.counts, c.outs.length,
      c.counts⟩ := by
    simp only [intoCircuitObject, metricsEval_eq c hu, bind_ok, capacityCheck]
    rw [if_neg (by omega), if_neg (by omega)]
    rfl
  rw [h, Except.ok.injEq] at h2
  rw [h2]

/-- C22: a registered circuit never hits a limit (or a panic) in any of the
three evaluators, at any point. -/
theorem C22_no_later_failure (n : ℕ) (c : Circ F) (hu : c.WellUsed) (m : Metrics)
    (h : intoCircuitObject n c = .ok m) (x y : F) :
    (∃ v, sxyEval n (floorPlan m.segments) c x y = .ok v) ∧
    (∃ p, sxEval n (floorPlan m.segments) c x = .ok p) ∧
    (∃ p, syEval n (floorPlan m.segments) c y = .ok p) := by
  obtain ⟨h1, h2, h3⟩ := registered hu h
  rw [h3]
  obtain ⟨p, hp, _⟩ := sxEval_eq hu h1 h2 x
  obtain ⟨q, hq, _⟩ := syEval_eq hu h1 h2 y
  exact ⟨⟨_, sxyEval_eq hu h1 h2 x y⟩, ⟨p, hp⟩, ⟨q, hq⟩⟩

example : intoCircuitObject 8 demo = .ok ⟨6, 4 + 1, 2, [(3, 3), (1, 2), (1, 1)]⟩ := by rfl
example : intoCircuitObject 4 demo = .error (.gateBound 4) := by rfl
example : intoCircuitObject 1 demo = .error (.constraintBound 3) := by rfl

/-! ### C15 -/

/-- C15: `s(x, y)` computed directly equals the wiring polynomial. -/
theorem C15_sxy (n : ℕ) (c : Circ F) (hu : c.WellUsed) (m : Metrics)
    (h : intoCircuitObject n c = .ok m) (x y : F) :
    sxyEval n (floorPlan m.segments) c x y =
      .ok (wiringAt n (floorPlan m.segments) c x y) := by
  obtain ⟨h1, h2, h3⟩ := registered hu h
  rw [h3]
  exact sxyEval_eq hu h1 h2 x y

/-- C15: the polynomial `s(x, Y)` evaluates to the wiring polynomial at every `y`. -/
theorem C15_sx (n : ℕ) (c : Circ F) (hu : c.WellUsed) (m : Metrics)
    (h : intoCircuitObject n c = .ok m) (x : F) :
    ∃ p, sxEval n (floorPlan m.segments) c x = .ok p ∧
      ∀ y, Sparse.eval (4 * n) p y = wiringAt n (floorPlan m.segments) c x y := by
  obtain ⟨h1, h2, h3⟩ := registered hu h
  rw [h3]
  obtain ⟨p, hp, _, hv⟩ := sxEval_eq hu h1 h2 x
  exact ⟨p, hp, hv⟩

/-- C15: the polynomial `s(X, y)` evaluates to the wiring polynomial at every `x`. -/
theorem C15_sy (n : ℕ) (c : Circ F) (hu : c.WellUsed) (m : Metrics)
    (h : intoCircuitObject n c = .ok m) (y : F) :
    ∃ p, syEval n (floorPlan m.segments) c y = .ok p ∧
      ∀ x, Sparse.eval (4 * n) p x = wiringAt n (floorPlan m.segments) c x y := by
  obtain ⟨h1, h2, h3⟩ := registered hu h
  rw [h3]
  obtain ⟨p, hp, _, hv⟩ := syEval_eq hu h1 h2 y
  exact ⟨p, hp, hv⟩

/-- C15: the three evaluators agree at every point. -/
theorem C15_agree (n : ℕ) (c : Circ F) (hu : c.WellUsed) (m : Metrics)
    (h : intoCircuitObject n c = .ok m) (x y : F) :
    ∃ v p q, sxyEval n (floorPlan m.segments) c x y = .ok v ∧
      sxEval n (floorPlan m.segments) c x = .ok p ∧ syEval n (floorPlan m.segments) c y = .ok q ∧
      Sparse.eval (4 * n) p y = v ∧ Sparse.eval (4 * n) q x = v := by
  obtain ⟨p, hp, hpv⟩ := C15_sx n c hu m h x
  obtain ⟨q, hq, hqv⟩ := C15_sy n c hu m h y
  exact ⟨_, p, q, C15_sxy n c hu m h x y, hp, hq, hpv y, hqv x⟩

/-- C15: in the wiring polynomial no two constraints share a power of `Y`, and
no two wires share a power of `X`: the constraint at position `k` of segment `i`
and the gate wires at positions below capacity have their own monomials. -/
theorem C15_monomials (n : ℕ) (rs : List (ℕ × ℕ)) :
    (∀ (i j k l : ℕ) (sg sg' : Seg), (floorPlan rs)[i]? = some sg → (floorPlan rs)[j]? = some sg' →
      k < sg.numCons → l < sg'.numCons →
      consExp (floorPlan rs) i k = consExp (floorPlan rs) j l → i = j ∧ k = l) ∧
    (∀ i j k l, i < n → j < n → wiringExp n i k = wiringExp n j l → i = j ∧ k = l) := by
  constructor
  · intro i j k l sg sg' hi hj hk hl he
    simp only [consExp, hi, hj, Option.map_some, Option.getD_some] at he
    have ho : Ordered (floorPlan rs) := floorPlanFrom_ordered _ _ _
    obtain ⟨h1, h2⟩ := ordered_inj ho hi hj (k := sg.numCons - 1 - k) (l := sg'.numCons - 1 - l)
      (by omega) (by omega) (by omega)
    subst h1
    rw [hi, Option.some.injEq] at hj
    subst hj
    exact ⟨rfl, by omega⟩
  · intro i j k l hi hj he
    cases k <;> cases l <;> simp only [wiringExp] at he <;>
      first | exact ⟨by omega, rfl⟩ | (exfalso; omega)

example : ((sxyEval 8 (floorPlan demo.counts) demo 5 3).toOption.getD 0) ≠ 0 := by decide +kernel

/-! ### C16 -/

/-- Number of live handles that refer to virtual wire `i`: `e` are the wires
handed out so far, `h` how many handles to each are alive. -/
def liveHandles (e : List WIdx) (h : List ℕ) (i : ℕ) : ℕ :=
  ((e.zip h).map fun p => if p.1 = .virt i then p.2 else 0).sum

/-- Number of times virtual wire `i` occurs in the definitions of virtual wires. -/
def tableRefs (T : Table F) (i : ℕ) : ℕ :=
  (T.wires.map fun w => w.terms.countP fun t => decide (t.1 = .virt i)).sum

theorem liveHandles_eq (e : List WIdx) (h : List ℕ) (i : ℕ) : extOf e h i = liveHandles e h i := by
  unfold extOf liveHandles oneAt
  congr 1
  apply List.map_congr_left
  intro p _
  split <;> simp

theorem tcount_eq (ts : List (WIdx × Coeff F)) (i : ℕ) :
    tcount ts i = ts.countP fun t => decide (t.1 = .virt i) := by
  induction ts with
  | nil => rfl
  | cons t ts ih =>
    rw [List.countP_cons, ← ih]
    simp only [tcount, List.map_cons, List.sum_cons, oneAt, decide_eq_true_eq]
    omega

theorem tableRefs_eq (T : Table F) (i : ℕ) : T.occ i = tableRefs T i := by
  unfold Table.occ tableRefs Table.len Table.w
  simp only [← tcount_eq]
  induction T.wires with
  | nil => simp
  | cons w ws ih =>
    rw [List.length_cons, Finset.sum_range_succ']
    simp only [List.getD_cons_succ, List.getD_cons_zero, List.map_cons, List.sum_cons]
    rw [ih, add_comm]

/-- C16: after any initial part `p` of a legal synthesis, the reference count of
every virtual wire is the number of live handles to it plus the number of times
it occurs in the definitions of other wires; a wire is on the free list exactly
when that number is zero; free slots are empty; and the free list has no
duplicates. -/
theorem C16_refcounts (n : ℕ) (c : Circ F) (hu : c.WellUsed) (m : Metrics)
    (h : intoCircuitObject n c = .ok m) (y : F) (hy : y ≠ 0) (p q : Prog F)
    (hpq : c.main = p.seq q) :
    ∃ hs t e, handles p [] = some hs ∧
      run (syDriver n (floorPlan m.segments) y) p { syStart c y with gates := 1 } [] =
        .ok (t, e) ∧
      (∀ (i : ℕ) (w : VWire F), t.table.wires[i]? = some w →
        w.refcount = liveHandles e hs i + tableRefs t.table i ∧
        (i ∈ t.table.free ↔ w.refcount = 0) ∧
        (w.refcount = 0 → w.terms = [] ∧ w.value = .zero)) ∧
      t.table.free.Nodup ∧ ∀ i ∈ t.table.free, i < t.table.wires.length := by
  obtain ⟨h1, h2, h3⟩ := registered hu h
  rw [h3]
  obtain ⟨hs, t, e, hh, hr, s, es, _, hR⟩ := sy_prefix hu h1 h2 hy (fun _ _ => 0) p q hpq
  obtain ⟨_, _, _, _, _, lin, rk, hT⟩ := hR
  refine ⟨hs, t, e, hh, hr, ?_, hT.inv.nodup, fun i hi => ((hT.inv.free_iff i).1 hi).1⟩
  intro i w hw
  have hi : i < t.table.len := by
    by_contra hc
    rw [List.getElem?_eq_none (by unfold Table.len at hc; omega)] at hw
    simp at hw
  have hwe : w = t.table.w i := by
    rw [t.table.get_w hi, Option.some.injEq] at hw; exact hw.symm
  subst hwe
  refine ⟨?_, ⟨fun hf => ((hT.inv.free_iff i).1 hf).2.1, fun h0 => (hT.inv.free_iff i).2
    ⟨hi, h0, by simp⟩⟩, fun h0 => ⟨hT.inv.dead i hi h0, hT.inv.free_zero i
      ((hT.inv.free_iff i).2 ⟨hi, h0, by simp⟩)⟩⟩
  rw [hT.inv.ref i hi, liveHandles_eq, tableRefs_eq]

/-- C16: at every moment of synthesis nothing has been lost or counted twice:
for every assignment `α` of values to gate wires there are values `lin` of the
virtual wires, consistent with their definitions, such that what has reached the
gate buffers plus what still waits on virtual wires is the weighted sum of all
constraints enforced so far. -/
theorem C16_conservation (n : ℕ) (c : Circ F) (hu : c.WellUsed) (m : Metrics)
    (h : intoCircuitObject n c = .ok m) (y : F) (hy : y ≠ 0) (α : Kind → ℕ → F)
    (p q : Prog F) (hpq : c.main = p.seq q) :
    ∃ t e s es, ∃ lin : ℕ → F, run (syDriver n (floorPlan m.segments) y) p
        { syStart c y with gates := 1 } [] = .ok (t, e) ∧
      run (semD fun b => α b.kind (absGate (floorPlan m.segments) b)) p
        { pos := Pos.gate {} } [] = .ok (s, es) ∧
      (∀ (i : ℕ) (w : VWire F), t.table.wires[i]? = some w → w.refcount ≠ 0 →
        lin i = (w.terms.map fun t => t.2.value * linW α lin t.1).sum) ∧
      bufSum α .a (t.table.buf .a) + bufSum α .b (t.table.buf .b) + bufSum α .c (t.table.buf .c) +
        bufSum α .d (t.table.buf .d) +
        ∑ i ∈ range t.table.wires.length, (t.table.w i).value.value * lin i =
      weigh (floorPlan m.segments) y s.log := by
  obtain ⟨h1, h2, h3⟩ := registered hu h
  rw [h3]
  obtain ⟨hs, t, e, hh, hr, s, es, hsr, hR⟩ := sy_prefix hu h1 h2 hy α p q hpq
  obtain ⟨_, _, _, _, _, lin, rk, hT⟩ := hR
  refine ⟨t, e, s, es, lin, hr, hsr, ?_, ?_⟩
  · intro i w hw h0
    have hi : i < t.table.len := by
      by_contra hc
      rw [List.getElem?_eq_none (by unfold Table.len at hc; omega)] at hw
      simp at hw
    have hwe : w = t.table.w i := by
      rw [t.table.get_w hi, Option.some.injEq] at hw; exact hw.symm
    subst hwe
    exact hT.inv.lin_eq i hi h0
  · have := hT.pot
    simpa [Pot, Table.len] using this

theorem seq_done (p : Prog F) : p.seq .done = p := by
  induction p with
  | done => rfl
  | gate _ _ _ _ k ih | mul _ _ _ k ih | alloc _ k ih | add _ k ih | enforce _ k ih
  | routine _ _ k _ ih | clone _ k ih | drop _ k ih => rw [Prog.seq, ih]

/-- C16: when synthesis ends every virtual wire is back on the free list; no
operation panicked on the way. -/
theorem C16_all_released (n : ℕ) (c : Circ F) (hu : c.WellUsed) (m : Metrics)
    (h : intoCircuitObject n c = .ok m) (y : F) (hy : y ≠ 0) :
    ∃ t e, orchestrate (syDriver n (floorPlan m.segments) y) c (syStart c y) = .ok (t, e) ∧
      t.table.free.length = t.table.wires.length ∧
      ∀ w ∈ t.table.wires, w.refcount = 0 := by
  obtain ⟨h1, h2, h3⟩ := registered hu h
  rw [h3]
  obtain ⟨t, e, hr, _, _, _, hfree, _⟩ := sy_run hu h1 h2 hy (fun _ _ => (0 : F))
  refine ⟨t, e, hr, hfree, ?_⟩
  obtain ⟨hs, t', e', hh, hr', hw, hnd, hlt⟩ := C16_refcounts n c hu m h y hy c.main .done
    (seq_done _).symm
  rw [h3] at hr'
  have h0 : (syDriver n (floorPlan c.counts) y).gate 0 0 0 0 (syStart c y) =
      .ok ({ syStart c y with gates := 1 }, .gate .a 0, .gate .b 0, .gate .c 0, .gate .d 0) := by
    have hf := circ_fits c h1 (show totalCons c.counts ≤ 4 * n - 1 by omega)
    obtain ⟨⟨sg, _, _, hlt⟩, _⟩ := hf
    have : (0 : ℕ) ≠ n := by omega
    simp [syDriver, SyState.gate, syStart, this, bind_ok]
  have he : orchestrate (syDriver n (floorPlan c.counts) y) c (syStart c y) = .ok (t', e') := by
    simp only [orchestrate]
    rw [h0, bind_ok]
    exact hr'
  have hr2 : orchestrate (syDriver n (floorPlan c.counts) y) c (syStart c y) = .ok (t, e) := hr
  rw [hr2, Except.ok.injEq, Prod.mk.injEq] at he
  obtain ⟨rfl, rfl⟩ := he
  intro w hwm
  obtain ⟨i, hi, hwi⟩ := List.mem_iff_getElem.1 hwm
  have hg : t.table.wires[i]? = some w := by rw [List.getElem?_eq_getElem hi, hwi]
  refine ((hw i w hg).2.1).1 ?_
  have hsub : t.table.free.toFinset ⊆ Finset.range t.table.wires.length := by
    intro j hj
    exact Finset.mem_range.2 (hlt j (List.mem_toFinset.1 hj))
  have heq := Finset.eq_of_subset_of_card_le hsub (by
    rw [List.toFinset_card_of_nodup hnd, hfree, Finset.card_range])
  exact List.mem_toFinset.1 (heq ▸ Finset.mem_range.2 hi)

example : ∃ m t e, intoCircuitObject 8 demo = .ok m ∧
    orchestrate (syDriver 8 (floorPlan m.segments) 3) demo (syStart demo 3) = .ok (t, e) ∧
    t.table.wires.length = 3 := ⟨_, _, _, rfl, rfl, rfl⟩

end Ragu.Props

/-
Assembling a trace polynomial from segments, and the simulator's verdict on it.
-/
import Verif.Lemmas.Trace
import Verif.Spec.Revdot

set_option linter.unusedSectionVars false

namespace Ragu.Circuit
open Ragu
variable {F : Type} [Field F] [DecidableEq F]

/-- A column of a segment. -/
def TSeg.col (s : TSeg F) : Kind → List F
  | .a => s.a
  | .b => s.b
  | .c => s.c
  | .d => s.d

/-! ### Lengths -/

theorem own_length (prog : Prog F) : ∀ (g : TSeg F) (p : Option ℕ) (pos : Pos),
    pos.gates = g.a.length → pos.pend.isSome = p.isSome →
    (own prog g p).1.a.length = (posRun prog pos).gates := by
  induction prog with
  | done => intro g p pos h _; exact h.symm
  | gate a b c d k ih | mul a b c k ih =>
    intro g p pos h hp
    exact ih _ _ _ (by simp [Pos.gate, TSeg.push, h]) hp
  | alloc v k ih =>
    intro g p pos h hp
    cases p with
    | some i =>
      cases hq : pos.pend with
      | none => simp [hq] at hp
      | some j => exact ih _ _ _ (by simp [Pos.alloc, hq, h]) (by simp [Pos.alloc, hq])
    | none =>
      cases hq : pos.pend with
      | some j => simp [hq] at hp
      | none => exact ih _ _ _ (by simp [Pos.alloc, hq, h, TSeg.push]) (by simp [Pos.alloc, hq])
  | add lc k ih | clone w k ih | drop w k ih => intro g p pos h hp; exact ih _ _ _ h hp
  | enforce lc k ih => intro g p pos h hp; exact ih _ _ _ h hp
  | routine c b k ihb ihk => intro g p pos h hp; exact ihk _ _ _ h hp

theorem dfs_lengths (prog : Prog F) : ∀ p j,
    (dfs prog p j).map (fun x => x.2.a.length) = (subCounts prog).map Prod.fst := by
  induction prog with
  | done => intro p j; rfl
  | gate _ _ _ _ k ih | mul _ _ _ k ih | alloc _ k ih | add lc k ih | clone w k ih | drop w k ih
  | enforce lc k ih => intro p j; exact ih _ _
  | routine c b k ihb ihk =>
    intro p j
    simp only [dfs, subCounts, List.map_cons, List.map_append, ihb, ihk]
    rw [own_length b _ _ {} rfl rfl]

theorem dfs_good (prog : Prog F) : ∀ p j, ∀ x ∈ dfs prog p j, Good x.2 none := by
  induction prog with
  | done => intro p j x hx; simp [dfs] at hx
  | gate _ _ _ _ k ih | mul _ _ _ k ih | alloc _ k ih | add lc k ih | clone w k ih | drop w k ih
  | enforce lc k ih => intro p j; exact ih _ _
  | routine c b k ihb ihk =>
    intro p j x hx
    simp only [dfs, List.mem_cons, List.mem_append] at hx
    rcases hx with rfl | hx | hx
    · have := own_good b ⟨[], [], [], []⟩ none ⟨rfl, rfl, rfl, by simp⟩
      exact ⟨this.1, this.2.1, this.2.2.1, by simp⟩
    · exact ihb _ _ x hx
    · exact ihk _ _ x hx

/-- The segments a circuit's trace consists of. -/
def segsOf (c : Circ F) : List (TSeg F) := (canon c.body).map Prod.snd

theorem subCounts_seq (p q : Prog F) : subCounts (p.seq q) = subCounts p ++ subCounts q := by
  induction p with
  | done => rfl
  | gate va vb vc vd k ih | mul va vb vc k ih | alloc v k ih | add lc k ih
  | enforce lc k ih | clone w k ih | drop w k ih => exact ih
  | routine call b k ihb ihk => simp [Prog.seq, subCounts, ihk]

theorem epilogue_none (outs : List WRef) (cl : List ℕ) (p : Pos) :
    subCounts (epilogue outs cl : Prog F) = [] ∧
      (posRun (epilogue outs cl : Prog F) p).gates = p.gates := by
  induction outs generalizing p with
  | nil =>
    simp only [epilogue, List.foldr_nil, subCounts, posRun]
    have hs : subCounts (dropsProg cl : Prog F) = [] := by
      induction cl with
      | nil => rfl
      | cons i r ih => exact ih
    exact ⟨hs, by rw [show (List.foldr Prog.drop Prog.done cl : Prog F) = dropsProg cl from rfl,
      posRun_drops]; rfl⟩
  | cons w r ih => exact ih p.enforce

theorem segsOf_lengths (c : Circ F) : (segsOf c).map (fun s => s.a.length) = c.counts.map Prod.fst := by
  have h1 : subCounts c.main = subCounts c.body := by
    rw [Circ.main, subCounts_seq, (epilogue_none _ _ {}).1, List.append_nil]
  have h2 : (posRun c.main (Pos.gate {})).gates = (posRun c.body (Pos.gate {})).gates := by
    rw [Circ.main, posRun_seq, (epilogue_none _ _ _).2]
  simp only [segsOf, canon, Circ.counts, h1, h2, List.map_cons, List.map_map]
  rw [own_length c.body _ none (Pos.gate {}) rfl rfl]
  congr 1
  exact dfs_lengths c.body [] 0

theorem segsOf_good (c : Circ F) : ∀ s ∈ segsOf c, Good s none := by
  intro s hs
  simp only [segsOf, canon, List.map_cons, List.mem_cons, List.mem_map] at hs
  rcases hs with rfl | ⟨x, hx, rfl⟩
  · have := own_good c.body ⟨[0], [0], [0], [0]⟩ none ⟨rfl, rfl, rfl, by simp⟩
    exact ⟨this.1, this.2.1, this.2.2.1, by simp⟩
  · exact dfs_good _ _ _ x hx

/-! ### Scatter -/

theorem totalCounts_eq (rs : List (ℕ × ℕ)) : ∀ (segs : List (TSeg F)) (g q m : ℕ),
    segs.map (fun s => s.a.length) = rs.map Prod.fst → g ≤ m →
    (List.zipWith (fun (sg : Seg) (s : TSeg F) => sg.gateStart + s.a.length)
      (floorPlanFrom g q rs) segs).foldl max m = max m (g + totalGates rs) := by
  induction rs with
  | nil =>
    intro segs g q m h hm
    simp [floorPlanFrom, totalGates, hm]
  | cons r rs ih =>
    intro segs g q m h hm
    cases segs with
    | nil => simp at h
    | cons s segs =>
      simp only [List.map_cons, List.cons.injEq] at h
      simp only [floorPlanFrom, List.zipWith_cons_cons, List.foldl_cons]
      rw [ih segs _ _ _ h.2 (by rw [h.1]; exact le_max_right _ _), h.1]
      simp only [totalGates, List.map_cons, List.sum_cons]
      omega

theorem writeAt_eq (pre data : List F) (m : ℕ) :
    writeAt (pre ++ List.replicate (data.length + m) 0) pre.length data =
      some ((pre ++ data) ++ List.replicate m 0) := by
  rw [writeAt, if_pos (by simp)]
  simp [List.drop_append]

theorem scatter_eq (rs : List (ℕ × ℕ)) : ∀ (segs : List (TSeg F)) (g q : ℕ) (v : Sparse.View F),
    segs.map (fun s => s.a.length) = rs.map Prod.fst → (∀ s ∈ segs, Good s none) →
    v.a.length = g → v.b.length = g → v.c.length = g → v.d.length = g →
    let z := List.replicate (totalGates rs) (0 : F)
    scatter (floorPlanFrom g q rs) segs ⟨v.a ++ z, v.b ++ z, v.c ++ z, v.d ++ z⟩ =
      some ⟨v.a ++ (segs.map TSeg.a).flatten, v.b ++ (segs.map TSeg.b).flatten,
        v.c ++ (segs.map TSeg.c).flatten, v.d ++ (segs.map TSeg.d).flatten⟩ := by
  induction rs with
  | nil =>
    intro segs g q v h _ _ _ _ _
    simp only [List.map_nil, List.map_eq_nil_iff] at h
    subst h
    simp [scatter, floorPlanFrom, totalGates]
  | cons r rs ih =>
    intro segs g q v h hg ha hb hc hd
    cases segs with
    | nil => simp at h
    | cons s segs =>
      simp only [List.map_cons, List.cons.injEq] at h
      obtain ⟨g1, g2, g3, _⟩ := hg s (by simp)
      simp only [floorPlanFrom, scatter]
      rw [if_pos h.1]
      have ht : totalGates (r :: rs) = s.a.length + totalGates rs := by simp [totalGates, h.1]
      have ea := writeAt_eq v.a s.a (totalGates rs)
      have eb := writeAt_eq v.b s.b (totalGates rs)
      have ec := writeAt_eq v.c s.c (totalGates rs)
      have ed := writeAt_eq v.d s.d (totalGates rs)
      rw [ha] at ea; rw [hb, g1] at eb; rw [hc, g2] at ec; rw [hd, g3] at ed
      rw [ht, ea, eb, ec, ed]
      simp only [Option.bind_eq_bind, Option.bind_some]
      have := ih segs (g + r.1) (q + r.2) ⟨v.a ++ s.a, v.b ++ s.b, v.c ++ s.c, v.d ++ s.d⟩ h.2
        (fun x hx => hg x (by simp [hx])) (by simp [ha, h.1]) (by simp [hb, g1, h.1])
        (by simp [hc, g2, h.1]) (by simp [hd, g3, h.1])
      rw [this]
      simp [List.append_assoc]

theorem flatten_get (f : TSeg F → List F) (segs : List (TSeg F)) : ∀ (j : ℕ) (s : TSeg F) (i : ℕ),
    segs[j]? = some s → i < (f s).length →
    ((segs.map f).flatten).getD (((segs.take j).map fun s => (f s).length).sum + i) 0 =
      (f s).getD i 0 := by
  induction segs with
  | nil => intro j s i h; simp at h
  | cons x segs ih =>
    intro j s i h hi
    cases j with
    | zero =>
      simp only [List.getElem?_cons_zero, Option.some.injEq] at h
      subst h
      simp [List.getD_eq_getElem?_getD, List.getElem?_append_left hi]
    | succ j =>
      simp only [List.getElem?_cons_succ] at h
      rw [List.map_cons, List.flatten_cons, List.take_succ_cons, List.map_cons, List.sum_cons,
        Nat.add_assoc, List.getD_eq_getElem?_getD, List.getElem?_append_right (by omega),
        Nat.add_sub_cancel_left, ← List.getD_eq_getElem?_getD]
      exact ih j s i h hi

theorem flatten_length (f : TSeg F → List F) (segs : List (TSeg F))
    (hf : ∀ s ∈ segs, (f s).length = s.a.length) :
    ((segs.map f).flatten).length = (segs.map fun s => s.a.length).sum := by
  induction segs with
  | nil => rfl
  | cons x segs ih =>
    simp only [List.map_cons, List.flatten_cons, List.length_append, List.sum_cons]
    rw [ih (fun s hs => hf s (by simp [hs])), hf x (by simp)]

theorem col_length {s : TSeg F} (h : Good s none) (k : Kind) : (s.col k).length = s.a.length := by
  cases k
  · rfl
  · exact h.1
  · exact h.2.1
  · exact h.2.2.1

/-- The value of wire `k` of the `i`-th gate overall: what was traced, except
that the first gate carries the constant one and the blinding factor. -/
def traced (c : Circ F) (alpha : F) (k : Kind) (i : ℕ) : F :=
  match k with
  | .a => ((segsOf c).map TSeg.a).flatten.getD i 0
  | .b => if i = 0 then 1 else ((segsOf c).map TSeg.b).flatten.getD i 0
  | .c => ((segsOf c).map TSeg.c).flatten.getD i 0
  | .d => if i = 0 then alpha else ((segsOf c).map TSeg.d).flatten.getD i 0

theorem getD_set0 (l : List F) (v : F) (h : 0 < l.length) (i : ℕ) :
    (l.set 0 v).getD i 0 = if i = 0 then v else l.getD i 0 := by
  rw [List.getD_eq_getElem?_getD, List.getElem?_set]
  by_cases hi : i = 0
  · subst hi; simp [h]
  · rw [if_neg (by omega), if_neg hi, ← List.getD_eq_getElem?_getD]

theorem assemble_eq (c : Circ F) {n : ℕ} (hn : totalGates c.counts ≤ n) (alpha : F) :
    ∃ r, assemble n (floorPlan c.counts) (segsOf c) alpha = .ok r ∧ Spec.WellFormed (4 * n) r ∧
      ∀ i < n, ∀ k, wireOf n r k i = traced c alpha k i := by
  have hl := segsOf_lengths c
  have hlen : (floorPlan c.counts).length = (segsOf c).length := by
    rw [floorPlan_length, ← List.length_map (f := Prod.fst) (as := c.counts), ← hl, List.length_map]
  have h0 : (floorPlan c.counts)[0]? = some ⟨0, 0, (posRun c.main (Pos.gate {})).gates,
      (posRun c.main (Pos.gate {})).cons⟩ := rfl
  have hpos : 0 < totalGates c.counts := by
    have := (posRun_mono c.main (Pos.gate {})).1
    simp only [totalGates, Circ.counts, List.map_cons, List.sum_cons, Pos.gate] at this ⊢
    omega
  have htot := totalCounts_eq (F := F) c.counts (segsOf c) 0 0 0 hl le_rfl
  simp only [Nat.zero_add, Nat.zero_max] at htot
  have hsc := scatter_eq (F := F) c.counts (segsOf c) 0 0 ⟨[], [], [], []⟩ hl (segsOf_good c)
    rfl rfl rfl rfl
  simp only [List.nil_append] at hsc
  have hfl : ∀ k, ((segsOf c).map fun s => s.col k).flatten.length = totalGates c.counts := by
    intro k
    rw [flatten_length (fun s => s.col k) _ (fun s hs => col_length (segsOf_good c s hs) k), hl]
    rfl
  have la : ((segsOf c).map TSeg.a).flatten.length = totalGates c.counts := hfl .a
  have lb : ((segsOf c).map TSeg.b).flatten.length = totalGates c.counts := hfl .b
  have lc : ((segsOf c).map TSeg.c).flatten.length = totalGates c.counts := hfl .c
  have ld : ((segsOf c).map TSeg.d).flatten.length = totalGates c.counts := hfl .d
  obtain ⟨r, hr, hwf, hco⟩ := Props.C13_trace_build (F := F) n
    ⟨((segsOf c).map TSeg.a).flatten, ((segsOf c).map TSeg.b).flatten.set 0 1,
      ((segsOf c).map TSeg.c).flatten, ((segsOf c).map TSeg.d).flatten.set 0 alpha⟩
    (by simp only; omega) (by simp only [List.length_set]; omega) (by simp only; omega)
    (by simp only [List.length_set]; omega)
  refine ⟨r, ?_, hwf, ?_⟩
  · simp only [assemble]
    rw [if_neg (by simpa using hlen), h0]
    simp only [floorPlan] at hsc htot ⊢
    simp only [htot]
    rw [if_neg (by simp), if_neg (by omega), hsc]
    simp only
    rw [if_neg (by omega), hr]
  · intro i hi k
    obtain ⟨e1, e2, e3, e4⟩ := hco i hi
    cases k
    · exact e1
    · simp only [wireOf, traceExp, traced]
      rw [e2, getD_set0 _ _ (by omega)]
    · exact e3
    · simp only [wireOf, traceExp, traced]
      rw [e4, getD_set0 _ _ (by omega)]

/-- The values of the assembled polynomial, by segment. -/
theorem assignment_eq (c : Circ F) {n : ℕ} (hn : totalGates c.counts ≤ n) {alpha : F}
    {r : Sparse.Poly F} (hr : ∀ i < n, ∀ k, wireOf n r k i = traced c alpha k i) {b : Base}
    {s : TSeg F} (hs : (segsOf c)[b.seg]? = some s) (hi : b.loc < s.a.length)
    (h0 : b.seg = 0 → 1 ≤ b.loc) :
    assignment n (floorPlan c.counts) r b = (s.col b.kind).getD b.loc 0 := by
  have hl := segsOf_lengths c
  have hg := segsOf_good c s (List.mem_of_getElem? hs)
  have hlt : b.seg < c.counts.length := by
    rw [← List.length_map (f := Prod.fst), ← hl, List.length_map]; exact lt_of_get hs
  have habs : ∀ k, absGate (floorPlan c.counts) b =
      (((segsOf c).take b.seg).map fun s => (s.col k).length).sum + b.loc := by
    intro k
    rw [absGate, floorPlan, floorPlan_getElem, List.getElem?_eq_getElem hlt]
    simp only [Option.map_some, Option.getD_some, Nat.zero_add, totalGates]
    rw [List.map_take, ← hl, ← List.map_take]
    congr 2
    refine List.map_congr_left fun x hx => ?_
    exact (col_length (segsOf_good c x (List.mem_of_mem_take hx)) k).symm
  have hab : absGate (floorPlan c.counts) b < n := by
    have hlt' : b.seg < (floorPlan c.counts).length := by rw [floorPlan_length]; exact hlt
    have hb := floorPlanFrom_bound c.counts 0 0 (floorPlan c.counts)[b.seg] (List.getElem_mem hlt')
    have hs2 : (floorPlan c.counts)[b.seg]? = some (floorPlan c.counts)[b.seg] :=
      List.getElem?_eq_getElem _
    rw [absGate, hs2]
    have hnum : (floorPlan c.counts)[b.seg].numGates = s.a.length := by
      have h3 : ((floorPlan c.counts).map Seg.counts)[b.seg]? = c.counts[b.seg]? := by
        rw [floorPlan, floorPlanFrom_counts]
      have h4 : (c.counts.map Prod.fst)[b.seg]? = some s.a.length := by
        rw [← hl, List.getElem?_map, hs]; rfl
      rw [List.getElem?_map, ← h3, List.getElem?_map, hs2] at h4
      simpa [Seg.counts] using h4
    simp only [Option.map_some, Option.getD_some]
    omega
  have hne : absGate (floorPlan c.counts) b ≠ 0 := by
    rw [habs .a]
    rcases Nat.eq_zero_or_pos b.seg with h | h
    · have := h0 h; omega
    · obtain ⟨j, hj⟩ : ∃ j, b.seg = j + 1 := ⟨b.seg - 1, by omega⟩
      have h1 : 1 ≤ (own c.body ⟨[0], [0], [0], [0]⟩ none).1.a.length := by
        rw [own_length c.body _ none (Pos.gate {}) rfl rfl]
        exact (posRun_mono c.body (Pos.gate {})).1
      rw [hj]
      simp only [segsOf, canon, List.map_cons, List.take_succ_cons, List.sum_cons, TSeg.col]
      omega
  rw [assignment, hr _ hab]
  cases hk : b.kind
  · have := flatten_get (fun s : TSeg F => s.col .a) (segsOf c) b.seg s b.loc hs hi
    rw [← habs .a] at this
    exact this
  · have := flatten_get (fun s : TSeg F => s.col .b) (segsOf c) b.seg s b.loc hs
      (by rw [col_length hg]; exact hi)
    rw [← habs .b] at this
    simp only [traced, if_neg hne]
    exact this
  · have := flatten_get (fun s : TSeg F => s.col .c) (segsOf c) b.seg s b.loc hs
      (by rw [col_length hg]; exact hi)
    rw [← habs .c] at this
    exact this
  · have := flatten_get (fun s : TSeg F => s.col .d) (segsOf c) b.seg s b.loc hs
      (by rw [col_length hg]; exact hi)
    rw [← habs .d] at this
    simp only [traced, if_neg hne]
    exact this

theorem assignment_one (c : Circ F) {n : ℕ} (hn : totalGates c.counts ≤ n) {alpha : F}
    {r : Sparse.Poly F} (hr : ∀ i < n, ∀ k, wireOf n r k i = traced c alpha k i) :
    assignment n (floorPlan c.counts) r ⟨.b, 0, 0⟩ = 1 := by
  have hpos : 0 < n := by
    have := (posRun_mono c.main (Pos.gate {})).1
    simp only [totalGates, Circ.counts, List.map_cons, List.sum_cons, Pos.gate] at this hn
    omega
  have h0 : absGate (floorPlan c.counts) ⟨.b, 0, 0⟩ = 0 := rfl
  rw [assignment, h0, hr 0 hpos]
  rfl

end Ragu.Circuit

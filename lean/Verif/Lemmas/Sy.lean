/-
The reference-counted table of virtual wires: invariant and conservation law.
-/
import Verif.Lemmas.Wiring
import Verif.Model.Sy

set_option linter.unusedSectionVars false

namespace Ragu.Circuit
open Ragu Finset
variable {F : Type} [Field F] [DecidableEq F]

/-- The wire in slot `i` (a dead wire if out of range). -/
def Table.w (T : Table F) (i : ℕ) : VWire F := T.wires.getD i ⟨0, [], .zero⟩

def Table.len (T : Table F) : ℕ := T.wires.length

/-- 1 on the slot `w` refers to. -/
def oneAt (w : WIdx) (i : ℕ) : ℕ := if w = .virt i then 1 else 0

/-- Number of references to slot `i` in a list of terms. -/
def tcount (ts : List (WIdx × Coeff F)) (i : ℕ) : ℕ := (ts.map fun t => oneAt t.1 i).sum

/-- Number of references to slot `i` held by the table itself. -/
def Table.occ (T : Table F) (i : ℕ) : ℕ := ∑ j ∈ range T.len, tcount (T.w j).terms i

/-- The value of a wire given values of gate wires and slots. -/
def linW (α : Kind → ℕ → F) (lin : ℕ → F) : WIdx → F
  | .gate k i => α k i
  | .virt i => lin i

def linT (α : Kind → ℕ → F) (lin : ℕ → F) (ts : List (WIdx × Coeff F)) : F :=
  (ts.map fun t => t.2.value * linW α lin t.1).sum

/-- A wire index refers to something that exists. -/
def Table.valid (T : Table F) : WIdx → Prop
  | .gate k i => i < (T.buf k).length
  | .virt i => i < T.len

structure Inv (α : Kind → ℕ → F) (lin : ℕ → F) (rk : ℕ → ℕ) (T : Table F) (ext : ℕ → ℕ)
    (L : Finset ℕ) : Prop where
  ref : ∀ i < T.len, (T.w i).refcount = ext i + T.occ i
  dom : ∀ i, 0 < ext i → i < T.len
  tvalid : ∀ i < T.len, ∀ t ∈ (T.w i).terms, T.valid t.1
  dead : ∀ i < T.len, (T.w i).refcount = 0 → (T.w i).terms = []
  limbo : ∀ i ∈ L, i < T.len ∧ (T.w i).refcount = 0
  free_iff : ∀ i, i ∈ T.free ↔ i < T.len ∧ (T.w i).refcount = 0 ∧ i ∉ L
  free_zero : ∀ i ∈ T.free, (T.w i).value = .zero
  nodup : T.free.Nodup
  lin_eq : ∀ i < T.len, (T.w i).refcount ≠ 0 → lin i = linT α lin (T.w i).terms
  rank : ∀ i < T.len, ∀ t ∈ (T.w i).terms, ∀ j, t.1 = .virt j → rk j < rk i

def bufSum (α : Kind → ℕ → F) (k : Kind) (l : List F) : F :=
  ∑ i ∈ range l.length, l.getD i 0 * α k i

/-- Everything accumulated so far, outside the slots in `L`. -/
def Pot (α : Kind → ℕ → F) (lin : ℕ → F) (L : Finset ℕ) (T : Table F) : F :=
  (bufSum α .a (T.buf .a) + bufSum α .b (T.buf .b) + bufSum α .c (T.buf .c) +
    bufSum α .d (T.buf .d)) +
  ∑ i ∈ range T.len, if i ∈ L then 0 else (T.w i).value.value * lin i

theorem sum_change {M : Type} [AddCommMonoid M] {f g : ℕ → M} {n i : ℕ} (hi : i < n)
    (h : ∀ j, j ≠ i → f j = g j) : ∑ j ∈ range n, f j + g i = ∑ j ∈ range n, g j + f i := by
  rw [← Finset.add_sum_erase _ f (Finset.mem_range.2 hi),
    ← Finset.add_sum_erase _ g (Finset.mem_range.2 hi)]
  have : ∑ j ∈ (range n).erase i, f j = ∑ j ∈ (range n).erase i, g j :=
    Finset.sum_congr rfl fun j hj => h j (Finset.ne_of_mem_erase hj)
  rw [this, add_comm (f i), add_comm (g i), add_assoc, add_assoc, add_comm (f i)]

/-- Replace slot `i`. -/
def Table.put (T : Table F) (i : ℕ) (v : VWire F) : Table F := { T with wires := T.wires.set i v }

@[simp] theorem Table.put_len (T : Table F) (i : ℕ) (v : VWire F) : (T.put i v).len = T.len := by
  simp [Table.put, Table.len]

@[simp] theorem Table.put_buf (T : Table F) (i : ℕ) (v : VWire F) : (T.put i v).buf = T.buf := rfl
@[simp] theorem Table.put_free (T : Table F) (i : ℕ) (v : VWire F) : (T.put i v).free = T.free := rfl

theorem Table.put_w (T : Table F) {i : ℕ} (hi : i < T.len) (v : VWire F) (j : ℕ) :
    (T.put i v).w j = if j = i then v else T.w j := by
  simp only [Table.w, Table.put, List.getD_eq_getElem?_getD, List.getElem?_set]
  by_cases h : i = j
  · subst h
    simp [show i < T.wires.length from hi]
  · rw [if_neg h, if_neg (fun h' => h h'.symm)]

theorem Table.get_w (T : Table F) {i : ℕ} (hi : i < T.len) : T.wires[i]? = some (T.w i) := by
  have : i < T.wires.length := hi
  simp [Table.w, List.getD_eq_getElem?_getD, List.getElem?_eq_getElem this]

theorem Table.put_occ (T : Table F) {i : ℕ} (hi : i < T.len) (v : VWire F) (j : ℕ) :
    (T.put i v).occ j + tcount (T.w i).terms j = T.occ j + tcount v.terms j := by
  have := sum_change (f := fun l => tcount ((T.put i v).w l).terms j)
    (g := fun l => tcount (T.w l).terms j) hi (fun l hl => by simp only [T.put_w hi, if_neg hl])
  simp only [T.put_w hi, if_pos] at this
  simpa [Table.occ, T.put_w hi] using this

theorem total_eq (T : Table F) : T.total = ∑ i ∈ range T.len, (T.w i).refcount := by
  unfold Table.total Table.len
  have key : ∀ l : List (VWire F), (l.map VWire.refcount).sum =
      ∑ i ∈ range l.length, (l.getD i ⟨0, [], .zero⟩).refcount := by
    intro l
    induction l with
    | nil => simp
    | cons a l ih =>
      rw [List.map_cons, List.sum_cons, ih, List.length_cons, Finset.sum_range_succ']
      simp [add_comm]
  exact key T.wires

theorem Table.put_total (T : Table F) {i : ℕ} (hi : i < T.len) (v : VWire F) :
    (T.put i v).total + (T.w i).refcount = T.total + v.refcount := by
  rw [total_eq, total_eq, T.put_len]
  have := sum_change (f := fun l => ((T.put i v).w l).refcount)
    (g := fun l => (T.w l).refcount) hi (fun l hl => by simp only [T.put_w hi, if_neg hl])
  simpa [T.put_w hi] using this

theorem Table.put_valid (T : Table F) (i : ℕ) (v : VWire F) (w : WIdx) :
    (T.put i v).valid w ↔ T.valid w := by
  cases w <;> simp [Table.valid]

theorem Pot_put (α : Kind → ℕ → F) (lin : ℕ → F) (L : Finset ℕ) (T : Table F) {i : ℕ}
    (hi : i < T.len) (v : VWire F) (hL : i ∉ L) :
    Pot α lin L (T.put i v) = Pot α lin L T + (v.value.value - (T.w i).value.value) * lin i := by
  have := sum_change (f := fun l => if l ∈ L then 0 else ((T.put i v).w l).value.value * lin l)
    (g := fun l => if l ∈ L then 0 else (T.w l).value.value * lin l) hi
    (fun l hl => by simp only [T.put_w hi, if_neg hl])
  simp only [if_neg hL, T.put_w hi, if_pos] at this
  simp only [Pot, T.put_len, T.put_buf, T.put_w hi]
  linear_combination this

theorem Pot_put_limbo (α : Kind → ℕ → F) (lin : ℕ → F) (L : Finset ℕ) (T : Table F) {i : ℕ}
    (hi : i < T.len) (v : VWire F) (hL : i ∈ L) :
    Pot α lin L (T.put i v) = Pot α lin L T := by
  simp only [Pot, T.put_len, T.put_buf]
  congr 1
  refine Finset.sum_congr rfl fun l _ => ?_
  by_cases h : l ∈ L
  · simp [h]
  · rw [if_neg h, if_neg h, T.put_w hi, if_neg (by rintro rfl; exact h hL)]

theorem Pot_insert (α : Kind → ℕ → F) (lin : ℕ → F) (L : Finset ℕ) (T : Table F) {i : ℕ}
    (hi : i < T.len) (hL : i ∉ L) :
    Pot α lin L T = Pot α lin (insert i L) T + (T.w i).value.value * lin i := by
  have := sum_change (f := fun l => if l ∈ L then 0 else (T.w l).value.value * lin l)
    (g := fun l => if l ∈ insert i L then 0 else (T.w l).value.value * lin l) hi
    (fun l hl => by simp [Finset.mem_insert, hl])
  simp only [if_neg hL, Finset.mem_insert_self, if_true] at this
  simp only [Pot]
  linear_combination this

theorem bufSum_set (α : Kind → ℕ → F) (k : Kind) (l : List F) {i : ℕ} (hi : i < l.length) (v : F) :
    bufSum α k (l.set i (l.getD i 0 + v)) = bufSum α k l + v * α k i := by
  have := sum_change (f := fun j => (l.set i (l.getD i 0 + v)).getD j 0 * α k j)
    (g := fun j => l.getD j 0 * α k j) hi (fun j hj => by
      simp only [List.getD_eq_getElem?_getD, List.getElem?_set, if_neg (Ne.symm hj)])
  have e : (l.set i (l.getD i 0 + v)).getD i 0 = l.getD i 0 + v := by
    rw [List.getD_eq_getElem?_getD, List.getElem?_set]
    simp [hi]
  rw [e] at this
  simp only [bufSum, List.length_set]
  linear_combination this

/-- The shape kept by every table operation except allocation. -/
def SameShape (T T' : Table F) : Prop :=
  T'.len = T.len ∧ ∀ k, (T'.buf k).length = (T.buf k).length

theorem SameShape.refl (T : Table F) : SameShape T T := ⟨rfl, fun _ => rfl⟩
theorem SameShape.trans {T T' T'' : Table F} (h : SameShape T T') (h' : SameShape T' T'') :
    SameShape T T'' := ⟨h'.1.trans h.1, fun k => (h'.2 k).trans (h.2 k)⟩
theorem SameShape.valid {T T' : Table F} (h : SameShape T T') (w : WIdx) :
    T'.valid w ↔ T.valid w := by
  cases w <;> simp [Table.valid, h.1, h.2]

section
variable {α : Kind → ℕ → F} {lin : ℕ → F} {rk : ℕ → ℕ}

/-- Changing only buffers and values of live wires keeps the invariant. -/
theorem add_spec {T : Table F} {ext : ℕ → ℕ} {L : Finset ℕ} (h : Inv α lin rk T ext L) (w : WIdx)
    (hw : T.valid w) (hl : ∀ i, w = .virt i → 0 < ext i) (v : Coeff F) :
    ∃ T', T.add w v = .ok T' ∧ Inv α lin rk T' ext L ∧
      Pot α lin L T' = Pot α lin L T + v.value * linW α lin w ∧ T'.total = T.total ∧
      SameShape T T' := by
  cases w with
  | gate k i =>
    have hi : i < (T.buf k).length := hw
    have hw' : ∀ j, ({ T with buf := Function.update T.buf k ((T.buf k).set i
        ((T.buf k).getD i 0 + v.value)) } : Table F).w j = T.w j := fun _ => rfl
    have hlen : ∀ k', (Function.update T.buf k ((T.buf k).set i
        ((T.buf k).getD i 0 + v.value)) k').length = (T.buf k').length := by
      intro k'
      by_cases hk : k' = k
      · subst hk; simp
      · rw [Function.update_of_ne hk]
    refine ⟨{ T with buf := Function.update T.buf k ((T.buf k).set i
        ((T.buf k).getD i 0 + v.value)) }, by simp only [Table.add, if_pos hi], ?_, ?_, rfl,
        ⟨rfl, hlen⟩⟩
    · have htv : ∀ w, ({ T with buf := Function.update T.buf k ((T.buf k).set i
          ((T.buf k).getD i 0 + v.value)) } : Table F).valid w ↔ T.valid w := fun w =>
        SameShape.valid (T := T) (T' := { T with buf := Function.update T.buf k ((T.buf k).set i
          ((T.buf k).getD i 0 + v.value)) }) ⟨rfl, hlen⟩ w
      exact ⟨h.ref, h.dom, fun j hj t ht => (htv _).2 (h.tvalid j hj t ht),
        h.dead, h.limbo, h.free_iff, h.free_zero, h.nodup, h.lin_eq, h.rank⟩
    · have hb := bufSum_set α k (T.buf k) hi v.value
      simp only [Pot, linW]
      cases k <;>
        simp only [Function.update_self, Function.update_of_ne, ne_eq, reduceCtorEq,
          not_false_eq_true, hb, Table.len, Table.w] <;> first | ring | (ring_nf; try rfl)
  | virt i =>
    have hi : i < T.len := hw
    have hpos : 0 < (T.w i).refcount := by
      have := h.ref i hi
      have := hl i rfl
      omega
    have hL : i ∉ L := fun hc => by have := (h.limbo i hc).2; omega
    set v' : VWire F := { T.w i with value := Coeff.add (T.w i).value v } with hv'
    have hadd : T.add (.virt i) v = .ok (T.put i v') := by
      simp only [Table.add, T.get_w hi]; rfl
    have hrc : ∀ j, ((T.put i v').w j).refcount = (T.w j).refcount := by
      intro j; rw [T.put_w hi]; split
      · next e => subst e; rfl
      · rfl
    have htm : ∀ j, ((T.put i v').w j).terms = (T.w j).terms := by
      intro j; rw [T.put_w hi]; split
      · next e => subst e; rfl
      · rfl
    have hocc : ∀ j, (T.put i v').occ j = T.occ j := by
      intro j
      have := T.put_occ hi v' j
      simp only [hv'] at this ⊢
      omega
    refine ⟨_, hadd, ?_, ?_, ?_, ⟨T.put_len i v', fun _ => rfl⟩⟩
    · refine ⟨?_, ?_, ?_, ?_, ?_, ?_, ?_, h.nodup, ?_, ?_⟩
      · intro j hj; rw [hrc, hocc]; exact h.ref j (by simpa using hj)
      · intro j hj; simpa using h.dom j hj
      · intro j hj t ht
        rw [htm] at ht
        exact (T.put_valid _ _ _).2 (h.tvalid j (by simpa using hj) t ht)
      · intro j hj hr; rw [hrc] at hr; rw [htm]; exact h.dead j (by simpa using hj) hr
      · intro j hj; rw [hrc]; simpa using h.limbo j hj
      · intro j; rw [hrc]; simpa using h.free_iff j
      · intro j hj
        rw [T.put_w hi, if_neg]
        · exact h.free_zero j hj
        · rintro rfl
          have := ((h.free_iff j).1 hj).2.1
          omega
      · intro j hj hr; rw [hrc] at hr; rw [htm]; exact h.lin_eq j (by simpa using hj) hr
      · intro j hj t ht; rw [htm] at ht; exact h.rank j (by simpa using hj) t ht
    · rw [Pot_put α lin L T hi v' hL]
      simp only [hv', Props.C08_add, linW]
      ring
    · have := T.put_total hi v'
      simp only [hv'] at this ⊢
      omega

/-- The loop over the terms of a wire whose last reference went away. -/
theorem drain_spec {fuel : ℕ} (ih : ∀ {T : Table F} {ext : ℕ → ℕ} {L : Finset ℕ} (w : WIdx),
      Inv α lin rk T (fun j => ext j + oneAt w j) L → T.total ≤ fuel →
      ∃ T', Table.freeF fuel T w = .ok T' ∧ Inv α lin rk T' ext L ∧
        Pot α lin L T' = Pot α lin L T ∧ T'.total ≤ T.total ∧ SameShape T T')
    (val : Coeff F) {ext : ℕ → ℕ} {L : Finset ℕ} :
    ∀ (ts : List (WIdx × Coeff F)) (T : Table F),
      Inv α lin rk T (fun j => ext j + tcount ts j) L → T.total ≤ fuel →
      (∀ t ∈ ts, T.valid t.1) →
      ∃ T', ts.foldlM (fun (T : Table F) (t : WIdx × Coeff F) => do
          let T' ← T.add t.1 (Coeff.mul val t.2)
          Table.freeF fuel T' t.1) T = .ok T' ∧
        Inv α lin rk T' ext L ∧
        Pot α lin L T' = Pot α lin L T + val.value * linT α lin ts ∧
        T'.total ≤ T.total ∧ SameShape T T' := by
  intro ts
  induction ts with
  | nil =>
    intro T hI _ _
    refine ⟨T, rfl, ?_, ?_, le_rfl, SameShape.refl _⟩
    · simpa [tcount] using hI
    · simp [linT]
  | cons t ts iht =>
    intro T hI hf hv
    obtain ⟨T3, ha, hIa, hPa, hta, hsa⟩ := add_spec hI t.1 (hv t (by simp))
      (fun j hj => by simp [tcount, hj, oneAt]) (Coeff.mul val t.2)
    have hIa' : Inv α lin rk T3 (fun j => (ext j + tcount ts j) + oneAt t.1 j) L := by
      have : (fun j => ext j + tcount (t :: ts) j) =
          (fun j => (ext j + tcount ts j) + oneAt t.1 j) := by
        funext j; simp [tcount]; omega
      rw [← this]; exact hIa
    obtain ⟨T4, hb, hIb, hPb, htb, hsb⟩ := ih t.1 hIa' (by omega)
    obtain ⟨T5, hc, hIc, hPc, htc, hsc⟩ := iht T4 hIb (by omega)
      (fun s hs => (hsa.trans hsb).valid _ |>.2 (hv s (by simp [hs])))
    refine ⟨T5, ?_, hIc, ?_, by omega, (hsa.trans hsb).trans hsc⟩
    · rw [List.foldlM_cons, ha, bind_ok, hb, bind_ok]
      exact hc
    · rw [hPc, hPb, hPa, Props.C08_mul]
      simp only [linT, List.map_cons, List.sum_cons]
      ring

/-- Releasing one external reference. -/
theorem freeF_spec : ∀ (fuel : ℕ) {T : Table F} {ext : ℕ → ℕ} {L : Finset ℕ} (w : WIdx),
    Inv α lin rk T (fun j => ext j + oneAt w j) L → T.total ≤ fuel →
    ∃ T', Table.freeF fuel T w = .ok T' ∧ Inv α lin rk T' ext L ∧
      Pot α lin L T' = Pot α lin L T ∧ T'.total ≤ T.total ∧ SameShape T T' := by
  intro fuel
  induction fuel with
  | zero =>
    intro T ext L w h hf
    cases w with
    | gate k i =>
      have : (fun j => ext j + oneAt (.gate k i) j) = ext := by funext j; simp [oneAt]
      rw [this] at h
      exact ⟨T, by simp [Table.freeF], h, rfl, le_rfl, SameShape.refl T⟩
    | virt i =>
      exfalso
      have hi := h.dom i (by simp [oneAt])
      have h1 := h.ref i hi
      simp only [oneAt, if_true] at h1
      have : (T.w i).refcount ≤ T.total := by
        rw [total_eq]
        exact Finset.single_le_sum (f := fun i => (T.w i).refcount) (fun _ _ => Nat.zero_le _)
          (Finset.mem_range.2 hi)
      omega
  | succ fuel ih =>
    intro T ext L w h hf
    cases w with
    | gate k i =>
      have : (fun j => ext j + oneAt (.gate k i) j) = ext := by funext j; simp [oneAt]
      rw [this] at h
      exact ⟨T, by simp [Table.freeF], h, rfl, le_rfl, SameShape.refl T⟩
    | virt i =>
      have hi := h.dom i (by simp [oneAt])
      have h1 := h.ref i hi
      simp only [oneAt, if_true] at h1
      have hpos : (T.w i).refcount ≠ 0 := by omega
      have hL : i ∉ L := fun hc => hpos (h.limbo i hc).2
      have hone : ∀ j, oneAt (.virt i) j = if i = j then 1 else 0 := by
        intro j; simp [oneAt]
      have hnf : i ∉ T.free := fun hc => hpos ((h.free_iff i).1 hc).2.1
      by_cases hr : (T.w i).refcount - 1 = 0
      · -- the last reference
        set v2 : VWire F := ⟨0, [], (T.w i).value⟩ with hv2
        have hocc0 : T.occ i = 0 := by omega
        have hext0 : ext i = 0 := by omega
        have hocc2 : ∀ j, (T.put i v2).occ j + tcount (T.w i).terms j = T.occ j := by
          intro j
          have := T.put_occ hi v2 j
          simpa [hv2, tcount] using this
        have hinv2 : Inv α lin rk (T.put i v2) (fun j => ext j + tcount (T.w i).terms j)
            (insert i L) := by
          refine ⟨?_, ?_, ?_, ?_, ?_, ?_, ?_, h.nodup, ?_, ?_⟩
          · intro j hj
            have hj' : j < T.len := by simpa using hj
            have hr := h.ref j hj'
            have ho := hocc2 j
            rw [T.put_w hi]
            by_cases hji : j = i
            · subst hji
              rw [if_pos rfl]
              show 0 = _
              omega
            · rw [if_neg hji]
              rw [hone, if_neg (Ne.symm hji)] at hr
              omega
          · intro j hj
            rw [T.put_len]
            by_cases hj0 : 0 < ext j
            · exact h.dom j (by omega)
            · have hc : 0 < tcount (T.w i).terms j := by omega
              by_contra hge
              have : tcount (T.w i).terms j = 0 := by
                unfold tcount
                apply List.sum_eq_zero
                intro x hx
                obtain ⟨t, ht, rfl⟩ := List.mem_map.1 hx
                have hv := h.tvalid i hi t ht
                simp only [oneAt]
                rw [if_neg]
                intro heq
                rw [heq] at hv
                exact hge hv
              omega
          · intro j hj t ht
            rw [T.put_valid]
            rw [T.put_w hi] at ht
            by_cases hji : j = i
            · rw [if_pos hji] at ht; simp [hv2] at ht
            · rw [if_neg hji] at ht
              exact h.tvalid j (by simpa using hj) t ht
          · intro j hj hr
            rw [T.put_w hi] at hr ⊢
            by_cases hji : j = i
            · rw [if_pos hji]
            · rw [if_neg hji] at hr ⊢
              exact h.dead j (by simpa using hj) hr
          · intro j hj
            rw [T.put_len, T.put_w hi]
            by_cases hji : j = i
            · subst hji; rw [if_pos rfl]; exact ⟨hi, rfl⟩
            · rw [if_neg hji]
              exact h.limbo j (Finset.mem_of_mem_insert_of_ne hj hji)
          · intro j
            rw [T.put_free, T.put_len, T.put_w hi, h.free_iff j]
            by_cases hji : j = i
            · subst hji
              simp [hpos]
            · rw [if_neg hji]; simp [hji]
          · intro j hj
            rw [T.put_w hi, if_neg (by rintro rfl; exact hnf hj)]
            exact h.free_zero j hj
          · intro j hj hr
            rw [T.put_w hi] at hr ⊢
            by_cases hji : j = i
            · rw [if_pos hji] at hr; simp [hv2] at hr
            · rw [if_neg hji] at hr ⊢
              exact h.lin_eq j (by simpa using hj) hr
          · intro j hj t ht
            rw [T.put_w hi] at ht
            by_cases hji : j = i
            · rw [if_pos hji] at ht; simp [hv2] at ht
            · rw [if_neg hji] at ht
              exact h.rank j (by simpa using hj) t ht
        have htot2 : (T.put i v2).total ≤ fuel := by
          have := T.put_total hi v2
          have e0 : v2.refcount = 0 := rfl
          omega
        have hval2 : ∀ t ∈ (T.w i).terms, (T.put i v2).valid t.1 := fun t ht =>
          (T.put_valid _ _ _).2 (h.tvalid i hi t ht)
        obtain ⟨T3, hd, hI3, hP3, ht3, hs3⟩ := drain_spec ih (T.w i).value (T.w i).terms
          (T.put i v2) hinv2 htot2 hval2
        have hi3 : i < T3.len := by rw [hs3.1, T.put_len]; exact hi
        have hrc3 : (T3.w i).refcount = 0 := (hI3.limbo i (Finset.mem_insert_self _ _)).2
        have htm3 : (T3.w i).terms = [] := hI3.dead i hi3 hrc3
        set v3 : VWire F := { T3.w i with value := .zero } with hv3
        have hnf3 : i ∉ T3.free := fun hc =>
          ((hI3.free_iff i).1 hc).2.2 (Finset.mem_insert_self _ _)
        have hw3 : ∀ j, (({ T3.put i v3 with free := i :: T3.free } : Table F).w j) =
            if j = i then v3 else T3.w j := fun j => T3.put_w hi3 v3 j
        have hocc3 : ∀ j, ({ T3.put i v3 with free := i :: T3.free } : Table F).occ j
            = T3.occ j := by
          intro j
          have := T3.put_occ hi3 v3 j
          simp only [hv3] at this
          exact Nat.add_right_cancel this
        have hrc : ∀ j, (({ T3.put i v3 with free := i :: T3.free } : Table F).w j).refcount =
            (T3.w j).refcount := by
          intro j; rw [hw3]; split
          · next e => subst e; rfl
          · rfl
        have htm : ∀ j, (({ T3.put i v3 with free := i :: T3.free } : Table F).w j).terms =
            (T3.w j).terms := by
          intro j; rw [hw3]; split
          · next e => subst e; rfl
          · rfl
        have hlen3 : ({ T3.put i v3 with free := i :: T3.free } : Table F).len = T3.len :=
          T3.put_len i v3
        refine ⟨{ T3.put i v3 with free := i :: T3.free }, ?_, ?_, ?_, ?_, ?_⟩
        · simp only [Table.freeF, T.get_w hi, if_neg hpos, if_pos hr]
          rw [show ({ T with wires := T.wires.set i ⟨0, [], (T.w i).value⟩ } : Table F) =
            T.put i v2 from rfl, hd, bind_ok]
          simp only [T3.get_w hi3]
          rfl
        · refine ⟨?_, ?_, ?_, ?_, ?_, ?_, ?_, ?_, ?_, ?_⟩
          · intro j hj; rw [hrc, hocc3]; exact hI3.ref j (by rwa [hlen3] at hj)
          · intro j hj; rw [hlen3]; exact hI3.dom j hj
          · intro j hj t ht
            rw [htm] at ht
            exact (SameShape.valid (T := T3) ⟨hlen3, fun _ => rfl⟩ _).2
              (hI3.tvalid j (by rwa [hlen3] at hj) t ht)
          · intro j hj hr; rw [hrc] at hr; rw [htm]; exact hI3.dead j (by rwa [hlen3] at hj) hr
          · intro j hj; rw [hrc, hlen3]; exact hI3.limbo j (Finset.mem_insert_of_mem hj)
          · intro j
            rw [hrc, hlen3]
            show j ∈ i :: T3.free ↔ _
            rw [List.mem_cons, hI3.free_iff j, Finset.mem_insert]
            constructor
            · rintro (rfl | ⟨a, b, c⟩)
              · exact ⟨hi3, hrc3, hL⟩
              · exact ⟨a, b, fun hc => c (Or.inr hc)⟩
            · rintro ⟨a, b, c⟩
              by_cases hji : j = i
              · exact Or.inl hji
              · exact Or.inr ⟨a, b, by rintro (hc | hc); exacts [hji hc, c hc]⟩
          · intro j hj
            rw [hw3]
            by_cases hji : j = i
            · rw [if_pos hji]
            · rw [if_neg hji]
              exact hI3.free_zero j ((List.mem_cons.1 hj).resolve_left hji)
          · exact List.nodup_cons.2 ⟨hnf3, hI3.nodup⟩
          · intro j hj hr; rw [hrc] at hr; rw [htm]; exact hI3.lin_eq j (by rwa [hlen3] at hj) hr
          · intro j hj t ht; rw [htm] at ht; exact hI3.rank j (by rwa [hlen3] at hj) t ht
        · have e1 : Pot α lin L ({ T3.put i v3 with free := i :: T3.free } : Table F) =
              Pot α lin L (T3.put i v3) := rfl
          rw [e1, Pot_insert α lin L (T3.put i v3) (by simpa using hi3) hL,
            Pot_put_limbo α lin _ T3 hi3 v3 (Finset.mem_insert_self _ _), hP3,
            Pot_put_limbo α lin _ T hi v2 (Finset.mem_insert_self _ _),
            Pot_insert α lin L T hi hL, h.lin_eq i hi hpos, T3.put_w hi3, if_pos rfl]
          simp [hv3, Coeff.value]
        · have e1 : ({ T3.put i v3 with free := i :: T3.free } : Table F).total =
            (T3.put i v3).total := rfl
          have h3 := T3.put_total hi3 v3
          have h2 := T.put_total hi v2
          have e2 : v2.refcount = 0 := rfl
          have e3 : v3.refcount = (T3.w i).refcount := rfl
          rw [e1]
          omega
        · refine ⟨by rw [hlen3, hs3.1, T.put_len], fun k => ?_⟩
          exact (hs3.2 k).trans rfl
      · -- other references remain
        set v2 : VWire F := { T.w i with refcount := (T.w i).refcount - 1 } with hv2
        have hocc : ∀ j, (T.put i v2).occ j = T.occ j := by
          intro j
          have := T.put_occ hi v2 j
          simp only [hv2] at this ⊢
          exact Nat.add_right_cancel this
        have htm : ∀ j, ((T.put i v2).w j).terms = (T.w j).terms := by
          intro j; rw [T.put_w hi]; split
          · next e => subst e; rfl
          · rfl
        have hvl : ∀ j, ((T.put i v2).w j).value = (T.w j).value := by
          intro j; rw [T.put_w hi]; split
          · next e => subst e; rfl
          · rfl
        have hrz : ∀ j, ((T.put i v2).w j).refcount = 0 ↔ (T.w j).refcount = 0 := by
          intro j; rw [T.put_w hi]; split
          · next e => subst e; simp only [hv2]; omega
          · rfl
        refine ⟨T.put i v2, ?_, ?_, ?_, ?_, ⟨T.put_len i v2, fun _ => rfl⟩⟩
        · simp only [Table.freeF, T.get_w hi, if_neg hpos, if_neg hr]
          rfl
        · refine ⟨?_, ?_, ?_, ?_, ?_, ?_, ?_, h.nodup, ?_, ?_⟩
          · intro j hj
            have hj' : j < T.len := by simpa using hj
            have hr' := h.ref j hj'
            rw [hocc, T.put_w hi]
            by_cases hji : j = i
            · subst hji
              rw [if_pos rfl]
              simp only [hv2]
              omega
            · rw [if_neg hji]
              rw [hone, if_neg (Ne.symm hji)] at hr'
              omega
          · intro j hj; rw [T.put_len]; exact h.dom j (by omega)
          · intro j hj t ht
            rw [htm] at ht
            exact (T.put_valid _ _ _).2 (h.tvalid j (by simpa using hj) t ht)
          · intro j hj hr; rw [htm]; exact h.dead j (by simpa using hj) ((hrz j).1 hr)
          · intro j hj; rw [hrz, T.put_len]; exact h.limbo j hj
          · intro j; rw [hrz, T.put_len]; exact h.free_iff j
          · intro j hj; rw [hvl]; exact h.free_zero j hj
          · intro j hj hr; rw [htm]; exact h.lin_eq j (by simpa using hj) (fun h => hr ((hrz j).2 h))
          · intro j hj t ht; rw [htm] at ht; exact h.rank j (by simpa using hj) t ht
        · rw [Pot_put α lin L T hi v2 hL]
          simp [hv2]
        · have := T.put_total hi v2
          simp only [hv2] at this ⊢
          omega

/-- Dropping a wire. -/
theorem freeWire_spec {T : Table F} {ext : ℕ → ℕ} {L : Finset ℕ} (w : WIdx)
    (h : Inv α lin rk T (fun j => ext j + oneAt w j) L) :
    ∃ T', T.freeWire w = .ok T' ∧ Inv α lin rk T' ext L ∧
      Pot α lin L T' = Pot α lin L T ∧ SameShape T T' := by
  obtain ⟨T', h1, h2, h3, _, h4⟩ := freeF_spec T.total w h le_rfl
  exact ⟨T', h1, h2, h3, h4⟩

/-- Taking one more external reference. -/
theorem incr_spec {T : Table F} {ext : ℕ → ℕ} {L : Finset ℕ} (w : WIdx)
    (h : Inv α lin rk T ext L) (hl : ∀ i, w = .virt i → 0 < ext i) :
    ∃ T', T.incr w = .ok T' ∧ Inv α lin rk T' (fun j => ext j + oneAt w j) L ∧
      Pot α lin L T' = Pot α lin L T ∧ SameShape T T' ∧
      (∀ j, (T'.w j).terms = (T.w j).terms) ∧ (∀ j, (T'.w j).value = (T.w j).value) := by
  cases w with
  | gate k i =>
    have : (fun j => ext j + oneAt (.gate k i) j) = ext := by funext j; simp [oneAt]
    rw [this]
    exact ⟨T, rfl, h, rfl, SameShape.refl T, fun _ => rfl, fun _ => rfl⟩
  | virt i =>
    have he := hl i rfl
    have hi := h.dom i he
    have h1 := h.ref i hi
    have hone : ∀ j, oneAt (.virt i) j = if i = j then 1 else 0 := by
      intro j; simp [oneAt]
    set v2 : VWire F := { T.w i with refcount := (T.w i).refcount + 1 } with hv2
    have hocc : ∀ j, (T.put i v2).occ j = T.occ j := by
      intro j
      have := T.put_occ hi v2 j
      simp only [hv2] at this ⊢
      exact Nat.add_right_cancel this
    have htm : ∀ j, ((T.put i v2).w j).terms = (T.w j).terms := by
      intro j; rw [T.put_w hi]; split
      · next e => subst e; rfl
      · rfl
    have hvl : ∀ j, ((T.put i v2).w j).value = (T.w j).value := by
      intro j; rw [T.put_w hi]; split
      · next e => subst e; rfl
      · rfl
    have hrz : ∀ j, ((T.put i v2).w j).refcount = 0 ↔ (T.w j).refcount = 0 := by
      intro j; rw [T.put_w hi]; split
      · next e => subst e; simp only [hv2]; omega
      · rfl
    have hL : i ∉ L := fun hc => by have := (h.limbo i hc).2; omega
    refine ⟨T.put i v2, ?_, ?_, ?_, ⟨T.put_len i v2, fun _ => rfl⟩, htm, hvl⟩
    · simp only [Table.incr, T.get_w hi]
      rfl
    · refine ⟨?_, ?_, ?_, ?_, ?_, ?_, ?_, h.nodup, ?_, ?_⟩
      · intro j hj
        have hj' : j < T.len := by simpa using hj
        have hr' := h.ref j hj'
        rw [hocc, T.put_w hi, hone]
        by_cases hji : j = i
        · subst hji
          rw [if_pos rfl, if_pos rfl]
          simp only [hv2]
          omega
        · rw [if_neg hji, if_neg (Ne.symm hji)]
          omega
      · intro j hj
        rw [T.put_len]
        by_cases hji : j = i
        · subst hji; exact hi
        · simp only [hone, if_neg (Ne.symm hji), add_zero] at hj
          exact h.dom j hj
      · intro j hj t ht
        rw [htm] at ht
        exact (T.put_valid _ _ _).2 (h.tvalid j (by simpa using hj) t ht)
      · intro j hj hr; rw [htm]; exact h.dead j (by simpa using hj) ((hrz j).1 hr)
      · intro j hj; rw [hrz, T.put_len]; exact h.limbo j hj
      · intro j; rw [hrz, T.put_len]; exact h.free_iff j
      · intro j hj; rw [hvl]; exact h.free_zero j hj
      · intro j hj hr; rw [htm]; exact h.lin_eq j (by simpa using hj) (fun h => hr ((hrz j).2 h))
      · intro j hj t ht; rw [htm] at ht; exact h.rank j (by simpa using hj) t ht
    · rw [Pot_put α lin L T hi v2 hL]
      simp [hv2]

end

theorem tcount_eq_zero {ts : List (WIdx × Coeff F)} {i : ℕ} (h : ∀ t ∈ ts, t.1 ≠ .virt i) :
    tcount ts i = 0 := by
  unfold tcount
  apply List.sum_eq_zero
  intro x hx
  obtain ⟨t, ht, rfl⟩ := List.mem_map.1 hx
  simp [oneAt, h t ht]

theorem tcount_pos {ts : List (WIdx × Coeff F)} {i : ℕ} {t} (h : t ∈ ts) (he : t.1 = .virt i) :
    0 < tcount ts i := by
  by_contra hc
  have h0 : (ts.map fun t => oneAt t.1 i).sum = 0 := by unfold tcount at hc; omega
  have := List.sum_eq_zero_iff.1 h0 (oneAt t.1 i) (List.mem_map.2 ⟨t, h, rfl⟩)
  simp [oneAt, he] at this

theorem occ_eq_zero {T : Table F} {i : ℕ} (h : T.occ i = 0) {j : ℕ} (hj : j < T.len) :
    ∀ t ∈ (T.w j).terms, t.1 ≠ .virt i := by
  intro t ht he
  have := (Finset.sum_eq_zero_iff.1 h) j (Finset.mem_range.2 hj)
  have := tcount_pos ht he
  omega

theorem linT_congr {α : Kind → ℕ → F} {lin lin' : ℕ → F} {ts : List (WIdx × Coeff F)} {i : ℕ}
    (h : ∀ t ∈ ts, t.1 ≠ .virt i) (hl : ∀ j, j ≠ i → lin j = lin' j) :
    linT α lin ts = linT α lin' ts := by
  unfold linT
  congr 1
  apply List.map_congr_left
  intro t ht
  cases hw : t.1 with
  | gate k j => rfl
  | virt j =>
    simp only [linW]
    rw [hl j]
    rintro rfl
    exact h t ht hw

/-- Allocating a slot. Slot values are re-chosen only on the new slot. -/
theorem alloc_spec {α : Kind → ℕ → F} {lin : ℕ → F} {rk : ℕ → ℕ} {T : Table F} {ext : ℕ → ℕ}
    (h : Inv α lin rk T ext ∅) :
    ∃ T' i, T.alloc = .ok (T', i) ∧ ext i = 0 ∧
      Inv α (Function.update lin i 0) rk T' (fun j => ext j + oneAt (.virt i) j) ∅ ∧
      Pot α (Function.update lin i 0) ∅ T' = Pot α lin ∅ T ∧ T.len ≤ T'.len ∧
      (∀ k, (T'.buf k) = (T.buf k)) ∧ (T'.w i).terms = [] ∧ (T'.w i).value = .zero ∧ i < T'.len ∧
      T'.occ i = 0 := by
  have hone : ∀ i j, oneAt (.virt i) j = if i = j then 1 else 0 := by
    intro i j; simp [oneAt]
  cases hfree : T.free with
  | cons i rest =>
    obtain ⟨hi, hrc, _⟩ := (h.free_iff i).1 (by rw [hfree]; simp)
    have hz := h.free_zero i (by rw [hfree]; simp)
    have htm := h.dead i hi hrc
    have href := h.ref i hi
    have hext : ext i = 0 := by omega
    have hocc : T.occ i = 0 := by omega
    set v2 : VWire F := { T.w i with refcount := 1 } with hv2
    have hnd := h.nodup
    rw [hfree, List.nodup_cons] at hnd
    have hw2 : ∀ j, ({ T.put i v2 with free := rest } : Table F).w j =
        if j = i then v2 else T.w j := fun j => T.put_w hi v2 j
    have hlen2 : ({ T.put i v2 with free := rest } : Table F).len = T.len := T.put_len i v2
    have htm2 : ∀ j, (({ T.put i v2 with free := rest } : Table F).w j).terms = (T.w j).terms := by
      intro j; rw [hw2]; split
      · next e => subst e; rfl
      · rfl
    have hvl2 : ∀ j, (({ T.put i v2 with free := rest } : Table F).w j).value = (T.w j).value := by
      intro j; rw [hw2]; split
      · next e => subst e; rfl
      · rfl
    have hocc2 : ∀ j, ({ T.put i v2 with free := rest } : Table F).occ j = T.occ j := by
      intro j
      have := T.put_occ hi v2 j
      simp only [hv2] at this
      exact Nat.add_right_cancel this
    refine ⟨{ T.put i v2 with free := rest }, i, ?_, hext, ?_, ?_, le_of_eq hlen2.symm,
      fun _ => rfl, by rw [htm2]; exact htm, by rw [hvl2]; exact hz, by rw [hlen2]; exact hi,
      by rw [hocc2]; exact hocc⟩
    · simp only [Table.alloc, hfree, T.get_w hi]
      rw [if_pos ⟨hrc, by rw [hz]; rfl, htm⟩]
      rfl
    · refine ⟨?_, ?_, ?_, ?_, by simp, ?_, ?_, hnd.2, ?_, ?_⟩
      · intro j hj
        rw [hlen2] at hj
        have hr := h.ref j hj
        rw [hw2, hocc2, hone]
        by_cases hji : j = i
        · subst hji; rw [if_pos rfl, if_pos rfl]; simp only [hv2]; omega
        · rw [if_neg hji, if_neg (Ne.symm hji)]; omega
      · intro j hj
        rw [hlen2]
        by_cases hji : j = i
        · subst hji; exact hi
        · simp only [hone, if_neg (Ne.symm hji), add_zero] at hj
          exact h.dom j hj
      · intro j hj t ht
        rw [htm2] at ht
        exact (T.put_valid i v2 t.1).2 (h.tvalid j (by rwa [hlen2] at hj) t ht)
      · intro j hj hr
        rw [hw2] at hr
        rw [htm2]
        by_cases hji : j = i
        · subst hji; exact htm
        · rw [if_neg hji] at hr
          exact h.dead j (by rwa [hlen2] at hj) hr
      · intro j
        have := h.free_iff j
        rw [hfree, List.mem_cons] at this
        rw [hlen2, hw2]
        show j ∈ rest ↔ _
        by_cases hji : j = i
        · subst hji
          simp [hnd.1, hv2]
        · rw [if_neg hji, ← this]
          simp [hji]
      · intro j hj
        rw [hvl2]
        exact h.free_zero j (by rw [hfree]; exact List.mem_cons_of_mem _ hj)
      · intro j hj hr
        rw [hlen2] at hj
        rw [hw2] at hr
        rw [htm2]
        by_cases hji : j = i
        · subst hji
          simp [htm, linT]
        · rw [if_neg hji] at hr
          rw [Function.update_of_ne hji, h.lin_eq j hj hr]
          exact linT_congr (occ_eq_zero hocc hj) fun l hl => (Function.update_of_ne hl _ _).symm
      · intro j hj t ht
        rw [htm2] at ht
        exact h.rank j (by rwa [hlen2] at hj) t ht
    · have e1 : ∀ lin, Pot α lin ∅ ({ T.put i v2 with free := rest } : Table F) =
          Pot α lin ∅ (T.put i v2) := fun _ => rfl
      rw [e1, Pot_put α _ ∅ T hi v2 (by simp)]
      simp only [hv2, sub_self, zero_mul, add_zero, Pot]
      congr 1
      refine Finset.sum_congr rfl fun j _ => ?_
      by_cases hji : j = i
      · subst hji; simp [hz, Coeff.value]
      · rw [Function.update_of_ne hji]
  | nil =>
    set T' : Table F := { T with wires := T.wires ++ [⟨1, [], .zero⟩] } with hT'
    have hlen : T'.len = T.len + 1 := by simp [hT', Table.len]
    have hw : ∀ j, T'.w j = if j = T.len then ⟨1, [], .zero⟩ else T.w j := by
      intro j
      simp only [Table.w, hT', Table.len, List.getD_eq_getElem?_getD]
      by_cases hj : j = T.wires.length
      · subst hj; simp
      · rw [if_neg hj]
        by_cases hlt : j < T.wires.length
        · rw [List.getElem?_append_left hlt]
        · rw [List.getElem?_eq_none (by simp; omega), List.getElem?_eq_none (by omega)]
    have hwlt : ∀ j < T.len, T'.w j = T.w j := fun j hj => by rw [hw, if_neg (by omega)]
    have hocc : ∀ j, T'.occ j = T.occ j := by
      intro j
      simp only [Table.occ, hlen, Finset.sum_range_succ]
      rw [hw T.len, if_pos rfl]
      simp only [tcount, List.map_nil, List.sum_nil, add_zero]
      exact Finset.sum_congr rfl fun l hl => by rw [hwlt l (Finset.mem_range.1 hl)]
    have hext : ext T.len = 0 := by
      by_contra hc
      have := h.dom T.len (by omega)
      omega
    have hnt : ∀ j < T.len, ∀ t ∈ (T.w j).terms, t.1 ≠ .virt T.len := by
      intro j hj t ht he
      have := h.tvalid j hj t ht
      rw [he] at this
      exact absurd this (lt_irrefl _)
    have hocc0 : T.occ T.len = 0 := by
      apply Finset.sum_eq_zero
      intro j hj
      exact tcount_eq_zero (hnt j (Finset.mem_range.1 hj))
    refine ⟨T', T.len, ?_, hext, ?_, ?_, by omega, fun _ => rfl, by rw [hw, if_pos rfl],
      by rw [hw, if_pos rfl], by omega, by rw [hocc]; exact hocc0⟩
    · simp [Table.alloc, hfree, hT', Table.len]
    · refine ⟨?_, ?_, ?_, ?_, by simp, ?_, ?_, h.nodup, ?_, ?_⟩
      · intro j hj
        rw [hocc, hone, hw]
        by_cases hjl : j = T.len
        · subst hjl; rw [if_pos rfl, if_pos rfl, hext, hocc0]
        · rw [if_neg hjl, if_neg (Ne.symm hjl)]
          have := h.ref j (by omega)
          omega
      · intro j hj
        by_cases hjl : j = T.len
        · omega
        · simp only [hone, if_neg (Ne.symm hjl), add_zero] at hj
          have := h.dom j hj; omega
      · intro j hj t ht
        rw [hw] at ht
        by_cases hjl : j = T.len
        · rw [if_pos hjl] at ht; simp at ht
        · rw [if_neg hjl] at ht
          have := h.tvalid j (by omega) t ht
          cases hc : t.1 with
          | gate k l => rw [hc] at this; exact this
          | virt l =>
            rw [hc] at this
            show l < T'.len
            have : l < T.len := this
            omega
      · intro j hj hr
        rw [hw] at hr ⊢
        by_cases hjl : j = T.len
        · rw [if_pos hjl]
        · rw [if_neg hjl] at hr ⊢
          exact h.dead j (by omega) hr
      · intro j
        show j ∈ T.free ↔ _
        rw [h.free_iff j, hw]
        by_cases hjl : j = T.len
        · subst hjl; simp
        · rw [if_neg hjl]
          constructor
          · rintro ⟨a, b, c⟩; exact ⟨by omega, b, c⟩
          · rintro ⟨a, b, c⟩; exact ⟨by omega, b, c⟩
      · intro j hj
        have : j ∈ T.free := hj
        rw [hfree] at this
        simp at this
      · intro j hj hr
        rw [hw] at hr ⊢
        by_cases hjl : j = T.len
        · subst hjl; simp [linT]
        · rw [if_neg hjl] at hr ⊢
          rw [Function.update_of_ne hjl, h.lin_eq j (by omega) hr]
          exact linT_congr (hnt j (by omega)) fun l hl => (Function.update_of_ne hl _ _).symm
      · intro j hj t ht
        rw [hw] at ht
        by_cases hjl : j = T.len
        · rw [if_pos hjl] at ht; simp at ht
        · rw [if_neg hjl] at ht
          exact h.rank j (by omega) t ht
    · simp only [Pot, hlen, Finset.sum_range_succ]
      rw [hw T.len, if_pos rfl]
      simp only [Coeff.value, zero_mul, Finset.notMem_empty, if_false, add_zero]
      congr 1
      refine Finset.sum_congr rfl fun j hj => ?_
      have := Finset.mem_range.1 hj
      rw [hwlt j this, Function.update_of_ne (by omega)]

/-- Giving a fresh slot its terms. `ext` counts references other than those in `ts`. -/
theorem update_spec {α : Kind → ℕ → F} {lin : ℕ → F} {rk : ℕ → ℕ} {T : Table F} {ext : ℕ → ℕ}
    {ts : List (WIdx × Coeff F)} {i : ℕ}
    (h : Inv α lin rk T (fun j => ext j + tcount ts j) ∅) (hi : i < T.len)
    (htm : (T.w i).terms = []) (hvl : (T.w i).value = .zero) (he : ext i ≠ 0)
    (hts : ∀ t ∈ ts, t.1 ≠ .virt i) (hocc : T.occ i = 0) (hv : ∀ t ∈ ts, T.valid t.1) :
    ∃ T' rk', T.update i ts = .ok T' ∧
      Inv α (Function.update lin i (linT α lin ts)) rk' T' ext ∅ ∧
      Pot α (Function.update lin i (linT α lin ts)) ∅ T' = Pot α lin ∅ T ∧ SameShape T T' := by
  set v2 : VWire F := { T.w i with terms := ts } with hv2
  let m := ∑ j ∈ range T.len, rk j
  have hocc2 : ∀ j, (T.put i v2).occ j = T.occ j + tcount ts j := by
    intro j
    have := T.put_occ hi v2 j
    rw [htm] at this
    simpa [hv2, tcount] using this
  have hrc : ∀ j, ((T.put i v2).w j).refcount = (T.w j).refcount := by
    intro j; rw [T.put_w hi]; split
    · next e => subst e; rfl
    · rfl
  have hvl2 : ∀ j, ((T.put i v2).w j).value = (T.w j).value := by
    intro j; rw [T.put_w hi]; split
    · next e => subst e; rfl
    · rfl
  have hrci : (T.w i).refcount ≠ 0 := by
    have := h.ref i hi; omega
  refine ⟨T.put i v2, Function.update rk i (m + 1), ?_, ?_, ?_, ⟨T.put_len i v2, fun _ => rfl⟩⟩
  · simp only [Table.update, T.get_w hi]; rfl
  · refine ⟨?_, ?_, ?_, ?_, by simp, ?_, ?_, h.nodup, ?_, ?_⟩
    · intro j hj
      rw [hrc, hocc2, h.ref j (by simpa using hj)]
      omega
    · intro j hj; rw [T.put_len]; exact h.dom j (by omega)
    · intro j hj t ht
      rw [T.put_valid]
      rw [T.put_w hi] at ht
      by_cases hji : j = i
      · rw [if_pos hji] at ht; exact hv t ht
      · rw [if_neg hji] at ht; exact h.tvalid j (by simpa using hj) t ht
    · intro j hj hr
      rw [hrc] at hr
      rw [T.put_w hi, if_neg (by rintro rfl; exact hrci hr)]
      exact h.dead j (by simpa using hj) hr
    · intro j; rw [hrc, T.put_len]; exact h.free_iff j
    · intro j hj; rw [hvl2]; exact h.free_zero j hj
    · intro j hj hr
      rw [hrc] at hr
      rw [T.put_w hi]
      by_cases hji : j = i
      · subst hji
        rw [if_pos rfl, Function.update_self]
        exact linT_congr hts fun l hl => (Function.update_of_ne hl _ _).symm
      · rw [if_neg hji, Function.update_of_ne hji, h.lin_eq j (by simpa using hj) hr]
        exact linT_congr (occ_eq_zero hocc (by simpa using hj))
          fun l hl => (Function.update_of_ne hl _ _).symm
    · intro j hj t ht l hl
      rw [T.put_w hi] at ht
      by_cases hji : j = i
      · subst hji
        rw [if_pos rfl] at ht
        have hli : l ≠ j := by rintro rfl; exact hts t ht hl
        rw [Function.update_self, Function.update_of_ne hli]
        have hlv : l < T.len := by
          have := hv t ht; rw [hl] at this; exact this
        have : rk l ≤ m := Finset.single_le_sum (f := rk) (fun _ _ => Nat.zero_le _)
          (Finset.mem_range.2 hlv)
        omega
      · rw [if_neg hji] at ht
        have hj' : j < T.len := by simpa using hj
        have hli : l ≠ i := by
          rintro rfl; exact occ_eq_zero hocc hj' t ht hl
        rw [Function.update_of_ne hji, Function.update_of_ne hli]
        exact h.rank j hj' t ht l hl
  · rw [Pot_put α _ ∅ T hi v2 (by simp)]
    simp only [hv2, sub_self, zero_mul, add_zero, Pot]
    congr 1
    refine Finset.sum_congr rfl fun j _ => ?_
    by_cases hji : j = i
    · subst hji; simp [hvl, Coeff.value]
    · rw [Function.update_of_ne hji]

/-- Without external references everything is free. -/
theorem all_free {α : Kind → ℕ → F} {lin : ℕ → F} {rk : ℕ → ℕ} {T : Table F} {ext : ℕ → ℕ}
    (h : Inv α lin rk T ext ∅) (he : ∀ i, ext i = 0) :
    T.free.length = T.wires.length ∧
      Pot α lin ∅ T = bufSum α .a (T.buf .a) + bufSum α .b (T.buf .b) + bufSum α .c (T.buf .c) +
        bufSum α .d (T.buf .d) := by
  have hz : ∀ i < T.len, (T.w i).refcount = 0 := by
    by_contra hc
    push Not at hc
    obtain ⟨i0, hi0, hr0⟩ := hc
    obtain ⟨i, hi, hmax⟩ := Finset.exists_max_image
      ((range T.len).filter fun i => (T.w i).refcount ≠ 0) rk
      ⟨i0, Finset.mem_filter.2 ⟨Finset.mem_range.2 hi0, hr0⟩⟩
    rw [Finset.mem_filter, Finset.mem_range] at hi
    have href := h.ref i hi.1
    rw [he] at href
    have hocc : T.occ i ≠ 0 := by omega
    obtain ⟨j, hj, hjc⟩ := Finset.exists_ne_zero_of_sum_ne_zero hocc
    rw [Finset.mem_range] at hj
    have : ∃ t ∈ (T.w j).terms, t.1 = .virt i := by
      by_contra hno
      push Not at hno
      exact hjc (tcount_eq_zero hno)
    obtain ⟨t, ht, hti⟩ := this
    have hrk := h.rank j hj t ht i hti
    have hrj : (T.w j).refcount ≠ 0 := by
      intro h0
      rw [h.dead j hj h0] at ht
      simp at ht
    have := hmax j (Finset.mem_filter.2 ⟨Finset.mem_range.2 hj, hrj⟩)
    omega
  have hmem : ∀ i, i ∈ T.free ↔ i < T.len := by
    intro i
    rw [h.free_iff]
    constructor
    · exact fun h => h.1
    · exact fun hi => ⟨hi, hz i hi, by simp⟩
  constructor
  · have hperm : T.free.Perm (List.range T.len) :=
      (List.perm_ext_iff_of_nodup h.nodup List.nodup_range).2 fun i => by
        rw [hmem, List.mem_range]
    rw [hperm.length_eq, List.length_range]; rfl
  · simp only [Pot]
    rw [Finset.sum_eq_zero, add_zero]
    intro i hi
    have := h.free_zero i ((hmem i).2 (Finset.mem_range.1 hi))
    simp [this, Coeff.value]

end Ragu.Circuit

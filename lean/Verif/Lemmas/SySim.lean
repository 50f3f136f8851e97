/-
The `sy` driver simulates the meaning of a program.
-/
import Verif.Lemmas.Sy
import Verif.Lemmas.WiringX

set_option linter.unusedSectionVars false

namespace Ragu.Circuit
open Ragu Finset
variable {F : Type} [Field F] [DecidableEq F]

/-- References to slot `i` held by live handles. -/
def extOf (e : List WIdx) (h : List ℕ) (i : ℕ) : ℕ :=
  ((e.zip h).map fun p => oneAt p.1 i * p.2).sum

theorem extOf_append {e e' : List WIdx} {h h' : List ℕ} (hl : h.length = e.length) (i : ℕ) :
    extOf (e ++ e') (h ++ h') i = extOf e h i + extOf e' h' i := by
  simp [extOf, List.zip_append hl.symm]

theorem extOf_set {e : List WIdx} {h : List ℕ} {g : ℕ} {w : WIdx} (hl : h.length = e.length)
    (hg : e[g]? = some w) (v i : ℕ) :
    extOf e (h.set g v) i + oneAt w i * h.getD g 0 = extOf e h i + oneAt w i * v := by
  induction e generalizing h g with
  | nil => simp at hg
  | cons a e ih =>
    cases h with
    | nil => simp at hl
    | cons b h =>
      cases g with
      | zero =>
        simp only [List.getElem?_cons_zero, Option.some.injEq] at hg
        subst hg
        simp [extOf]
        omega
      | succ g =>
        have := ih (h := h) (g := g) (by simpa using hl) (by simpa using hg)
        simp only [extOf, List.set_cons_succ, List.zip_cons_cons, List.map_cons, List.sum_cons,
          List.getD_cons_succ] at this ⊢
        omega

theorem extOf_pos {e : List WIdx} {h : List ℕ} {g i : ℕ} (hl : h.length = e.length)
    (hg : e[g]? = some (.virt i)) (hh : 0 < h.getD g 0) : 0 < extOf e h i := by
  have := extOf_set hl hg 0 i
  simp only [oneAt, if_true] at this
  omega

theorem extOf_zero {e : List WIdx} {h : List ℕ} (h0 : ∀ x ∈ h, x = 0) (i : ℕ) :
    extOf e h i = 0 := by
  unfold extOf
  apply List.sum_eq_zero
  intro x hx
  obtain ⟨p, hp, rfl⟩ := List.mem_map.1 hx
  rw [h0 p.2 (List.of_mem_zip hp).2, Nat.mul_zero]

theorem lcVal_scale (lc : List (LcStep F F)) : ∀ g : F, lcVal g lc = g * lcVal 1 lc := by
  induction lc with
  | nil => intro g; simp [lcVal]
  | cons st lc ih =>
    intro g
    cases st with
    | term w c => simp only [lcVal]; rw [ih g, ih 1]; ring
    | gain c => simp only [lcVal]; rw [ih (g * c.value), ih (1 * c.value)]; ring

theorem LcRel.mono {W₁ W₂ : Type} {V V' : W₁ → W₂ → Prop} (hV : ∀ a b, V a b → V' a b)
    {l₁ : List (LcStep F W₁)} {l₂ : List (LcStep F W₂)} (h : LcRel V l₁ l₂) : LcRel V' l₁ l₂ := by
  induction h with
  | nil => exact .nil
  | gain _ ih => exact .gain ih
  | term hv _ ih => exact .term (hV _ _ hv) ih

section
variable {α : Kind → ℕ → F} {lin : ℕ → F} {rk : ℕ → ℕ}

/-- A term that may be used: it exists, is referenced, and has the given value. -/
def Usable (α : Kind → ℕ → F) (lin : ℕ → F) (tg len : ℕ) (ext : ℕ → ℕ) (v : F) (w : WIdx) : Prop :=
  linW α lin w = v ∧ (match w with
    | .gate _ i => i < tg
    | .virt i => i < len ∧ 0 < ext i)

theorem Usable.valid {T : Table F} {tg : ℕ} {ext : ℕ → ℕ} {v : F} {w : WIdx} {len : ℕ}
    (h : Usable α lin tg len ext v w) (hb : ∀ k, (T.buf k).length = tg) (hl : len ≤ T.len) :
    T.valid w := by
  cases w with
  | gate k i => simpa [Table.valid, hb] using h.2
  | virt i => exact lt_of_lt_of_le h.2.1 hl

theorem enforce_spec {tg len : ℕ} {ext : ℕ → ℕ} {L : Finset ℕ}
    {lcS : List (LcStep F F)} {lcE : List (LcStep F WIdx)}
    (hr : LcRel (Usable α lin tg len ext) lcS lcE) : ∀ (T : Table F) (g : Coeff F),
    Inv α lin rk T ext L → (∀ k, (T.buf k).length = tg) → T.len = len →
    ∃ T', T.enforce g lcE = .ok T' ∧ Inv α lin rk T' ext L ∧
      Pot α lin L T' = Pot α lin L T + lcVal g.value lcS ∧ SameShape T T' := by
  induction hr with
  | nil => intro T g h _ _; exact ⟨T, rfl, h, by simp [lcVal], SameShape.refl T⟩
  | gain _ ih =>
    intro T g h hb hl
    obtain ⟨T', h1, h2, h3, h4⟩ := ih T (Coeff.mul g _) h hb hl
    exact ⟨T', h1, h2, by rw [h3, Props.C08_mul]; rfl, h4⟩
  | @term w₁ w₂ c l₁ l₂ hv _ ih =>
    intro T g h hb hl
    obtain ⟨T1, a1, a2, a3, _, a5⟩ := add_spec h w₂ (hv.valid hb (le_of_eq hl.symm))
      (fun i hi => by subst hi; exact hv.2.2) (Coeff.mul c g)
    obtain ⟨T', h1, h2, h3, h4⟩ := ih T1 g a2 (fun k => by rw [a5.2 k, hb k]) (by rw [a5.1, hl])
    refine ⟨T', ?_, h2, ?_, a5.trans h4⟩
    · simp only [Table.enforce, a1, bind_ok]; exact h1
    · rw [h3, a3, Props.C08_mul, hv.1]
      simp only [lcVal]; ring

theorem collect_spec {tg len : ℕ} {L : Finset ℕ} {ext0 : ℕ → ℕ}
    {lcS : List (LcStep F F)} {lcE : List (LcStep F WIdx)}
    (hr : LcRel (Usable α lin tg len ext0) lcS lcE) : ∀ (T : Table F) (g : Coeff F) (ext : ℕ → ℕ),
    (∀ i, ext0 i ≤ ext i) →
    Inv α lin rk T ext L →
    ∃ T' ts, T.collect g lcE = .ok (T', ts) ∧ Inv α lin rk T' (fun j => ext j + tcount ts j) L ∧
      Pot α lin L T' = Pot α lin L T ∧ SameShape T T' ∧ linT α lin ts = lcVal g.value lcS ∧
      (∀ t ∈ ts, ∃ v, Usable α lin tg len ext0 v t.1) ∧
      (∀ j, (T'.w j).terms = (T.w j).terms) ∧ (∀ j, (T'.w j).value = (T.w j).value) := by
  induction hr with
  | nil =>
    intro T g ext _ h
    refine ⟨T, [], rfl, by simpa [tcount] using h, rfl, SameShape.refl T, by simp [lcVal, linT],
      by simp, fun _ => rfl, fun _ => rfl⟩
  | gain _ ih =>
    intro T g ext he h
    obtain ⟨T', ts, h1, h2, h3, h4, h5, h6⟩ := ih T (Coeff.mul g _) ext he h
    exact ⟨T', ts, h1, h2, h3, h4, by rw [h5, Props.C08_mul]; rfl, h6⟩
  | @term w₁ w₂ c l₁ l₂ hv _ ih =>
    intro T g ext he h
    obtain ⟨T1, a1, a2, a3, a4, a5, a6⟩ := incr_spec w₂ h
      (fun i hi => by subst hi; exact lt_of_lt_of_le hv.2.2 (he i))
    obtain ⟨T', ts, h1, h2, h3, h4, h5, h6, h7, h8⟩ := ih T1 g _
      (fun i => le_trans (he i) (Nat.le_add_right _ _)) a2
    refine ⟨T', (w₂, Coeff.mul c g) :: ts, ?_, ?_, by rw [h3, a3], a4.trans h4, ?_, ?_, ?_, ?_⟩
    · simp only [Table.collect, a1, bind_ok, h1]
    · have : (fun j => ext j + tcount ((w₂, Coeff.mul c g) :: ts) j) =
          (fun j => ext j + oneAt w₂ j + tcount ts j) := by
        funext j; simp [tcount]; omega
      rw [this]; exact h2
    · simp only [linT, List.map_cons, List.sum_cons, lcVal] at h5 ⊢
      rw [h5, Props.C08_mul, hv.1]
    · intro t ht
      rcases List.mem_cons.1 ht with rfl | ht
      · exact ⟨_, hv⟩
      · exact h6 t ht
    · intro j; rw [h7, a5]
    · intro j; rw [h8, a6]

end

/-- The scope agrees with the position. -/
structure YScope (fp : List Seg) (y : F) (p : Pos) (t : SyState F) (sg : Seg) : Prop where
  seg : fp[p.seg]? = some sg
  gates : t.gates = sg.gateStart + p.gates
  cons : t.cons = sg.consStart + p.cons
  pend : t.availD = p.pend.map fun i => .gate .d (sg.gateStart + i)
  pendLt : ∀ i, p.pend = some i → i < p.gates
  curY : p.cons < sg.numCons → t.curY = y ^ (sg.consStart + sg.numCons - 1 - p.cons)

/-- The table agrees with the meaning. -/
structure YTable (fp : List Seg) (y : F) (α : Kind → ℕ → F) (tg : ℕ) (off : F) (s : Sem F)
    (es : List F) (h : List ℕ) (T : Table F) (e : List WIdx) (lin : ℕ → F) (rk : ℕ → ℕ) : Prop where
  inv : Inv α lin rk T (extOf e h) ∅
  pot : Pot α lin ∅ T = off + weigh fp y s.log
  env : ∀ g w, 0 < h.getD g 0 → e[g]? = some w → ∃ v, es[g]? = some v ∧
    linW α lin w = v ∧ ∀ k i, w = .gate k i → i < tg

def SyRel (fp : List Seg) (y : F) (α : Kind → ℕ → F) (tg : ℕ) (off : F) (s : Sem F)
    (es : List F) (h : List ℕ) (t : SyState F) (e : List WIdx) : Prop :=
  h.length = es.length ∧ e.length = es.length ∧ t.routine + 1 = s.pos.nseg ∧
  (∃ sg, YScope fp y s.pos t sg ∧ sg.gateStart + s.pos.gates ≤ tg) ∧
  (∀ k, (t.table.buf k).length = tg) ∧
  ∃ lin rk, YTable fp y α tg off s es h t.table e lin rk

theorem getD_pos_lt {h : List ℕ} {g : ℕ} (hp : 0 < h.getD g 0) : g < h.length := by
  by_contra hc
  rw [List.getD_eq_getElem?_getD, List.getElem?_eq_none (by omega)] at hp
  simp at hp

theorem YTable.usable {fp : List Seg} {y : F} {α : Kind → ℕ → F} {tg : ℕ} {off : F} {s : Sem F}
    {es : List F} {h : List ℕ} {T : Table F} {e : List WIdx} {lin : ℕ → F} {rk : ℕ → ℕ}
    (hT : YTable fp y α tg off s es h T e lin rk) (hl : h.length = es.length)
    (hle : e.length = es.length) (htg : 0 < tg)
    {lc : List (LcStep F WRef)} (hu : usableLc h lc = true) {lcS lcE}
    (h1 : resolveLc (α .b 0) es lc = .ok lcS)
    (h2 : resolveLc (WIdx.gate .b 0) e lc = .ok lcE) :
    LcRel (Usable α lin tg T.len (extOf e h)) lcS lcE := by
  refine resolveLc_rel _ h _ _ es e ⟨rfl, htg⟩ ?_ lc hu h1 h2
  intro i a b hp ha hb
  obtain ⟨v, hv, hlin, hg⟩ := hT.env i b hp hb
  rw [ha, Option.some.injEq] at hv
  refine ⟨by rw [hlin, hv], ?_⟩
  cases b with
  | gate k j => exact hg k j rfl
  | virt j =>
    have := extOf_pos (by rw [hl, hle]) hb hp
    exact ⟨hT.inv.dom j this, this⟩

/-- Appending live gate wires. -/
theorem YTable.push {fp : List Seg} {y : F} {α : Kind → ℕ → F} {tg : ℕ} {off : F} {s : Sem F}
    {es : List F} {h : List ℕ} {T : Table F} {e : List WIdx} {lin : ℕ → F} {rk : ℕ → ℕ}
    (hT : YTable fp y α tg off s es h T e lin rk) (hl : h.length = es.length)
    (hle : e.length = es.length) {p : Pos} (ws : List (Kind × ℕ)) (hw : ∀ w ∈ ws, w.2 < tg) :
    YTable fp y α tg off { s with pos := p } (es ++ ws.map fun w => α w.1 w.2)
      (h ++ ws.map fun _ => 1) T (e ++ ws.map fun w => .gate w.1 w.2) lin rk := by
  refine ⟨?_, hT.pot, ?_⟩
  · have : extOf (e ++ ws.map fun w => .gate w.1 w.2) (h ++ ws.map fun _ => 1) = extOf e h := by
      funext i
      rw [extOf_append (by rw [hl, hle])]
      have : extOf (ws.map fun w => WIdx.gate w.1 w.2) (ws.map fun _ => 1) i = 0 := by
        unfold extOf
        apply List.sum_eq_zero
        intro x hx
        obtain ⟨q, hq, rfl⟩ := List.mem_map.1 hx
        obtain ⟨w, _, hw⟩ := List.mem_map.1 (List.of_mem_zip hq).1
        rw [← hw]
        simp [oneAt]
      rw [this, add_zero]
    rw [this]; exact hT.inv
  · intro g w hp hg
    by_cases hlt : g < h.length
    · have hp' : 0 < h.getD g 0 := by
        rw [List.getD_eq_getElem?_getD, List.getElem?_append_left hlt] at hp
        rwa [List.getD_eq_getElem?_getD]
      rw [List.getElem?_append_left (by omega)] at hg
      obtain ⟨v, hv⟩ := hT.env g w hp' hg
      exact ⟨v, by rw [List.getElem?_append_left (by omega)]; exact hv.1, hv.2⟩
    · rw [List.getElem?_append_right (by omega), List.getElem?_map] at hg
      rw [Option.map_eq_some_iff] at hg
      obtain ⟨q, hq, rfl⟩ := hg
      refine ⟨α q.1 q.2, ?_, rfl, ?_⟩
      · rw [List.getElem?_append_right (by omega), List.getElem?_map, ← hle, hq]; rfl
      · intro k i hki
        cases hki
        exact hw q (List.mem_of_getElem? hq)

theorem sy_sim {n tg : ℕ} {fp : List Seg} {y : F} (α : Kind → ℕ → F) (hy : y ≠ 0) (htg : tg ≤ n)
    (htg0 : 0 < tg) (h0 : absGate fp ⟨.b, 0, 0⟩ = 0)
    (hfit : ∀ sg ∈ fp, sg.gateStart ≤ tg) :
    Sim (syDriver n fp y) (fun b => α b.kind (absGate fp b)) fp tg (4 * n - 1)
      (SyRel fp y α tg) where
  len h := ⟨h.1, by rw [h.1, h.2.1]⟩
  gate := by
    intro c s es h t e _ _ _ _ hR hg
    obtain ⟨hl, hle, hr, ⟨sg, hS, hb⟩, hbuf, lin, rk, hT⟩ := hR
    obtain ⟨sg', hsg', hlt1, hlt2⟩ := hg
    have : sg' = sg := by rw [hS.seg, Option.some.injEq] at hsg'; exact hsg'.symm
    subst this
    have hne : t.gates ≠ n := by rw [hS.gates]; omega
    have habs : ∀ k, absGate fp ⟨k, s.pos.seg, s.pos.gates⟩ = t.gates := by
      intro k; simp [absGate, hS.seg, hS.gates]
    refine ⟨{ t with gates := t.gates + 1 }, .gate .a t.gates, .gate .b t.gates, .gate .c t.gates,
      .gate .d t.gates, ?_, by simp [hl], by simp [hle], hr,
      ⟨sg', ⟨hS.seg, ?_, hS.cons, hS.pend, ?_, hS.curY⟩, ?_⟩, hbuf, lin, rk, ?_⟩
    · simp only [syDriver, SyState.gate, if_neg hne, bind_ok]
    · simp [Pos.gate, hS.gates, Nat.add_assoc]
    · intro i hi; have := hS.pendLt i hi; simp only [Pos.gate]; omega
    · simp only [Pos.gate]; omega
    · have := hT.push hl hle (p := s.pos.gate) [(.a, t.gates), (.b, t.gates), (.c, t.gates),
        (.d, t.gates)] (by rw [hS.gates]; simpa using hlt2)
      simpa [habs] using this
  mul := by
    intro c s es h t e _ _ _ hR hg
    obtain ⟨hl, hle, hr, ⟨sg, hS, hb⟩, hbuf, lin, rk, hT⟩ := hR
    obtain ⟨sg', hsg', hlt1, hlt2⟩ := hg
    have : sg' = sg := by rw [hS.seg, Option.some.injEq] at hsg'; exact hsg'.symm
    subst this
    have hne : t.gates ≠ n := by rw [hS.gates]; omega
    have habs : ∀ k, absGate fp ⟨k, s.pos.seg, s.pos.gates⟩ = t.gates := by
      intro k; simp [absGate, hS.seg, hS.gates]
    refine ⟨{ t with gates := t.gates + 1 }, .gate .a t.gates, .gate .b t.gates, .gate .c t.gates,
      ?_, by simp [hl], by simp [hle], hr,
      ⟨sg', ⟨hS.seg, ?_, hS.cons, hS.pend, ?_, hS.curY⟩, ?_⟩, hbuf, lin, rk, ?_⟩
    · simp only [syDriver, SyState.gate, if_neg hne, bind_ok]
    · simp [Pos.gate, hS.gates, Nat.add_assoc]
    · intro i hi; have := hS.pendLt i hi; simp only [Pos.gate]; omega
    · simp only [Pos.gate]; omega
    · have := hT.push hl hle (p := s.pos.gate) [(.a, t.gates), (.b, t.gates), (.c, t.gates)]
        (by rw [hS.gates]; simpa using hlt2)
      simpa [habs] using this
  alloc := by
    intro c s es h t e _ hR hg
    obtain ⟨hl, hle, hr, ⟨sg, hS, hb⟩, hbuf, lin, rk, hT⟩ := hR
    cases hq : s.pos.pend with
    | some i =>
      have hp := hS.pend
      simp only [hq, Option.map_some] at hp
      have hi := hS.pendLt i hq
      refine ⟨{ t with availD := none }, .gate .d (sg.gateStart + i), ?_, by simp [hl],
        by simp [hle], ?_, ⟨sg, ⟨?_, ?_, ?_, ?_, ?_, ?_⟩, ?_⟩, hbuf, lin, rk, ?_⟩
      · simp [syDriver, hp]
      · simpa [Pos.alloc, hq] using hr
      · simpa [Pos.alloc, hq] using hS.seg
      · simpa [Pos.alloc, hq] using hS.gates
      · simpa [Pos.alloc, hq] using hS.cons
      · simp [Pos.alloc, hq]
      · simp [Pos.alloc, hq]
      · simpa [Pos.alloc, hq] using hS.curY
      · simpa [Pos.alloc, hq] using hb
      · have := hT.push hl hle (p := s.pos.alloc) [(.d, sg.gateStart + i)]
          (by simp; omega)
        have habs : absGate fp s.pos.allocBase = sg.gateStart + i := by
          simp [absGate, Pos.allocBase, hq, hS.seg]
        have hk : s.pos.allocBase.kind = .d := by simp [Pos.allocBase, hq]
        simpa [habs, hk] using this
    | none =>
      obtain ⟨sg', hsg', hlt1, hlt2⟩ := hg hq
      have : sg' = sg := by rw [hS.seg, Option.some.injEq] at hsg'; exact hsg'.symm
      subst this
      have hp := hS.pend
      simp only [hq, Option.map_none] at hp
      have hne : t.gates ≠ n := by rw [hS.gates]; omega
      refine ⟨{ t with
          gates := t.gates + 1
          availD := some (.gate .d t.gates) }, .gate .b t.gates, ?_, by simp [hl],
        by simp [hle], ?_, ⟨sg', ⟨?_, ?_, ?_, ?_, ?_, ?_⟩, ?_⟩, hbuf, lin, rk, ?_⟩
      · simp [syDriver, hp, SyState.gate, if_neg hne, bind_ok]
      · simpa [Pos.alloc, hq] using hr
      · simpa [Pos.alloc, hq] using hS.seg
      · simp [Pos.alloc, hq, hS.gates, Nat.add_assoc]
      · simpa [Pos.alloc, hq] using hS.cons
      · simp [Pos.alloc, hq, hS.gates]
      · simp [Pos.alloc, hq]
      · simpa [Pos.alloc, hq] using hS.curY
      · simp only [Pos.alloc, hq]; omega
      · have := hT.push hl hle (p := s.pos.alloc) [(.b, t.gates)]
          (by rw [hS.gates]; simpa using hlt2)
        have habs : absGate fp s.pos.allocBase = t.gates := by
          simp [absGate, Pos.allocBase, hq, hS.seg, hS.gates]
        have hk : s.pos.allocBase.kind = .b := by simp [Pos.allocBase, hq]
        simpa [habs, hk] using this
  add := by
    intro c s es h t e lc lcS lcE hR hu hSr hEr
    obtain ⟨hl, hle, hr, ⟨sg, hS, hb⟩, hbuf, lin, rk, hT⟩ := hR
    obtain ⟨T1, i, a1, a2, a3, a4, a5, a6, a7, a8, a9, a10⟩ := alloc_spec hT.inv
    have hSr' : resolveLc (α .b 0) es lc = .ok lcS := by simpa [h0] using hSr
    have hrel := hT.usable hl hle htg0 hu hSr' hEr
    have hne : ∀ w : WIdx, w = .virt i → ¬ 0 < extOf e h i := by intro _ _; omega
    have hrel' : LcRel (Usable α (Function.update lin i 0) tg t.table.len (extOf e h)) lcS lcE := by
      refine LcRel.mono ?_ hrel
      intro v w hw
      refine ⟨?_, hw.2⟩
      cases w with
      | gate k j => exact hw.1
      | virt j =>
        have : j ≠ i := by rintro rfl; have := hw.2.2; omega
        simp only [linW, Function.update_of_ne this]
        exact hw.1
    obtain ⟨T2, ts, b1, b2, b3, b4, b5, b6, b7, b8⟩ := collect_spec hrel' T1 .one _
      (fun j => Nat.le_add_right _ _) a3
    have hts : ∀ q ∈ ts, q.1 ≠ .virt i := by
      intro q hq he
      obtain ⟨v, hv⟩ := b6 q hq
      have := hv.2
      rw [he] at this
      have := this.2
      omega
    have hbuf1 : ∀ k, (T1.buf k).length = tg := fun k => by rw [a6, hbuf]
    have hbuf2 : ∀ k, (T2.buf k).length = tg := fun k => by rw [b4.2, hbuf1]
    have hocc2 : T2.occ i = 0 := by
      have : T2.occ i = T1.occ i := by
        simp only [Table.occ, b4.1, b7]
      rw [this, a10]
    obtain ⟨T3, rk', c1, c2, c3, c4⟩ := update_spec (ts := ts) (i := i)
      (ext := fun j => extOf e h j + oneAt (.virt i) j) b2 (by rw [b4.1]; exact a9)
      (by rw [b7, a7]) (by rw [b8, a8]) (by simp [oneAt]) hts hocc2
      (fun q hq => (b6 q hq).choose_spec.valid hbuf2 (by rw [b4.1]; exact a5))
    have hlin3 : linT α (Function.update lin i 0) ts = lcVal 1 lcS := by
      rw [b5]; simp [Coeff.value]
    rw [hlin3] at c2 c3
    refine ⟨{ t with table := T3 }, .virt i, ?_, by simp [hl], by simp [hle], hr,
      ⟨sg, ⟨hS.seg, hS.gates, hS.cons, hS.pend, hS.pendLt, hS.curY⟩, hb⟩,
      fun k => by rw [c4.2, hbuf2], Function.update (Function.update lin i 0) i (lcVal 1 lcS),
      rk', ⟨?_, ?_, ?_⟩⟩
    · simp only [syDriver, a1, bind_ok, b1, c1]
    · have : extOf (e ++ [.virt i]) (h ++ [1]) = fun j => extOf e h j + oneAt (.virt i) j := by
        funext j
        rw [extOf_append (by rw [hl, hle])]
        simp [extOf]
      rw [this]
      exact c2
    · rw [c3, b3, a4]; exact hT.pot
    · intro g w hp hg
      by_cases hlt : g < h.length
      · have hp' : 0 < h.getD g 0 := by
          rw [List.getD_eq_getElem?_getD, List.getElem?_append_left hlt] at hp
          rwa [List.getD_eq_getElem?_getD]
        rw [List.getElem?_append_left (by omega)] at hg
        obtain ⟨v, hv, hv2, hv3⟩ := hT.env g w hp' hg
        refine ⟨v, by rw [List.getElem?_append_left (by omega)]; exact hv, ?_, hv3⟩
        cases w with
        | gate k j => exact hv2
        | virt j =>
          have hj : j ≠ i := by
            rintro rfl
            have := extOf_pos (by rw [hl, hle]) hg hp'
            omega
          simp only [linW, Function.update_of_ne hj]
          exact hv2
      · have hge : e.length ≤ g := by omega
        rw [List.getElem?_append_right hge] at hg
        have hgl : g - e.length = 0 := by
          by_contra hc
          rw [List.getElem?_eq_none (by simp; omega)] at hg
          simp at hg
        rw [hgl] at hg
        simp only [List.getElem?_cons_zero, Option.some.injEq] at hg
        subst hg
        refine ⟨lcVal 1 lcS, ?_, by simp [linW], by intro k j hkj; cases hkj⟩
        rw [List.getElem?_append_right (by omega), ← hle, hgl]
        rfl
  enforce := by
    intro c s es h t e lc lcS lcE hR hu hSr hEr hroom
    obtain ⟨hl, hle, hr, ⟨sg, hS, hb⟩, hbuf, lin, rk, hT⟩ := hR
    obtain ⟨sg', hsg', hlt, hN⟩ := hroom
    have : sg' = sg := by rw [hS.seg, Option.some.injEq] at hsg'; exact hsg'.symm
    subst this
    have hSr' : resolveLc (α .b 0) es lc = .ok lcS := by simpa [h0] using hSr
    have hrel := hT.usable hl hle htg0 hu hSr' hEr
    obtain ⟨T', a1, a2, a3, a4⟩ := enforce_spec hrel t.table (.arbitrary t.curY) hT.inv hbuf rfl
    have hq : ¬ (t.cons ≥ 4 * n - 1) := by rw [hS.cons]; omega
    refine ⟨{ t with
        cons := t.cons + 1
        table := T'
        curY := t.curY * y⁻¹ }, ?_, hl, hle, hr,
      ⟨sg', ⟨hS.seg, hS.gates, ?_, hS.pend, hS.pendLt, ?_⟩, hb⟩, fun k => by rw [a4.2, hbuf],
      lin, rk, ⟨a2, ?_, hT.env⟩⟩
    · simp only [syDriver, if_neg hq, a1, bind_ok]
    · simp [Pos.enforce, hS.cons, Nat.add_assoc]
    · intro hlt'
      simp only [Pos.enforce] at hlt' ⊢
      rw [hS.curY hlt]
      have : sg'.consStart + sg'.numCons - 1 - s.pos.cons =
        (sg'.consStart + sg'.numCons - 1 - (s.pos.cons + 1)) + 1 := by omega
      rw [this, pow_succ, mul_assoc, mul_inv_cancel₀ hy, mul_one]
    · rw [a3, hT.pot, weigh_append]
      simp only [Coeff.value, weigh, List.map_cons, List.map_nil, List.sum_cons, List.sum_nil,
        add_zero, consExp, hS.seg, Option.map_some, Option.getD_some]
      rw [lcVal_scale, hS.curY hlt]
      ring
  routine := by
    intro c s es h t e sg call hR hsg
    obtain ⟨hl, hle, hr, ⟨sg0, hS, hb⟩, hbuf, lin, rk, hT⟩ := hR
    have hfp : fp[t.routine + 1]? = some sg := by rw [hr]; exact hsg
    refine ⟨c + weigh fp y s.log, {
        availD := none
        curY := if sg.numCons = 0 then 0 else y ^ (sg.consStart + sg.numCons - 1)
        gates := sg.gateStart
        cons := sg.consStart
        table := t.table
        routine := t.routine + 1 }, ?_, ⟨hl, hle, ?_, ⟨sg, ⟨hsg, rfl, rfl, rfl, ?_, ?_⟩, ?_⟩, hbuf,
        lin, rk, ⟨hT.inv, ?_, hT.env⟩⟩, ?_⟩
    · simp only [syDriver, hfp]
    · simp only [Pos.enter]; omega
    · intro i hi; simp [Pos.enter] at hi
    · intro hlt
      simp only [Pos.enter] at hlt ⊢
      rw [if_neg (by omega)]
      rfl
    · simp only [Pos.enter]
      exact (hfit sg (List.mem_of_getElem? hsg))
    · rw [hT.pot]; simp [weigh]
    · intro s1 es' h' t1 e' hR1 hseg hns hgates hcons
      obtain ⟨hl1, hle1, hr1, ⟨sg1, hS1, hb1⟩, hbuf1, lin1, rk1, hT1⟩ := hR1
      have : sg1 = sg := by
        have := hS1.seg
        rw [hseg, hsg, Option.some.injEq] at this; exact this.symm
      subst this
      refine ⟨{ t with
          table := t1.table
          routine := t1.routine }, ?_, hl1, hle1, ?_,
        ⟨sg0, ⟨hS.seg, hS.gates, hS.cons, hS.pend, hS.pendLt, hS.curY⟩, hb⟩, hbuf1, lin1, rk1,
        ⟨hT1.inv, ?_, hT1.env⟩⟩
      · simp only [syDriver, hfp]
        rw [if_pos ⟨by rw [hS1.gates, hgates], by rw [hS1.cons, hcons]⟩]
      · simp only [Pos.leave]; exact hr1
      · rw [hT1.pot, weigh_append]; ring
  clone := by
    intro c s es h t e i w hR hp hw
    obtain ⟨hl, hle, hr, hS, hbuf, lin, rk, hT⟩ := hR
    obtain ⟨T', a1, a2, a3, a4, _⟩ := incr_spec w hT.inv
      (fun j hj => by subst hj; exact extOf_pos (by rw [hl, hle]) hw hp)
    refine ⟨{ t with table := T' }, ?_, by simpa using hl, hle, hr, ?_,
      fun k => by rw [a4.2, hbuf], lin, rk, ⟨?_, by rw [a3]; exact hT.pot, ?_⟩⟩
    · simp only [syDriver, a1, bind_ok]
    · obtain ⟨sg, hS, hb⟩ := hS
      exact ⟨sg, ⟨hS.seg, hS.gates, hS.cons, hS.pend, hS.pendLt, hS.curY⟩, hb⟩
    · have : extOf e (h.set i (h.getD i 0 + 1)) = fun j => extOf e h j + oneAt w j := by
        funext j
        have := extOf_set (by rw [hl, hle]) hw (h.getD i 0 + 1) j
        rw [Nat.mul_add, Nat.mul_one] at this
        omega
      rw [this]; exact a2
    · intro g v hg hgv
      refine hT.env g v ?_ hgv
      by_cases hgi : g = i
      · subst hgi; exact hp
      · rwa [List.getD_eq_getElem?_getD, List.getElem?_set_ne (Ne.symm hgi),
          ← List.getD_eq_getElem?_getD] at hg
  drop := by
    intro c s es h t e i w hR hp hw
    obtain ⟨hl, hle, hr, hS, hbuf, lin, rk, hT⟩ := hR
    have hext : extOf e h = fun j => extOf e (h.set i (h.getD i 0 - 1)) j + oneAt w j := by
      funext j
      have := extOf_set (by rw [hl, hle]) hw (h.getD i 0 - 1) j
      obtain ⟨m, hm⟩ : ∃ m, h.getD i 0 = m + 1 := ⟨h.getD i 0 - 1, by omega⟩
      rw [hm] at this ⊢
      rw [Nat.mul_add, Nat.mul_one] at this
      simp only [Nat.add_sub_cancel] at this ⊢
      omega
    have hinv := hT.inv
    rw [hext] at hinv
    obtain ⟨T', a1, a2, a3, a4⟩ := freeWire_spec w hinv
    refine ⟨{ t with table := T' }, ?_, by simpa using hl, hle, hr, ?_,
      fun k => by rw [a4.2, hbuf], lin, rk, ⟨a2, by rw [a3]; exact hT.pot, ?_⟩⟩
    · simp only [syDriver, a1, bind_ok]
    · obtain ⟨sg, hS, hb⟩ := hS
      exact ⟨sg, ⟨hS.seg, hS.gates, hS.cons, hS.pend, hS.pendLt, hS.curY⟩, hb⟩
    · intro g v hg hgv
      refine hT.env g v ?_ hgv
      by_cases hgi : g = i
      · subst hgi; exact hp
      · rwa [List.getD_eq_getElem?_getD, List.getElem?_set_ne (Ne.symm hgi),
          ← List.getD_eq_getElem?_getD] at hg

/-- A gate-indexed view evaluates to the weighted sum of its buffers. -/
theorem sum_four (n : ℕ) (f : ℕ → F) : ∑ k ∈ range (4 * n), f k =
    (∑ i ∈ range n, f i + ∑ i ∈ range n, f (2 * n - 1 - i)) +
    (∑ i ∈ range n, f (2 * n + i) + ∑ i ∈ range n, f (4 * n - 1 - i)) := by
  have h1 : ∑ i ∈ range n, f (2 * n - 1 - i) = ∑ i ∈ range n, f (n + i) := by
    rw [← Finset.sum_range_reflect (fun i => f (n + i))]
    refine Finset.sum_congr rfl fun i hi => ?_
    rw [Finset.mem_range] at hi
    congr 1; omega
  have h2 : ∑ i ∈ range n, f (4 * n - 1 - i) = ∑ i ∈ range n, f (3 * n + i) := by
    rw [← Finset.sum_range_reflect (fun i => f (3 * n + i))]
    refine Finset.sum_congr rfl fun i hi => ?_
    rw [Finset.mem_range] at hi
    congr 1; omega
  rw [h1, h2, show 4 * n = n + n + n + n by ring, Finset.sum_range_add, Finset.sum_range_add,
    Finset.sum_range_add, show n + n + n = 3 * n by ring, show n + n = 2 * n by ring]
  ring

theorem bufSum_extend (α : Kind → ℕ → F) (k : Kind) (l : List F) {n : ℕ} (h : l.length ≤ n) :
    bufSum α k l = ∑ i ∈ range n, l.getD i 0 * α k i := by
  obtain ⟨m, rfl⟩ := Nat.exists_eq_add_of_le h
  rw [Finset.sum_range_add, bufSum]
  rw [Finset.sum_eq_zero (s := range m), add_zero]
  intro i _
  rw [List.getD_eq_getElem?_getD, List.getElem?_eq_none (by omega)]
  simp

theorem wiring_view_eval {n : ℕ} {v : Sparse.View F} (ha : v.a.length ≤ n) (hb : v.b.length ≤ n)
    (hc : v.c.length ≤ n) (hd : v.d.length ≤ n) :
    ∃ p, v.buildWiring n = some p ∧ Spec.WellFormed (4 * n) p ∧ ∀ x, Sparse.eval (4 * n) p x =
      bufSum (fun k i => x ^ wiringExp n i k) .a v.a +
      bufSum (fun k i => x ^ wiringExp n i k) .b v.b +
      bufSum (fun k i => x ^ wiringExp n i k) .c v.c +
      bufSum (fun k i => x ^ wiringExp n i k) .d v.d := by
  obtain ⟨p, h1, h2, h3⟩ := Props.C13_wiring_build n v ha hb hc hd
  refine ⟨p, h1, h2, fun x => ?_⟩
  rw [Props.C11_eval _ _ h2, sum_four, bufSum_extend _ _ _ ha, bufSum_extend _ _ _ hb,
    bufSum_extend _ _ _ hc, bufSum_extend _ _ _ hd]
  have e1 : ∑ i ∈ range n, Spec.coeff p i * x ^ i =
      ∑ i ∈ range n, v.d.getD i 0 * x ^ wiringExp n i .d :=
    Finset.sum_congr rfl fun i hi => by rw [(h3 i (Finset.mem_range.1 hi)).2.2.2]; rfl
  have e2 : ∑ i ∈ range n, Spec.coeff p (2 * n - 1 - i) * x ^ (2 * n - 1 - i) =
      ∑ i ∈ range n, v.a.getD i 0 * x ^ wiringExp n i .a :=
    Finset.sum_congr rfl fun i hi => by rw [(h3 i (Finset.mem_range.1 hi)).1]; rfl
  have e3 : ∑ i ∈ range n, Spec.coeff p (2 * n + i) * x ^ (2 * n + i) =
      ∑ i ∈ range n, v.b.getD i 0 * x ^ wiringExp n i .b :=
    Finset.sum_congr rfl fun i hi => by rw [(h3 i (Finset.mem_range.1 hi)).2.1]; rfl
  have e4 : ∑ i ∈ range n, Spec.coeff p (4 * n - 1 - i) * x ^ (4 * n - 1 - i) =
      ∑ i ∈ range n, v.c.getD i 0 * x ^ wiringExp n i .c :=
    Finset.sum_congr rfl fun i hi => by rw [(h3 i (Finset.mem_range.1 hi)).2.2.1]; rfl
  rw [e1, e2, e3, e4]
  ring

/-- The whole run of the `sy` driver on a well-used circuit. -/
theorem fits_seq {fp : List Seg} {n N : ℕ} (p q : Prog F) : ∀ s, Fits fp n N (p.seq q) s →
    Fits fp n N p s := by
  induction p with
  | done => intro s _; trivial
  | gate va vb vc vd k ih | mul va vb vc k ih | alloc v k ih | enforce lc k ih =>
    intro s h; exact ⟨h.1, ih _ h.2⟩
  | add lc k ih | clone w k ih | drop w k ih => intro s h; exact ih _ h
  | routine call b k ihb ihk => intro s h; exact ⟨h.1, h.2.1, ihk _ h.2.2⟩

/-- The state `sy` starts from. -/
def syStart (c : Circ F) (y : F) : SyState F :=
  { availD := none
    curY := y ^ ((posRun c.main (Pos.gate {})).cons - 1)
    gates := 0
    cons := 0
    table := {
      wires := []
      free := []
      buf := fun _ => List.replicate (totalGates c.counts) 0 }
    routine := 0 }

theorem sy_prefix {c : Circ F} (hu : c.WellUsed) {n : ℕ} (hn : totalGates c.counts ≤ n)
    (hN : totalCons c.counts < 4 * n) {y : F} (hy : y ≠ 0) (α : Kind → ℕ → F) (p q : Prog F)
    (hpq : c.main = p.seq q) :
    ∃ hs t e, handles p [] = some hs ∧
      run (syDriver n (floorPlan c.counts) y) p { syStart c y with gates := 1 } [] = .ok (t, e) ∧
      ∃ s es, run (semD fun b => α b.kind (absGate (floorPlan c.counts) b)) p
          { pos := Pos.gate {} } [] = .ok (s, es) ∧
        SyRel (floorPlan c.counts) y α (totalGates c.counts) 0 s es hs t e := by
  obtain ⟨h', hh, _⟩ := hu
  set fp := floorPlan c.counts with hfp
  set tg := totalGates c.counts with htg
  have hf := circ_fits c (le_refl tg) (show totalCons c.counts ≤ 4 * n - 1 by omega)
  have h0 : fp[0]? = some ⟨0, 0, (posRun c.main (Pos.gate {})).gates,
      (posRun c.main (Pos.gate {})).cons⟩ := rfl
  have hfit : ∀ sg ∈ fp, sg.gateStart ≤ tg := by
    intro sg hs
    have := (floorPlanFrom_bound c.counts 0 0 sg hs).1
    omega
  have htg0 : 0 < tg := by
    obtain ⟨⟨sg, _, _, h⟩, _⟩ := hf
    omega
  have hsim := sy_sim (n := n) (tg := tg) (fp := fp) α hy hn htg0 (abs_one c) hfit
  have hb0 : ∀ k, bufSum α k (List.replicate tg (0 : F)) = 0 := by
    intro k
    apply Finset.sum_eq_zero
    intro i _
    rw [List.getD_eq_getElem?_getD, List.getElem?_replicate]
    split <;> simp
  have hR0 : SyRel fp y α tg 0 {} [] [] (syStart c y) [] := by
    refine ⟨rfl, rfl, rfl, ⟨_, ⟨h0, rfl, rfl, rfl, ?_, ?_⟩, Nat.zero_le _⟩, ?_,
      fun _ => 0, fun _ => 0, ⟨?_, ?_, ?_⟩⟩
    · intro i hi; cases hi
    · intro _; simp [syStart]
    · intro k; simp [syStart, htg]
    · refine ⟨?_, ?_, ?_, ?_, ?_, ?_, ?_, ?_, ?_, ?_⟩ <;> simp [syStart, Table.len, extOf]
    · simp [Pot, syStart, hb0, ← htg, Table.len, weigh]
    · intro g w hg; simp at hg
  obtain ⟨t1, wa, wb, wc, wd, hgate, hR1⟩ :=
    hsim.gate (va := 0) (vb := 0) (vc := 0) (vd := 0) hR0 hf.1
  have hg1 : (syDriver n fp y).gate 0 0 0 0 (syStart c y) = .ok ({ syStart c y with gates := 1 },
      .gate .a 0, .gate .b 0, .gate .c 0, .gate .d 0) := by
    have : (0 : ℕ) ≠ n := by omega
    simp [syDriver, SyState.gate, syStart, this, bind_ok]
  rw [hg1] at hgate
  have ht1 : t1 = { syStart c y with gates := 1 } := by
    rw [Except.ok.injEq, Prod.mk.injEq] at hgate
    exact hgate.1.symm
  have hR1' : SyRel fp y α tg 0 { pos := Pos.gate {} } [] [] t1 [] := by
    subst ht1
    obtain ⟨_, _, h3, h4, h5, _⟩ := hR1
    obtain ⟨_, _, _, _, _, lin, rk, hT⟩ := hR0
    exact ⟨rfl, rfl, h3, h4, h5, lin, rk, ⟨hT.inv, hT.pot, hT.env⟩⟩
  rw [hpq, handles_seq, Option.bind_eq_some_iff] at hh
  obtain ⟨hs, hh1, _⟩ := hh
  have hf2 := hf.2
  rw [hpq] at hf2
  obtain ⟨s, es, t, e, r1, r2, hR, hp⟩ := sim_run hsim p (0 : F) _ _ _ _ _ hs hR1' hh1
    (fits_seq p q _ hf2)
  subst ht1
  exact ⟨hs, t, e, hh1, r2, s, es, r1, hR⟩

theorem sy_run {c : Circ F} (hu : c.WellUsed) {n : ℕ} (hn : totalGates c.counts ≤ n)
    (hN : totalCons c.counts < 4 * n) {y : F} (hy : y ≠ 0) (α : Kind → ℕ → F) :
    ∃ t e, orchestrate (syDriver n (floorPlan c.counts) y) c {
          availD := none
          curY := y ^ ((posRun c.main (Pos.gate {})).cons - 1)
          gates := 0
          cons := 0
          table := {
            wires := []
            free := []
            buf := fun _ => List.replicate (totalGates c.counts) 0 }
          routine := 0 } = .ok (t, e) ∧
      t.routine + 1 = (floorPlan c.counts).length ∧
      t.gates = (posRun c.main (Pos.gate {})).gates ∧
      t.cons = (posRun c.main (Pos.gate {})).cons ∧
      t.table.free.length = t.table.wires.length ∧
      (∀ k, (t.table.buf k).length = totalGates c.counts) ∧
      bufSum α .a (t.table.buf .a) + bufSum α .b (t.table.buf .b) + bufSum α .c (t.table.buf .c) +
        bufSum α .d (t.table.buf .d) =
        weigh (floorPlan c.counts) y
          (constraints (fun b => α b.kind (absGate (floorPlan c.counts) b)) c) := by
  obtain ⟨h', hh, hz⟩ := hu
  set fp := floorPlan c.counts with hfp
  set tg := totalGates c.counts with htg
  have hf := circ_fits c (le_refl tg) (show totalCons c.counts ≤ 4 * n - 1 by omega)
  have h0 : fp[0]? = some ⟨0, 0, (posRun c.main (Pos.gate {})).gates,
      (posRun c.main (Pos.gate {})).cons⟩ := rfl
  have hfit : ∀ sg ∈ fp, sg.gateStart ≤ tg := by
    intro sg hs
    have := (floorPlanFrom_bound c.counts 0 0 sg hs).1
    omega
  have htg0 : 0 < tg := by
    obtain ⟨⟨sg, _, _, h⟩, _⟩ := hf
    omega
  have hsim := sy_sim (n := n) (tg := tg) (fp := fp) α hy hn htg0 (abs_one c) hfit
  let t0 : SyState F := {
          availD := none
          curY := y ^ ((posRun c.main (Pos.gate {})).cons - 1)
          gates := 0
          cons := 0
          table := {
            wires := []
            free := []
            buf := fun _ => List.replicate tg 0 }
          routine := 0 }
  have hb0 : ∀ k, bufSum α k (List.replicate tg (0 : F)) = 0 := by
    intro k
    apply Finset.sum_eq_zero
    intro i _
    rw [List.getD_eq_getElem?_getD, List.getElem?_replicate]
    split <;> simp
  have hR0 : SyRel fp y α tg 0 {} [] [] t0 [] := by
    refine ⟨rfl, rfl, rfl, ⟨_, ⟨h0, rfl, rfl, rfl, ?_, ?_⟩, Nat.zero_le _⟩, ?_,
      fun _ => 0, fun _ => 0, ⟨?_, ?_, ?_⟩⟩
    · intro i hi; cases hi
    · intro _; simp [t0]
    · intro k; simp [t0]
    · refine ⟨?_, ?_, ?_, ?_, ?_, ?_, ?_, ?_, ?_, ?_⟩ <;> simp [t0, Table.len, extOf]
    · simp [Pot, t0, hb0, Table.len, weigh]
    · intro g w hg; simp at hg
  obtain ⟨t1, wa, wb, wc, wd, hgate, hR1⟩ :=
    hsim.gate (va := 0) (vb := 0) (vc := 0) (vd := 0) hR0 hf.1
  have hg1 : (syDriver n fp y).gate 0 0 0 0 t0 = .ok ({ t0 with gates := 1 }, .gate .a 0,
      .gate .b 0, .gate .c 0, .gate .d 0) := by
    have : (0 : ℕ) ≠ n := by omega
    simp [syDriver, SyState.gate, t0, this, bind_ok]
  rw [hg1] at hgate
  have ht1 : t1 = { t0 with gates := 1 } := by
    rw [Except.ok.injEq, Prod.mk.injEq] at hgate
    exact hgate.1.symm
  have hR1' : SyRel fp y α tg 0 { pos := Pos.gate {} } [] [] t1 [] := by
    subst ht1
    obtain ⟨_, _, h3, h4, h5, _⟩ := hR1
    obtain ⟨_, _, _, _, _, lin, rk, hT⟩ := hR0
    exact ⟨rfl, rfl, h3, h4, h5, lin, rk, ⟨hT.inv, hT.pot, hT.env⟩⟩
  obtain ⟨s, es, t, e, r1, r2, hR, hp⟩ := sim_run hsim c.main (0 : F) _ _ _ _ _ h' hR1' hh hf.2
  obtain ⟨hl, hle, hr, ⟨sg, hS, _⟩, hbuf, lin, rk, hT⟩ := hR
  have hsg : sg = ⟨0, 0, (posRun c.main (Pos.gate {})).gates,
      (posRun c.main (Pos.gate {})).cons⟩ := by
    have := hS.seg
    rw [hp, posRun_seg] at this
    change fp[0]? = some sg at this
    rw [h0, Option.some.injEq] at this
    exact this.symm
  subst hsg
  obtain ⟨hfree, hpot⟩ := all_free hT.inv (fun i => extOf_zero hz i)
  refine ⟨t, e, ?_, ?_, ?_, ?_, hfree, hbuf, ?_⟩
  · show orchestrate (syDriver n fp y) c t0 = _
    simp only [orchestrate]
    rw [hg1, bind_ok]
    rw [ht1] at r2
    exact r2
  · rw [hr, hp, posRun_nseg, hfp, floorPlan_length]
    simp [Circ.counts, Pos.gate]; omega
  · rw [hS.gates, hp]; simp
  · rw [hS.cons, hp]; simp
  · rw [← hpot, hT.pot, constraints_eq r1, zero_add]

theorem syEval_eq {c : Circ F} (hu : c.WellUsed) {n : ℕ} (hn : totalGates c.counts ≤ n)
    (hN : totalCons c.counts < 4 * n) (y : F) :
    ∃ p, syEval n (floorPlan c.counts) c y = .ok p ∧ Spec.WellFormed (4 * n) p ∧
      ∀ x, Sparse.eval (4 * n) p x = wiringAt n (floorPlan c.counts) c x y := by
  have hf := circ_fits c hn (show totalCons c.counts ≤ 4 * n - 1 by omega)
  have hn0 : 0 < n := by
    obtain ⟨⟨sg, _, _, h⟩, _⟩ := hf
    omega
  have h0 : (floorPlan c.counts)[0]? = some ⟨0, 0, (posRun c.main (Pos.gate {})).gates,
      (posRun c.main (Pos.gate {})).cons⟩ := rfl
  by_cases hy : y = 0
  · subst hy
    obtain ⟨p, h1, h2, h3⟩ := wiring_view_eval (n := n) (v := ⟨[], [(1 : F)], [], []⟩) (by simp)
      (by simp; omega) (by simp) (by simp)
    refine ⟨p, by simp [syEval, h1], h2, fun x => ?_⟩
    rw [h3, wiringAt, weigh_zero hu]
    simp [bufSum, wiringExp, abs_one]
  · obtain ⟨t, e, horch, hrt, hgs, hcs, hfree, hbuf, _⟩ := sy_run hu hn hN hy (fun _ _ => 0)
    obtain ⟨p, h1, h2, h3⟩ := wiring_view_eval (n := n) (v := ⟨t.table.buf .a, t.table.buf .b,
      t.table.buf .c, t.table.buf .d⟩) (by simpa [hbuf] using hn) (by simpa [hbuf] using hn)
      (by simpa [hbuf] using hn) (by simpa [hbuf] using hn)
    refine ⟨p, ?_, h2, fun x => ?_⟩
    · have hm : 1 ≤ (posRun c.main (Pos.gate {})).cons := by
        rw [posRun_main]; simp [Pos.enforce]
      have htot : ((floorPlan c.counts).map Seg.numGates).sum = totalGates c.counts := by
        have := congrArg (List.map Prod.fst) (floorPlanFrom_counts c.counts 0 0)
        rw [List.map_map] at this
        rw [totalGates, ← this]
        rfl
      simp only [syEval, if_neg hy, h0]
      rw [if_neg (by omega), htot, horch, bind_ok]
      simp only
      rw [if_pos ⟨hrt, hgs, hcs⟩, if_pos hfree]
      simp only [h1]
    · obtain ⟨t', e', horch', _, _, _, _, _, h⟩ := sy_run hu hn hN hy
        (fun k i => x ^ wiringExp n i k)
      rw [horch, Except.ok.injEq, Prod.mk.injEq] at horch'
      rw [h3, wiringAt, ← h, horch'.1]

end Ragu.Circuit

/-
How many gates and constraints a circuit has that realizes gadget code of a known size.
-/
import Verif.Lemmas.Size
import Verif.Lemmas.Staging
import Verif.Lemmas.Assemble
import Verif.Spec.Realize

set_option linter.unusedSectionVars false

namespace Ragu.Circuit
open Ragu Ragu.Gadget Ragu.Spec
variable {F : Type}

theorem Prog.size_seq (p q : Prog F) : (p.seq q).size = p.size + q.size := by
  induction p with
  | done => apply Size.ext <;> simp [Prog.seq, Prog.size]
  | gate va vb vc vd k ih | mul va vb vc k ih | alloc v k ih | enforce lc k ih =>
    simp only [Prog.seq, Prog.size, ih, Size.add_assoc]
  | add lc k ih | clone w k ih | drop w k ih => simpa only [Prog.seq, Prog.size] using ih
  | routine call b k ihb ihk => simp only [Prog.seq, Prog.size, ihk, Size.add_assoc]

theorem allocsOutside_seq {p q : Prog F} (hp : p.AllocsOutside) (hq : q.AllocsOutside) :
    (p.seq q).AllocsOutside := by
  induction p with
  | done => exact hq
  | gate va vb vc vd k ih | mul va vb vc k ih | alloc v k ih | enforce lc k ih
  | add lc k ih | clone w k ih | drop w k ih => exact ih hp
  | routine call b k ihb ihk => exact ⟨hp.1, hp.2.1, ihk hp.2.2⟩

/-- A pending gate takes one more allocation. -/
def Pos.room (p : Pos) : ℕ := if p.pend.isSome then 1 else 0

theorem posRun_size (p : Prog F) (h : p.AllocsOutside) : ∀ s : Pos,
    (posRun p s).gates + totalGates (subCounts p) = s.gates + p.size.gates + (p.size.allocs + 1 - s.room) / 2 ∧
    (posRun p s).cons + totalCons (subCounts p) = s.cons + p.size.cons := by
  induction p with
  | done =>
    intro s
    simp only [posRun, subCounts, totalGates, totalCons, Prog.size, Pos.room]
    split <;> simp
  | gate va vb vc vd k ih | mul va vb vc k ih =>
    intro s
    have := ih h s.gate
    simp only [posRun, subCounts, Prog.size, Size.add_gates, Size.add_allocs, Size.add_cons] at this ⊢
    rw [show s.gate.room = s.room from rfl] at this
    simp only [Pos.gate] at this ⊢
    omega
  | alloc v k ih =>
    intro s
    have := ih h s.alloc
    simp only [posRun, subCounts, Prog.size, Size.add_gates, Size.add_allocs, Size.add_cons] at this ⊢
    rcases hs : s.pend with _ | i <;> simp only [Pos.alloc, Pos.room, hs, Option.isSome, if_true,
      Bool.false_eq_true, if_false] at this ⊢ <;> omega
  | enforce lc k ih =>
    intro s
    have := ih h s.enforce
    simp only [posRun, subCounts, Prog.size, Size.add_gates, Size.add_allocs, Size.add_cons] at this ⊢
    rw [show s.enforce.room = s.room from rfl] at this
    simp only [Pos.enforce] at this ⊢
    omega
  | add lc k ih | clone w k ih | drop w k ih => exact fun s => ih h s
  | routine call b k ihb ihk =>
    intro s
    obtain ⟨h0, h1, h2⟩ := h
    have hb := ihb h1 {}
    have hk := ihk h2 (s.leave (posRun b s.enter))
    simp only [posRun, subCounts, Prog.size, Size.add_gates, Size.add_allocs, Size.add_cons, totalGates,
      totalCons, List.map_cons, List.sum_cons, List.map_append, List.sum_append] at hb hk ⊢
    rw [show (s.leave (posRun b s.enter)).room = s.room from rfl] at hk
    rw [show Pos.room {} = 0 from rfl] at hb
    simp only [Pos.leave, h0] at hb hk ⊢
    omega

theorem size_allocZeros (p : Prog F) [Zero F] : ∀ k, (allocZeros k p).size = ⟨0, k, 0⟩ + p.size
  | 0 => by apply Size.ext <;> simp [allocZeros]
  | k + 1 => by
    rw [allocZeros, Prog.size, size_allocZeros p k]
    size_eq

theorem outs_size (outs : List WRef) (cl : List ℕ) :
    (epilogue outs cl : Prog F).size = ⟨0, 0, outs.length + 1⟩ ∧
      (epilogue outs cl : Prog F).AllocsOutside := by
  have hd : (cl.foldr Prog.drop (.done : Prog F)).size = 0 ∧
      (cl.foldr Prog.drop (.done : Prog F)).AllocsOutside := by
    induction cl with
    | nil => exact ⟨rfl, trivial⟩
    | cons a l ih => exact ih
  induction outs with
  | nil => exact ⟨by simp only [epilogue, List.foldr_nil, Prog.size, hd.1]; rfl, hd.2⟩
  | cons o outs ih =>
    refine ⟨?_, ih.2⟩
    have := ih.1
    simp only [epilogue, List.foldr_cons, Prog.size] at this ⊢
    rw [this]
    size_eq

variable [Field F] [DecidableEq F] {α : Type}

theorem size_of_calls {Q : List F → α → Prop} {R : α → Prop} {p : Prog F} {env : List F} {x : Syn F α}
    (h : Calls Q p env x) : ∀ {s : Size}, Sized R x s → p.size = s := by
  induction h with
  | ret _ => intro s hs; cases hs; rfl
  | gate _ ih => intro s hs; cases hs with | gate hk => rw [Prog.size, ih 0 0 0 0 (hk 0 0 0 0)]
  | mul _ _ ih => intro s hs; cases hs with | gate hk => rw [Prog.size, ih 0 0 0 0 (hk 0 0 0 0)]
  | alloc _ ih => intro s hs; cases hs with | alloc hk => rw [Prog.size, ih 0 (hk 0)]
  | enforce _ _ _ ih => intro s hs; cases hs with | enforce hk => rw [Prog.size, ih hk]
  | add _ _ ih => intro s hs; rw [Prog.size, ih hs]
  | routine _ ih => intro s hs; rw [Prog.size, ← Prog.size_seq, ih hs]
  | clone _ ih => intro s hs; rw [Prog.size, ih hs]
  | drop _ ih => intro s hs; rw [Prog.size, ih hs]
  | check _ ih => intro s hs; cases hs with | check hk => exact ih hk

/-- The gates and constraints of a circuit with stages. -/
theorem counts_of_realizes {ch : Chain} {c : Circ F} {x : List F → Syn F (List F)} {R : List F → Prop}
    {s : Size} (hf : StagesFit ch) (hc : c.body.AllocsOutside) (hr : Realizes ch c x)
    (hs : ∀ es, es.length = firstWire ch + 2 * ch.numGates → Sized R (x es) s) :
    totalGates c.counts = ch.skipGates + ch.numGates + s.gates + (s.allocs + 1) / 2 ∧
    totalCons c.counts = s.cons + c.outs.length + 1 := by
  obtain ⟨k, hk, hcalls⟩ := hr
  rw [multiStage_eq ch k hf] at hk
  have e : c.body.size = ⟨0, 2 * chainGates ch, 0⟩ + s := by
    rw [← Except.ok.inj hk, size_allocZeros, size_of_calls
      (hcalls (List.replicate _ 0) List.length_replicate) (hs _ List.length_replicate)]
  obtain ⟨o1, o2⟩ := outs_size (F := F) c.outs c.cleanup
  have hm : c.main.size = ⟨s.gates, 2 * chainGates ch + s.allocs, s.cons + c.outs.length + 1⟩ := by
    rw [Circ.main, Prog.size_seq, o1, e]
    size_eq
  have := posRun_size c.main (allocsOutside_seq hc o2) (Pos.gate {})
  rw [hm] at this
  rw [skip_chain]
  simp only [Circ.counts, totalGates, totalCons, List.map_cons, List.sum_cons] at this ⊢
  rw [show Pos.room (Pos.gate {}) = 0 from rfl] at this
  simp only [Pos.gate] at this ⊢
  omega

end Ragu.Circuit

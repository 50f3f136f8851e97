/-
What depends only on the shape of a circuit.
-/
import Verif.Spec.Shape
import Verif.Spec.Revdot
import Verif.Model.Object
import Verif.Lemmas.Circuit

set_option linter.unusedSectionVars false

namespace Ragu.Circuit
open Ragu
variable {F : Type} [Field F] [DecidableEq F] {W σ : Type}

/-- A driver that does not look at witness values or at predictions. -/
structure Driver.Blind (D : Driver F W σ) : Prop where
  gate : ∀ a b c d s, D.gate a b c d s = D.gate 0 0 0 0 s
  mul : ∀ a b c s, D.mul a b c s = D.mul 0 0 0 s
  alloc : ∀ a s, D.alloc a s = D.alloc 0 s
  enter : ∀ c s, D.enter c s = D.enter { c with known := false } s
  leave : ∀ c s s', D.leave c s s' = D.leave { c with known := false } s s'

theorem run_blank {D : Driver F W σ} (h : D.Blind) (p : Prog F) : ∀ (s : σ) (env : List W),
    run D p.blank s env = run D p s env := by
  induction p with
  | done => intro s env; rfl
  | gate a b c d k ih => intro s env; simp only [Prog.blank, run, h.gate a b c d, ih]
  | mul a b c k ih => intro s env; simp only [Prog.blank, run, h.mul a b c, ih]
  | alloc v k ih => intro s env; simp only [Prog.blank, run, h.alloc v, ih]
  | add lc k ih => intro s env; simp only [Prog.blank, run, ih]
  | enforce lc k ih => intro s env; simp only [Prog.blank, run, ih]
  | routine c b k ihb ihk =>
    intro s env; simp only [Prog.blank, run, h.enter c, h.leave c, ihb, ihk]
  | clone w k ih => intro s env; simp only [Prog.blank, run, ih]
  | drop w k ih => intro s env; simp only [Prog.blank, run, ih]

theorem blank_seq (p q : Prog F) : (p.seq q).blank = p.blank.seq q.blank := by
  induction p with
  | done => rfl
  | _ => simp_all [Prog.blank, Prog.seq]

theorem blank_foldr_drop (l : List ℕ) :
    (l.foldr Prog.drop (.done : Prog F)).blank = l.foldr Prog.drop .done := by
  induction l with
  | nil => rfl
  | cons a l ih => simp [Prog.blank, ih]

theorem blank_epilogue (outs : List WRef) (cl : List ℕ) :
    (epilogue outs cl : Prog F).blank = epilogue outs cl := by
  unfold epilogue
  induction outs with
  | nil => simp [Prog.blank, blank_foldr_drop]
  | cons a l ih => simpa [Prog.blank] using ih

theorem main_blank (c : Circ F) : c.blank.main = c.main.blank := by
  simp [Circ.main, Circ.blank, blank_seq, blank_epilogue]

theorem orchestrate_blank {D : Driver F W σ} (h : D.Blind) (c : Circ F) (s : σ) :
    orchestrate D c.blank s = orchestrate D c s := by
  simp only [orchestrate, main_blank, run_blank h]

theorem handles_blank (p : Prog F) : ∀ h, handles p.blank h = handles p h := by
  induction p with
  | done => intro h; rfl
  | routine c b k ihb ihk =>
    intro h; simp only [Prog.blank, handles, ihb]; congr 1; funext x; exact ihk x
  | _ => intro h; simp_all [Prog.blank, handles]

theorem posRun_blank (p : Prog F) : ∀ q, posRun p.blank q = posRun p q := by
  induction p with
  | done => intro q; rfl
  | _ => intro q; simp_all [Prog.blank, posRun]

theorem subCounts_blank (p : Prog F) : subCounts p.blank = subCounts p := by
  induction p with
  | done => rfl
  | routine c b k ihb ihk => simp only [Prog.blank, subCounts, posRun_blank, ihb, ihk]
  | _ => simp_all [Prog.blank, subCounts]

theorem counts_blank (c : Circ F) : c.blank.counts = c.counts := by
  simp only [Circ.counts, main_blank, posRun_blank, subCounts_blank]

theorem wellUsed_blank (c : Circ F) : c.blank.WellUsed ↔ c.WellUsed := by
  simp only [Circ.WellUsed, main_blank, handles_blank]

theorem semD_blind (φ : Base → F) : (semD φ).Blind :=
  ⟨fun _ _ _ _ _ => rfl, fun _ _ _ _ => rfl, fun _ _ => rfl, fun _ _ => rfl, fun _ _ _ => rfl⟩

theorem satisfies_blank (φ : Base → F) (c : Circ F) (inst : List F) :
    Satisfies φ c.blank inst ↔ Satisfies φ c inst := by
  simp only [Satisfies, Circ.blank, run_blank (semD_blind φ)]

namespace Circ.SameShape
variable {c c' : Circ F}

theorem counts (h : c.SameShape c') : c.counts = c'.counts := by
  rw [← counts_blank c, h, counts_blank]

theorem wellUsed (h : c.SameShape c') : c.WellUsed ↔ c'.WellUsed := by
  rw [← wellUsed_blank c, h, wellUsed_blank]

theorem satisfies (h : c.SameShape c') (φ : Base → F) (inst : List F) :
    Satisfies φ c inst ↔ Satisfies φ c' inst := by
  rw [← satisfies_blank φ c, h, satisfies_blank]

theorem outs (h : c.SameShape c') : c.outs = c'.outs := by
  have := congrArg Circ.outs (show c.blank = c'.blank from h)
  exact this

theorem symm (h : c.SameShape c') : c'.SameShape c := Eq.symm h

theorem trans {c'' : Circ F} (h : c.SameShape c') (h' : c'.SameShape c'') : c.SameShape c'' :=
  Eq.trans h h'

end Circ.SameShape

/-! ### Registration -/

theorem metrics_blind : (Counter.driver (F := F)).Blind :=
  ⟨fun _ _ _ _ _ => rfl, fun _ _ _ _ => rfl, fun _ _ => rfl, fun _ _ => rfl, fun _ _ _ => rfl⟩

theorem sx_blind (P : XParams F) : (sxDriver P).Blind :=
  ⟨fun _ _ _ _ _ => rfl, fun _ _ _ _ => rfl, fun _ _ => rfl, fun _ _ => rfl, fun _ _ _ => rfl⟩

theorem sxy_blind (P : XParams F) (y : F) : (sxyDriver P y).Blind :=
  ⟨fun _ _ _ _ _ => rfl, fun _ _ _ _ => rfl, fun _ _ => rfl, fun _ _ => rfl, fun _ _ _ => rfl⟩

theorem sy_blind (n : ℕ) (fp : List Seg) (y : F) : (syDriver n fp y).Blind :=
  ⟨fun _ _ _ _ _ => rfl, fun _ _ _ _ => rfl, fun _ _ => rfl, fun _ _ => rfl, fun _ _ _ => rfl⟩

theorem circuitObject_blank (n : ℕ) (c : Circ F) : circuitObject n c.blank = circuitObject n c := by
  have h1 : ∀ fp x, sxEval n fp c.blank x = sxEval n fp c x := by
    intro fp x; simp only [sxEval, orchestrate_blank (sx_blind _)]
  have h2 : ∀ fp x y, sxyEval n fp c.blank x y = sxyEval n fp c x y := by
    intro fp x y; simp only [sxyEval, orchestrate_blank (sxy_blind _ y)]
  have h3 : ∀ fp y, syEval n fp c.blank y = syEval n fp c y := by
    intro fp y; simp only [syEval, orchestrate_blank (sy_blind n fp y)]
  simp only [circuitObject, intoCircuitObject, intoRawCircuitObject, metricsEval,
    orchestrate_blank metrics_blind, h1, h2, h3]
  rfl

theorem Circ.SameShape.object {c c' : Circ F} (h : c.SameShape c') (n : ℕ) :
    circuitObject n c = circuitObject n c' := by
  rw [← circuitObject_blank n c, h, circuitObject_blank]

end Ragu.Circuit

/-
What a run of the internal circuits shows about the challenges: the instance's values are handed on
unchanged, and the run fails if `x` or `z` is zero.
-/
import Verif.Lemmas.ProverReady

set_option linter.unusedSectionVars false

namespace Ragu.Props
open Ragu Ragu.Circuit Ragu.Registry Ragu.Spec Ragu.Gadget Ragu.Pcd Finset
variable {F G HC : Type} [Field F] [DecidableEq F] [Field G] [DecidableEq G]
  [AddCommGroup HC] [DecidableEq HC] [Module F HC]

/-- Every successful emulation gives a result with `P`. -/
def Post {α : Type} (m : Syn F α) (P : α → Prop) : Prop := ∀ r, Pcd.emulate m = .ok r → P r

theorem Post.bind {α β : Type} {m : Syn F α} {f : α → Syn F β} {P : α → Prop} {Q : β → Prop}
    (h : Post m P) (hf : ∀ a, P a → Post (f a) Q) : Post (m >>= f) Q := by
  intro r hr
  obtain ⟨a, h1, h2⟩ := (emulate_bind f m r).1 hr
  exact hf a (h a h1) r h2

theorem Post.skip {α β : Type} {m : Syn F α} {f : α → Syn F β} {Q : β → Prop}
    (hf : ∀ a, Post (f a) Q) : Post (m >>= f) Q :=
  Post.bind (P := fun _ => True) (fun _ _ => trivial) fun a _ => hf a

theorem Post.ret {α : Type} {a : α} {P : α → Prop} (h : P a) : Post (pure a : Syn F α) P := by
  intro r hr
  cases hr
  exact h

theorem post_read {b : F} {B : OutputBuilder F} {s : SlotId} :
    Post (B.read b s) fun r => r.2.inst = B.inst ∧ ∀ t, t ≠ s → r.2.slots t = B.slots t := by
  unfold OutputBuilder.read
  refine Post.skip fun a => .ret ⟨rfl, fun t ht => ?_⟩
  exact Function.update_of_ne ht _ _

theorem post_receive {b : F} {B : OutputBuilder F} {s : SlotId} :
    Post (B.receive b s) fun r => r.2.inst = B.inst := by
  unfold OutputBuilder.receive
  exact Post.skip fun a => .ret rfl

theorem post_provide {B : OutputBuilder F} {s : SlotId} {v : s.kind.Gadget F} :
    Post (B.provide s v) fun r => r.inst = B.inst := by
  unfold OutputBuilder.provide
  exact Post.skip fun a => .ret rfl

theorem post_finishNoSuffix {b : F} {B : OutputBuilder F} :
    Post (B.finishNoSuffix b) fun r => r.2.value = B.inst.value := by
  unfold OutputBuilder.finishNoSuffix
  refine Post.skip fun o => ?_
  split
  · exact .ret rfl
  · intro r hr
    cases hr

theorem post_finish {b : F} {B : OutputBuilder F} :
    Post (B.finish b) fun r => r.2.value = B.inst.value := by
  unfold OutputBuilder.finish
  exact post_finishNoSuffix.bind fun a ha => .ret ha

theorem post_hashes1 {p : PoseidonParams F} {tag : List UInt8} {b : F} {k : ℕ}
    {pre : PreambleOutput F} {oe : OuterErrorOutput F} {inst : UnifiedInstance F} :
    Post (hashes1Circuit p tag b k pre oe inst) fun r => r.2.value = inst.value := by
  unfold hashes1Circuit
  refine .skip fun _ => .skip fun _ => .skip fun t => ?_
  refine post_receive.bind fun ⟨_, B1⟩ h1 => .skip fun _ => .skip fun ⟨_, _⟩ => ?_
  refine post_provide.bind fun B2 h2 => ?_
  refine post_receive.bind fun ⟨_, B3⟩ h3 => .skip fun _ => .skip fun ⟨_, _⟩ => .skip fun ⟨_, _⟩ => ?_
  refine post_provide.bind fun B4 h4 => post_provide.bind fun B5 h5 => ?_
  refine .skip fun _ => .skip fun _ => .skip fun _ => .skip fun _ => .skip fun ⟨_, _⟩ =>
    .skip fun ⟨_, _⟩ => .skip fun _ => .skip fun _ => .skip fun _ => .skip fun _ => ?_
  refine post_receive.bind fun ⟨_, B6⟩ h6 => .skip fun _ => .skip fun _ => .skip fun _ => ?_
  refine post_finishNoSuffix.bind fun ⟨o, i⟩ h7 => .ret ?_
  dsimp only at *
  rw [h7, h6, h5, h4, h3, h2, h1]
  rfl

theorem post_hashes2 {p : PoseidonParams F} {b : F} {oe : OuterErrorOutput F}
    {inst : UnifiedInstance F} :
    Post (hashes2Circuit p b oe inst) fun r => r.2.value = inst.value := by
  unfold hashes2Circuit
  refine .skip fun ⟨_, _⟩ => ?_
  refine post_provide.bind fun B1 h1 => .skip fun ⟨_, _⟩ => ?_
  refine post_provide.bind fun B2 h2 => ?_
  refine post_receive.bind fun ⟨_, B3⟩ h3 => .skip fun _ => .skip fun ⟨_, _⟩ => .skip fun ⟨_, _⟩ => ?_
  refine post_provide.bind fun B4 h4 => post_provide.bind fun B5 h5 => ?_
  refine post_receive.bind fun ⟨_, B6⟩ h6 => .skip fun _ => .skip fun ⟨_, _⟩ => ?_
  refine post_provide.bind fun B7 h7 => ?_
  refine post_receive.bind fun ⟨_, B8⟩ h8 => .skip fun _ => .skip fun ⟨_, _⟩ => ?_
  refine post_provide.bind fun B9 h9 => ?_
  refine post_receive.bind fun ⟨_, B10⟩ h10 => .skip fun _ => .skip fun ⟨_, _⟩ => ?_
  refine post_provide.bind fun B11 h11 => ?_
  refine post_receive.bind fun ⟨_, B12⟩ h12 => .skip fun _ => .skip fun ⟨_, _⟩ => ?_
  refine post_provide.bind fun B13 h13 => ?_
  intro r hr
  have h14 := post_finish r hr
  dsimp only at *
  rw [h14, h13, h12, h11, h10, h9, h8, h7, h6, h5, h4, h3, h2, h1]
  rfl

theorem post_innerCollapse {b : F} {m : ℕ} {pre : PreambleOutput F} {oe : OuterErrorOutput F}
    {errs : List (List (Element F))} {inst : UnifiedInstance F} :
    Post (innerCollapseCircuit b m pre oe errs inst) fun r => r.2.value = inst.value := by
  unfold innerCollapseCircuit
  refine post_read.bind fun ⟨_, B1⟩ h1 => post_read.bind fun ⟨_, B2⟩ h2 => ?_
  refine .skip fun _ => .skip fun _ => ?_
  intro r hr
  have h3 := post_finish r hr
  dsimp only at *
  rw [h3, h2.1, h1.1]
  rfl

theorem post_outerCollapse {b : F} {N g : ℕ} {pre : PreambleOutput F} {oe : OuterErrorOutput F}
    {inst : UnifiedInstance F} :
    Post (outerCollapseCircuit b N g pre oe inst) fun r => r.2.value = inst.value := by
  unfold outerCollapseCircuit
  refine post_read.bind fun ⟨_, B1⟩ h1 => post_read.bind fun ⟨_, B2⟩ h2 => ?_
  refine .skip fun _ => .skip fun _ => post_receive.bind fun ⟨_, B3⟩ h3 => .skip fun _ =>
    .skip fun _ => ?_
  intro r hr
  have h4 := post_finish r hr
  dsimp only at *
  rw [h4, h3, h2.1, h1.1]
  rfl

theorem post_readX {b : F} {B : OutputBuilder F} :
    Post (B.read b .x) fun r => Element.value r.1 = (B.slots .x).inst := by
  unfold OutputBuilder.read Slot.read
  split
  · intro r hr
    cases hr
  · intro r hr
    cases hr
    rfl

theorem post_readZ {b : F} {B : OutputBuilder F} :
    Post (B.read b .z) fun r => Element.value r.1 = (B.slots .z).inst := by
  unfold OutputBuilder.read Slot.read
  split
  · intro r hr
    cases hr
  · intro r hr
    cases hr
    rfl

theorem Post.and {α : Type} {m : Syn F α} {P Q : α → Prop} (h : Post m P) (h' : Post m Q) :
    Post m fun a => P a ∧ Q a := fun r hr => ⟨h r hr, h' r hr⟩

theorem post_tryJust {p : Prop} [Decidable p] : Post (tryJust p : Syn F Unit) fun _ => p := by
  intro r hr
  unfold tryJust at hr
  by_cases h : p
  · exact h
  · simp [h, Pcd.emulate] at hr

/-- The emulation of the circuit for `v` fails if `x` or `z` is zero. -/
theorem post_computeV {E : Env F} {ec : EndoConsts F} {b : F} {k : ℕ} {pre : PreambleOutput F}
    {q : QueryOutput (Element F)} {e : EvalOutput (Element F)} {inst : UnifiedInstance F} :
    Post (computeV E ec b k pre q e inst) fun _ =>
      ¬ (inst.value .x = (0 : F)) ∧ ¬ (inst.value .z = (0 : F)) := by
  unfold computeV
  refine .skip fun _ => ?_
  refine post_read.bind fun ⟨_, B1⟩ h1 => post_read.bind fun ⟨_, B2⟩ h2 => ?_
  refine (post_read.and post_readZ).bind fun ⟨z, B3⟩ h3 => ?_
  refine (post_read.and post_readX).bind fun ⟨x, B4⟩ h4 => ?_
  dsimp only at *
  have ez : Element.value z = inst.value .z := by
    rw [h3.2, h2.2 _ (by decide), h1.2 _ (by decide)]
    rfl
  have ex : Element.value x = inst.value .x := by
    rw [h4.2, h3.1.2 _ (by decide), h2.2 _ (by decide), h1.2 _ (by decide)]
    rfl
  have : Post (Txz.evaluate k x z) fun _ => ¬ (inst.value .x = (0 : F)) ∧
      ¬ (inst.value .z = (0 : F)) := by
    unfold Txz.evaluate
    refine post_tryJust.bind fun _ g1 => post_tryJust.bind fun _ g2 => ?_
    intro r _
    rw [← ex, ← ez]
    exact ⟨g1, g2⟩
  exact this.bind fun _ h r _ => h

/-- A run of the internal circuits shows that the challenges `x` and `z` are not zero. -/
theorem circuits_nonzero {n : ℕ} {P : StepParams F} {cs : Circuits F G} {R : Registry F}
    {p : Proof F G HC} {S : StepStages F} {rx : RxIndex → Sparse.Poly F}
    {i : Fin 6 → UnifiedInstance F} (h : CircuitsRun n P cs R p.unifiedValue S rx i) :
    p.challenges.x ≠ 0 ∧ p.challenges.z ≠ 0 := by
  obtain ⟨o1, e1⟩ := h.hashes1
  obtain ⟨o2, e2⟩ := h.hashes2
  obtain ⟨o3, e3⟩ := h.innerCollapse
  obtain ⟨o4, e4⟩ := h.outerCollapse
  obtain ⟨o5, e5⟩ := h.computeV
  have k1 := post_hashes1 _ e1
  have k2 := post_hashes2 _ e2
  have k3 := post_innerCollapse _ e3
  have k4 := post_outerCollapse _ e4
  have k5 := post_computeV _ e5
  dsimp only at k1 k2 k3 k4
  rw [k4, k3, k2, k1, h.start] at k5
  exact k5

end Ragu.Props

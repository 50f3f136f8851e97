/-
Lemmas for the test fixtures.
-/
import Verif.Spec.Testing
import Verif.Lemmas.Nontrivial
import Verif.Props.Registry

set_option linter.unusedSectionVars false

namespace Ragu.Props
open Ragu Ragu.Circuit Ragu.Registry Ragu.Spec Ragu.Gadget Ragu.Gadget.Syn Ragu.Testing Ragu.Unif
variable {F : Type} [Field F] [DecidableEq F]

theorem squares_eq : ∀ (k : ℕ) (a : Element F), squares k a = Element.squareLoop k a
  | 0, _ => rfl
  | k + 1, a => by
    simp only [squares, Element.squareLoop, squares_eq k]

theorem sized_simple (w : F × F) : Sized (fun _ => True) (simpleWires w) ⟨4, 2, 9⟩ := by
  have h : Sized (fun _ => True) (simpleWitness w) ⟨4, 2, 9⟩ :=
    ((Element.sized_alloc _).bind' fun _ => (Element.sized_alloc _).bind' fun _ =>
      (Element.sized_square _).bind' fun _ => (Element.sized_square _).bind' fun _ =>
      (Element.sized_mul _ _).bind' fun _ => (Element.sized_square _).bind' fun _ =>
      (sized_enforceZero _).bind' fun _ => .pure trivial).cast (by size_eq)
  exact (h.bind' fun _ => .pure trivial).cast (by size_eq)

theorem sized_squares (k : ℕ) (w : F) : Sized (fun _ => True) (squareWires k w) ⟨k, 1, 2 * k⟩ := by
  have h : Sized (fun _ => True) (squareWitness k w) ⟨k, 1, 2 * k⟩ :=
    ((Element.sized_alloc _).bind' fun a => by
      rw [squares_eq]; exact Element.sized_squareLoop k a).cast (by size_eq)
  exact (h.bind' fun _ => .pure trivial).cast (by size_eq)

theorem unif_simpleWitness : Unif 0 fun (w : F × F) (_ : ℕ → F) => simpleWitness w := by
  unfold simpleWitness
  unifs

theorem unif_simple : UnifR (OutsR 2) 0 fun (w : F × F) (_ : ℕ → F) => simpleWires w := by
  unfold simpleWires
  refine Unif.bind unif_simpleWitness (fun _ _ _ _ => rfl) ?_
  intro m r hm hr
  exact UnifR.pure (OutsR.append (outsR_wires (ListN.cons hr.1 ListN.nil))
    (outsR_wires (ListN.cons hr.2 ListN.nil)))

theorem unif_squares (k : ℕ) : UnifR (OutsR 1) 0 fun (w : F) (_ : ℕ → F) => squareWires k w := by
  have h : Unif 0 fun (w : F) (_ : ℕ → F) => squareWitness k w := by
    unfold squareWitness
    simp only [squares_eq]
    unifs
  unfold squareWires
  refine Unif.bind h (fun _ _ _ _ => rfl) ?_
  intro m r hm hr
  exact UnifR.pure (outsR_wires (ListN.cons hr ListN.nil))

/-! ### The test builder -/

/-- The counters agree with the inner builder. -/
structure Counted (b : TestBuilder F) (B : Builder F) : Prop where
  inner : b.inner = some B
  circuits : b.numCircuits = B.internalCircuits.length
  bonding : b.numBonding = B.bonding.length
  steps : B.internalSteps = []
  applications : B.applicationSteps = []

/-- Where the entry of a registration is in the final builder. -/
def PlacedIn (n : ℕ) (B : Builder F) (after : ℕ) (h : Handle) : TestReg F → Prop
  | .circuit c => ∃ o, circuitObject n c = .ok o ∧ B.internalCircuits[h.index]? = some o
  | .bonding o => B.internalCircuits.length ≤ h.index + after ∧
      B.bonding[h.index + after - B.internalCircuits.length]? = some o

theorem registerAll_spec {n : ℕ} : ∀ (hist : List (TestReg F)) {b : TestBuilder F} {B : Builder F},
    Counted b B → ∀ {hs : List Handle} {b' : TestBuilder F},
    registerAll n hist b = .ok (hs, b') → ∃ B', Counted b' B' ∧
      B.internalCircuits <+: B'.internalCircuits ∧ B.bonding <+: B'.bonding ∧
      B'.internalCircuits.length = B.internalCircuits.length + circuitCount hist ∧
      hs.length = hist.length ∧ ∀ j g h, hist[j]? = some g → hs[j]? = some h →
        PlacedIn n B' (circuitCount (hist.drop (j + 1))) h g
  | [], b, B, hc, hs, b', e => by
    obtain ⟨rfl, rfl⟩ := Prod.mk.inj (Except.ok.inj e)
    exact ⟨B, hc, List.prefix_refl _, List.prefix_refl _, rfl, rfl, fun j g h hg => by simp at hg⟩
  | .circuit c :: gs, b, B, hc, hs, b', e => by
    simp only [registerAll, TestReg.apply, TestBuilder.registerCircuit, hc.inner] at e
    rcases ho : circuitObject n c with er | o
    · simp only [Builder.registerInternalCircuit, ho] at e
      cases e
    · have e0 : B.registerInternalCircuit n c =
          .ok { B with internalCircuits := B.internalCircuits ++ [o] } := by
        simp only [Builder.registerInternalCircuit, ho]; rfl
      simp only [e0] at e
      rcases hr : registerAll n gs { b with
          inner := some { B with internalCircuits := B.internalCircuits ++ [o] },
          numCircuits := b.numCircuits + 1 } with er | ⟨hs', b''⟩
      · rw [hr] at e; cases e
      · rw [hr] at e
        obtain ⟨rfl, rfl⟩ := Prod.mk.inj (Except.ok.inj e)
        have hc' : Counted { b with
            inner := some { B with internalCircuits := B.internalCircuits ++ [o] },
            numCircuits := b.numCircuits + 1 }
            { B with internalCircuits := B.internalCircuits ++ [o] } :=
          ⟨rfl, by simp [hc.circuits], hc.bonding, hc.steps, hc.applications⟩
        obtain ⟨B', h1, h2, h3, h4, h5, h6⟩ := registerAll_spec gs hc' hr
        simp only [List.length_append, List.length_singleton] at h4
        refine ⟨B', h1, (List.prefix_append _ _).trans h2, h3, by simp only [circuitCount]; omega,
          by simp [h5], ?_⟩
        intro j g h hg hh
        rcases j with _ | j
        · simp only [List.getElem?_cons_zero, Option.some.injEq] at hg hh
          subst hg hh
          refine ⟨o, ho, ?_⟩
          obtain ⟨t, ht⟩ := h2
          simp only at ht
          rw [← ht, hc.circuits, List.append_assoc, List.getElem?_append_right (le_refl _)]
          simp
        · exact h6 j g h hg hh
  | .bonding o :: gs, b, B, hc, hs, b', e => by
    simp only [registerAll, TestReg.apply, TestBuilder.registerBonding, hc.inner] at e
    rcases hr : registerAll n gs { b with
        inner := some (B.registerBonding o), numBonding := b.numBonding + 1 } with er | ⟨hs', b''⟩
    · rw [hr] at e; cases e
    · rw [hr] at e
      obtain ⟨rfl, rfl⟩ := Prod.mk.inj (Except.ok.inj e)
      have hc' : Counted { b with
          inner := some (B.registerBonding o), numBonding := b.numBonding + 1 } (B.registerBonding o) :=
        ⟨rfl, hc.circuits, by simp [Builder.registerBonding, hc.bonding], hc.steps, hc.applications⟩
      obtain ⟨B', h1, h2, h3, h4, h5, h6⟩ := registerAll_spec gs hc' hr
      simp only [Builder.registerBonding] at h2 h3 h4
      refine ⟨B', h1, h2, (List.prefix_append _ _).trans h3, h4, by simp [h5], ?_⟩
      intro j g h hg hh
      rcases j with _ | j
      · simp only [List.getElem?_cons_zero, Option.some.injEq] at hg hh
        subst hg hh
        simp only [PlacedIn, List.drop_succ_cons, List.drop_zero]
        have hcb := hc.circuits
        have hbb := hc.bonding
        refine ⟨by omega, ?_⟩
        obtain ⟨t, ht⟩ := h3
        rw [show b.numCircuits + b.numBonding + circuitCount gs - B'.internalCircuits.length =
          B.bonding.length by omega, ← ht, List.append_assoc, List.getElem?_append_right (le_refl _)]
        simp
      · exact h6 j g h hg hh

theorem registerAll_index {n : ℕ} : ∀ (hist : List (TestReg F)) {b : TestBuilder F} {hs : List Handle}
    {b' : TestBuilder F}, registerAll n hist b = .ok (hs, b') → ∀ (j : ℕ) (g : TestReg F)
    (h : Handle), hist[j]? = some g → hs[j]? = some h → h.index = match g with
      | .circuit _ => b.numCircuits + circuitCount (hist.take j)
      | .bonding _ => b.numCircuits + b.numBonding + j
  | [], b, hs, b', e, j, g, h, hg, hh => by simp at hg
  | .circuit c :: gs, b, hs, b', e, j, g, h, hg, hh => by
    simp only [registerAll, TestReg.apply, TestBuilder.registerCircuit] at e
    rcases hB : b.inner with _ | B
    · simp only [hB] at e; cases e
    simp only [hB] at e
    rcases ho : B.registerInternalCircuit n c with er | B'
    · simp only [ho] at e; cases e
    simp only [ho] at e
    rcases hr : registerAll n gs { b with inner := some B', numCircuits := b.numCircuits + 1 } with
      er | ⟨hs', b''⟩
    · rw [hr] at e; cases e
    rw [hr] at e
    obtain ⟨rfl, rfl⟩ := Prod.mk.inj (Except.ok.inj e)
    rcases j with _ | j
    · simp only [List.getElem?_cons_zero, Option.some.injEq] at hg hh
      subst hg hh
      simp [circuitCount]
    · have := registerAll_index gs hr j g h hg hh
      rw [this]
      cases g <;> simp only [List.take_succ_cons, circuitCount] <;> omega
  | .bonding o :: gs, b, hs, b', e, j, g, h, hg, hh => by
    simp only [registerAll, TestReg.apply, TestBuilder.registerBonding] at e
    rcases hB : b.inner with _ | B
    · simp only [hB] at e; cases e
    simp only [hB] at e
    rcases hr : registerAll n gs { b with
        inner := some (B.registerBonding o), numBonding := b.numBonding + 1 } with er | ⟨hs', b''⟩
    · rw [hr] at e; cases e
    rw [hr] at e
    obtain ⟨rfl, rfl⟩ := Prod.mk.inj (Except.ok.inj e)
    rcases j with _ | j
    · simp only [List.getElem?_cons_zero, Option.some.injEq] at hg hh
      subst hg hh
      simp
    · have := registerAll_index gs hr j g h hg hh
      rw [this]
      cases g <;> simp only [List.take_succ_cons, circuitCount] <;> omega

/-- The registration as a call on the inner builder. -/
def TestReg.reg : TestReg F → Reg F
  | .circuit c => .internalCircuit c
  | .bonding o => .bonding o

theorem registerAll_build {n : ℕ} : ∀ (hist : List (TestReg F)) {b : TestBuilder F} {B : Builder F},
    b.inner = some B → ∀ {hs : List Handle} {b' : TestBuilder F},
    registerAll n hist b = .ok (hs, b') →
    ∃ B', b'.inner = some B' ∧ build n (hist.map TestReg.reg) B = .ok B'
  | [], b, B, hB, hs, b', e => by
    obtain ⟨rfl, rfl⟩ := Prod.mk.inj (Except.ok.inj e)
    exact ⟨B, hB, rfl⟩
  | .circuit c :: gs, b, B, hB, hs, b', e => by
    simp only [registerAll, TestReg.apply, TestBuilder.registerCircuit, hB] at e
    rcases ho : B.registerInternalCircuit n c with er | B'
    · simp only [ho] at e; cases e
    simp only [ho] at e
    rcases hr : registerAll n gs { b with inner := some B', numCircuits := b.numCircuits + 1 } with
      er | ⟨hs', b''⟩
    · rw [hr] at e; cases e
    rw [hr] at e
    obtain ⟨rfl, rfl⟩ := Prod.mk.inj (Except.ok.inj e)
    obtain ⟨B'', h1, h2⟩ := registerAll_build gs (B := B') rfl hr
    refine ⟨B'', h1, ?_⟩
    simp only [List.map_cons, TestReg.reg, build, Reg.apply, ho]
    exact h2
  | .bonding o :: gs, b, B, hB, hs, b', e => by
    simp only [registerAll, TestReg.apply, TestBuilder.registerBonding, hB] at e
    rcases hr : registerAll n gs { b with
        inner := some (B.registerBonding o), numBonding := b.numBonding + 1 } with er | ⟨hs', b''⟩
    · rw [hr] at e; cases e
    rw [hr] at e
    obtain ⟨rfl, rfl⟩ := Prod.mk.inj (Except.ok.inj e)
    obtain ⟨B'', h1, h2⟩ := registerAll_build gs (B := B.registerBonding o) rfl hr
    refine ⟨B'', h1, ?_⟩
    simp only [List.map_cons, TestReg.reg, build, Reg.apply]
    exact h2

end Ragu.Props

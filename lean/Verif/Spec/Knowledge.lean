/-
What it means that the witnesses of a whole history can be read off proofs.
-/
import Verif.Model.Pcd.App
import Verif.Model.Pcd.Proof
import Verif.Spec.Revdot

namespace Ragu.Spec
open Ragu Ragu.Circuit Ragu.Registry Ragu.Pcd
variable {F G HC : Type} [Field F] [DecidableEq F] [Field G] [DecidableEq G]
  [AddCommGroup HC] [DecidableEq HC]

/-- The witnesses of a history of the header `h` can be read off the proof `p` and proofs in `S`. Either
`h` is trivial, which is what a last element of one means; or the wires in the application trace of `p`
satisfy the circuit of a step of the application, with `h` as output and two headers as inputs that have
histories which can be read off proofs in `S`; or `p` rerandomizes such a proof. -/
inductive Witnessed (n N : ℕ) (steps : List (StepDef F)) (S : Proof F G HC → Prop) :
    Proof F G HC → List F → Prop
  | trivial {p : Proof F G HC} {h : List F} : h[N - 1]? = some 1 → Witnessed n N steps S p h
  | rerandomized {p q : Proof F G HC} {h : List F} :
      p.application.circuitId = NUM_INTERNAL_CIRCUITS → S q → Witnessed n N steps S q h →
      Witnessed n N steps S p h
  | step {p pl pr : Proof F G HC} {l r h : List F} {i : ℕ} {d : StepDef F} : steps[i]? = some d →
      p.application.circuitId = NUM_INTERNAL_CIRCUITS + NUM_INTERNAL_STEPS + i →
      GatesHold n (p.nativeRx (.rx .application)) →
      Satisfies (assignment n (floorPlan d.circ.counts) (p.nativeRx (.rx .application))) d.circ
        (l ++ r ++ h) →
      l.length = N → r.length = N → S pl → Witnessed n N steps S pl l → S pr → Witnessed n N steps S pr r →
      Witnessed n N steps S p h

end Ragu.Spec

/-
Model of `ragu_circuits/src/horner.rs` as a gadget.
-/
import Verif.Model.Gadget.Element

namespace Ragu.Gadget
open Ragu Ragu.Circuit
variable {F : Type} [Field F] [DecidableEq F]
namespace Horner

/-- `Horner::write`, crates/ragu_circuits/src/horner.rs:55-61. The state is `result`. -/
def write (point : Element F) (result : Option (Element F)) (value : Element F) :
    Syn F (Option (Element F)) :=
  match result with
  | some acc => do
    let m ← acc.mul point
    return some (m.add value)
  | none => return some value

/-- Writing the elements of a gadget, one after the other. -/
def writeAll (point : Element F) (result : Option (Element F)) :
    List (Element F) → Syn F (Option (Element F))
  | [] => return result
  | v :: vs => do
    let r ← write point result v
    writeAll point r vs

/-- `Horner::finish`, crates/ragu_circuits/src/horner.rs:42-44. -/
def finish (result : Option (Element F)) : Element F := result.getD Element.zero

/-- `Horner::finish_ky`, crates/ragu_circuits/src/horner.rs:48-51. -/
def finishKy (point : Element F) (result : Option (Element F)) : Syn F (Element F) := do
  let r ← write point result Element.one
  return finish r

end Horner
end Ragu.Gadget

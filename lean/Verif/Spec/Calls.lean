/-
How gadget code (`Syn`, where wires are values) relates to the driver calls it makes (`Prog`, where
wires are names and routines, linear combinations and wire handles are explicit).
-/
import Verif.Spec.Circuit
import Verif.Spec.Shape
import Verif.Model.Gadget.Syn

namespace Ragu.Circuit
open Ragu
variable {F : Type} [Field F]

/-- The calls of a program as a relation between the values of the wires that exist before and the
values of all wires after: there are values for the wires of every gate and allocation that satisfy
both equations of every gate and every constraint. -/
def Prog.sat : Prog F → List F → List F → Prop
  | .done, env, env' => env' = env
  | .gate _ _ _ _ k, env, env' =>
    ∃ a b c d, a * b = c ∧ c * d = 0 ∧ k.sat (env ++ [a, b, c, d]) env'
  | .mul _ _ _ k, env, env' => ∃ a b c d, a * b = c ∧ c * d = 0 ∧ k.sat (env ++ [a, b, c]) env'
  | .alloc _ k, env, env' => ∃ v, k.sat (env ++ [v]) env'
  | .add lc k, env, env' => ∃ l, resolveLc 1 env lc = .ok l ∧ k.sat (env ++ [lcVal 1 l]) env'
  | .enforce lc k, env, env' => ∃ l, resolveLc 1 env lc = .ok l ∧ lcVal 1 l = 0 ∧ k.sat env env'
  | .routine _ b k, env, env' => ∃ env1, b.sat env env1 ∧ k.sat env1 env'
  | .clone _ k, env, env' => k.sat env env'
  | .drop _ k, env, env' => k.sat env env'

end Ragu.Circuit

namespace Ragu.Gadget
open Ragu Ragu.Circuit
variable {F α : Type} [Field F] [DecidableEq F]

/-- The program `p`, started with wires of the values `env`, makes the calls of the gadget code
`x`, whatever values its new wires get: gates for gates, allocations for allocations, constraints on
linear combinations of the wires so far for constraints. Linear combinations, routine boundaries,
handles and witness checks leave no trace in one of the two. At the end, the wires and the code's
result are related by `Q`. -/
inductive Calls (Q : List F → α → Prop) : Prog F → List F → Syn F α → Prop
  | ret {env a} : Q env a → Calls Q .done env (.ret a)
  | gate {env w k va vb vc vd p} :
      (∀ a b c d, Calls Q p (env ++ [a, b, c, d]) (k a b c d)) →
      Calls Q (.gate va vb vc vd p) env (.gate w k)
  | mul {env w k va vb vc p} : w.2.2.2 = 0 →
      (∀ a b c d, Calls Q p (env ++ [a, b, c]) (k a b c d)) →
      Calls Q (.mul va vb vc p) env (.gate w k)
  | alloc {env w k v p} : (∀ x, Calls Q p (env ++ [x]) (k x)) →
      Calls Q (.alloc v p) env (.alloc w k)
  | enforce {env lc l v k p} : resolveLc 1 env lc = .ok l → v = lcVal 1 l → Calls Q p env k →
      Calls Q (.enforce lc p) env (.enforce v k)
  | add {env lc l x p} : resolveLc 1 env lc = .ok l → Calls Q p (env ++ [lcVal 1 l]) x →
      Calls Q (.add lc p) env x
  | routine {env call b p x} : Calls Q (b.seq p) env x → Calls Q (.routine call b p) env x
  | clone {env w p x} : Calls Q p env x → Calls Q (.clone w p) env x
  | drop {env w p x} : Calls Q p env x → Calls Q (.drop w p) env x
  | check {env e k p} : Calls Q p env k → Calls Q p env (.check e k)

/-- The witness values in the program `p` are those the gadget code `x` supplies, on the path where
every new wire gets its witness value. -/
inductive Supplies (Q : List F → α → Prop) : Prog F → List F → Syn F α → Prop
  | ret {env a} : Q env a → Supplies Q .done env (.ret a)
  | gate {env w k p} :
      Supplies Q p (env ++ [w.1, w.2.1, w.2.2.1, w.2.2.2]) (k w.1 w.2.1 w.2.2.1 w.2.2.2) →
      Supplies Q (.gate w.1 w.2.1 w.2.2.1 w.2.2.2 p) env (.gate w k)
  | mul {env w k p} : w.2.2.2 = 0 →
      Supplies Q p (env ++ [w.1, w.2.1, w.2.2.1]) (k w.1 w.2.1 w.2.2.1 w.2.2.2) →
      Supplies Q (.mul w.1 w.2.1 w.2.2.1 p) env (.gate w k)
  | alloc {env w k p} : Supplies Q p (env ++ [w]) (k w) → Supplies Q (.alloc w p) env (.alloc w k)
  | enforce {env lc l v k p} : resolveLc 1 env lc = .ok l → v = lcVal 1 l → Supplies Q p env k →
      Supplies Q (.enforce lc p) env (.enforce v k)
  | add {env lc l x p} : resolveLc 1 env lc = .ok l → Supplies Q p (env ++ [lcVal 1 l]) x →
      Supplies Q (.add lc p) env x
  | routine {env call b p x} : Supplies Q (b.seq p) env x → Supplies Q (.routine call b p) env x
  | clone {env w p x} : Supplies Q p env x → Supplies Q (.clone w p) env x
  | drop {env w p x} : Supplies Q p env x → Supplies Q (.drop w p) env x
  | check {env e k p} : Supplies Q p env k → Supplies Q p env (.check e k)

end Ragu.Gadget

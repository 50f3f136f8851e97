/-
Small prime fields used by the concrete cases beside the theorems.
-/
import Mathlib.Data.ZMod.Basic
import Mathlib.Algebra.Field.ZMod
import Mathlib.Tactic.NormNum
import Mathlib.Tactic.NormNum.Prime

namespace Ragu

instance : Fact (Nat.Prime 5) := ⟨by norm_num⟩
instance : Fact (Nat.Prime 7) := ⟨by norm_num⟩
instance : Fact (Nat.Prime 13) := ⟨by norm_num⟩
instance : Fact (Nat.Prime 17) := ⟨by norm_num⟩
instance : Fact (Nat.Prime 97) := ⟨by norm_num⟩
instance : Fact (Nat.Prime 109) := ⟨by norm_num⟩
instance : Fact (Nat.Prime 12289) := ⟨by norm_num⟩

end Ragu

/-
How many gates, allocations and constraints gadget code takes.
-/
import Verif.Spec.Circuit
import Verif.Model.Gadget.Syn

namespace Ragu.Gadget
open Ragu Ragu.Circuit
variable {F α : Type}

/-- Numbers of gates, of single allocations and of constraints. -/
@[ext] structure Size where
  gates : ℕ
  allocs : ℕ
  cons : ℕ
deriving DecidableEq

instance : Zero Size := ⟨⟨0, 0, 0⟩⟩
instance : Add Size := ⟨fun s t => ⟨s.gates + t.gates, s.allocs + t.allocs, s.cons + t.cons⟩⟩

/-- `k` times as much. -/
def Size.times (k : ℕ) (s : Size) : Size := ⟨k * s.gates, k * s.allocs, k * s.cons⟩

/-- Whatever values its wires get and whatever the witness checks say, the code makes exactly `s`
calls, never panics while there are no witness values, and returns a result with `Q`. -/
inductive Sized (Q : α → Prop) : Syn F α → Size → Prop
  | ret {a} : Q a → Sized Q (.ret a) 0
  | gate {w k s} : (∀ a b c d, Sized Q (k a b c d) s) → Sized Q (.gate w k) (⟨1, 0, 0⟩ + s)
  | alloc {w k s} : (∀ v, Sized Q (k v) s) → Sized Q (.alloc w k) (⟨0, 1, 0⟩ + s)
  | enforce {v k s} : Sized Q k s → Sized Q (.enforce v k) (⟨0, 0, 1⟩ + s)
  | check {e k s} : Sized Q k s → Sized Q (.check e k) s

/-- Whatever values its wires get, the code makes exactly `gates` gates, `allocs` single allocations
and `cons` constraints. -/
def Takes (x : Syn F α) (gates allocs cons : ℕ) : Prop := Sized (fun _ => True) x ⟨gates, allocs, cons⟩

end Ragu.Gadget

namespace Ragu.Circuit
open Ragu Ragu.Gadget
variable {F : Type}

/-- The calls of a program, those inside routine calls included. -/
def Prog.size : Prog F → Size
  | .done => 0
  | .gate _ _ _ _ k => ⟨1, 0, 0⟩ + k.size
  | .mul _ _ _ k => ⟨1, 0, 0⟩ + k.size
  | .alloc _ k => ⟨0, 1, 0⟩ + k.size
  | .add _ k => k.size
  | .enforce _ k => ⟨0, 0, 1⟩ + k.size
  | .routine _ b k => b.size + k.size
  | .clone _ k => k.size
  | .drop _ k => k.size

/-- No routine call of the program makes a single allocation: the allocations of the program then
pair up on gates as if there were no routines. -/
def Prog.AllocsOutside : Prog F → Prop
  | .done => True
  | .gate _ _ _ _ k => k.AllocsOutside
  | .mul _ _ _ k => k.AllocsOutside
  | .alloc _ k => k.AllocsOutside
  | .add _ k => k.AllocsOutside
  | .enforce _ k => k.AllocsOutside
  | .routine _ b k => b.size.allocs = 0 ∧ b.AllocsOutside ∧ k.AllocsOutside
  | .clone _ k => k.AllocsOutside
  | .drop _ k => k.AllocsOutside

end Ragu.Circuit

namespace Ragu.Spec

/-- A call on a sponge. -/
inductive SpongeCall
  | absorb
  | squeeze
  | save
deriving DecidableEq

/-- How many permutations a sequence of calls costs. The first argument tells whether the sponge is
squeezing, the second how many absorbed elements wait, or how many squeezed elements are left. -/
def permutations (rate : ℕ) : Bool → ℕ → List SpongeCall → ℕ
  | _, _, [] => 0
  | true, _, .absorb :: r => permutations rate false 1 r
  | false, j, .absorb :: r =>
    if j = rate then 1 + permutations rate false 1 r else permutations rate false (j + 1) r
  | true, 0, .squeeze :: r => 1 + permutations rate true (rate - 1) r
  | true, j + 1, .squeeze :: r => permutations rate true j r
  | false, _, .squeeze :: r => 1 + permutations rate true (rate - 1) r
  | b, j, .save :: r => 1 + permutations rate b j r

end Ragu.Spec

/-
The claim sequence as a fold over the table of claims.
-/
import Verif.Model.Pcd.Claims
import Verif.Spec.Claims

set_option linter.unusedSectionVars false
namespace Ragu.Pcd
open Ragu Ragu.Circuit Ragu.Registry Ragu.Spec

variable {M : Type → Type} [Monad M] [LawfulMonad M] {P Rx Id K : Type}

/-- The source for a list of proofs. -/
def sourceOf (ps : List (Child Rx Id K)) : Source RxComponent Rx Id :=
  ⟨fun c => ps.map fun p => p.rx c, ps.map fun p => p.id⟩

/-- The values for a list of proofs. -/
def kySourceOf (ps : List (Child Rx Id K)) (zero : K) : KySource K :=
  ⟨ps.map fun p => p.c, ps.map fun p => p.app, ps.map fun p => p.bridge,
    ps.map fun p => p.unified, zero⟩

/-- What a processor does with one claim. -/
def Processor.handle (pr : Processor M P Rx Id) (p : P) : Claim Rx Id → M P
  | .raw a b => pr.rawClaim p a b
  | .circuit id rx => pr.circuit p id rx
  | .internal id rxs => pr.internalCircuit p id rxs
  | .bonding id rxs => pr.bonding p id rxs

/-- What a nested processor does with one claim. -/
def NestedProcessor.handle (pr : NestedProcessor M P Rx) (p : P) : NestedClaim Rx → M P
  | .internal id rxs => pr.internalCircuit p id rxs
  | .bonding id rxs => pr.bonding p id rxs

theorem buildClaims_eq (ps : List (Child Rx Id K)) (zero : K) (pr : Processor M P Rx Id) (p : P) :
    buildClaims (sourceOf ps) pr p =
      (claimTable ps zero).foldlM (fun p c => pr.handle p c.1) p := by
  simp only [buildClaims, sourceOf, claimTable, List.zip_map', List.foldlM_map, List.foldlM_append,
    List.map_cons, List.map_nil, List.foldlM_cons, List.foldlM_nil, NativeId.all, buildInternal,
    Processor.handle, internalClaim, bondingClaim, traceParts, bondedParts, List.flatMap_cons,
    List.flatMap_nil, List.append_nil, bind_assoc, bind_pure, List.append_assoc, pure_bind]

theorem front_eq (ps : List (Child Rx Id K)) (zero : K) :
    ∃ k, (claimTable ps zero).map (·.2) = (kySourceOf ps zero).front ++ List.replicate k zero := by
  refine ⟨8, ?_⟩
  simp only [claimTable, kySourceOf, KySource.front, NUM_UNIFIED_CIRCUITS, List.map_append,
    List.map_map, List.map_flatMap, List.flatMap_cons, List.flatMap_nil, List.replicate,
    List.flatten_cons, List.flatten_nil, List.append_nil, List.append_assoc, List.map_cons,
    List.map_nil]
  rfl

theorem values_eq (ps : List (Child Rx Id K)) (zero : K) (i : ℕ) :
    (kySourceOf ps zero).values i = ((claimTable ps zero).map (·.2)).getD i zero := by
  obtain ⟨k, hk⟩ := front_eq ps zero
  rw [hk, KySource.values]
  show _ = ((kySourceOf ps zero).front ++ _).getD i zero
  rw [List.getD_eq_getElem?_getD, List.getD_eq_getElem?_getD, List.getElem?_append]
  split
  · rfl
  · rename_i h
    rw [List.getElem?_eq_none (by omega), List.getElem?_replicate]
    split <;> rfl

theorem table_length (ps : List (Child Rx Id K)) (zero : K) :
    (claimTable ps zero).length = 7 * ps.length + 8 := by
  simp only [claimTable, List.length_append, List.length_map, List.flatMap_cons, List.flatMap_nil,
    List.length_cons, List.length_nil]
  omega

/-- The nested source for one proof. -/
def nestedSourceOf (rx : NestedRx → Rx) : Source NestedRx Rx Unit := ⟨fun c => [rx c], []⟩

theorem buildNestedClaims_eq (rx : NestedRx → Rx) (one zero : K) (pr : NestedProcessor M P Rx)
    (p : P) : buildNestedClaims (nestedSourceOf rx) pr p =
      (nestedTable rx one zero).foldlM (fun p c => pr.handle p c.1) p := by
  simp only [buildNestedClaims, nestedSourceOf, nestedTable, List.foldlM_map, List.foldlM_append,
    List.foldlM_cons, List.foldlM_nil, NestedId.all, buildNestedInternal, NestedProcessor.handle,
    bind_assoc, bind_pure, List.zip_cons_cons, List.zip_nil_right, List.flatMap_singleton']
  rfl

theorem nested_values_eq (rx : NestedRx → Rx) (one zero : K) (i : ℕ) :
    nestedKyValues one zero i = ((nestedTable rx one zero).map (·.2)).getD i zero := by
  have h : (nestedTable rx one zero).map (·.2) =
      List.replicate NUM_ENDOSCALING_STEPS one ++ List.replicate 11 zero := by
    simp only [nestedTable, List.map_append, List.map_map, List.map_cons, List.map_nil]
    congr 1
  rw [h, nestedKyValues, List.getD_eq_getElem?_getD, List.getD_eq_getElem?_getD,
    List.getElem?_append]
  split
  · rfl
  · rename_i h
    rw [List.getElem?_eq_none (by omega), List.getElem?_replicate]
    split <;> rfl

end Ragu.Pcd

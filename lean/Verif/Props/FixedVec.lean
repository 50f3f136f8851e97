/-
Property C58: fixed-length vectors.
-/
import Verif.Model.Pcd.FixedVec

namespace Ragu.Props
open Ragu Ragu.Pcd
variable {T U : Type} {len : ℕ}

/-- A fixed-length vector a program can hold: every way the API gives to obtain one. -/
inductive Reachable : {T : Type} → {len : ℕ} → FixedVec T len → Prop
  | tryFrom {T : Type} {len : ℕ} {v : List T} {r : FixedVec T len} :
      FixedVec.tryFrom len v = .ok r → Reachable r
  | collect {T : Type} {len : ℕ} {v : List T} {r : FixedVec T len} :
      FixedVec.collectFixed len v = .ok r → Reachable r
  | tryCollect {T : Type} {len : ℕ} {v : List (Except Err T)} {r : FixedVec T len} :
      FixedVec.tryCollectFixed len v = .ok r → Reachable r
  | fromFn {T : Type} {len : ℕ} {f : ℕ → T} {r : FixedVec T len} :
      FixedVec.fromFn len f = some r → Reachable r
  | tryFromFn {T : Type} {len : ℕ} {f : ℕ → Except Err T} {r : FixedVec T len} :
      FixedVec.tryFromFn len f = .ok r → Reachable r
  | clone {T : Type} {len : ℕ} {s r : FixedVec T len} : Reachable s → s.clone = some r → Reachable r
  | assign {T : Type} {len : ℕ} {s r : FixedVec T len} {i : ℕ} {t : T} :
      Reachable s → s.assign i t = some r → Reachable r
  | mapGadget {T U : Type} {len : ℕ} {s : FixedVec T len} {r : FixedVec U len} {g : T → Except Err U} :
      Reachable s → s.mapGadget g = .ok r → Reachable r

theorem tryFrom_ok {v : List T} {r : FixedVec T len} (h : FixedVec.tryFrom len v = .ok r) :
    r.v = v ∧ v.length = len := by
  rw [FixedVec.tryFrom] at h
  split_ifs at h with hl
  cases h
  exact ⟨rfl, not_not.1 hl⟩

theorem tryCollect_len {v : List (Except Err T)} {r : FixedVec T len}
    (h : FixedVec.tryCollectFixed len v = .ok r) : r.v.length = len := by
  rw [FixedVec.tryCollectFixed] at h
  rcases hc : FixedVec.collectResults v with e | ts
  · rw [hc] at h; cases h
  · rw [hc] at h
    obtain ⟨h1, h2⟩ := tryFrom_ok (show FixedVec.tryFrom len ts = .ok r from h)
    rw [h1, h2]

/-- C58: a fixed-length vector always has its declared length, after every sequence of operations. -/
theorem C58_length {r : FixedVec T len} (h : Reachable r) : r.v.length = len := by
  induction h with
  | tryFrom h => rw [(tryFrom_ok h).1, (tryFrom_ok h).2]
  | collect h => rw [(tryFrom_ok h).1, (tryFrom_ok h).2]
  | tryCollect h => exact tryCollect_len h
  | @fromFn _ len f r h =>
    rw [FixedVec.fromFn] at h
    rcases hc : FixedVec.collectFixed len ((List.range len).map f) with e | q
    · rw [hc] at h; cases h
    · rw [hc] at h
      cases h
      obtain ⟨h1, h2⟩ := tryFrom_ok hc
      rw [h1, h2]
  | tryFromFn h => exact tryCollect_len h
  | clone _ h ih =>
    rw [FixedVec.clone] at h
    split_ifs at h
    cases h; exact ih
  | assign _ h ih =>
    rw [FixedVec.assign] at h
    split_ifs at h
    cases h; simpa using ih
  | mapGadget _ h _ =>
    rw [FixedVec.mapGadget] at h
    split_ifs at h
    exact tryCollect_len h

/-- C58: so the assertions made on the length never fail. -/
theorem C58_no_panic {r : FixedVec T len} (h : Reachable r) (g : T → Except Err U) :
    r.intoInner = some r.v ∧ r.clone = some r ∧ (r.mapGadget g = .error .panic →
      ∃ t ∈ r.v, g t = .error .panic) := by
  have hl := C58_length h
  refine ⟨by rw [FixedVec.intoInner, if_pos hl], by rw [FixedVec.clone, if_pos hl], fun hm => ?_⟩
  rw [FixedVec.mapGadget, if_pos hl, FixedVec.tryCollectFixed] at hm
  have key : ∀ l : List T, (∀ ts, FixedVec.collectResults (l.map g) = .ok ts → ts.length = l.length) ∧
      (FixedVec.collectResults (l.map g) = .error .panic → ∃ t ∈ l, g t = .error .panic) := by
    intro l
    induction l with
    | nil => exact ⟨fun ts h => by cases h; rfl, fun h => (by cases h)⟩
    | cons a l ih =>
      rw [List.map_cons]
      rcases hg : g a with e | u
      · refine ⟨fun ts h => (by cases h), fun h => ⟨a, List.mem_cons_self .., ?_⟩⟩
        rw [hg]; cases h; rfl
      · rw [FixedVec.collectResults]
        rcases hc : FixedVec.collectResults (l.map g) with e | us
        · refine ⟨fun ts h => (by cases h), fun h => ?_⟩
          obtain ⟨t, h1, h2⟩ := ih.2 (by rw [hc]; cases h; rfl)
          exact ⟨t, List.mem_cons_of_mem _ h1, h2⟩
        · refine ⟨fun ts h => ?_, fun h => (by cases h)⟩
          cases h
          simp [ih.1 us hc]
  rcases hc : FixedVec.collectResults (r.v.map g) with e | ts
  · rw [hc] at hm
    refine (key r.v).2 ?_
    rw [hc]
    exact congrArg Except.error (by cases hm; rfl)
  · rw [hc] at hm
    have := (key r.v).1 ts hc
    have hm' : FixedVec.tryFrom len ts = .error .panic := hm
    rw [FixedVec.tryFrom, if_neg (by rw [this, hl]; simp)] at hm'
    cases hm'

/-- C58: conversion succeeds exactly when the lengths match, keeps the items and their order, and
otherwise reports both lengths. -/
theorem C58_convert (v : List T) :
    (v.length = len → FixedVec.tryFrom len v = .ok ⟨v⟩) ∧
    (v.length ≠ len → FixedVec.tryFrom len v = .error (.lengthMismatch len v.length)) ∧
    FixedVec.collectFixed len v = FixedVec.tryFrom len v :=
  ⟨fun h => by rw [FixedVec.tryFrom, if_neg (by simp [h])], fun h => by rw [FixedVec.tryFrom, if_pos h],
    rfl⟩

/-- C58: collecting fallible items stops at the first failure, and otherwise is the conversion of
all items. -/
theorem C58_try_collect (ts : List T) (e : Err) (rest : List (Except Err T)) :
    FixedVec.tryCollectFixed len (ts.map .ok) = FixedVec.tryFrom len ts ∧
    FixedVec.tryCollectFixed len (ts.map .ok ++ .error e :: rest) = .error e := by
  constructor
  · have : FixedVec.collectResults (ts.map .ok) = .ok ts := by
      induction ts with
      | nil => rfl
      | cons t ts ih => rw [List.map_cons, FixedVec.collectResults, ih]; rfl
    rw [FixedVec.tryCollectFixed, this]; rfl
  · have : FixedVec.collectResults (ts.map .ok ++ .error e :: rest) = .error e := by
      induction ts with
      | nil => rfl
      | cons t ts ih =>
        rw [List.map_cons, List.cons_append, FixedVec.collectResults, ih]; rfl
    rw [FixedVec.tryCollectFixed, this]; rfl

/-- C58: `from_fn` never fails, and calls the closure once per index, in order. -/
theorem C58_from_fn (f : ℕ → T) (g : ℕ → Except Err T) (hg : ∀ i < len, g i = .ok (f i)) :
    FixedVec.fromFn len f = some ⟨(List.range len).map f⟩ ∧
    FixedVec.tryFromFn len g = .ok ⟨(List.range len).map f⟩ := by
  constructor
  · rw [FixedVec.fromFn, FixedVec.collectFixed, (C58_convert _).1 (by simp)]
  · have : (List.range len).map g = ((List.range len).map f).map .ok := by
      rw [List.map_map]
      exact List.map_congr_left fun i hi => hg i (List.mem_range.1 hi)
    rw [FixedVec.tryFromFn, this, (C58_try_collect _ .panic []).1, (C58_convert _).1 (by simp)]

example : FixedVec.tryFrom 3 [1, 2] = .error (.lengthMismatch 3 2) := by decide
example : FixedVec.fromFn 3 (fun i => i * i) = some ⟨[0, 1, 4]⟩ := by decide
example : Reachable (⟨[0, 1, 7]⟩ : FixedVec ℕ 3) :=
  .assign (s := ⟨[0, 1, 4]⟩) (i := 2) (t := 7) (.fromFn (f := fun i => i * i) (by decide)) (by decide)

end Ragu.Props

/-
C102: the macros name the crates by paths that reach them from the package that uses the macro.
-/
import Verif.Spec.CratePath

namespace Ragu.Props
open Ragu.CratePath

/-- The macros that name `ragu_primitives` too. -/
def NeedsPrimitives (m : Macro) : Prop := m = .write ∨ m = .consistent

section aux

theorem crateName_itself {p : Package} {c : String} :
    p.crateName c = some .itself ↔ p.name = c := by
  unfold Package.crateName
  split
  · simp_all
  · cases p.deps.find? (fun d => d.2 = c) <;> simp_all

theorem crateName_name {p : Package} {c n : String} (h : p.crateName c = some (.name n)) :
    p.name ≠ c ∧ (n, c) ∈ p.deps := by
  unfold Package.crateName at h
  split at h
  · simp at h
  · rename_i hn
    refine ⟨hn, ?_⟩
    cases hf : p.deps.find? (fun d => d.2 = c) with
    | none => simp [hf] at h
    | some d =>
      have h1 := List.mem_of_find?_eq_some hf
      have h2 := List.find?_some hf
      simp [hf] at h h2
      rcases d with ⟨x, y⟩
      simp at h h2
      subst h h2
      exact h1

theorem crateName_none {p : Package} {c : String} : p.crateName c = none ↔ ¬ p.Has c := by
  unfold Package.crateName Package.Has
  split
  · simp_all
  · rename_i hn
    simp only [Option.map_eq_none_iff, List.find?_eq_none, hn, false_or, not_exists]
    constructor
    · intro h a ha
      simpa using h _ ha
    · rintro h ⟨a, b⟩ hd
      simp only [decide_eq_true_eq]
      rintro rfl
      exact h a hd

theorem extern_self {p : Package} (h : p.selfAs = some p.name) : p.extern p.name = some p.name := by
  simp [Package.extern, h]

theorem find_key {l : List (String × String)} (hl : (l.map Prod.fst).Nodup) {n c : String} (h : (n, c) ∈ l) :
    l.find? (fun d => d.1 = n) = some (n, c) := by
  induction l with
  | nil => simp at h
  | cons d l ih =>
    rw [List.map_cons, List.nodup_cons] at hl
    rcases List.mem_cons.mp h with rfl | h
    · simp
    · have : d.1 ≠ n := by
        rintro rfl
        exact hl.1 (List.mem_map.mpr ⟨_, h, rfl⟩)
      rw [List.find?_cons_of_neg (by simpa using this)]
      exact ih hl.2 h

theorem extern_dep {p : Package} (hp : p.Wf) {n c : String} (h : (n, c) ∈ p.deps) :
    p.extern n = some c := by
  unfold Package.Wf at hp
  rw [List.nodup_append] at hp
  have hs : p.selfAs ≠ some n := by
    intro hs
    exact hp.2.2 n (by simp [hs]) n (List.mem_map.mpr ⟨_, h, rfl⟩) rfl
  simp [Package.extern, hs, find_key hp.2.1 h]

/-- All that can happen for `ragu_core`. -/
theorem core_cases (p : Package) (hp : p.Wf) (ho : OwnName p) :
    (p.name ≠ "ragu" ∧ p.Has "ragu_core" ∧
      ∃ n, ragu_core_path p.found = .ok [n] ∧ p.extern n = some "ragu_core") ∨
    ((p.name = "ragu" ∨ ¬ p.Has "ragu_core") ∧ p.Has "ragu" ∧
      ∃ n, ragu_core_path p.found = .ok [n] ∧ p.extern n = some "ragu") ∨
    (¬ p.Has "ragu_core" ∧ ¬ p.Has "ragu" ∧ ragu_core_path p.found = .error .noCore) := by
  have hcore : p.found.core = p.crateName "ragu_core" := rfl
  have hragu : p.found.ragu = p.crateName "ragu" := rfl
  by_cases h1 : p.name = "ragu_core"
  · left
    refine ⟨by rw [h1]; decide, .inl h1, "ragu_core", ?_, ?_⟩
    · simp [ragu_core_path, hcore, crateName_itself.mpr h1]
    · rw [← h1]; exact extern_self (ho (by simp [h1]))
  by_cases h2 : p.name = "ragu"
  · right; left
    refine ⟨.inl h2, .inl h2, "ragu", ?_, ?_⟩
    · have hr := crateName_itself.mpr h2
      unfold ragu_core_path
      rw [hcore, hragu, hr]
      cases hc : p.crateName "ragu_core" with
      | none => rfl
      | some f =>
        cases f with
        | itself => exact absurd (crateName_itself.mp hc) h1
        | name n => rfl
    · rw [← h2]; exact extern_self (ho (by simp [h2]))
  unfold ragu_core_path
  rw [hcore, hragu]
  cases hc : p.crateName "ragu_core" with
  | some f =>
    cases f with
    | itself => exact absurd (crateName_itself.mp hc) h1
    | name n =>
      left
      have hn := crateName_name hc
      refine ⟨h2, .inr ⟨n, hn.2⟩, n, ?_, extern_dep hp hn.2⟩
      cases hr : p.crateName "ragu" with
      | none => rfl
      | some f =>
        cases f with
        | itself => exact absurd (crateName_itself.mp hr) h2
        | name _ => rfl
  | none =>
    have hn := crateName_none.mp hc
    right
    cases hr : p.crateName "ragu" with
    | none => exact .inr ⟨hn, crateName_none.mp hr, rfl⟩
    | some f =>
      cases f with
      | itself => exact absurd (crateName_itself.mp hr) h2
      | name n =>
        have hm := crateName_name hr
        exact .inl ⟨.inr hn, .inr ⟨n, hm.2⟩, n, rfl, extern_dep hp hm.2⟩

/-- All that can happen for `ragu_primitives`. -/
theorem prim_cases (p : Package) (hp : p.Wf) (ho : OwnName p) :
    (p.name ≠ "ragu" ∧ p.Has "ragu_primitives" ∧
      ∃ n, ragu_primitives_path p.found = .ok [n] ∧ p.extern n = some "ragu_primitives") ∨
    ((p.name = "ragu" ∨ ¬ p.Has "ragu_primitives") ∧ p.Has "ragu" ∧
      ∃ n, ragu_primitives_path p.found = .ok [n, "primitives"] ∧ p.extern n = some "ragu") ∨
    (¬ p.Has "ragu_primitives" ∧ ¬ p.Has "ragu" ∧ ragu_primitives_path p.found = .error .noPrimitives) := by
  have hcore : p.found.primitives = p.crateName "ragu_primitives" := rfl
  have hragu : p.found.ragu = p.crateName "ragu" := rfl
  by_cases h1 : p.name = "ragu_primitives"
  · left
    refine ⟨by rw [h1]; decide, .inl h1, "ragu_primitives", ?_, ?_⟩
    · simp [ragu_primitives_path, hcore, crateName_itself.mpr h1]
    · rw [← h1]; exact extern_self (ho (by simp [h1]))
  by_cases h2 : p.name = "ragu"
  · right; left
    refine ⟨.inl h2, .inl h2, "ragu", ?_, ?_⟩
    · have hr := crateName_itself.mpr h2
      unfold ragu_primitives_path
      rw [hcore, hragu, hr]
      cases hc : p.crateName "ragu_primitives" with
      | none => rfl
      | some f =>
        cases f with
        | itself => exact absurd (crateName_itself.mp hc) h1
        | name n => rfl
    · rw [← h2]; exact extern_self (ho (by simp [h2]))
  unfold ragu_primitives_path
  rw [hcore, hragu]
  cases hc : p.crateName "ragu_primitives" with
  | some f =>
    cases f with
    | itself => exact absurd (crateName_itself.mp hc) h1
    | name n =>
      left
      have hn := crateName_name hc
      refine ⟨h2, .inr ⟨n, hn.2⟩, n, ?_, extern_dep hp hn.2⟩
      cases hr : p.crateName "ragu" with
      | none => rfl
      | some f =>
        cases f with
        | itself => exact absurd (crateName_itself.mp hr) h2
        | name _ => rfl
  | none =>
    have hn := crateName_none.mp hc
    right
    cases hr : p.crateName "ragu" with
    | none => exact .inr ⟨hn, crateName_none.mp hr, rfl⟩
    | some f =>
      cases f with
      | itself => exact absurd (crateName_itself.mp hr) h2
      | name n =>
        have hm := crateName_name hr
        exact .inl ⟨.inr hn, .inr ⟨n, hm.2⟩, n, rfl, extern_dep hp hm.2⟩

theorem resolve_ok {m : Macro} {f : Found} {c : List String} {o : Option (List String)} :
    resolve m f = .ok (c, o) ↔ ragu_core_path f = .ok c ∧
      ((¬ NeedsPrimitives m ∧ o = none) ∨
        (NeedsPrimitives m ∧ ∃ q, ragu_primitives_path f = .ok q ∧ o = some q)) := by
  unfold resolve NeedsPrimitives
  cases hc : ragu_core_path f <;> cases hq : ragu_primitives_path f <;> cases m <;>
    simp [bind, Except.bind, pure, Except.pure, eq_comm]

end aux

/-- **C102.** If the crate `ragu` re-exports what the macros expect of it, then for every package that uses a
macro, with any dependencies under any names, the paths that the macro writes reach `ragu_core`, and
`ragu_primitives` for the two macros that need it. -/
theorem C102_names (w : World) (hw : Facade w) (p : Package) (hp : p.Wf) (ho : OwnName p) (m : Macro)
    {c : List String} {o : Option (List String)} (h : resolve m p.found = .ok (c, o)) :
    Names w p c "ragu_core" ∧ (o.isSome ↔ NeedsPrimitives m) ∧
      ∀ q, o = some q → Names w p q "ragu_primitives" := by
  obtain ⟨h1, h2⟩ := resolve_ok.mp h
  refine ⟨?_, ?_, ?_⟩
  · rcases core_cases p hp ho with ⟨-, -, n, e, he⟩ | ⟨-, -, n, e, he⟩ | ⟨-, -, e⟩
    · rw [h1] at e; injection e with e; subst e
      exact .inl he
    · rw [h1] at e; injection e with e; subst e
      exact .inr ⟨_, he, hw.1⟩
    · rw [h1] at e; cases e
  · rcases h2 with ⟨a, rfl⟩ | ⟨a, q, -, rfl⟩ <;> simp [a]
  · rintro q rfl
    rcases h2 with ⟨-, a⟩ | ⟨-, q', hq, a⟩
    · cases a
    injection a with a; subst a
    rcases prim_cases p hp ho with ⟨-, -, n, e, he⟩ | ⟨-, -, n, e, he⟩ | ⟨-, -, e⟩
    · rw [hq] at e; injection e with e; subst e
      exact .inl he
    · rw [hq] at e; injection e with e; subst e
      exact ⟨_, he, hw.2⟩
    · rw [hq] at e; cases e

/-- **C102.** A macro reports that a crate is missing exactly if the package neither is that crate or `ragu`, nor
depends on one of the two; a missing `ragu_core` is reported first. -/
theorem C102_error (p : Package) (hp : p.Wf) (ho : OwnName p) (m : Macro) :
    (resolve m p.found = .error .noCore ↔ ¬ p.Has "ragu_core" ∧ ¬ p.Has "ragu") ∧
    (resolve m p.found = .error .noPrimitives ↔
      NeedsPrimitives m ∧ p.Has "ragu_core" ∧ ¬ p.Has "ragu_primitives" ∧ ¬ p.Has "ragu") := by
  unfold resolve NeedsPrimitives
  rcases core_cases p hp ho with ⟨-, hc, n, e, -⟩ | ⟨hc, hc', n, e, -⟩ | ⟨hc, hc', e⟩ <;>
  rcases prim_cases p hp ho with ⟨-, hq, k, d, -⟩ | ⟨hq, hq', k, d, -⟩ | ⟨hq, hq', d⟩ <;>
  first
  | exact absurd hc' hq'
  | (cases m <;> simp [bind, Except.bind, pure, Except.pure, *])

/-- **C102.** A package other than `ragu` that is `ragu_core` or depends on it gets a path that reaches
`ragu_core` itself, whatever `ragu` re-exports and whether or not the package depends on it too; the same
for `ragu_primitives`. -/
theorem C102_direct (p : Package) (hp : p.Wf) (ho : OwnName p) (hr : p.name ≠ "ragu")
    (hc : p.Has "ragu_core") (m : Macro) (hq : NeedsPrimitives m → p.Has "ragu_primitives") :
    ∃ c o, resolve m p.found = .ok (c, o) ∧ (o.isSome ↔ NeedsPrimitives m) ∧
      ∀ w, Names w p c "ragu_core" ∧ ∀ q, o = some q → Names w p q "ragu_primitives" := by
  rcases core_cases p hp ho with ⟨-, -, n, e, he⟩ | ⟨a | a, -⟩ | ⟨a, -⟩
  · by_cases hm : NeedsPrimitives m
    · rcases prim_cases p hp ho with ⟨-, -, k, d, hd⟩ | ⟨a | a, -⟩ | ⟨a, -⟩
      · refine ⟨[n], some [k], resolve_ok.mpr ⟨e, .inr ⟨hm, _, d, rfl⟩⟩, by simp [hm], fun w => ⟨.inl he, ?_⟩⟩
        rintro q a
        injection a with a; subst a
        exact .inl hd
      · exact absurd a hr
      · exact absurd (hq hm) a
      · exact absurd (hq hm) a
    · exact ⟨[n], none, resolve_ok.mpr ⟨e, .inl ⟨hm, rfl⟩⟩, by simp [hm], fun w => ⟨.inl he, by simp⟩⟩
  · exact absurd a hr
  · exact absurd hc a
  · exact absurd hc a

/-- **C102.** At the pinned commit `ragu` re-exports nothing. There the macros work exactly for the packages other
than `ragu` that are or depend on `ragu_core`, and `ragu_primitives` where it is needed: a package that
depends on `ragu` alone gets paths that lead nowhere. -/
theorem C102_pinned (p : Package) (hp : p.Wf) (ho : OwnName p) (m : Macro) :
    (∃ c o, resolve m p.found = .ok (c, o) ∧ Names pinned p c "ragu_core" ∧
      ∀ q, o = some q → Names pinned p q "ragu_primitives") ↔
    p.name ≠ "ragu" ∧ p.Has "ragu_core" ∧ (NeedsPrimitives m → p.Has "ragu_primitives") := by
  constructor
  · rintro ⟨c, o, h, hc, hq⟩
    obtain ⟨h1, h2⟩ := resolve_ok.mp h
    have hcore : p.name ≠ "ragu" ∧ p.Has "ragu_core" := by
      rcases core_cases p hp ho with ⟨a, b, -⟩ | ⟨-, -, n, e, he⟩ | ⟨-, -, e⟩
      · exact ⟨a, b⟩
      · rw [h1] at e; injection e with e; subst e
        simp [Names, he, pinned] at hc
      · rw [h1] at e; cases e
    refine ⟨hcore.1, hcore.2, fun hm => ?_⟩
    rcases h2 with ⟨a, -⟩ | ⟨-, q, hq', rfl⟩
    · exact absurd hm a
    have hq := hq q rfl
    rcases prim_cases p hp ho with ⟨-, b, -⟩ | ⟨-, -, n, e, he⟩ | ⟨-, -, e⟩
    · exact b
    · rw [hq'] at e; injection e with e; subst e
      simp [Names, pinned] at hq
    · rw [hq'] at e; cases e
  · rintro ⟨a, b, d⟩
    obtain ⟨c, o, h, -, hw⟩ := C102_direct p hp ho a b m d
    exact ⟨c, o, h, (hw pinned).1, (hw pinned).2⟩

/-- **C102.** The own name is needed: in a package `ragu_core` without `extern crate self as ragu_core`, as it is at
the pinned commit, `Kind!` and `derive(Gadget)` write a path that names nothing, unless a dependency
happens to have this name. -/
theorem C102_own_name_needed (w : World) (p : Package) (hn : p.name = "ragu_core") (hs : p.selfAs = none)
    (hd : ∀ d ∈ p.deps, d.1 ≠ "ragu_core") (m : Macro) (hm : ¬ NeedsPrimitives m) :
    ∃ c, resolve m p.found = .ok (c, none) ∧ ∀ r, ¬ Names w p c r := by
  refine ⟨["ragu_core"], resolve_ok.mpr ⟨?_, .inl ⟨hm, rfl⟩⟩, ?_⟩
  · have : p.found.core = some .itself := crateName_itself.mpr hn
    simp [ragu_core_path, this]
  · have : p.extern "ragu_core" = none := by
      simp only [Package.extern, hs]
      simp only [reduceCtorEq, if_false, Option.map_eq_none_iff, List.find?_eq_none]
      intro d h; simpa using hd d h
    intro r
    simp [Names, this]

section examples

/-- crates/ragu_primitives/Cargo.toml:38-43 and crates/ragu_primitives/src/lib.rs:18. -/
def primitivesPkg : Package :=
  { name := "ragu_primitives"
    deps := [("ragu_arithmetic", "ragu_arithmetic"), ("ragu_core", "ragu_core"), ("ragu_macros", "ragu_macros")]
    selfAs := some "ragu_primitives" }

/-- A package that renames `ragu_core`, gives its name to another package, and has `ragu` for the rest. -/
def renamedPkg : Package :=
  { name := "app", deps := [("ragu_core", "fork"), ("rc", "ragu_core"), ("r", "ragu")] }

/-- A package that depends on `ragu` alone. -/
def raguOnly : Package := { name := "app", deps := [("r", "ragu")] }

def facade : World :=
  { globs := [("ragu", "ragu_core")], mods := [("ragu", "primitives", "ragu_primitives")] }

example : Facade facade := by simp [Facade, facade]
example : primitivesPkg.Wf ∧ OwnName primitivesPkg := by
  simp [Package.Wf, OwnName, primitivesPkg]
example : renamedPkg.Wf ∧ OwnName renamedPkg := by
  simp [Package.Wf, OwnName, renamedPkg]
example : raguOnly.Wf ∧ OwnName raguOnly := by
  simp [Package.Wf, OwnName, raguOnly]
example : resolve .write primitivesPkg.found = .ok (["ragu_core"], some ["ragu_primitives"]) := rfl
example : resolve .write renamedPkg.found = .ok (["rc"], some ["r", "primitives"]) := rfl
example : resolve .consistent raguOnly.found = .ok (["r"], some ["r", "primitives"]) := rfl
example : Names facade renamedPkg ["r", "primitives"] "ragu_primitives" := ⟨"ragu", rfl, by simp [facade]⟩
example : ¬ Names pinned raguOnly ["r"] "ragu_core" := by
  simp [Names, pinned, raguOnly, Package.extern]
example : resolve .write ({ name := "app", deps := [("ragu_core", "ragu_core")] } : Package).found =
    .error .noPrimitives := rfl
example : resolve .kind ({ name := "app", deps := [("serde", "serde")] } : Package).found =
    .error .noCore := rfl
example : ∀ r, ¬ Names facade { name := "ragu_core", deps := [("ragu_arithmetic", "ragu_arithmetic"), ("ragu_macros", "ragu_macros")] }
    ["ragu_core"] r := by
  intro r; simp [Names, Package.extern]

end examples

end Ragu.Props

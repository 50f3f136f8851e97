/-
The driver that computes fingerprints does what the specification says.
-/
import Verif.Spec.Fingerprint
import Verif.Props.Util
import Mathlib.Tactic.Ring

set_option linter.unusedSectionVars false

namespace Ragu.Circuit
open Ragu Ragu.Spec
variable {F : Type} [Field F] [DecidableEq F]

/-- The own gates of code. -/
def ownGates : Bool → Code F → ℕ
  | _, .done => 0
  | b, .gate k => ownGates b k + 1
  | b, .mul k => ownGates b k + 1
  | true, .alloc k => ownGates false k
  | false, .alloc k => ownGates true k + 1
  | b, .add _ k => ownGates b k
  | b, .enforce _ k => ownGates b k
  | b, .call _ _ _ _ k => ownGates b k

/-- The own constraints of code. -/
def ownCons : Code F → ℕ
  | .done => 0
  | .gate k => ownCons k
  | .mul k => ownCons k
  | .alloc k => ownCons k
  | .add _ k => ownCons k
  | .enforce _ k => ownCons k + 1
  | .call _ _ _ _ k => ownCons k

theorem walk_counts {M : Type} [AddCommGroup M] [Module F M] (α : Name → Sym → M) (c : Code F) :
    ∀ b : Body M, (walk α c b).own = b.own + ownGates b.spare.isSome c ∧
      (walk α c b).rows.length = b.rows.length + ownCons c ∧
      (walk α c b).env.length = wiresAfter c b.env.length := by
  induction c with
  | done => intro b; exact ⟨rfl, rfl, rfl⟩
  | gate k ih =>
    intro b
    obtain ⟨h1, h2, h3⟩ := ih { b with
      own := b.own + 1, next := b.next + 1,
      env := b.env ++ [.a, .b, .c, .d].map fun j => α (.gate b.own j) (.wire j b.next) }
    simp only [walk]
    refine ⟨h1.trans (by simp only [ownGates]; omega), h2, h3.trans (by simp [wiresAfter])⟩
  | mul k ih =>
    intro b
    obtain ⟨h1, h2, h3⟩ := ih { b with
      own := b.own + 1, next := b.next + 1,
      env := b.env ++ [.a, .b, .c].map fun j => α (.gate b.own j) (.wire j b.next) }
    simp only [walk]
    refine ⟨h1.trans (by simp only [ownGates]; omega), h2, h3.trans (by simp [wiresAfter])⟩
  | alloc k ih =>
    intro b
    rcases hs : b.spare with _ | w
    · obtain ⟨h1, h2, h3⟩ := ih { b with
        own := b.own + 1, next := b.next + 1, spare := some (α (.gate b.own .d) (.wire .d b.next)),
        env := b.env ++ [α (.gate b.own .b) (.wire .b b.next)] }
      simp only [walk, hs]
      refine ⟨h1.trans ?_, h2, h3.trans (by simp [wiresAfter])⟩
      simp only [Option.isSome_some, Option.isSome_none, ownGates]
      omega
    · obtain ⟨h1, h2, h3⟩ := ih { b with spare := none, env := b.env ++ [w] }
      simp only [walk, hs]
      exact ⟨h1, h2, h3.trans (by simp [wiresAfter])⟩
  | add lc k ih =>
    intro b
    obtain ⟨h1, h2, h3⟩ := ih { b with env := b.env ++ [lcSum (α .one .one) b.env 1 lc] }
    exact ⟨h1, h2, h3.trans (by simp [wiresAfter])⟩
  | enforce lc k ih =>
    intro b
    obtain ⟨h1, h2, h3⟩ := ih { b with rows := b.rows ++ [lcSum (α .one .one) b.env 1 lc] }
    refine ⟨h1, h2.trans ?_, h3⟩
    simp only [List.length_append, List.length_singleton, ownCons]
    omega
  | call kinds input body output k _ ih =>
    intro b
    obtain ⟨h1, h2, h3⟩ := ih { b with
      next := b.next + (output.length + 1) / 2, calls := b.calls + 1,
      env := b.env ++ (List.range output.length).map fun i => α (.output b.calls i) (placeOf b.next i) }
    exact ⟨h1, h2, h3.trans (by simp [wiresAfter])⟩

theorem countsOf_eq (c : Code F) : countsOf c = (ownGates false c, ownCons c) := by
  obtain ⟨h1, h2, -⟩ := walk_counts (M := F) (fun _ _ => 0) c
    { next := (0 + 1) / 2, env := (List.range 0).map fun _ => 0 }
  simp only [countsOf, bodyOf]
  rw [h1, h2]
  simp

namespace FpCounter

theorem update_eq {i : ℕ} {l : List SegmentRecord} (f : SegmentRecord → SegmentRecord) (h : i < l.length) :
    update i f l = .ok (l.modify i f) := by
  rw [update, List.getElem?_eq_getElem h]
  have : l.set i (f l[i]) = l.modify i f := by
    induction l generalizing i with
    | nil => cases h
    | cons a l ih =>
      cases i with
      | zero => rfl
      | succ i => simp only [List.set_cons_succ, List.getElem_cons_succ, List.modify_succ_cons, ih]
  rw [← this]

theorem modify_append_left {A : Type} (f : A → A) {i : ℕ} {l : List A} (r : List A) (h : i < l.length) :
    (l ++ r).modify i f = l.modify i f ++ r := by
  induction l generalizing i with
  | nil => cases h
  | cons a l ih =>
    cases i with
    | zero => rfl
    | succ i => simp only [List.cons_append, List.modify_succ_cons, ih (Nat.lt_of_succ_lt_succ h)]

theorem modify_append_middle {A : Type} (f : A → A) (l : List A) (a : A) (r : List A) :
    (l ++ a :: r).modify l.length f = l ++ f a :: r := by
  induction l with
  | nil => rfl
  | cons b l ih => simp only [List.cons_append, List.length_cons, List.modify_succ_cons, ih]

theorem modify_modify' {A : Type} (f g : A → A) (i : ℕ) (l : List A) :
    (l.modify i f).modify i g = l.modify i fun a => g (f a) := by
  induction l generalizing i with
  | nil => cases i <;> rfl
  | cons a l ih =>
    cases i with
    | zero => rfl
    | succ i => simp only [List.modify_succ_cons, ih]

/-- The running monomials are those of gate `n`. -/
def At (P : FpPoints F) (n : ℕ) (t : FpScope F) : Prop :=
  t.a = P.x0 ^ (n + 1) ∧ t.b = P.x1 ^ (n + 1) ∧ t.c = P.x2 ^ (n + 1) ∧ t.d = P.x3 ^ (n + 1)

theorem At.next {P : FpPoints F} {n : ℕ} {t : FpScope F} (h : At P n t) :
    At P (n + 1) { t with a := t.a * P.x0, b := t.b * P.x1, c := t.c * P.x2, d := t.d * P.x3 } := by
  obtain ⟨h1, h2, h3, h4⟩ := h
  refine ⟨?_, ?_, ?_, ?_⟩
  · rw [pow_succ, ← h1]
  · rw [pow_succ, ← h2]
  · rw [pow_succ, ← h3]
  · rw [pow_succ, ← h4]

theorem at_fresh (P : FpPoints F) (i : ℕ) : At P 0 (fresh P i) := by simp [At, fresh]

/-- Add to the counts of a record. -/
def plus (g c : ℕ) (r : SegmentRecord) : SegmentRecord := ⟨r.numGates + g, r.numCons + c, r.identity⟩

theorem gate_counting {P : FpPoints F} {s : FpCounter F} {n : ℕ} (hc : s.counting = true)
    (hl : s.scope.current < s.segments.length) (ha : At P n s.scope) :
    s.gate P = .ok ({ s with
        numGates := s.numGates + 1, segments := s.segments.modify s.scope.current (plus 1 0),
        scope := { s.scope with a := s.scope.a * P.x0, b := s.scope.b * P.x1, c := s.scope.c * P.x2,
                                d := s.scope.d * P.x3 } },
      atPoints P (.wire .a n), atPoints P (.wire .b n), atPoints P (.wire .c n),
      atPoints P (.wire .d n)) := by
  rw [gate, if_pos hc, update_eq _ hl]
  obtain ⟨h1, h2, h3, h4⟩ := ha
  simp only [atPoints, ← h1, ← h2, ← h3, ← h4]
  rfl

theorem alloc_counting {P : FpPoints F} {s : FpCounter F} {n : ℕ} (hc : s.counting = true)
    (hl : s.scope.current < s.segments.length) (ha : At P n s.scope) (hd : s.scope.availD = none) :
    s.alloc P = .ok ({ s with
        numGates := s.numGates + 1, segments := s.segments.modify s.scope.current (plus 1 0),
        scope := { s.scope with a := s.scope.a * P.x0, b := s.scope.b * P.x1, c := s.scope.c * P.x2,
                                d := s.scope.d * P.x3, availD := some (atPoints P (.wire .d n)) } },
      atPoints P (.wire .b n)) := by
  rw [alloc, hd]
  simp only [gate_counting hc hl ha]
  rfl

theorem gate_uncounted {P : FpPoints F} {s : FpCounter F} {n : ℕ} (hc : s.counting = false)
    (ha : At P n s.scope) :
    s.gate P = .ok ({ s with
        scope := { s.scope with a := s.scope.a * P.x0, b := s.scope.b * P.x1, c := s.scope.c * P.x2,
                                d := s.scope.d * P.x3 } },
      atPoints P (.wire .a n), atPoints P (.wire .b n), atPoints P (.wire .c n),
      atPoints P (.wire .d n)) := by
  rw [gate, if_neg (by rw [hc]; decide)]
  obtain ⟨h1, h2, h3, h4⟩ := ha
  simp only [atPoints, ← h1, ← h2, ← h3, ← h4]
  rfl

theorem range_two (m : ℕ) (f : ℕ → F) :
    (List.range (m + 2)).map f = f 0 :: f 1 :: (List.range m).map fun i => f (i + 2) := by
  rw [List.range_succ_eq_map, List.range_succ_eq_map]
  simp [Function.comp_def]

theorem placeOf_add (n i : ℕ) : placeOf n (i + 2) = placeOf (n + 1) i := by
  simp only [placeOf]
  rw [show (i + 2) % 2 = i % 2 by omega, show n + (i + 2) / 2 = n + 1 + i / 2 by omega]

/-- New wires for a gadget: they take the places from `n` on, and nothing is counted. -/
theorem remap_eq (P : FpPoints F) (m : ℕ) : ∀ (s : FpCounter F) (n : ℕ), s.counting = false →
    At P n s.scope → s.scope.availD = none →
    ∃ t : FpScope F, remap P m s =
        .ok ({ s with scope := t }, (List.range m).map fun i => atPoints P (placeOf n i)) ∧
      At P (n + (m + 1) / 2) t ∧ t.current = s.scope.current ∧ t.result = s.scope.result := by
  induction m using Nat.strong_induction_on with
  | _ m ih =>
    intro s n hc ha hd
    match m with
    | 0 => exact ⟨s.scope, rfl, ha, rfl, rfl⟩
    | 1 =>
      refine ⟨{ s.scope with
        a := s.scope.a * P.x0, b := s.scope.b * P.x1, c := s.scope.c * P.x2, d := s.scope.d * P.x3,
        availD := some (atPoints P (.wire .d n)) }, ?_, ha.next, rfl, rfl⟩
      simp only [remap, alloc, hd, gate_uncounted hc ha]
      rfl
    | m + 2 =>
      obtain ⟨t, h1, h2, h3, h4⟩ := ih m (by omega) { s with scope := { s.scope with
        a := s.scope.a * P.x0, b := s.scope.b * P.x1, c := s.scope.c * P.x2, d := s.scope.d * P.x3,
        availD := none } } (n + 1) hc ha.next rfl
      refine ⟨t, ?_, ?_, h3, h4⟩
      · rw [range_two]
        simp only [placeOf_add]
        rw [remap, alloc, hd]
        simp only [gate_uncounted hc ha]
        change (do
          let (s, w) ← Except.ok (_, atPoints P (.wire .b n))
          let (s, ws) ← remap P (m + 1) s
          return (s, w :: ws) : Except Err (FpCounter F × List F)) = _
        simp only [bind, Except.bind, remap, alloc]
        rw [h1]
        rfl
      · rw [show n + (m + 2 + 1) / 2 = n + 1 + (m + 1) / 2 by omega]
        exact h2

theorem resolve_value (E : List F) {w : WRef} (h : RefBelow E.length w) (one : F) :
    ∃ v, resolve .one (E.map WireEval.value) w = .ok v ∧
      (match v with | .value v => v | .one => one) = wireVal one E w := by
  cases w with
  | one => exact ⟨.one, rfl, rfl⟩
  | idx i =>
    have hi : i < E.length := h
    refine ⟨.value E[i], ?_, ?_⟩
    · simp [resolve, hi]
    · simp [wireVal, hi]

theorem wires_ok (E : List F) {l : List WRef} (h : ∀ w ∈ l, RefBelow E.length w) :
    ∃ v, wires (E.map WireEval.value) l = .ok v ∧ v.length = l.length := by
  induction l with
  | nil => exact ⟨[], rfl, rfl⟩
  | cons w l ih =>
    obtain ⟨v, hv, -⟩ := resolve_value E (h w (by simp)) 0
    obtain ⟨vs, hvs, hl⟩ := ih fun w hw => h w (by simp [hw])
    exact ⟨v :: vs, by rw [wires, hv, hvs]; rfl, by simp [hl]⟩

theorem lc_ok (one : F) (E : List F) {lc : List (LcStep F WRef)} (h : LcBelow E.length lc) :
    ∃ lc', resolveLc .one (E.map WireEval.value) lc = .ok lc' ∧
      ∀ (acc : F) (g : Coeff F), wireEvalSum one acc g lc' = acc + lcSum one E g.value lc := by
  induction lc with
  | nil => exact ⟨[], rfl, fun acc g => by simp [wireEvalSum, lcSum]⟩
  | cons st lc ih =>
    obtain ⟨lc', h1, h2⟩ := ih fun x hx => h x (by simp [hx])
    cases st with
    | gain c =>
      refine ⟨.gain c :: lc', by rw [resolveLc, h1]; rfl, fun acc g => ?_⟩
      rw [wireEvalSum, h2, lcSum, Props.C08_mul]
    | term w c =>
      obtain ⟨v, hv, hv'⟩ := resolve_value E (h (.term w c) (by simp)) one
      refine ⟨.term v c :: lc', by rw [resolveLc, hv, h1]; rfl, fun acc g => ?_⟩
      simp only [wireEvalSum]
      rw [h2, lcSum, Props.C08_mul, ← hv', smul_eq_mul]
      cases v <;> ring

theorem ok_congr {t : FpScope F} {c c' g g' : ℕ} {l l' : List SegmentRecord} {E E' : List (WireEval F)}
    (hg : g = g') (hc : c = c') (hl : l = l') (hE : E = E') :
    (Except.ok ((⟨t, c, g, l, true⟩ : FpCounter F), E) : Except Err (FpCounter F × List (WireEval F))) =
      .ok (⟨t, c', g', l', true⟩, E') := by
  rw [hg, hc, hl, hE]

theorem modify_plus (l : List SegmentRecord) (i g c g' c' : ℕ) :
    (l.modify i (plus g c)).modify i (plus g' c') = l.modify i (plus (g + g') (c + c')) := by
  rw [modify_modify']
  congr 1
  funext r
  simp only [plus, Nat.add_assoc]

/-- Running code is walking through it. -/
theorem run_walk (P : FpPoints F) (low : F → ℕ) (c : Code F) : ∀ (s : FpCounter F) (b : Body F),
    UsesOwn c b.env.length → s.counting = true → s.scope.current < s.segments.length →
    At P b.next s.scope → s.scope.availD = b.spare → s.scope.result = monicAt P.h P.y b.rows →
    ∃ t : FpScope F,
      run P low c s (b.env.map .value) = .ok
        ({ scope := t, counting := true,
           numGates := s.numGates + ownGates b.spare.isSome c +
             ((recordsOf P low c).map (·.numGates)).sum,
           numCons := s.numCons + ownCons c + ((recordsOf P low c).map (·.numCons)).sum,
           segments := s.segments.modify s.scope.current (plus (ownGates b.spare.isSome c) (ownCons c)) ++
             recordsOf P low c },
         (walk (fun _ place => atPoints P place) c b).env.map .value) ∧
      t.current = s.scope.current ∧
      At P (walk (fun _ place => atPoints P place) c b).next t ∧
      t.availD = (walk (fun _ place => atPoints P place) c b).spare ∧
      t.result = monicAt P.h P.y (walk (fun _ place => atPoints P place) c b).rows := by
  induction c with
  | done =>
    intro s b _ hc hl ha hd hr
    refine ⟨s.scope, ?_, rfl, ha, hd, hr⟩
    simp only [run, recordsOf, ownGates, ownCons, walk, List.map_nil, List.sum_nil, Nat.add_zero,
      List.append_nil]
    have : s.segments.modify s.scope.current (plus 0 0) = s.segments := by
      rw [show plus 0 0 = id from rfl]; exact List.modify_id _ _
    rw [this, ← hc]
  | gate k ih =>
    intro s b hu hc hl ha hd hr
    obtain ⟨t, h1, h2⟩ := ih { s with
        numGates := s.numGates + 1, segments := s.segments.modify s.scope.current (plus 1 0),
        scope := { s.scope with a := s.scope.a * P.x0, b := s.scope.b * P.x1, c := s.scope.c * P.x2,
                                d := s.scope.d * P.x3 } } { b with
      own := b.own + 1, next := b.next + 1,
      env := b.env ++ [.a, .b, .c, .d].map fun j => atPoints P (.wire j b.next) }
      (by simpa [UsesOwn] using hu) hc (by simpa using hl) ha.next hd hr
    refine ⟨t, ?_, h2⟩
    rw [run, gate_counting hc hl ha]
    refine Eq.trans (Eq.trans ?_ h1) ?_
    · simp only [List.map_append, List.map_cons, List.map_nil]
      rfl
    · refine ok_congr ?_ rfl ?_ rfl
      · simp only [ownGates, recordsOf]; omega
      · simp only [modify_plus, ownGates, ownCons, recordsOf, Nat.zero_add, Nat.add_comm 1]
  | mul k ih =>
    intro s b hu hc hl ha hd hr
    obtain ⟨t, h1, h2⟩ := ih { s with
        numGates := s.numGates + 1, segments := s.segments.modify s.scope.current (plus 1 0),
        scope := { s.scope with a := s.scope.a * P.x0, b := s.scope.b * P.x1, c := s.scope.c * P.x2,
                                d := s.scope.d * P.x3 } } { b with
      own := b.own + 1, next := b.next + 1,
      env := b.env ++ [.a, .b, .c].map fun j => atPoints P (.wire j b.next) }
      (by simpa [UsesOwn] using hu) hc (by simpa using hl) ha.next hd hr
    refine ⟨t, ?_, h2⟩
    rw [run, gate_counting hc hl ha]
    refine Eq.trans (Eq.trans ?_ h1) ?_
    · simp only [List.map_append, List.map_cons, List.map_nil]
      rfl
    · refine ok_congr ?_ rfl ?_ rfl
      · simp only [ownGates, recordsOf]; omega
      · simp only [modify_plus, ownGates, ownCons, recordsOf, Nat.zero_add, Nat.add_comm 1]
  | alloc k ih =>
    intro s b hu hc hl ha hd hr
    rcases hs : b.spare with _ | w
    · obtain ⟨t, h1, h2⟩ := ih { s with
          numGates := s.numGates + 1, segments := s.segments.modify s.scope.current (plus 1 0),
          scope := { s.scope with a := s.scope.a * P.x0, b := s.scope.b * P.x1, c := s.scope.c * P.x2,
                                  d := s.scope.d * P.x3, availD := some (atPoints P (.wire .d b.next)) } }
        { b with
          own := b.own + 1, next := b.next + 1, spare := some (atPoints P (.wire .d b.next)),
          env := b.env ++ [atPoints P (.wire .b b.next)] }
        (by simpa [UsesOwn] using hu) hc (by simpa using hl) ha.next rfl hr
      simp only [walk, hs]
      refine ⟨t, ?_, h2⟩
      rw [run, alloc_counting hc hl ha (hd.trans hs)]
      refine Eq.trans (Eq.trans ?_ h1) ?_
      · simp only [List.map_append, List.map_cons, List.map_nil]
        rfl
      · refine ok_congr ?_ rfl ?_ rfl
        · simp only [ownGates, recordsOf, Option.isSome_some, Option.isSome_none]; omega
        · simp only [modify_plus, ownGates, ownCons, recordsOf, Nat.zero_add, Nat.add_comm 1,
            Option.isSome_some, Option.isSome_none]
    · obtain ⟨t, h1, h2⟩ := ih { s with scope := { s.scope with availD := none } }
        { b with spare := none, env := b.env ++ [w] }
        (by simpa [UsesOwn] using hu) hc hl ha rfl hr
      simp only [walk, hs]
      refine ⟨t, ?_, h2⟩
      rw [run, alloc, hd.trans hs]
      refine Eq.trans (Eq.trans ?_ h1) rfl
      simp only [List.map_append, List.map_cons, List.map_nil]
      rfl
  | add lc k ih =>
    intro s b hu hc hl ha hd hr
    obtain ⟨lc', e1, e2⟩ := lc_ok P.one b.env hu.1
    obtain ⟨t, h1, h2⟩ := ih s { b with env := b.env ++ [lcSum P.one b.env 1 lc] }
      (by simpa using hu.2) hc hl ha hd hr
    refine ⟨t, ?_, h2⟩
    rw [run, e1]
    refine Eq.trans ?_ h1
    simp only [List.map_append, List.map_cons, List.map_nil]
    rw [show lcSum P.one b.env (1 : F) lc = wireEvalSum P.one 0 .one lc' by
      rw [e2, zero_add]; rfl]
    rfl
  | enforce lc k ih =>
    intro s b hu hc hl ha hd hr
    obtain ⟨lc', e1, e2⟩ := lc_ok P.one b.env hu.1
    have e3 : wireEvalSum P.one 0 .one lc' = lcSum P.one b.env (1 : F) lc := by
      rw [e2, zero_add]; rfl
    obtain ⟨t, h1, h2⟩ := ih { s with
      numCons := s.numCons + 1, segments := s.segments.modify s.scope.current (plus 0 1),
      scope := { s.scope with result := s.scope.result * P.y + lcSum P.one b.env 1 lc } }
      { b with rows := b.rows ++ [lcSum P.one b.env 1 lc] }
      hu.2 hc (by simpa using hl) ha hd (by
        simp only [monicAt, List.foldl_append, List.foldl_cons, List.foldl_nil]
        rw [hr]; rfl)
    refine ⟨t, ?_, h2⟩
    rw [run, e1]
    simp only [bind, Except.bind, enforce, update_eq _ hl, e3]
    refine Eq.trans (Eq.trans ?_ h1) ?_
    · rfl
    · refine ok_congr rfl ?_ ?_ rfl
      · simp only [ownCons, recordsOf]; omega
      · simp only [modify_plus, ownGates, ownCons, recordsOf, Nat.zero_add, Nat.add_comm 1]
  | call kinds input body output k ihb ih =>
    intro s b hu hc hl ha hd hr
    obtain ⟨u1, u2, u3, u4⟩ := hu
    obtain ⟨vi, i1, i2⟩ := wires_ok b.env u1
    obtain ⟨t1, r1, r2, r3, r4⟩ := remap_eq P vi.length { s with
      segments := s.segments ++ [⟨0, 0, none⟩], scope := fresh P s.segments.length,
      counting := false } 0 rfl (at_fresh P _) rfl
    rw [Nat.zero_add, i2] at r2
    have hcur : t1.current = s.segments.length := r3
    have hres : t1.result = P.h := r4
    have hb : ∃ b0 : Body F, b0 = {
      next := (input.length + 1) / 2,
      env := (List.range input.length).map fun i => atPoints P (placeOf 0 i) } := ⟨_, rfl⟩
    obtain ⟨b0, hb⟩ := hb
    have hb1 : b0.env = (List.range input.length).map fun i => atPoints P (placeOf 0 i) := by rw [hb]
    have hb2 : b0.next = (input.length + 1) / 2 := by rw [hb]
    have hb3 : b0.spare = none := by rw [hb]
    have hb4 : b0.rows = [] := by rw [hb]
    have hb5 : walk (fun _ place => atPoints P place) body b0 =
      bodyOf (fun _ place => atPoints P place) input.length body := by rw [hb, bodyOf]
    have hbl : b0.env.length = input.length := by rw [hb1]; simp
    obtain ⟨t2, c1, c2, c3, c4, c5⟩ := ihb { s with
      segments := s.segments ++ [⟨0, 0, none⟩], scope := { t1 with availD := none },
      counting := true } b0
      (by rw [hbl]; exact u2) rfl (by simp only [hcur, List.length_append, List.length_singleton]; omega)
      (by rw [hb2]; exact r2) hb3.symm (by rw [hb4]; exact hres)
    have hlen := (walk_counts (fun _ place => atPoints P place) body b0).2.2
    rw [hbl] at hlen
    obtain ⟨vo, o1, o2⟩ := wires_ok (walk (fun _ place => atPoints P place) body b0).env (l := output)
      (by rw [hlen]; exact u3)
    rw [hb5] at c5
    have hscalar : t2.result = scalarOf P input.length body := c5
    obtain ⟨C, hC⟩ : ∃ C, C = s.numCons + ownCons body + ((recordsOf P low body).map (·.numCons)).sum := ⟨_, rfl⟩
    obtain ⟨G, hG⟩ : ∃ G, G = s.numGates + ownGates false body +
      ((recordsOf P low body).map (·.numGates)).sum := ⟨_, rfl⟩
    replace c1 := c1.trans (ok_congr (g' := G) (c' := C)
      (l' := s.segments ++ ⟨ownGates false body, ownCons body, none⟩ :: recordsOf P low body)
      (by rw [hG, hb3]; rfl) (by rw [hC]) (by
        simp only [hcur, modify_append_middle, hb3, plus, Option.isSome_none, List.append_assoc,
          List.singleton_append, Nat.zero_add]) rfl)
    have e2 : update s.segments.length (fun r => ⟨r.numGates, r.numCons,
        some ⟨kinds.1, kinds.2, low t2.result, r.numGates, r.numCons⟩⟩)
        (s.segments ++ ⟨ownGates false body, ownCons body, none⟩ :: recordsOf P low body) =
        .ok (s.segments ++ recordsOf P low (.call kinds input body output .done)) := by
      rw [update_eq _ (by simp), modify_append_middle]
      simp only [recordsOf, fingerprintOf, countsOf_eq, hscalar, List.append_nil]
    obtain ⟨L, hL⟩ : ∃ L, L = s.segments ++ recordsOf P low (.call kinds input body output .done) := ⟨_, rfl⟩
    rw [← hL] at e2
    obtain ⟨t3, q1, q2, q3, q4⟩ := remap_eq P vo.length
      (⟨{ s.scope with availD := none }, C, G, L, false⟩ : FpCounter F) b.next rfl ha rfl
    obtain ⟨t, h1, h2⟩ := ih ⟨{ t3 with availD := s.scope.availD }, C, G, L, true⟩ { b with
      next := b.next + (output.length + 1) / 2, calls := b.calls + 1,
      env := b.env ++ (List.range output.length).map fun i => atPoints P (placeOf b.next i) }
      (by simpa using u4) rfl (by
        rw [hL]
        simp only [List.length_append]
        exact Nat.lt_of_lt_of_le (q3.symm ▸ hl) (Nat.le_add_right _ _)) (by rw [← o2]; exact q2) hd (q4.trans hr)
    refine ⟨t, ?_, h2.1.trans q3, h2.2⟩
    rw [hb1] at c1
    rw [i2] at r1
    rw [o2] at q1
    simp only [run, i1, bind, Except.bind, uncounted, i2, r1, pure, Except.pure, c1, o1, e2, o2, q1]
    refine Eq.trans (Eq.trans ?_ h1) ?_
    · simp only [List.map_append]
    · have hcur' : t3.current = s.scope.current := q3
      refine ok_congr ?_ ?_ ?_ rfl
      · simp only [hG, recordsOf, ownGates, countsOf_eq, List.map_cons, List.map_append, List.sum_cons,
          List.sum_append]
        omega
      · simp only [hC, recordsOf, ownCons, countsOf_eq, List.map_cons, List.map_append, List.sum_cons,
          List.sum_append]
        omega
      · simp only [hcur', hL]
        rw [modify_append_left _ _ hl]
        simp only [recordsOf, ownGates, ownCons, List.append_assoc, List.cons_append, List.append_nil]

end FpCounter
end Ragu.Circuit

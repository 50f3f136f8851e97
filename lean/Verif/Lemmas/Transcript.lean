/-
The transcript call by call, inside a longer circuit.
-/
import Verif.Model.Pcd.Internal
import Verif.Lemmas.Gadget.Sponge
import Verif.Lemmas.Gadget.Runs
import Verif.Lemmas.Builder

set_option linter.unusedSectionVars false

namespace Ragu.Pcd
open Ragu Ragu.Circuit Ragu.Gadget Ragu.Spec
variable {F : Type} [Field F] [DecidableEq F]

/-- A sponge that can be squeezed. -/
def Live (T : ℕ) : Mode F → Prop
  | .squeeze _ s => s.length = T
  | .absorb v s => v ≠ [] ∧ s.length = T

theorem Live.len {T : ℕ} {md : Mode F} (h : Live T md) : (Sponge.state md).length = T := by
  cases md with
  | squeeze v s => exact h
  | absorb v s => exact h.2

/-- A sponge that has just absorbed. -/
def Absorbed (T : ℕ) (md : Mode F) : Prop := ∃ v s, md = .absorb v s ∧ v ≠ [] ∧ s.length = T

theorem Absorbed.live {T : ℕ} {md : Mode F} (h : Absorbed T md) : Live T md := by
  obtain ⟨v, s, rfl, h1, h2⟩ := h
  exact ⟨h1, h2⟩

theorem absorbP_live {perm : List F → List F} {rate T : ℕ} (hr : 1 ≤ rate)
    (hp : ∀ l, (perm l).length = T) (x : F) {md : Mode F} (h : (Sponge.state md).length = T) :
    (SpongeSpec.absorbP perm rate x md).1 = .ok () ∧
      Absorbed T (SpongeSpec.absorbP perm rate x md).2 := by
  cases md with
  | squeeze v s =>
    rw [SpongeSpec.absorbP_squeeze hr]
    exact ⟨rfl, _, _, rfl, by simp, h⟩
  | absorb v s =>
    by_cases hl : v.length = rate
    · rw [SpongeSpec.absorbP_full hr x hl]
      exact ⟨rfl, _, _, rfl, by simp, hp _⟩
    · rw [SpongeSpec.absorbP_push x hl]
      exact ⟨rfl, _, _, rfl, by simp, h⟩

theorem squeezeP_live {perm : List F → List F} {rate T : ℕ} (hr : 1 ≤ rate) (hT : rate ≤ T)
    (hp : ∀ l, (perm l).length = T) {md : Mode F} (h : Live T md) :
    ∃ x md', SpongeSpec.squeezeP perm rate md = (.ok x, md') ∧ Live T md' := by
  cases md with
  | squeeze v s =>
    rcases List.eq_nil_or_concat v with rfl | ⟨v, x, rfl⟩
    · rw [SpongeSpec.squeezeP_empty, SpongeSpec.squeezeAgain_rate hr (by rw [hp]; exact hT)]
      exact ⟨_, _, rfl, hp _⟩
    · rw [List.concat_eq_append, SpongeSpec.squeezeP_pop]
      exact ⟨_, _, rfl, h⟩
  | absorb v s =>
    rw [SpongeSpec.squeezeP_absorb h.1, SpongeSpec.squeezeAgain_rate hr (by rw [hp]; exact hT)]
    exact ⟨_, _, rfl, hp _⟩

theorem nativeLength (p : PoseidonParams F) (l : List F) : (Poseidon.native p l).length = p.T := by
  simp [Poseidon.native]

/-- The transcript's state after some calls: `outs` are the challenges so far. -/
structure Follows (m : Prop) (p : PoseidonParams F) (start : Mode F) (ops : List (Sponge.Op F))
    (outs : List F) (t : Mode (Element F)) : Prop where
  run : SpongeSpec.run (Poseidon.native p) p.rate ops start =
    (outs.map .ok, Sponge.mapMode Element.wire t)
  len : (Sponge.state (Sponge.mapMode Element.wire t)).length = p.T
  honest : m → Sponge.HonestMode p.T t

variable {m : Prop} {p : PoseidonParams F} {start : Mode F} {ops : List (Sponge.Op F)}
  {outs : List F} {t : Mode (Element F)}

theorem runs_write (hp : Poseidon.WF p) (hr : 1 ≤ p.rate) {v : Element F} (hv : m → v.Honest)
    (ht : Follows m p start ops outs t) :
    Runs m (transcriptWrite p v t) (fun t' =>
      Follows m p start (ops ++ [.absorb v.wire]) outs t' ∧
        Absorbed p.T (Sponge.mapMode Element.wire t')) := by
  have hl := absorbP_live (perm := Poseidon.native p) hr (nativeLength p) v.wire ht.len
  have hb : Runs m (Sponge.absorb Element.add (Poseidon.permutation p) p.rate v t) (fun r =>
      (r.1, Sponge.mapMode Element.wire r.2) = SpongeSpec.absorbP (Poseidon.native p) p.rate v.wire
        (Sponge.mapMode Element.wire t) ∧ (m → Sponge.HonestMode p.T r.2)) :=
    ⟨fun hm r hr' => ⟨Sponge.absorb_sat (Poseidon.permutation_sat hp) hr', fun k => (hm k).elim⟩,
      fun hm => by
        obtain ⟨r, h1, h2⟩ := Sponge.absorb_sim (Poseidon.permutation_sim hp) (rate := p.rate)
          (hv hm) (ht.honest hm)
        exact ⟨r, h1, Sponge.absorb_sat (Poseidon.permutation_sat hp) (Syn.sim_sat h1), fun _ => h2⟩⟩
  rw [transcriptWrite]
  refine hb.bind fun r hr' => ?_
  obtain ⟨e, t'⟩ := r
  obtain ⟨h1, h2⟩ := hr'
  dsimp only at h1 h2 ⊢
  rw [← h1] at hl
  obtain ⟨rfl, hl⟩ := hl
  refine Runs.pure ⟨⟨?_, hl.live.len, h2⟩, hl⟩
  rw [SpongeSpec.run_append, ht.run]
  dsimp only
  rw [SpongeSpec.run_absorb, ← h1, SpongeSpec.run_nil, List.append_nil]

theorem runs_writeAll (hp : Poseidon.WF p) (hr : 1 ≤ p.rate) : ∀ (vs : List (Element F))
    (ops : List (Sponge.Op F)) (t : Mode (Element F)), vs ≠ [] → (m → ∀ v ∈ vs, v.Honest) →
    Follows m p start ops outs t →
    Runs m (transcriptWriteAll p vs t) (fun t' =>
      Follows m p start (ops ++ vs.map fun v => .absorb v.wire) outs t' ∧
        Absorbed p.T (Sponge.mapMode Element.wire t'))
  | [], _, _, h, _, _ => absurd rfl h
  | [v], ops, t, _, hv, ht => by
    rw [transcriptWriteAll]
    refine (runs_write hp hr (fun k => hv k v (by simp)) ht).bind fun t' ht' => ?_
    exact Runs.pure ht'
  | v :: v' :: vs, ops, t, _, hv, ht => by
    rw [transcriptWriteAll]
    refine (runs_write hp hr (fun k => hv k v (by simp)) ht).bind fun t' ht' => ?_
    have := runs_writeAll hp hr (v' :: vs) _ t' (by simp)
      (fun k e he => hv k e (List.mem_cons_of_mem _ he)) ht'.1
    rwa [List.append_assoc] at this

theorem runs_writePoint (hp : Poseidon.WF p) (hr : 1 ≤ p.rate) {v : Point F} (hv : m → v.Honest)
    (ht : Follows m p start ops outs t) :
    Runs m (transcriptWritePoint p v t) (fun t' =>
      Follows m p start (ops ++ [.absorb v.x.wire, .absorb v.y.wire]) outs t' ∧
        Absorbed p.T (Sponge.mapMode Element.wire t')) :=
  runs_writeAll hp hr [v.x, v.y] ops t (by simp) (fun k e he => by
    rcases List.mem_cons.1 he with rfl | he
    · exact (hv k).1
    · rw [List.mem_singleton.1 he]; exact (hv k).2) ht

theorem runs_new (hp : Poseidon.WF p) (hr : 1 ≤ p.rate) (tag : List UInt8) :
    Runs m (transcriptNew p tag) (fun t' =>
      Follows m p (Sponge.new 0 p.T) ((Transcript.tagElems tag).map .absorb) [] t' ∧
        Absorbed p.T (Sponge.mapMode Element.wire t')) := by
  have hnew : Sponge.mapMode Element.wire (Sponge.new (Element.zero (F := F)) p.T) =
      Sponge.new 0 p.T := by simp [Sponge.new, Sponge.mapMode]
  have := runs_writeAll (m := m) (start := Sponge.new 0 p.T) (outs := []) hp hr
    ((Transcript.tagElems tag).map Element.constant) [] (Sponge.new Element.zero p.T)
    (by simp [Transcript.tagElems]) (fun _ e he => by
      obtain ⟨a, -, rfl⟩ := List.mem_map.1 he
      simp [Element.Honest])
    ⟨by rw [hnew]; rfl, by rw [hnew]; simp [Sponge.new, Sponge.state], fun _ => ⟨by simp,
      fun e he => by rw [(List.mem_replicate.1 he).2]; simp [Element.Honest], by simp⟩⟩
  rw [transcriptNew]
  refine this.mono fun t' ht' => ?_
  rw [List.nil_append, List.map_map] at ht'
  have he : ((fun v : Element F => Sponge.Op.absorb v.wire) ∘ Element.constant) =
      (Sponge.Op.absorb : F → Sponge.Op F) := by funext a; simp
  rwa [he] at ht'

theorem runs_challenge (hp : Poseidon.WF p) (hr : 1 ≤ p.rate) (hT : p.rate ≤ p.T)
    (ht : Follows m p start ops outs t) (hl : Live p.T (Sponge.mapMode Element.wire t)) :
    Runs m (transcriptChallenge p t) (fun r =>
      Follows m p start (ops ++ [.squeeze]) (outs ++ [r.1.wire]) r.2 ∧
        Live p.T (Sponge.mapMode Element.wire r.2) ∧ (m → r.1.Honest)) := by
  obtain ⟨x, md', hx, hl'⟩ := squeezeP_live (perm := Poseidon.native p) hr hT (nativeLength p) hl
  have hb : Runs m (Sponge.squeeze Element.add (Poseidon.permutation p) p.rate t) (fun r =>
      (r.1.map Element.wire, Sponge.mapMode Element.wire r.2) =
        SpongeSpec.squeezeP (Poseidon.native p) p.rate (Sponge.mapMode Element.wire t) ∧
      (m → Sponge.HonestMode p.T r.2 ∧ ∀ e, r.1 = .ok e → e.Honest)) :=
    ⟨fun hm r hr' => ⟨Sponge.squeeze_sat (Poseidon.permutation_sat hp) hr', fun k => (hm k).elim⟩,
      fun hm => by
        obtain ⟨r, h1, h2⟩ := Sponge.squeeze_sim (Poseidon.permutation_sim hp) (rate := p.rate)
          (ht.honest hm)
        exact ⟨r, h1, Sponge.squeeze_sat (Poseidon.permutation_sat hp) (Syn.sim_sat h1),
          fun _ => h2⟩⟩
  rw [transcriptChallenge]
  refine hb.bind fun r hr' => ?_
  obtain ⟨e, t'⟩ := r
  obtain ⟨h1, h2⟩ := hr'
  dsimp only at h1 h2 ⊢
  cases e with
  | error e =>
    rw [hx] at h1
    simp [Except.map] at h1
  | ok c =>
    dsimp only at h2 ⊢
    have h3 : c.wire = x ∧ Sponge.mapMode Element.wire t' = md' := by
      rw [hx] at h1
      simpa [Except.map] using h1
    refine Runs.pure ⟨⟨?_, ?_, fun k => (h2 k).1⟩, ?_, fun k => (h2 k).2 c rfl⟩
    · rw [SpongeSpec.run_append, ht.run]
      dsimp only
      rw [SpongeSpec.run_squeeze, hx, SpongeSpec.run_nil, h3.1, h3.2]
      simp
    · rw [h3.2]; exact hl'.len
    · rw [h3.2]; exact hl'

/-- Natively saving a sponge that ended with an absorb. -/
theorem runs_save (hp : Poseidon.WF p) (ht : Follows m p start ops outs t)
    (hl : Absorbed p.T (Sponge.mapMode Element.wire t)) :
    Runs m (transcriptSave p t) (fun s =>
      Sponge.saveState (M := Id) (· + ·) (Poseidon.native p) p.rate (Sponge.mapMode Element.wire t) =
        .ok (s.map Element.wire) ∧ s.length = p.T ∧ (m → ∀ e ∈ s, e.Honest)) := by
  obtain ⟨v, s, rfl⟩ : ∃ v s, t = .absorb v s := by
    obtain ⟨v, s, h, -⟩ := hl
    cases t with
    | squeeze v s => simp [Sponge.mapMode] at h
    | absorb v s => exact ⟨v, s, rfl⟩
  have hv : v.isEmpty = false := by
    have : v.map Element.wire ≠ [] := hl.live.1
    cases v with
    | nil => simp at this
    | cons a l => rfl
  have hv' : (v.map Element.wire).isEmpty = false := by
    cases v with
    | nil => simp at hv
    | cons a l => rfl
  have hb : Runs m (Sponge.permute Element.add (Poseidon.permutation p) p.rate (.absorb v s))
      (fun r => Sponge.mapMode Element.wire r = Sponge.permute (M := Id) (· + ·) (Poseidon.native p)
        p.rate (Sponge.mapMode Element.wire (.absorb v s)) ∧ (m → Sponge.HonestMode p.T r)) :=
    ⟨fun hm r hr' => ⟨Sponge.permute_sat (Poseidon.permutation_sat hp) hr', fun k => (hm k).elim⟩,
      fun hm => by
        obtain ⟨r, h1, h2, -⟩ := Sponge.permute_sim (Poseidon.permutation_sim hp) (rate := p.rate)
          (ht.honest hm)
        exact ⟨r, h1, Sponge.permute_sat (Poseidon.permutation_sat hp) (Syn.sim_sat h1),
          fun _ => h2⟩⟩
  rw [transcriptSave, Sponge.saveState, if_neg (by simp [hv]), Syn.bind_assoc]
  refine hb.bind fun r hr' => ?_
  rw [Syn.pure_bind]
  refine Runs.pure ⟨?_, ?_, fun k => ?_⟩
  · show Sponge.saveState (M := Id) (· + ·) (Poseidon.native p) p.rate
      (.absorb (v.map Element.wire) (s.map Element.wire)) = _
    rw [Sponge.saveState, if_neg (by simp [hv']), ← Sponge.state_map, hr'.1]
    rfl
  · have := congrArg (fun md => (Sponge.state md).length) hr'.1
    simp only [Sponge.state_map, List.length_map] at this
    rw [this]
    show (Sponge.state (Sponge.permute (M := Id) (· + ·) (Poseidon.native p) p.rate
      (.absorb (v.map Element.wire) (s.map Element.wire)))).length = _
    rw [SpongeSpec.permute_absorb]
    exact nativeLength p _
  · have := hr'.2 k
    cases r with
    | squeeze v s => exact this.2.1
    | absorb v s => exact this.2.1

theorem runs_enforceEqualStates : ∀ (a b : List (Element F)), a.length = b.length →
    (m → a.map Element.wire = b.map Element.wire) →
    Runs m (Transcript.enforceEqualStates a b) (fun _ => a.map Element.wire = b.map Element.wire)
  | [], [], _, _ => Runs.pure rfl
  | [], _ :: _, h, _ => by simp at h
  | _ :: _, [], h, _ => by simp at h
  | a :: as, b :: bs, h, hm => by
    rw [Transcript.enforceEqualStates]
    refine (Runs.enforceEqual fun k => ?_).bind fun _ h1 => ?_
    · have := hm k
      rw [List.map_cons, List.map_cons, List.cons.injEq] at this
      exact this.1
    · refine (runs_enforceEqualStates as bs (by simpa using h) fun k => ?_).mono fun _ h2 => ?_
      · have := hm k
        rw [List.map_cons, List.map_cons, List.cons.injEq] at this
        exact this.2
      · rw [List.map_cons, List.map_cons, h1, h2]

end Ragu.Pcd

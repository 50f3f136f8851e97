/-
What a run of a fuse gives.
-/
import Verif.Lemmas.Complete
import Verif.Model.Pcd.Prover

set_option linter.unusedSectionVars false

namespace Ragu.Props
open Ragu Ragu.Circuit Ragu.Registry Ragu.Spec Ragu.Gadget Ragu.Pcd Finset
variable {F G HC : Type} [Field F] [DecidableEq F] [Field G] [DecidableEq G]

/-! ### The transcript -/

section
variable {m : Prop} {p : PoseidonParams F} {start : Mode F} {ops : List (Sponge.Op F)}
  {outs : List F} {t : Mode (Element F)}

theorem runs_writeCommitment (hp : Poseidon.WF p) (hr : 1 ≤ p.rate) (c : F × F)
    (ht : Follows m p start ops outs t) :
    Runs m (transcriptWriteCommitment p (some c) t) (fun t' =>
      Follows m p start (ops ++ [.absorb c.1, .absorb c.2]) outs t' ∧
        Absorbed p.T (Sponge.mapMode Element.wire t')) := by
  have := runs_writePoint hp hr (v := ⟨Element.constant c.1, Element.constant c.2⟩)
    (fun _ => ⟨by simp [Element.Honest], by simp [Element.Honest]⟩) ht
  simp only [Element.constant_wire] at this
  exact this

theorem emulate_writeCommitment {c : Option (F × F)} {t' : Mode (Element F)}
    (h : Pcd.emulate (transcriptWriteCommitment p c t) = .ok t') : c ≠ none := by
  rintro rfl
  cases h

theorem transcript_points {tag : List UInt8} {q : Proof F G HC} {r : Challenges F × List F}
    (h : Pcd.emulate (proverTranscript p tag q) = .ok r) : none ∉ bridgePoints q := by
  simp only [proverTranscript, emulate_bind] at h
  obtain ⟨_, -, _, h1, _, -, _, h2, _, -, _, -, _, h3, _, -, _, -, _, -, _, h4, _, -, _, -, _, h5, _, -,
    _, h6, _, -, _, h7, _, -, _, h8, -⟩ := h
  simp only [bridgePoints, List.mem_cons, List.not_mem_nil, or_false, not_or]
  exact ⟨(emulate_writeCommitment h1).symm, (emulate_writeCommitment h2).symm,
    (emulate_writeCommitment h3).symm, (emulate_writeCommitment h4).symm,
    (emulate_writeCommitment h5).symm, (emulate_writeCommitment h6).symm,
    (emulate_writeCommitment h7).symm, (emulate_writeCommitment h8).symm⟩

theorem bridge_some {q : Proof F G HC} (h : none ∉ bridgePoints q) :
    q.preamble.bridge.commitment = some (proofPublic q).bridgePreamble ∧
    q.sPrime.bridge.commitment = some (proofPublic q).bridgeSPrime ∧
    q.innerError.bridge.commitment = some (proofPublic q).bridgeInnerError ∧
    q.outerError.bridge.commitment = some (proofPublic q).bridgeOuterError ∧
    q.ab.bridge.commitment = some (proofPublic q).bridgeAb ∧
    q.query.bridge.commitment = some (proofPublic q).bridgeQuery ∧
    q.f.bridge.commitment = some (proofPublic q).bridgeF ∧
    q.eval.bridge.commitment = some (proofPublic q).bridgeEval := by
  have hx : ∀ c ∈ bridgePoints q, c = some (c.getD (0, 0)) := by
    intro c hc
    cases c with
    | none => exact absurd hc h
    | some q => rfl
  simp only [bridgePoints, List.forall_mem_cons] at hx
  obtain ⟨h1, h2, h3, h4, h5, h6, h7, h8, -⟩ := hx
  exact ⟨h1, h2, h3, h4, h5, h6, h7, h8⟩

/-- The challenges in order. -/
def challengeList (c : Challenges F) : List F :=
  [c.w, c.y, c.z, c.mu, c.nu, c.muPrime, c.nuPrime, c.x, c.alpha, c.u, c.preBeta]

theorem runs_transcript (hp : Poseidon.WF p) (hr : 1 ≤ p.rate) (hT : p.rate ≤ p.T)
    (tag : List UInt8) {q : Proof F G HC} (h : none ∉ bridgePoints q) :
    Runs True (proverTranscript p tag q) (fun r =>
      (SpongeSpec.run (Poseidon.native p) p.rate (Transcript.proverOps (Transcript.tagElems tag)
        (publicCommitments (proofPublic q))) (Sponge.new 0 p.T)).1 = (challengeList r.1).map .ok ∧
      r.2.length = p.T ∧
      ∃ outs md, SpongeSpec.run (Poseidon.native p) p.rate (Transcript.hashes1Ops
        (Transcript.tagElems tag) (publicCommitments (proofPublic q))) (Sponge.new 0 p.T) = (outs, md) ∧
        saveP (Poseidon.native p) p.rate md = .ok r.2) := by
  obtain ⟨e1, e2, e3, e4, e5, e6, e7, e8⟩ := bridge_some h
  rw [proverTranscript, e1, e2, e3, e4, e5, e6, e7, e8]
  refine (runs_new hp hr tag).bind fun t ht => ?_
  refine (runs_writeCommitment hp hr _ ht.1).bind fun t ht => ?_
  refine (runs_challenge hp hr hT ht.1 ht.2.live).bind fun ⟨w, t⟩ ⟨ht, hl, hw⟩ => ?_
  refine (runs_writeCommitment hp hr _ ht).bind fun t ht => ?_
  refine (runs_challenge hp hr hT ht.1 ht.2.live).bind fun ⟨y, t⟩ ⟨ht, hl, hy⟩ => ?_
  refine (runs_challenge hp hr hT ht hl).bind fun ⟨z, t⟩ ⟨ht, hl, hz⟩ => ?_
  refine (runs_writeCommitment hp hr _ ht).bind fun t ht => ?_
  have hfirst := ht.1.run
  refine (runs_save hp ht.1 ht.2).bind fun state hst => ?_
  refine (runs_challenge hp hr hT ht.1 ht.2.live).bind fun ⟨mu, t⟩ ⟨ht, hl, hmu⟩ => ?_
  refine (runs_challenge hp hr hT ht hl).bind fun ⟨nu, t⟩ ⟨ht, hl, hnu⟩ => ?_
  refine (runs_writeCommitment hp hr _ ht).bind fun t ht => ?_
  refine (runs_challenge hp hr hT ht.1 ht.2.live).bind fun ⟨mu', t⟩ ⟨ht, hl, hmu'⟩ => ?_
  refine (runs_challenge hp hr hT ht hl).bind fun ⟨nu', t⟩ ⟨ht, hl, hnu'⟩ => ?_
  refine (runs_writeCommitment hp hr _ ht).bind fun t ht => ?_
  refine (runs_challenge hp hr hT ht.1 ht.2.live).bind fun ⟨x, t⟩ ⟨ht, hl, hx⟩ => ?_
  refine (runs_writeCommitment hp hr _ ht).bind fun t ht => ?_
  refine (runs_challenge hp hr hT ht.1 ht.2.live).bind fun ⟨alpha, t⟩ ⟨ht, hl, ha⟩ => ?_
  refine (runs_writeCommitment hp hr _ ht).bind fun t ht => ?_
  refine (runs_challenge hp hr hT ht.1 ht.2.live).bind fun ⟨u, t⟩ ⟨ht, hl, hu⟩ => ?_
  refine (runs_writeCommitment hp hr _ ht).bind fun t ht => ?_
  refine (runs_challenge hp hr hT ht.1 ht.2.live).bind fun ⟨b, t⟩ ⟨ht, hl, hb⟩ => Runs.pure ?_
  dsimp only at *
  have hval : ∀ e : Element F, (True → e.Honest) → e.value = e.wire := fun e he => he trivial
  have h2 : state.map (fun e : Element F => e.value) = state.map Element.wire :=
    List.map_congr_left fun e he => hst.2.2 trivial e he
  refine ⟨?_, by rw [List.length_map]; exact hst.2.1, _, _, Eq.trans
    (congrArg (fun l => SpongeSpec.run (Poseidon.native p) p.rate l (Sponge.new 0 p.T)) ?_) hfirst,
    by rw [h2]; exact hst.1⟩
  · rw [hval w hw, hval y hy, hval z hz, hval mu hmu, hval nu hnu, hval mu' hmu', hval nu' hnu',
      hval x hx, hval alpha ha, hval u hu, hval b hb]
    have := congrArg Prod.fst ht.run
    refine Eq.trans (congrArg (fun l => (SpongeSpec.run _ _ l _).1) ?_) this
    simp [Transcript.proverOps, Transcript.newOps, Transcript.writePoint, publicCommitments]
  · simp [Transcript.hashes1Ops, Transcript.newOps, Transcript.writePoint, publicCommitments]

/-- The prover's challenges and saved state are those that the circuits compute. -/
theorem transcript_holds (hp : Poseidon.WF p) (hr : 1 ≤ p.rate) (hT : p.rate ≤ p.T)
    {tag : List UInt8} {q : Proof F G HC} {state : List F}
    (h : Pcd.emulate (proverTranscript p tag q) = .ok (q.challenges, state)) :
    none ∉ bridgePoints q ∧ state.length = p.T ∧
    duplex (Poseidon.native p) p.rate (List.replicate p.T 0)
      ((proofPublic q).phases (Transcript.tagElems tag)) = (proofPublic q).challenges.map some ∧
    ∃ outs md, SpongeSpec.run (Poseidon.native p) p.rate (Transcript.hashes1Ops
        (Transcript.tagElems tag) (publicCommitments (proofPublic q))) (Sponge.new 0 p.T) = (outs, md) ∧
      saveP (Poseidon.native p) p.rate md = .ok state := by
  have hn := transcript_points h
  obtain ⟨r, h1, h2, h3, h4⟩ := (runs_transcript hp hr hT tag hn).complete trivial
  rw [emulate_of_sim h1, Except.ok.injEq] at h
  subst h
  refine ⟨hn, h3, ?_, h4⟩
  obtain ⟨outs, d1, d2⟩ := duplex_run hr hT (Transcript.tagElems tag) (proofPublic q)
  rw [h2] at d2
  rw [d1, ← map_ok_inj d2]
  rfl
end

end Ragu.Props

/-
Properties C23, C24, C25 and C60: the circuit registry.
-/
import Mathlib.Tactic.NormNum.Prime
import Verif.Lemmas.Registry
import Verif.Lemmas.TestField

set_option linter.unusedSectionVars false

namespace Ragu.Props
open Ragu Ragu.Circuit Ragu.Registry Ragu.Spec Finset
variable {F : Type} [Field F] [DecidableEq F]

/-! ### Registration histories -/

/-- One call on a registry builder. -/
inductive Reg (F : Type) where
  | internalCircuit (c : Circ F)
  | bonding (o : CircuitObject F)
  | internalStep (c : Circ F)
  | application (c : Circ F)

/-- The builder after one more call. -/
def Reg.apply (n : ℕ) (b : Builder F) : Reg F → Except Err (Builder F)
  | .internalCircuit c => b.registerInternalCircuit n c
  | .bonding o => .ok (b.registerBonding o)
  | .internalStep c => b.registerInternalStep n c
  | .application c => b.registerCircuit n c

/-- The builder after a history of calls on an empty builder; the first failing call ends it. -/
def build (n : ℕ) : List (Reg F) → Builder F → Except Err (Builder F)
  | [], b => .ok b
  | g :: gs, b => do
    let b' ← g.apply n b
    build n gs b'

/-- The circuits of each category, in the order of their registration. -/
def Reg.internalCircuits (h : List (Reg F)) : List (Circ F) :=
  h.filterMap fun | .internalCircuit c => some c | _ => none
/-- The bonding polynomials, in the order of their registration. -/
def Reg.bondings (h : List (Reg F)) : List (CircuitObject F) :=
  h.filterMap fun | .bonding o => some o | _ => none
/-- The internal steps, in the order of their registration. -/
def Reg.internalSteps (h : List (Reg F)) : List (Circ F) :=
  h.filterMap fun | .internalStep c => some c | _ => none
/-- The application steps, in the order of their registration. -/
def Reg.applications (h : List (Reg F)) : List (Circ F) :=
  h.filterMap fun | .application c => some c | _ => none

/-- `os` are the objects compiled from the circuits `cs`. -/
def Compiled (n : ℕ) (cs : List (Circ F)) (os : List (CircuitObject F)) : Prop :=
  List.Forall₂ (fun c o => circuitObject n c = .ok o) cs os

theorem compiled_append {n : ℕ} {cs : List (Circ F)} {os : List (CircuitObject F)}
    (h : Compiled n cs os) {c : Circ F} {o : CircuitObject F} (ho : circuitObject n c = .ok o) :
    Compiled n (cs ++ [c]) (os ++ [o]) := by
  rw [Compiled] at *
  induction h with
  | nil => exact .cons ho .nil
  | cons h1 _ ih => exact .cons h1 ih

theorem build_spec {n : ℕ} : ∀ (h : List (Reg F)) (b b' : Builder F) (h0 : List (Reg F)),
    build n h b = .ok b' → Compiled n (Reg.internalCircuits h0) b.internalCircuits →
    Reg.bondings h0 = b.bonding → Compiled n (Reg.internalSteps h0) b.internalSteps →
    Compiled n (Reg.applications h0) b.applicationSteps →
    Compiled n (Reg.internalCircuits (h0 ++ h)) b'.internalCircuits ∧
      Reg.bondings (h0 ++ h) = b'.bonding ∧
      Compiled n (Reg.internalSteps (h0 ++ h)) b'.internalSteps ∧
      Compiled n (Reg.applications (h0 ++ h)) b'.applicationSteps
  | [], b, b', h0, hb, h1, h2, h3, h4 => by
    cases hb
    simpa using ⟨h1, h2, h3, h4⟩
  | g :: gs, b, b', h0, hb, h1, h2, h3, h4 => by
    rw [build] at hb
    rcases hg : g.apply n b with e | b1
    · rw [hg] at hb; cases hb
    · rw [hg] at hb
      have hb : build n gs b1 = .ok b' := hb
      rw [show h0 ++ g :: gs = (h0 ++ [g]) ++ gs by simp]
      have key : Compiled n (Reg.internalCircuits (h0 ++ [g])) b1.internalCircuits ∧
          Reg.bondings (h0 ++ [g]) = b1.bonding ∧
          Compiled n (Reg.internalSteps (h0 ++ [g])) b1.internalSteps ∧
          Compiled n (Reg.applications (h0 ++ [g])) b1.applicationSteps := by
        cases g with
        | internalCircuit c =>
          rw [Reg.apply, Builder.registerInternalCircuit] at hg
          rcases ho : circuitObject n c with e | o
          · rw [ho] at hg; cases hg
          · rw [ho] at hg; cases hg
            simp only [Reg.internalCircuits, Reg.bondings, Reg.internalSteps, Reg.applications,
              List.filterMap_append, List.filterMap_cons, List.filterMap_nil, List.append_nil]
            exact ⟨compiled_append h1 ho, h2, h3, h4⟩
        | bonding o =>
          cases hg
          simp only [Reg.internalCircuits, Reg.bondings, Reg.internalSteps, Reg.applications,
            List.filterMap_append, List.filterMap_cons, List.filterMap_nil, List.append_nil]
          refine ⟨h1, ?_, h3, h4⟩
          rw [Reg.bondings] at h2
          rw [Builder.registerBonding, h2]
        | internalStep c =>
          rw [Reg.apply, Builder.registerInternalStep] at hg
          rcases ho : circuitObject n c with e | o
          · rw [ho] at hg; cases hg
          · rw [ho] at hg; cases hg
            simp only [Reg.internalCircuits, Reg.bondings, Reg.internalSteps, Reg.applications,
              List.filterMap_append, List.filterMap_cons, List.filterMap_nil, List.append_nil]
            exact ⟨h1, h2, compiled_append h3 ho, h4⟩
        | application c =>
          rw [Reg.apply, Builder.registerCircuit] at hg
          rcases ho : circuitObject n c with e | o
          · rw [ho] at hg; cases hg
          · rw [ho] at hg; cases hg
            simp only [Reg.internalCircuits, Reg.bondings, Reg.internalSteps, Reg.applications,
              List.filterMap_append, List.filterMap_cons, List.filterMap_nil, List.append_nil]
            exact ⟨h1, h2, h3, compiled_append h4 ho⟩
      exact build_spec gs b1 b' (h0 ++ [g]) hb key.1 key.2.1 key.2.2.1 key.2.2.2

/-! ### Finalisation -/

theorem log2_eq (b : Builder F) : b.log2Circuits = Nat.clog 2 b.numCircuits := by
  rw [Builder.log2Circuits, Fft.nextPow2, Nat.log_pow (by norm_num)]

/-- All circuits of a builder, in registry order. -/
def allCircuits (b : Builder F) : List (CircuitObject F) :=
  b.internalCircuits ++ b.bonding ++ b.internalSteps ++ b.applicationSteps

theorem allCircuits_length (b : Builder F) : (allCircuits b).length = b.numCircuits := by
  simp only [allCircuits, List.length_append, Builder.numCircuits, Builder.numInternalCircuits]
  omega

theorem provisional_good {E : Env F} (hE : EnvOk E) {n : ℕ} {b : Builder F}
    (hcap : b.numCircuits ≤ 4 * n) {q : ℕ} (hq : 4 * n = 2 ^ q) (hqS : q ≤ E.consts.S)
    (hkeys : KeysDistinct E (Nat.clog 2 b.numCircuits)) :
    ∃ r, b.provisional E = some r ∧ Good E n (Nat.clog 2 b.numCircuits) r ∧
      r.circuits = allCircuits b ∧ r.key = 1 := by
  have hk : Nat.clog 2 b.numCircuits ≤ q := by
    rw [hq] at hcap
    exact (Nat.clog_le_iff_le_pow (by norm_num)).2 hcap
  obtain ⟨d, hd, hg⟩ := Fft.Domain.new_good (consts_ok hE) (hk.trans hqS)
  have hlen := allCircuits_length b
  refine ⟨_, by rw [Builder.provisional, log2_eq, hd, Option.map_some], ?_, rfl, rfl⟩
  exact {
    env := hE
    hk := hk.trans hqS
    dom := hd
    len := by
      change (allCircuits b).length ≤ _
      rw [hlen]; exact Nat.le_pow_clog (by norm_num) _
    cap := by rw [hq]; exact Nat.pow_le_pow_right (by norm_num) hk
    plans := rfl
    table := rfl
    keys := hkeys }

/-- What is known of the objects in a registry: each implements a polynomial. -/
def AllImplement (n : ℕ) (os : List (CircuitObject F)) (ss : List (F → F → F)) : Prop :=
  List.Forall₂ (Implements n) os ss

theorem allImplement_get {n : ℕ} {os : List (CircuitObject F)} {ss : List (F → F → F)}
    (h : AllImplement n os ss) {i : ℕ} {o : CircuitObject F} (ho : os[i]? = some o) :
    ∃ s, ss[i]? = some s ∧ Implements n o s := by
  have hi := (List.getElem?_eq_some_iff.1 ho).1
  have hl : os.length = ss.length := List.Forall₂.length_eq h
  refine ⟨ss[i]'(by omega), List.getElem?_eq_getElem (by omega), ?_⟩
  have := List.Forall₂.get h hi (by omega)
  rw [(List.getElem?_eq_some_iff.1 ho).2.symm]
  exact this

theorem wxy_value {E : Env F} {n k : ℕ} {r : Registry F} (h : Good E n k r)
    {ss : List (F → F → F)} (hs : AllImplement n r.circuits ss) (w x y : F) :
    r.wxy E n w x y = some (registryAt n (2 ^ k) (omegaJ E) ss r.key w x y) := by
  rw [registryAt_eq h ss (List.Forall₂.length_eq hs).symm]
  refine wxy_spec h w x y (fun i => (ss[i]?.map fun s => s x y).getD 0) fun i o ho => ?_
  obtain ⟨s, h1, h2⟩ := allImplement_get hs ho
  rw [h2.sxy, h1]; rfl

theorem digestLoop_ok {E : Env F} {n k : ℕ} {r : Registry F} (h : Good E n k r)
    {ss : List (F → F → F)} (hs : AllImplement n r.circuits ss) : ∀ (m : ℕ) (buf : List ℕ) (w x y : F),
    ∃ d, r.digestLoop E n m buf w x y = some d
  | 0, buf, _, _, _ => ⟨buf, rfl⟩
  | m + 1, buf, w, x, y => by
    rw [Registry.digestLoop, wxy_value h hs, Option.bind_some]
    exact digestLoop_ok h hs m _ _ _ _

/-- The hypotheses under which a builder can be finalised and the result is described. `q` is
the logarithm of the capacity: ranks are powers of two, and the field must have a domain of that
size. -/
structure Ready (E : Env F) (n q : ℕ) (b : Builder F) (ss : List (F → F → F)) : Prop where
  env : EnvOk E
  rank : 4 * n = 2 ^ q
  room : q ≤ E.consts.S
  keys : KeysDistinct E q
  objects : AllImplement n (allCircuits b) ss

theorem Ready.keys' {E : Env F} {n q : ℕ} {b : Builder F} {ss : List (F → F → F)}
    (h : Ready E n q b ss) (hcap : b.numCircuits ≤ 4 * n) :
    KeysDistinct E (Nat.clog 2 b.numCircuits) := by
  have hk : Nat.clog 2 b.numCircuits ≤ q := by
    rw [h.rank] at hcap
    exact (Nat.clog_le_iff_le_pow (by norm_num)).2 hcap
  intro a c ha hc
  obtain ⟨m, hm⟩ := Nat.exists_eq_add_of_le hk
  refine h.keys a c ?_ ?_
  · rw [hm, pow_add, pow_mul, ha, one_pow]
  · rw [hm, pow_add, pow_mul, hc, one_pow]

theorem finalize_good {E : Env F} {n q : ℕ} {b : Builder F} {ss : List (F → F → F)}
    (h : Ready E n q b ss) (hcap : b.numCircuits ≤ 4 * n) :
    ∃ r, b.finalize E n = .ok r ∧ Good E n (Nat.clog 2 b.numCircuits) r ∧
      r.circuits = allCircuits b := by
  obtain ⟨r, h1, h2, h3, -⟩ := provisional_good h.env hcap h.rank h.room (h.keys' hcap)
  obtain ⟨d, hd⟩ := digestLoop_ok h2 (by rw [h3]; exact h.objects) 6 [] 2 3 5
  refine ⟨{ r with
    key := fieldFromHash E (E.blake d) 0 }, ?_, ⟨h2.env, h2.hk, h2.dom, h2.len, h2.cap, h2.plans, h2.table, h2.keys⟩, h3⟩
  rw [Builder.finalize, if_neg (by omega), h1]
  simp only [Registry.computeDigest, hd, Option.map_some]

theorem finalize_cases {E : Env F} {n q : ℕ} {b : Builder F} {ss : List (F → F → F)}
    (h : Ready E n q b ss) {r : Registry F} (hr : b.finalize E n = .ok r) :
    b.numCircuits ≤ 4 * n ∧ Good E n (Nat.clog 2 b.numCircuits) r ∧ r.circuits = allCircuits b := by
  have hcap : b.numCircuits ≤ 4 * n := by
    by_contra hc
    rw [Builder.finalize, if_pos (by omega)] at hr; cases hr
  obtain ⟨r', h1, h2, h3⟩ := finalize_good h hcap
  rw [hr] at h1; cases h1
  exact ⟨hcap, h2, h3⟩

/-- The polynomial of a compiled circuit. -/
def wiringOf (n : ℕ) (c : Circ F) : F → F → F := wiringAt n (floorPlan c.counts) c

theorem compiled_implements {n : ℕ} {cs : List (Circ F)} {os : List (CircuitObject F)}
    (h : Compiled n cs os) (hu : ∀ c ∈ cs, c.WellUsed) :
    AllImplement n os (cs.map (wiringOf n)) := by
  rw [Compiled] at h
  induction h with
  | nil => exact .nil
  | @cons c o cs os h1 _ ih =>
    refine .cons ?_ (ih fun c hc => hu c (by simp [hc]))
    have h2 := circuit_implements (hu c (by simp)) h1
    obtain ⟨m, hm, rfl⟩ := circuitObject_ok h1
    have h3 := (registered (hu c (by simp)) hm).2.2
    simpa only [intoRawCircuitObject, h3, wiringOf] using h2

theorem allImplement_append {n : ℕ} {os os' : List (CircuitObject F)} {ss ss' : List (F → F → F)}
    (h : AllImplement n os ss) (h' : AllImplement n os' ss') :
    AllImplement n (os ++ os') (ss ++ ss') := by
  rw [AllImplement] at *
  induction h with
  | nil => exact h'
  | cons h1 _ ih => exact .cons h1 ih

/-- The polynomials of a registration history, in registry order; `bs` are those of the bonding
objects. -/
def polysOf (n : ℕ) (hist : List (Reg F)) (bs : List (F → F → F)) : List (F → F → F) :=
  (Reg.internalCircuits hist).map (wiringOf n) ++ bs ++ (Reg.internalSteps hist).map (wiringOf n) ++
    (Reg.applications hist).map (wiringOf n)

/-- Every builder reached by registering well-formed circuits satisfies the hypotheses of the
theorems below. -/
theorem ready_of_history {E : Env F} (hE : EnvOk E) {n q : ℕ} (hq : 4 * n = 2 ^ q)
    (hqS : q ≤ E.consts.S) (hk : KeysDistinct E q) (hist : List (Reg F))
    (hu : ∀ c, c ∈ Reg.internalCircuits hist ∨ c ∈ Reg.internalSteps hist ∨
      c ∈ Reg.applications hist → c.WellUsed) {bs : List (F → F → F)}
    (hbs : AllImplement n (Reg.bondings hist) bs) {b : Builder F}
    (hb : build n hist {} = .ok b) : Ready E n q b (polysOf n hist bs) := by
  obtain ⟨h1, h2, h3, h4⟩ := build_spec hist {} b [] hb .nil rfl .nil .nil
  rw [List.nil_append] at h1 h2 h3 h4
  refine ⟨hE, hq, hqS, hk, ?_⟩
  rw [h2] at hbs
  exact allImplement_append (allImplement_append (allImplement_append
    (compiled_implements h1 fun c hc => hu c (.inl hc)) hbs)
    (compiled_implements h3 fun c hc => hu c (.inr (.inl hc))))
    (compiled_implements h4 fun c hc => hu c (.inr (.inr hc)))

/-! ### A concrete registry used below to show that hypotheses can be met -/

/-- The field of 97 elements has a domain of size 32. -/
def env97 : Env (ZMod 97) where
  consts := ⟨5, 19, 46, 49⟩
  threads := 3
  lowU64 := ZMod.val
  blake l := l.reverse
  toRepr f := [f.val]
  fromUniform l := (l.sum : ℕ)

theorem env97_ok : EnvOk env97 := by
  refine ⟨⟨?_, by decide +kernel, by decide +kernel⟩, by decide, by decide⟩
  have h : (19 : ZMod 97) ^ 2 ^ 4 ≠ 1 := by decide +kernel
  have h' : (19 : ZMod 97) ^ 2 ^ (4 + 1) = 1 := by decide +kernel
  have := IsPrimitiveRoot.orderOf (19 : ZMod 97)
  rwa [orderOf_eq_prime_pow h h'] at this

theorem env97_keys : KeysDistinct env97 5 := by
  intro a b _ _ h
  have h := ZMod.val_injective 97 h
  have h5 : (5 : ZMod 97) ≠ 0 := by decide
  refine mul_left_cancel₀ h5 ?_
  linear_combination h

/-- Five registrations, interleaved. -/
def demoHist : List (Reg (ZMod 97)) :=
  [.application demo, .bonding ((StageMask.mk 2 3).object 8), .internalCircuit demo,
    .internalStep demo, .application demo]

theorem demo_object : ∃ o, circuitObject 8 demo = .ok o :=
  ⟨_, show (intoCircuitObject 8 demo).map (intoRawCircuitObject 8 demo) = _ from rfl⟩

theorem demo_build : ∃ b, build 8 demoHist {} = .ok b ∧ b.numCircuits = 5 ∧
    Ready env97 8 5 b (polysOf 8 demoHist [maskAt 8 2 3]) := by
  obtain ⟨o, ho⟩ := demo_object
  have hb : build 8 demoHist {} = .ok ⟨[o], [(StageMask.mk 2 3).object 8], [o], [o, o]⟩ := by
    simp only [demoHist, build, Reg.apply, Builder.registerCircuit, Builder.registerInternalCircuit,
      Builder.registerInternalStep, Builder.registerBonding, ho]
    rfl
  refine ⟨_, hb, rfl, ready_of_history env97_ok (by norm_num) (by decide) env97_keys _ ?_ ?_ hb⟩
  · intro c hc
    have : c = demo := by
      simpa [demoHist, Reg.internalCircuits, Reg.internalSteps, Reg.applications] using hc
    rw [this]; exact demo_wellUsed
  · exact .cons (mask_implements (by decide) (by decide)) .nil

/-! ### C25 -/

/-- C25: after any history of registrations, in any interleaving, the registry lists the internal
circuits, the bonding polynomials, the internal steps and the application steps, each in the order
of their registration. -/
theorem C25_order {E : Env F} {n : ℕ} (hist : List (Reg F)) {b : Builder F}
    (hb : build n hist {} = .ok b) {r : Registry F} (hr : b.finalize E n = .ok r) :
    ∃ is ts as, r.circuits = is ++ Reg.bondings hist ++ ts ++ as ∧
      Compiled n (Reg.internalCircuits hist) is ∧ Compiled n (Reg.internalSteps hist) ts ∧
      Compiled n (Reg.applications hist) as := by
  obtain ⟨h1, h2, h3, h4⟩ := build_spec hist {} b [] hb .nil rfl .nil .nil
  rw [List.nil_append] at h1 h2 h3 h4
  refine ⟨_, _, _, ?_, h1, h3, h4⟩
  rw [h2]
  rw [Builder.finalize] at hr
  split at hr
  · cases hr
  · rcases hp : b.provisional E with _ | r0
    · rw [hp] at hr; cases hr
    · rw [hp] at hr
      simp only at hr
      rcases hd : r0.computeDigest E n with _ | k
      · rw [hd] at hr; cases hr
      · rw [hd] at hr; cases hr
        rw [Builder.provisional] at hp
        rcases hn : Fft.Domain.new E.consts b.log2Circuits with _ | d
        · rw [hn] at hp; cases hp
        · rw [hn] at hp; cases hp; rfl

/-- C25: finalisation fails exactly when more circuits are registered than the rank has
coefficients, and then with that bound. -/
theorem C25_capacity {E : Env F} {n q : ℕ} {b : Builder F} {ss : List (F → F → F)}
    (h : Ready E n q b ss) :
    (4 * n < b.numCircuits → b.finalize E n = .error (.circuitBound (4 * n))) ∧
    (b.numCircuits ≤ 4 * n → ∃ r, b.finalize E n = .ok r ∧
      r.circuits.length = b.numCircuits) := by
  refine ⟨fun hc => by rw [Builder.finalize, if_pos hc], fun hc => ?_⟩
  obtain ⟨r, h1, _, h3⟩ := finalize_good h hc
  exact ⟨r, h1, by rw [h3, allCircuits_length]⟩

/-- C25: the domain is the smallest power of two that holds all circuits. -/
theorem C25_domain {E : Env F} {n q : ℕ} {b : Builder F} {ss : List (F → F → F)}
    (h : Ready E n q b ss) {r : Registry F} (hr : b.finalize E n = .ok r) :
    ∃ k, r.domain.n = 2 ^ k ∧ r.circuits.length ≤ 2 ^ k ∧
      ∀ j, r.circuits.length ≤ 2 ^ j → k ≤ j := by
  obtain ⟨_, hg, hc⟩ := finalize_cases h hr
  refine ⟨_, hg.good.size, hg.len, fun j hj => ?_⟩
  rw [hc, allCircuits_length] at hj
  exact (Nat.clog_le_iff_le_pow (by norm_num)).2 hj

example : ∃ b r, build 8 demoHist {} = .ok b ∧ b.finalize env97 8 = .ok r ∧
    r.circuits.length = 5 := by
  obtain ⟨b, hb, hn, hr⟩ := demo_build
  obtain ⟨r, h1, h2⟩ := (C25_capacity hr).2 (by omega)
  exact ⟨b, r, hb, h1, by omega⟩

/-! ### C23 -/

/-- C23: the value and the three restrictions never panic, are well formed and all evaluate to the same
polynomial `m(w, x, y)`, for all `w`, `x`, `y`, in or out of the domain, zero or not. -/
theorem C23_restrictions {E : Env F} {n q : ℕ} {b : Builder F} {ss : List (F → F → F)}
    (h : Ready E n q b ss) {r : Registry F} (hr : b.finalize E n = .ok r) (w x y : F) :
    let m := registryAt n r.domain.n (omegaJ E) ss r.key
    r.wxy E n w x y = some (m w x y) ∧
    (∃ p, r.wy E n w y = some p ∧ WellFormed (4 * n) p ∧
      Sparse.eval (4 * n) p x = m w x y) ∧
    (∃ p, r.wx E n w x = some p ∧ WellFormed (4 * n) p ∧
      Sparse.eval (4 * n) p y = m w x y) ∧
    (∃ p, r.xy E n x y = some p ∧ WellFormed (4 * n) p ∧
      Sparse.eval (4 * n) p w = m w x y) := by
  obtain ⟨_, hg, hc⟩ := finalize_cases h hr
  have hs : AllImplement n r.circuits ss := by rw [hc]; exact h.objects
  have hl := (List.Forall₂.length_eq hs).symm
  have hn := hg.npos
  simp only [hg.good.size]
  refine ⟨wxy_value hg hs w x y, ?_, ?_, ?_⟩
  · have hex : ∀ i : ℕ, ∃ p : Sparse.Poly F, ∀ o : CircuitObject F, r.circuits[i]? = some o →
        o.sy y (floorPlan o.segmentRecords) = some p ∧ WellFormed (4 * n) p ∧
          Sparse.eval (4 * n) p x = (ss[i]?.map fun (s : F → F → F) => s x y).getD 0 := by
      intro i
      rcases ho : r.circuits[i]? with _ | o
      · exact ⟨[], fun o ho => by cases ho⟩
      · obtain ⟨s, h1, h2⟩ := allImplement_get hs ho
        obtain ⟨p, g1, g2, g3⟩ := h2.sy y
        refine ⟨p, fun o' ho' => ?_⟩
        cases ho'
        exact ⟨g1, g2, by rw [g3, h1]; rfl⟩
    choose ps hps using hex
    obtain ⟨t, h1, h2, h3⟩ := wy_spec hg w y ps fun i o ho => ⟨(hps i o ho).1, (hps i o ho).2.1⟩
    refine ⟨t, h1, h2, ?_⟩
    rw [C11_eval _ _ h2, registryAt_eq hg ss hl]
    simp only [h3, add_mul, sum_add_distrib, ite_mul, zero_mul]
    congr 1
    · simp only [sum_mul]
      rw [sum_comm]
      refine sum_congr rfl fun i hi => ?_
      have ho := List.getElem?_eq_getElem (mem_range.1 hi)
      obtain ⟨_, g2, g3⟩ := hps i _ ho
      rw [← g3, C11_eval _ _ g2, mul_sum]
      exact sum_congr rfl fun a _ => by ring
    · rw [sum_ite_eq' (range _) (4 * n - 1), if_pos (mem_range.2 (by omega)), mul_pow]; ring
  · have hex : ∀ i : ℕ, ∃ p : Sparse.Poly F, ∀ o : CircuitObject F, r.circuits[i]? = some o →
        o.sx x (floorPlan o.segmentRecords) = some p ∧ WellFormed (4 * n) p ∧
          Sparse.eval (4 * n) p y = (ss[i]?.map fun (s : F → F → F) => s x y).getD 0 := by
      intro i
      rcases ho : r.circuits[i]? with _ | o
      · exact ⟨[], fun o ho => by cases ho⟩
      · obtain ⟨s, h1, h2⟩ := allImplement_get hs ho
        obtain ⟨p, g1, g2, g3⟩ := h2.sx x
        refine ⟨p, fun o' ho' => ?_⟩
        cases ho'
        exact ⟨g1, g2, by rw [g3, h1]; rfl⟩
    choose ps hps using hex
    obtain ⟨t, h1, h2, h3⟩ := wx_spec hg w x ps fun i o ho => ⟨(hps i o ho).1, (hps i o ho).2.1⟩
    refine ⟨t, h1, h2, ?_⟩
    rw [C11_eval _ _ h2, registryAt_eq hg ss hl]
    simp only [h3, add_mul, sum_add_distrib, ite_mul, zero_mul]
    congr 1
    · simp only [sum_mul]
      rw [sum_comm]
      refine sum_congr rfl fun i hi => ?_
      have ho := List.getElem?_eq_getElem (mem_range.1 hi)
      obtain ⟨_, g2, g3⟩ := hps i _ ho
      rw [← g3, C11_eval _ _ g2, mul_sum]
      exact sum_congr rfl fun a _ => by ring
    · rw [sum_ite_eq' (range _) (4 * n - 1), if_pos (mem_range.2 (by omega)), mul_pow]; ring
  · obtain ⟨t, h1, h2, h3⟩ := xy_spec hg x y ss hl fun i o s ho hs' => by
      obtain ⟨s', g1, g2⟩ := allImplement_get hs ho
      rw [hs', Option.some.injEq] at g1
      subst g1
      exact g2.sxy x y
    exact ⟨t, h1, h2, h3 w⟩

theorem registryAt_node {E : Env F} {n k : ℕ} {r : Registry F} (h : Good E n k r)
    {ss : List (F → F → F)} {i : ℕ} (hi : i < 2 ^ k) (x y : F) :
    registryAt n (2 ^ k) (omegaJ E) ss r.key (omegaJ E i) x y =
      (ss[i]?.map fun s => s x y).getD 0 + r.key * (x * y) ^ (4 * n - 1) := by
  rw [registryAt, Lagrange.eval_interpolate_at_node _ (omegaJ_injOn h.env h.hk) (mem_range.2 hi)]

/-- C23: at the `i`-th circuit's domain element the registry is that circuit's `s(x, y)` plus the
key term; at a domain element without a circuit only the key term remains. -/
theorem C23_circuit {E : Env F} {n q : ℕ} {b : Builder F} {ss : List (F → F → F)}
    (h : Ready E n q b ss) {r : Registry F} (hr : b.finalize E n = .ok r) (i : ℕ) (x y : F) :
    (∀ s, ss[i]? = some s →
      r.circuitXY E n i x y = some (s x y + r.key * (x * y) ^ (4 * n - 1)) ∧
      ∃ p, r.circuitY E n i y = some p ∧
        Sparse.eval (4 * n) p x = s x y + r.key * (x * y) ^ (4 * n - 1)) ∧
    (ss.length ≤ i → i < r.domain.n →
      r.circuitXY E n i x y = some (r.key * (x * y) ^ (4 * n - 1))) := by
  obtain ⟨_, hg, hc⟩ := finalize_cases h hr
  have hl : ss.length = r.circuits.length := by
    rw [hc]; exact (List.Forall₂.length_eq h.objects).symm
  obtain ⟨h1, ⟨p, h2, -, h3⟩, -, -⟩ := C23_restrictions h hr (omegaJ E i) x y
  rw [hg.good.size] at h1 h3
  refine ⟨fun s hs => ?_, fun hi hd => ?_⟩
  · have hi : i < 2 ^ Nat.clog 2 b.numCircuits := by
      have := (List.getElem?_eq_some_iff.1 hs).1
      have := hg.len
      omega
    rw [registryAt_node hg hi, hs] at h1 h3
    exact ⟨h1, p, h2, h3⟩
  · rw [hg.good.size] at hd
    rw [registryAt_node hg hd, List.getElem?_eq_none hi] at h1
    rw [Registry.circuitXY, h1]
    simp

example : ∃ b r, build 8 demoHist {} = .ok b ∧ b.finalize env97 8 = .ok r ∧
    Ready env97 8 5 b (polysOf 8 demoHist [maskAt 8 2 3]) ∧
    (polysOf 8 demoHist [maskAt 8 2 3])[1]? = some (maskAt 8 2 3) := by
  obtain ⟨b, hb, hn, hr⟩ := demo_build
  obtain ⟨r, h1, h2⟩ := (C25_capacity hr).2 (by omega)
  exact ⟨b, r, hb, h1, hr, rfl⟩

/-! ### C24 -/

/-- C24: the element assigned to index `i` is in the domain of size `2^j` exactly when `i` is
below `2^j`: it has the smallest order that leaves it distinct from those of smaller indices. -/
theorem C24_order {E : Env F} (hE : EnvOk E) {i j : ℕ} (hi : i < 2 ^ E.consts.S)
    (hj : j ≤ E.consts.S) : omegaJ E i ^ 2 ^ j = 1 ↔ i < 2 ^ j := by
  obtain ⟨d, hd, hg⟩ := Fft.Domain.new_good (consts_ok hE) hj
  constructor
  · intro h
    obtain ⟨m, hm, hmw⟩ := hg.prim.eq_pow_of_pow_eq_one h
    have hr := Fft.reverseBits_lt j m
    have : omegaJ E (Fft.reverseBits j m) = omegaJ E i := by
      rw [omegaJ_eq hE hj hd hr, Fft.reverseBits_invol _ _ hm, hmw]
    have h2 : 2 ^ j ≤ 2 ^ E.consts.S := Nat.pow_le_pow_right (by norm_num) hj
    rw [← omegaJ_inj hE (by omega) hi this]
    exact hr
  · intro h
    rw [omegaJ_eq hE hj hd h, ← pow_mul, mul_comm, pow_mul, hg.prim.pow_eq_one, one_pow]

/-- C24: distinct indices have distinct elements. -/
theorem C24_distinct {E : Env F} (hE : EnvOk E) {i j : ℕ} (hi : i < 2 ^ E.consts.S)
    (hj : j < 2 ^ E.consts.S) : omegaJ E i = omegaJ E j ↔ i = j :=
  ⟨omegaJ_inj hE hi hj, fun h => by rw [h]⟩

/-- C24: an index is reported in the domain exactly when it is below the size of the domain. -/
theorem C24_in_domain {E : Env F} {n q : ℕ} {b : Builder F} {ss : List (F → F → F)}
    (h : Ready E n q b ss) {r : Registry F} (hr : b.finalize E n = .ok r) {i : ℕ}
    (hi : i < 2 ^ E.consts.S) : r.circuitInDomain E i = true ↔ i < r.domain.n := by
  obtain ⟨_, hg, hc⟩ := finalize_cases h hr
  rw [Registry.circuitInDomain, Fft.Domain.contains, decide_eq_true_iff, hg.good.size]
  exact C24_order hg.env hi hg.hk

/-- C24: a circuit keeps its element when the registry grows: if two registries, of whatever
sizes, have the same polynomial at index `i`, then evaluating both at the element of `i` gives that
polynomial, up to the two keys. -/
theorem C24_stable {E : Env F} {n q : ℕ} {b b' : Builder F} {ss ss' : List (F → F → F)}
    (h : Ready E n q b ss) (h' : Ready E n q b' ss') {r r' : Registry F}
    (hr : b.finalize E n = .ok r) (hr' : b'.finalize E n = .ok r') {i : ℕ} {s : F → F → F}
    (hs : ss[i]? = some s) (hs' : ss'[i]? = some s) (x y : F) :
    ∃ v v', r.wxy E n (omegaJ E i) x y = some v ∧ r'.wxy E n (omegaJ E i) x y = some v' ∧
      v - r.digest * (x * y) ^ (4 * n - 1) = s x y ∧
      v' - r'.digest * (x * y) ^ (4 * n - 1) = s x y := by
  obtain ⟨h1, -⟩ := (C23_circuit h hr i x y).1 s hs
  obtain ⟨h2, -⟩ := (C23_circuit h' hr' i x y).1 s hs'
  exact ⟨_, _, h1, h2, by rw [Registry.digest]; ring, by rw [Registry.digest]; ring⟩

-- the elements of the first indices: 1, then the one of order two, then those of order four
example : (List.range 4).map (omegaJ env97) = [1, 96, 75, 22] := by decide +kernel

/-! ### C60 -/

theorem digestLoop_congr {E : Env F} {n : ℕ} {r r' : Registry F}
    (h : ∀ w x y, r.wxy E n w x y = r'.wxy E n w x y) : ∀ (m : ℕ) (buf : List ℕ) (w x y : F),
    r.digestLoop E n m buf w x y = r'.digestLoop E n m buf w x y
  | 0, _, _, _, _ => rfl
  | m + 1, buf, w, x, y => by
    rw [Registry.digestLoop, Registry.digestLoop, h]
    congr 1
    funext v
    exact digestLoop_congr h m _ _ _ _

/-- C60: the digest of a registry depends only on the sequence of circuit polynomials: not on how
the circuits are divided into categories, nor on how the objects compute the polynomials. -/
theorem C60_digest {E : Env F} {n q : ℕ} {b b' : Builder F} {ss : List (F → F → F)}
    (h : Ready E n q b ss) (h' : Ready E n q b' ss) {r r' : Registry F}
    (hr : b.finalize E n = .ok r) (hr' : b'.finalize E n = .ok r') : r.digest = r'.digest := by
  have hl : b.numCircuits = b'.numCircuits := by
    rw [← allCircuits_length, ← allCircuits_length, List.Forall₂.length_eq h.objects,
      List.Forall₂.length_eq h'.objects]
  obtain ⟨hcap, -, -⟩ := finalize_cases h hr
  obtain ⟨p, h1, h2, h3, h4⟩ := provisional_good h.env hcap h.rank h.room (h.keys' hcap)
  obtain ⟨p', g1, g2, g3, g4⟩ := provisional_good h'.env (hl ▸ hcap) h'.rank h'.room
    (h'.keys' (hl ▸ hcap))
  have e : p.computeDigest E n = p'.computeDigest E n := by
    rw [Registry.computeDigest, Registry.computeDigest, digestLoop_congr]
    intro w x y
    rw [wxy_value h2 (by rw [h3]; exact h.objects), wxy_value g2 (by rw [g3]; exact h'.objects), hl,
      h4, g4]
  rw [Builder.finalize, if_neg (by omega), h1] at hr
  rw [Builder.finalize, if_neg (by omega), g1] at hr'
  simp only [e] at hr hr'
  rcases hd : p'.computeDigest E n with _ | k
  · rw [hd] at hr; cases hr
  · rw [hd] at hr hr'
    cases hr; cases hr'
    rfl

/-- C60: the digest is the hash of the registry evaluated at six points, each but the first
derived from the evaluations before it: the loop reads nothing else. -/
theorem C60_key_is_digest {E : Env F} {n q : ℕ} {b : Builder F} {ss : List (F → F → F)}
    (h : Ready E n q b ss) {r : Registry F} (hr : b.finalize E n = .ok r) :
    ∃ p, b.provisional E = some p ∧ p.key = 1 ∧ p.computeDigest E n = some r.digest ∧
      ∀ w x y, p.wxy E n w x y =
        some (registryAt n r.domain.n (omegaJ E) ss 1 w x y) := by
  obtain ⟨hcap, hg, -⟩ := finalize_cases h hr
  obtain ⟨p, h1, h2, h3, h4⟩ := provisional_good h.env hcap h.rank h.room (h.keys' hcap)
  refine ⟨p, h1, h4, ?_, fun w x y => ?_⟩
  · rw [Builder.finalize, if_neg (by omega), h1] at hr
    simp only at hr
    rcases hd : p.computeDigest E n with _ | k
    · rw [hd] at hr; cases hr
    · rw [hd] at hr; cases hr; rfl
  · rw [wxy_value h2 (by rw [h3]; exact h.objects), h4, hg.good.size]

/-- The points at which the digest of a registry polynomial `f` queries it, and the answers, in
order: the first point is `(2, 3, 5)`, and each further point is hashed from everything before. -/
def digestTranscript (E : Env F) (f : F → F → F → F) : ℕ → List ℕ → F × F × F →
    List ((F × F × F) × F)
  | 0, _, _ => []
  | k + 1, buf, p =>
    let v := f p.1 p.2.1 p.2.2
    let d := E.blake (buf ++ E.toRepr v)
    let at_ (i : ℕ) := E.fromUniform (E.blake (d ++ [i]))
    (p, v) :: digestTranscript E f k d (at_ 0, at_ 1, at_ 2)

/-- Two different inputs hashed to the same field element. -/
def HashCollision (E : Env F) : Prop :=
  ∃ a b : List ℕ, a ≠ b ∧ E.fromUniform (E.blake a) = E.fromUniform (E.blake b)

theorem digestLoop_back {E : Env F} {n : ℕ} {r r' : Registry F} (hc : ¬ HashCollision E)
    (hi : Function.Injective E.toRepr) (hL : ∀ a b, (E.toRepr a).length = (E.toRepr b).length) :
    ∀ (k : ℕ) (buf buf' : List ℕ) (w x y w' x' y' : F) (B : List ℕ),
      r.digestLoop E n k buf w x y = some B → r'.digestLoop E n k buf' w' x' y' = some B →
      buf = buf' ∧ (0 < k → r.wxy E n w x y = r'.wxy E n w' x' y')
  | 0, buf, buf', w, x, y, w', x', y', B, h, h' => by
    rw [Registry.digestLoop] at h h'
    cases h; cases h'
    exact ⟨rfl, fun h => absurd h (by omega)⟩
  | k + 1, buf, buf', w, x, y, w', x', y', B, h, h' => by
    rw [Registry.digestLoop] at h h'
    rcases e : r.wxy E n w x y with _ | v
    · rw [e] at h; cases h
    rcases e' : r'.wxy E n w' x' y' with _ | v'
    · rw [e'] at h'; cases h'
    rw [e] at h; rw [e'] at h'
    simp only [Option.bind_some] at h h'
    have hd := (digestLoop_back hc hi hL k _ _ _ _ _ _ _ _ B h h').1
    have hb : buf ++ E.toRepr v = buf' ++ E.toRepr v' := by
      by_contra hne
      exact hc ⟨_, _, hne, by rw [hd]⟩
    obtain ⟨h1, h2⟩ := List.append_inj' hb (hL _ _)
    exact ⟨h1, fun _ => by rw [hi h2]⟩

theorem digestLoop_transcript {E : Env F} {n : ℕ} {r r' : Registry F} {f f' : F → F → F → F}
    (hf : ∀ w x y, r.wxy E n w x y = some (f w x y))
    (hf' : ∀ w x y, r'.wxy E n w x y = some (f' w x y)) (hc : ¬ HashCollision E)
    (hi : Function.Injective E.toRepr) (hL : ∀ a b, (E.toRepr a).length = (E.toRepr b).length) :
    ∀ (k : ℕ) (buf : List ℕ) (p : F × F × F) (B : List ℕ),
      r.digestLoop E n k buf p.1 p.2.1 p.2.2 = some B →
      r'.digestLoop E n k buf p.1 p.2.1 p.2.2 = some B →
      digestTranscript E f k buf p = digestTranscript E f' k buf p
  | 0, _, _, _, _, _ => rfl
  | k + 1, buf, p, B, h, h' => by
    have hv := (digestLoop_back hc hi hL (k + 1) buf buf _ _ _ _ _ _ B h h').2 (by omega)
    rw [hf, hf'] at hv
    have hv : f p.1 p.2.1 p.2.2 = f' p.1 p.2.1 p.2.2 := Option.some.inj hv
    rw [Registry.digestLoop, hf] at h
    rw [Registry.digestLoop, hf', ← hv] at h'
    simp only [Option.bind_some] at h h'
    rw [digestTranscript, digestTranscript]
    simp only [← hv]
    congr 1
    exact digestLoop_transcript hf hf' hc hi hL k _ (_, _, _) B h h'

/-- C60: the digest binds the evaluations of the registry polynomial (with key one) at six points,
the first `(2, 3, 5)` and the others hashed from what came before: two registries with the same
digest were queried at the same points and gave the same answers, or the hash has a collision. -/
theorem C60_binding {E : Env F} {n q : ℕ} {b b' : Builder F} {ss ss' : List (F → F → F)}
    (h : Ready E n q b ss) (h' : Ready E n q b' ss') {r r' : Registry F}
    (hr : b.finalize E n = .ok r) (hr' : b'.finalize E n = .ok r') (hd : r.digest = r'.digest)
    (hi : Function.Injective E.toRepr) (hL : ∀ a b, (E.toRepr a).length = (E.toRepr b).length) :
    HashCollision E ∨
    digestTranscript E (registryAt n r.domain.n (omegaJ E) ss 1) 6 [] (2, 3, 5) =
      digestTranscript E (registryAt n r'.domain.n (omegaJ E) ss' 1) 6 [] (2, 3, 5) := by
  by_cases hc : HashCollision E
  · exact .inl hc
  refine .inr ?_
  obtain ⟨p, -, -, h2, h3⟩ := C60_key_is_digest h hr
  obtain ⟨p', -, -, g2, g3⟩ := C60_key_is_digest h' hr'
  rw [Registry.computeDigest] at h2 g2
  rcases e : p.digestLoop E n 6 [] 2 3 5 with _ | B
  · rw [e] at h2; cases h2
  rcases e' : p'.digestLoop E n 6 [] 2 3 5 with _ | B'
  · rw [e'] at g2; cases g2
  rw [e, hd] at h2; rw [e'] at g2
  have hB : fieldFromHash E (E.blake B) 0 = fieldFromHash E (E.blake B') 0 :=
    (Option.some.inj h2).trans (Option.some.inj g2).symm
  have h1 : E.blake B ++ [0] = E.blake B' ++ [0] := by
    by_contra hne
    exact hc ⟨_, _, hne, hB⟩
  have h4 : B = B' := by
    by_contra hne
    exact hc ⟨_, _, hne, by rw [(List.append_inj' h1 rfl).1]⟩
  exact digestLoop_transcript h3 g3 hc hi hL 6 [] (2, 3, 5) B e (h4 ▸ e')

-- the transcript of the digest of a registry polynomial over a small field
example : digestTranscript (F := ZMod 97)
    { env97 with
      blake := fun l => [l.length, l.headD 0]
      toRepr := fun v => [v.val]
      fromUniform := fun l => ((l.getD 0 0 + 2 * l.getD 1 0 : ℕ) : ZMod 97) }
    (fun w x y => w * x + y) 3 [] (2, 3, 5) =
    [((2, 3, 5), 11), ((5, 5, 5), 30), ((9, 9, 9), 90)] := by decide +kernel

end Ragu.Props

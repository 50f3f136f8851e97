/-
The parts of the circuit that verifies the polynomial queries.
-/
import Verif.Model.Pcd.ComputeV
import Verif.Spec.Query
import Verif.Lemmas.Builder
import Verif.Lemmas.Claims
import Verif.Props.Fold
import Verif.Props.Endoscalar
import Verif.Props.Txz

set_option linter.unusedSectionVars false
namespace Ragu.Pcd
open Ragu Ragu.Circuit Ragu.Registry Ragu.Gadget Ragu.Spec Ragu.Props Finset
variable {F : Type} [Field F] [DecidableEq F] {m : Prop}

theorem descending_eq (s : F) (l : List F) : descending s l = hornerVal s l :=
  (hornerVal_eq_sum s l).symm

/-! ### The folded claims -/

/-- A claim by the wires of its values. -/
def Claim.wires : Claim (Element F) (Element F) → Claim F F
  | .raw a b => .raw a.wire b.wire
  | .circuit id rx => .circuit id.wire rx.wire
  | .internal id rxs => .internal id (rxs.map (·.wire))
  | .bonding id rxs => .bonding id (rxs.map (·.wire))

/-- All values of the claim are honest. -/
def Claim.HonestVals : Claim (Element F) (Element F) → Prop
  | .raw a b => a.Honest ∧ b.Honest
  | .circuit id rx => id.Honest ∧ rx.Honest
  | .internal _ rxs => ∀ e ∈ rxs, e.Honest
  | .bonding _ rxs => ∀ e ∈ rxs, e.Honest

theorem honest_add {a b : Element F} (ha : a.Honest) (hb : b.Honest) : (a.add b).Honest := by
  show _ = _
  rw [Element.add_wire, Element.add_value, show a.value = a.wire from ha,
    show b.value = b.wire from hb]

theorem sum_foldl : ∀ (rxs : List (Element F)) (acc : Element F),
    (rxs.foldl (fun s r => s.add r) acc).wire = acc.wire + (rxs.map (·.wire)).sum ∧
    (acc.Honest → (∀ e ∈ rxs, e.Honest) → (rxs.foldl (fun s r => s.add r) acc).Honest)
  | [], acc => ⟨by simp, fun h _ => h⟩
  | r :: rxs, acc => by
    obtain ⟨h1, h2⟩ := sum_foldl rxs (acc.add r)
    refine ⟨?_, fun ha hr => h2 (honest_add ha (hr r (by simp))) fun e he => hr e (by simp [he])⟩
    rw [List.foldl_cons, h1, Element.add_wire, List.map_cons, List.sum_cons, add_assoc]

theorem runs_handle {z txz : Element F} {fixed : NativeId → Element F} (hz : m → z.Honest)
    (ht : m → txz.Honest) (hf : m → ∀ id, (fixed id).Honest) (p : List (Element F) × List (Element F))
    (c : Claim (Element F) (Element F)) (hc : m → Claim.HonestVals c) :
    Runs m ((evaluationProcessor z txz fixed).handle p c) (fun r => ∃ a b : Element F,
      r = (p.1 ++ [a], p.2 ++ [b]) ∧ a.wire = leftValue z.wire (Claim.wires c) ∧
      b.wire = rightValue (fun id => (fixed id).wire) txz.wire (Claim.wires c) ∧
      (m → a.Honest ∧ b.Honest)) := by
  cases c with
  | raw a b => exact Runs.pure ⟨a, b, rfl, rfl, rfl, hc⟩
  | circuit id rx =>
    refine Runs.pure ⟨rx, _, rfl, rfl, ?_, fun k => ⟨(hc k).2, ?_⟩⟩
    · simp only [Element.add_wire, Claim.wires, rightValue]
    · exact honest_add (honest_add (hc k).2 (hc k).1) (ht k)
  | internal id rxs =>
    obtain ⟨h1, h2⟩ := sum_foldl rxs (Element.zero : Element F)
    have h3 := fun k => h2 zero_honest (hc k)
    refine Runs.pure ⟨_, _, rfl, ?_, ?_, fun k => ⟨h3 k, ?_⟩⟩
    · rw [h1, Element.zero_wire, zero_add]; rfl
    · simp only [Element.add_wire, h1, Element.zero_wire, zero_add, Claim.wires, rightValue]
    · exact honest_add (honest_add (h3 k) (hf k id)) (ht k)
  | bonding id rxs =>
    refine (Runs.fold hz fun k => hc k).bind fun a ha => Runs.pure ⟨a, _, rfl, ?_, rfl, fun k =>
      ⟨ha.2 k, hf k id⟩⟩
    rw [ha.1, Claim.wires, leftValue, descending_eq]

theorem runs_handleAll {z txz : Element F} {fixed : NativeId → Element F} (hz : m → z.Honest)
    (ht : m → txz.Honest) (hf : m → ∀ id, (fixed id).Honest) :
    ∀ (cs : List (Claim (Element F) (Element F))) (p : List (Element F) × List (Element F)),
    (m → ∀ c ∈ cs, Claim.HonestVals c) →
    Runs m (cs.foldlM ((evaluationProcessor z txz fixed).handle) p) (fun r =>
      ∃ as bs : List (Element F), r = (p.1 ++ as, p.2 ++ bs) ∧
      as.map (·.wire) = cs.map (fun c => leftValue z.wire (Claim.wires c)) ∧
      bs.map (·.wire) =
        cs.map (fun c => rightValue (fun id => (fixed id).wire) txz.wire (Claim.wires c)) ∧
      (m → (∀ a ∈ as, a.Honest) ∧ ∀ b ∈ bs, b.Honest))
  | [], p, _ => Runs.pure ⟨[], [], by simp, rfl, rfl, fun _ => by simp⟩
  | c :: cs, p, hc => by
    rw [List.foldlM_cons]
    refine (runs_handle hz ht hf p c fun k => hc k c (by simp)).bind fun r hr => ?_
    obtain ⟨a, b, rfl, h1, h2, h3⟩ := hr
    refine (runs_handleAll hz ht hf cs _ fun k c h => hc k c (by simp [h])).mono fun r hr => ?_
    obtain ⟨as, bs, rfl, h4, h5, h6⟩ := hr
    refine ⟨a :: as, b :: bs, by simp, by simp [h1, h4], by simp [h2, h5], fun k => ⟨?_, ?_⟩⟩
    · intro e he
      rcases List.mem_cons.1 he with rfl | he
      · exact (h3 k).1
      · exact (h6 k).1 e he
    · intro e he
      rcases List.mem_cons.1 he with rfl | he
      · exact (h3 k).2
      · exact (h6 k).2 e he

/-- Witness values and wires agree. -/
def QueryOutput.Honest (q : QueryOutput (Element F)) : Prop :=
  QueryOutput.map (·.value) q = QueryOutput.map (·.wire) q

/-- Witness values and wires agree. -/
def EvalOutput.Honest (e : EvalOutput (Element F)) : Prop :=
  EvalOutput.map (·.value) e = EvalOutput.map (·.wire) e

theorem QueryOutput.Honest.child {q : QueryOutput (Element F)} (h : QueryOutput.Honest q)
    {c : QueryChild (Element F)} (hc : c = q.left ∨ c = q.right) :
    QueryChild.map (·.value) c = QueryChild.map (·.wire) c := by
  rcases hc with rfl | rfl
  · exact congrArg QueryOutput.left h
  · exact congrArg QueryOutput.right h

theorem childValues_honest {q : QueryOutput (Element F)} (h : QueryOutput.Honest q)
    {c : QueryChild (Element F)} (hc : c = q.left ∨ c = q.right) :
    (childValues c).id.Honest ∧ ∀ i, ((childValues c).rx i).Honest := by
  have hh := h.child hc
  refine ⟨congrArg QueryChild.currentRegistryXyAtChildCircuitId hh, fun i => ?_⟩
  cases i with
  | abA => exact congrArg QueryChild.aPolyAtXz hh
  | abB => exact congrArg QueryChild.bPolyAtX hh
  | rx i => exact congrFun (congrArg QueryChild.rx hh) i

theorem table_honest {ps : List (Child (Element F) (Element F) Unit)}
    (h : ∀ p ∈ ps, p.id.Honest ∧ ∀ i, (p.rx i).Honest) :
    ∀ c ∈ claimTable ps (), Claim.HonestVals c.1 := by
  intro c hc
  simp only [claimTable, List.mem_append, List.mem_map, List.mem_flatMap] at hc
  rcases hc with (((⟨p, hp, rfl⟩ | ⟨p, hp, rfl⟩) | ⟨p, hp, rfl⟩) | ⟨id, -, p, hp, rfl⟩) |
    ⟨id, -, rfl⟩
  · exact ⟨(h p hp).2 _, (h p hp).2 _⟩
  · exact ⟨(h p hp).1, (h p hp).2 _⟩
  · intro e he
    obtain ⟨i, -, rfl⟩ := List.mem_map.1 he
    exact (h p hp).2 _
  · intro e he
    obtain ⟨i, -, rfl⟩ := List.mem_map.1 he
    exact (h p hp).2 _
  · intro e he
    obtain ⟨i, -, he⟩ := List.mem_flatMap.1 he
    obtain ⟨p, hp, rfl⟩ := List.mem_map.1 he
    exact (h p hp).2 _

theorem valueClaims_wires (q : QueryOutput (Element F)) :
    valueClaims (QueryOutput.map (·.wire) q) =
      (claimTable [childValues q.left, childValues q.right] ()).map fun c => Claim.wires c.1 := rfl

theorem runs_foldTwoLayer {k g : ℕ} (hk : k ≠ 0) {src : List (Element F)}
    (hl : src.length ≤ k * g) {l1 l2 : Element F} (h1 : m → l1.Honest) (h2 : m → l2.Honest)
    (hs : m → ∀ e ∈ src, e.Honest) :
    Runs m (Fold.foldTwoLayer k g src l1 l2)
      (fun r => r.wire = twoLayer k g l1.wire l2.wire (src.map (·.wire)) ∧ (m → r.Honest)) := by
  refine ⟨fun hm r hr => ⟨C43_fold_two_layer hk hl l1 l2 r hr, fun k => (hm k).elim⟩, fun hm => ?_⟩
  obtain ⟨r, h3, h4⟩ := C43_fold_two_layer_honest hk hl l1 l2 (h1 hm) (h2 hm) (hs hm)
  exact ⟨r, h3, C43_fold_two_layer hk hl l1 l2 r (Syn.sim_sat h3), fun _ => h4⟩

theorem runs_computeAxBx {q : QueryOutput (Element F)} {z txz muInv muPrimeInv munu mpnp : Element F}
    (hq : m → QueryOutput.Honest q) (hz : m → z.Honest) (ht : m → txz.Honest) (h1 : m → muInv.Honest)
    (h2 : m → muPrimeInv.Honest) (h3 : m → munu.Honest) (h4 : m → mpnp.Honest) :
    Runs m (computeAxBx q z txz muInv muPrimeInv munu mpnp) (fun r =>
      r.1.wire = twoLayer GROUP_SIZE NUM_GROUPS muInv.wire muPrimeInv.wire
        ((valueClaims (QueryOutput.map (·.wire) q)).map (leftValue z.wire)) ∧
      r.2.wire = twoLayer GROUP_SIZE NUM_GROUPS munu.wire mpnp.wire
        ((valueClaims (QueryOutput.map (·.wire) q)).map
          (rightValue (fun id => (q.fixedRegistry id).wire) txz.wire)) ∧
      (m → r.1.Honest ∧ r.2.Honest)) := by
  have hsrc : evaluationSource q = sourceOf [childValues q.left, childValues q.right] := by
    rw [evaluationSource, sourceOf]
    congr 1
    funext c
    cases c <;> rfl
  have hfold : ∀ p, (claimTable [childValues q.left, childValues q.right] ()).foldlM
      (fun p c => (evaluationProcessor z txz q.fixedRegistry).handle p c.1) p =
      ((claimTable [childValues q.left, childValues q.right] ()).map (·.1)).foldlM
        (evaluationProcessor z txz q.fixedRegistry).handle p := fun p => by rw [List.foldlM_map]
  rw [computeAxBx, hsrc, buildClaims_eq _ (), hfold]
  refine (runs_handleAll hz ht (fun k id => congrFun (congrArg QueryOutput.fixedRegistry (hq k)) id)
    _ ([], []) fun k c hc => ?_).bind fun r hr => ?_
  · obtain ⟨c', hc', rfl⟩ := List.mem_map.1 hc
    refine table_honest (fun p hp => ?_) c' hc'
    rcases List.mem_cons.1 hp with rfl | hp
    · exact childValues_honest (hq k) (Or.inl rfl)
    · rw [List.mem_singleton] at hp
      subst hp
      exact childValues_honest (hq k) (Or.inr rfl)
  · obtain ⟨as, bs, rfl, ha, hb, hh⟩ := hr
    have la : as.length = 22 := by
      rw [← List.length_map (f := fun e : Element F => e.wire), ha, List.length_map, List.length_map,
        table_length]
      rfl
    have lb : bs.length = 22 := by
      rw [← List.length_map (f := fun e : Element F => e.wire), hb, List.length_map, List.length_map,
        table_length]
      rfl
    simp only [List.nil_append]
    refine (runs_foldTwoLayer (by decide) (by rw [la]; decide) h1 h2 fun k => (hh k).1).bind
      fun ax hax => ?_
    refine (runs_foldTwoLayer (by decide) (by rw [lb]; decide) h3 h4 fun k => (hh k).2).bind
      fun bx hbx => ?_
    refine Runs.pure ⟨?_, ?_, fun k => ⟨hax.2 k, hbx.2 k⟩⟩
    · rw [hax.1, ha, valueClaims_wires, List.map_map, List.map_map]; rfl
    · rw [hbx.1, hb, valueClaims_wires, List.map_map, List.map_map]; rfl

/-! ### The denominators -/

theorem runs_invertAll : ∀ (es : List (Element F)) (as : List F), as.length = es.length →
    (m → (∀ e ∈ es, e.Honest ∧ e.wire ≠ 0) ∧ as = es.map fun e => e.wire⁻¹) →
    Runs m (invertAll es as) (fun r => (∀ e ∈ es, e.wire ≠ 0) ∧
      r.map (·.wire) = es.map (fun e => e.wire⁻¹) ∧ (m → ∀ e ∈ r, e.Honest))
  | [], [], _, _ => Runs.pure ⟨by simp, rfl, by simp⟩
  | [], _ :: _, h, _ => by simp at h
  | _ :: _, [], h, _ => by simp at h
  | e :: es, a :: as, h, hm => by
    rw [invertAll]
    refine (Runs.invertWith fun k => ?_).bind fun i hi => ?_
    · obtain ⟨h1, h2⟩ := hm k
      rw [List.map_cons, List.cons.injEq] at h2
      exact ⟨(h1 e (by simp)).1, h2.1, (h1 e (by simp)).2⟩
    · refine (runs_invertAll es as (by simpa using h) fun k => ?_).bind fun is his => ?_
      · obtain ⟨h1, h2⟩ := hm k
        rw [List.map_cons, List.cons.injEq] at h2
        exact ⟨fun e he => h1 e (by simp [he]), h2.2⟩
      · refine Runs.pure ⟨?_, by simp [hi.2.1, his.2.1], fun k => ?_⟩
        · intro e' he'
          rcases List.mem_cons.1 he' with rfl | he'
          · exact hi.1
          · exact his.1 e' he'
        · intro e' he'
          rcases List.mem_cons.1 he' with rfl | he'
          · exact hi.2.2 k
          · exact his.2.2 k e' he'

theorem runs_inverterInvert {ds : List (Element F)} (hd : m → ∀ e ∈ ds, e.Honest ∧ e.wire ≠ 0) :
    Runs m (inverterInvert ds) (fun r => (∀ e ∈ ds, e.wire ≠ 0) ∧
      r.map (·.wire) = ds.map (fun e => e.wire⁻¹) ∧ (m → ∀ e ∈ r, e.Honest)) := by
  refine runs_invertAll ds _ (by simp [batchInvert]) fun k => ⟨hd k, ?_⟩
  rw [batchInvert, List.map_map]
  refine List.map_congr_left fun e he => ?_
  obtain ⟨h1, h2⟩ := hd k e he
  simp only [Function.comp, show e.value = e.wire from h1, if_neg h2]

theorem honest_sub {a b : Element F} (ha : a.Honest) (hb : b.Honest) : (a.sub b).Honest := by
  show _ = _
  rw [Element.sub_wire, Element.sub_value, show a.value = a.wire from ha,
    show b.value = b.wire from hb]

/-- The points by the wires of the challenges. -/
def childPoints (c : ChildInputs F) : ChildPoints F where
  u := Element.wire (c.unified .u)
  y := Element.wire (c.unified .y)
  x := Element.wire (c.unified .x)
  id := c.circuitId.wire

/-- The points by the wires of the challenges. -/
def wirePoints (E : Env F) (pre : PreambleOutput F) (w y z x : F) : Points F where
  w := w
  y := y
  z := z
  x := x
  child
    | .left => childPoints pre.left
    | .right => childPoints pre.right
  internal id := id.omega E

/-- The challenges and identifiers of the children are honest. -/
def PreambleOutput.HonestPoints (pre : PreambleOutput F) : Prop :=
  ∀ c ∈ [pre.left, pre.right], Element.Honest (c.unified .u) ∧ Element.Honest (c.unified .y) ∧
    Element.Honest (c.unified .x) ∧ c.circuitId.Honest ∧ Element.Honest (c.unified .v)

theorem NativeId.mem_all (id : NativeId) : id ∈ NativeId.all := by cases id <;> decide

/-- What the denominators are. -/
structure DenominatorsOk (m : Prop) (u : F) (p : Points F) (d : Denominators F) : Prop where
  lu : d.left.u.wire = (u - (p.child .left).u)⁻¹ ∧ (m → d.left.u.Honest)
  ly : d.left.y.wire = (u - (p.child .left).y)⁻¹ ∧ (m → d.left.y.Honest)
  lx : d.left.x.wire = (u - (p.child .left).x)⁻¹ ∧ (m → d.left.x.Honest)
  li : d.left.circuitId.wire = (u - (p.child .left).id)⁻¹ ∧ (m → d.left.circuitId.Honest)
  ru : d.right.u.wire = (u - (p.child .right).u)⁻¹ ∧ (m → d.right.u.Honest)
  ry : d.right.y.wire = (u - (p.child .right).y)⁻¹ ∧ (m → d.right.y.Honest)
  rx : d.right.x.wire = (u - (p.child .right).x)⁻¹ ∧ (m → d.right.x.Honest)
  ri : d.right.circuitId.wire = (u - (p.child .right).id)⁻¹ ∧ (m → d.right.circuitId.Honest)
  w : d.w.wire = (u - p.w)⁻¹ ∧ (m → d.w.Honest)
  x : d.x.wire = (u - p.x)⁻¹ ∧ (m → d.x.Honest)
  y : d.y.wire = (u - p.y)⁻¹ ∧ (m → d.y.Honest)
  xz : d.xz.wire = (u - p.x * p.z)⁻¹ ∧ (m → d.xz.Honest)
  internal : ∀ id, (d.internal id).wire = (u - p.internal id)⁻¹ ∧ (m → (d.internal id).Honest)

theorem Query.mem_all (q : Query) : q ∈ Query.all := by
  rcases q with s | s | s | s | s | _ | _ | s | s | s | _ | _ | ⟨s, i⟩ | id
  case rx => cases s <;> cases i <;> simp [Query.all, RxIndex.all]
  case xyInternal => cases id <;> simp [Query.all, NativeId.all]
  all_goals first
    | (cases s <;> simp [Query.all])
    | simp [Query.all]

/-- The wires of the points added to the inverter. -/
def pointList (E : Env F) (pre : PreambleOutput F) (w y z x : F) : List F :=
  [(childPoints pre.left).u, (childPoints pre.left).y, (childPoints pre.left).x,
    (childPoints pre.left).id, (childPoints pre.right).u, (childPoints pre.right).y,
    (childPoints pre.right).x, (childPoints pre.right).id, w, x, y, x * z] ++
  NativeId.all.map fun id => id.omega E

theorem avoids_iff {E : Env F} {pre : PreambleOutput F} {u w y z x : F} :
    Avoids u (wirePoints E pre w y z x) ↔ ∀ v ∈ pointList E pre w y z x, u ≠ v := by
  have h1 : ∀ q, (wirePoints E pre w y z x).at q ∈ pointList E pre w y z x := by
    intro q
    rcases q with s | s | s | s | s | _ | _ | s | s | s | _ | _ | ⟨s, i⟩ | id
    case xyInternal =>
      exact List.mem_append_right _ (List.mem_map.2 ⟨id, NativeId.mem_all id, rfl⟩)
    all_goals refine List.mem_append_left _ ?_
    all_goals first
      | (cases s <;> simp [Points.at, wirePoints])
      | simp [Points.at, wirePoints]
  have h2 : ∀ v ∈ pointList E pre w y z x, ∃ q, (wirePoints E pre w y z x).at q = v := by
    intro v hv
    rcases List.mem_append.1 hv with hv | hv
    · simp only [List.mem_cons, List.not_mem_nil, or_false] at hv
      rcases hv with rfl | rfl | rfl | rfl | rfl | rfl | rfl | rfl | rfl | rfl | rfl | rfl
      · exact ⟨.childP .left, rfl⟩
      · exact ⟨.wxChildY .left, rfl⟩
      · exact ⟨.wyChildX .left, rfl⟩
      · exact ⟨.xyChildCircuit .left, rfl⟩
      · exact ⟨.childP .right, rfl⟩
      · exact ⟨.wxChildY .right, rfl⟩
      · exact ⟨.wyChildX .right, rfl⟩
      · exact ⟨.xyChildCircuit .right, rfl⟩
      · exact ⟨.xyW, rfl⟩
      · exact ⟨.wyX, rfl⟩
      · exact ⟨.wxY .left, rfl⟩
      · exact ⟨.a, rfl⟩
    · obtain ⟨id, -, rfl⟩ := List.mem_map.1 hv
      exact ⟨.xyInternal id, rfl⟩
  constructor
  · intro h v hv
    obtain ⟨q, rfl⟩ := h2 v hv
    exact h q (Query.mem_all q)
  · intro h q _
    exact h _ (h1 q)

theorem denominatorPoints_wires {E : Env F} {pre : PreambleOutput F} {w y z x xz : Element F}
    (hxz : xz.wire = x.wire * z.wire) : (denominatorPoints E w x y xz pre).map (·.wire) =
      pointList E pre w.wire y.wire z.wire x.wire := by
  rw [denominatorPoints, pointList, List.map_append, ← hxz, List.map_map]
  congr 1
  exact List.map_congr_left fun id _ => Element.constant_wire (id.omega E)

theorem runs_denominators {E : Env F} {u w x y z : Element F} {pre : PreambleOutput F}
    (hu : m → u.Honest) (hw : m → w.Honest) (hx : m → x.Honest) (hy : m → y.Honest)
    (hz : m → z.Honest) (hp : m → pre.HonestPoints)
    (ha : m → Avoids u.wire (wirePoints E pre w.wire y.wire z.wire x.wire)) :
    Runs m (Denominators.new E u w x y z pre) (fun d =>
      Avoids u.wire (wirePoints E pre w.wire y.wire z.wire x.wire) ∧
      DenominatorsOk m u.wire (wirePoints E pre w.wire y.wire z.wire x.wire) d) := by
  rw [Denominators.new]
  refine (Runs.mul hx hz).bind fun xz hxz => ?_
  have hpts := denominatorPoints_wires (E := E) (pre := pre) (w := w) (y := y) hxz.1
  simp only [avoids_iff] at ha ⊢
  refine (runs_inverterInvert fun k e he => ?_).bind fun inv hinv => ?_
  · obtain ⟨v, hv, rfl⟩ := List.mem_map.1 he
    refine ⟨honest_sub (hu k) ?_, ?_⟩
    · obtain ⟨a1, a2, a3, a4, -⟩ := hp k pre.left (by simp)
      obtain ⟨b1, b2, b3, b4, -⟩ := hp k pre.right (by simp)
      rcases List.mem_append.1 hv with hv | hv
      · rcases List.mem_cons.1 hv with rfl | hv
        · exact a1
        rcases List.mem_cons.1 hv with rfl | hv
        · exact a2
        rcases List.mem_cons.1 hv with rfl | hv
        · exact a3
        rcases List.mem_cons.1 hv with rfl | hv
        · exact a4
        rcases List.mem_cons.1 hv with rfl | hv
        · exact b1
        rcases List.mem_cons.1 hv with rfl | hv
        · exact b2
        rcases List.mem_cons.1 hv with rfl | hv
        · exact b3
        rcases List.mem_cons.1 hv with rfl | hv
        · exact b4
        rcases List.mem_cons.1 hv with rfl | hv
        · exact hw k
        rcases List.mem_cons.1 hv with rfl | hv
        · exact hx k
        rcases List.mem_cons.1 hv with rfl | hv
        · exact hy k
        rcases List.mem_cons.1 hv with rfl | hv
        · exact hxz.2 k
        · simp at hv
      · obtain ⟨id, -, rfl⟩ := List.mem_map.1 hv
        simp [Element.Honest]
    · rw [Element.sub_wire, sub_ne_zero]
      exact ha k _ (by rw [← hpts]; exact List.mem_map_of_mem hv)
  · obtain ⟨h1, h2, h3⟩ := hinv
    have hav : ∀ v ∈ pointList E pre w.wire y.wire z.wire x.wire, u.wire ≠ v := by
      intro v hv
      rw [← hpts] at hv
      obtain ⟨e, he, rfl⟩ := List.mem_map.1 hv
      have := h1 _ (List.mem_map_of_mem he)
      rwa [Element.sub_wire, sub_ne_zero] at this
    have h2' : inv.map (·.wire) =
        (pointList E pre w.wire y.wire z.wire x.wire).map fun v => (u.wire - v)⁻¹ := by
      rw [h2, ← hpts, List.map_map, List.map_map]
      exact List.map_congr_left fun e _ => by simp
    have hlen : inv.length = 12 + NativeId.all.length := by
      rw [← List.length_map (f := fun e : Element F => e.wire), h2', List.length_map]
      rfl
    have get : ∀ i v, (pointList E pre w.wire y.wire z.wire x.wire)[i]? = some v →
        (inv.getD i Element.zero).wire = (u.wire - v)⁻¹ ∧
          (m → (inv.getD i Element.zero).Honest) := by
      intro i v hi
      have e1 : (inv.map (·.wire))[i]? = some (u.wire - v)⁻¹ := by
        rw [h2', List.getElem?_map, hi]; rfl
      rw [List.getElem?_map, Option.map_eq_some_iff] at e1
      obtain ⟨e, he, hev⟩ := e1
      rw [List.getD_eq_getElem?_getD, he]
      exact ⟨hev, fun k => h3 k e (List.mem_of_getElem? he)⟩
    rw [if_neg (by simp [hlen])]
    refine Runs.pure ⟨hav, ⟨get 0 _ rfl, get 1 _ rfl, get 2 _ rfl, get 3 _ rfl, get 4 _ rfl,
      get 5 _ rfl, get 6 _ rfl, get 7 _ rfl, get 8 _ rfl, get 9 _ rfl, get 10 _ rfl, get 11 _ rfl,
      fun id => get _ _ ?_⟩⟩
    cases id <;> rfl

/-! ### The combination of the quotients -/

theorem runs_accumulate {alpha : Element F} (hal : m → alpha.Honest) :
    ∀ (qs : List (Element F × Element F × Element F)) (h : Option (Element F)),
    (m → Horner.HonestState h) → (m → ∀ t ∈ qs, t.1.Honest ∧ t.2.1.Honest ∧ t.2.2.Honest) →
    Runs m (accumulateQueries alpha h qs) (fun r => ∃ ts : List (Element F),
      r = ts.foldl (Horner.writeE alpha) h ∧
      ts.map (·.wire) = qs.map (fun t => (t.1.wire - t.2.1.wire) * t.2.2.wire) ∧
      (m → ∀ e ∈ ts, e.Honest))
  | [], h, _, _ => Runs.pure ⟨[], rfl, rfl, by simp⟩
  | (pu, v, d) :: qs, h, hh, hq => by
    rw [accumulateQueries]
    refine (Runs.mul (fun k => ?_) fun k => (hq k _ List.mem_cons_self).2.2).bind fun t ht => ?_
    · exact honest_sub (hq k _ List.mem_cons_self).1 (hq k _ List.mem_cons_self).2.1
    · refine (Runs.of_computes (Horner.write_computes hal hh t)).bind fun r hr => ?_
      subst hr
      refine (runs_accumulate hal qs _ (fun k => Horner.writeE_honest (hal k) (hh k) (ht.2 k))
        fun k t h => hq k t (List.mem_cons_of_mem _ h)).mono fun r hr => ?_
      obtain ⟨ts, rfl, h1, h2⟩ := hr
      refine ⟨t :: ts, rfl, by simp [ht.1, h1], fun k e he => ?_⟩
      rcases List.mem_cons.1 he with rfl | he
      · exact ht.2 k
      · exact h2 k e he

/-- The value of `p` that a child claims. -/
def PreambleOutput.v (pre : PreambleOutput F) : Side → Element F
  | .left => pre.left.unified .v
  | .right => pre.right.unified .v

/-- The denominator of a query. -/
def Denominators.of (d : Denominators F) : Query → Element F
  | .childP .left => d.left.u
  | .childP .right => d.right.u
  | .childRegistry _ => d.w
  | .wxChildY .left => d.left.y
  | .wxChildY .right => d.right.y
  | .wxY _ => d.y
  | .wyChildX .left => d.left.x
  | .wyChildX .right => d.right.x
  | .wyX => d.x
  | .xyW => d.w
  | .xyChildCircuit .left => d.left.circuitId
  | .xyChildCircuit .right => d.right.circuitId
  | .childA _ => d.xz
  | .childB _ => d.x
  | .a => d.xz
  | .b => d.x
  | .rx _ _ => d.xz
  | .xyInternal id => d.internal id

theorem polyQueries_eq (e : EvalOutput (Element F)) (q : QueryOutput (Element F))
    (pre : PreambleOutput F) (d : Denominators F) (ax bx : Element F) :
    polyQueries e q pre d ax bx =
      Query.all.map fun k => (evalOf e k, answerOf q pre.v ax bx k, d.of k) := rfl

theorem evalOf_map {K L : Type} (f : K → L) (e : EvalOutput K) (k : Query) :
    evalOf (EvalOutput.map f e) k = f (evalOf e k) := by
  rcases k with s | s | s | s | s | _ | _ | s | s | s | _ | _ | ⟨s, i⟩ | id
  all_goals first
    | rfl
    | (cases s <;> rfl)

theorem answerOf_map {K L : Type} (f : K → L) (q : QueryOutput K) (v : Side → K) (ax bx : K)
    (k : Query) : answerOf (QueryOutput.map f q) (fun s => f (v s)) (f ax) (f bx) k =
      f (answerOf q v ax bx k) := by
  rcases k with s | s | s | s | s | _ | _ | s | s | s | _ | _ | ⟨s, i⟩ | id
  all_goals first
    | rfl
    | (cases s <;> rfl)

theorem DenominatorsOk.of {u : F} {p : Points F} {d : Denominators F} (h : DenominatorsOk m u p d)
    (k : Query) : (d.of k).wire = (u - p.at k)⁻¹ ∧ (m → (d.of k).Honest) := by
  rcases k with s | s | s | s | s | _ | _ | s | s | s | _ | _ | ⟨s, i⟩ | id
  case childP => cases s; exacts [h.lu, h.ru]
  case childRegistry => exact h.w
  case wxChildY => cases s; exacts [h.ly, h.ry]
  case wxY => exact h.y
  case wyChildX => cases s; exacts [h.lx, h.rx]
  case wyX => exact h.x
  case xyW => exact h.w
  case xyChildCircuit => cases s; exacts [h.li, h.ri]
  case childA => exact h.xz
  case childB => exact h.x
  case a => exact h.xz
  case b => exact h.x
  case rx => exact h.xz
  case xyInternal => exact h.internal id

theorem runs_quotients {e : EvalOutput (Element F)} {q : QueryOutput (Element F)}
    {pre : PreambleOutput F} {d : Denominators F} {ax bx alpha : Element F} {u : F} {p : Points F}
    (he : m → EvalOutput.Honest e) (hq : m → QueryOutput.Honest q) (hv : m → ∀ s, (pre.v s).Honest)
    (hax : m → ax.Honest) (hbx : m → bx.Honest) (hal : m → alpha.Honest)
    (hd : DenominatorsOk m u p d) :
    Runs m (accumulateQueries alpha none (polyQueries e q pre d ax bx)) (fun h =>
      (Horner.finish h).wire = quotientSum alpha.wire u p (evalOf (EvalOutput.map (·.wire) e))
        (answerOf (QueryOutput.map (·.wire) q) (fun s => (pre.v s).wire) ax.wire bx.wire) ∧
      (m → (Horner.finish h).Honest)) := by
  refine (runs_accumulate hal _ _ (fun _ e h => by cases h) fun k t ht => ?_).mono fun r hr => ?_
  · rw [polyQueries_eq] at ht
    obtain ⟨c, -, rfl⟩ := List.mem_map.1 ht
    refine ⟨?_, ?_, (hd.of c).2 k⟩
    · have h1 := evalOf_map (fun e : Element F => e.value) e c
      rw [show EvalOutput.map (·.value) e = _ from he k, evalOf_map] at h1
      exact h1.symm
    · have h1 := answerOf_map (fun e : Element F => e.value) q pre.v ax bx c
      have h2 := answerOf_map (fun e : Element F => e.wire) q pre.v ax bx c
      have h3 : (fun s => (pre.v s).value) = fun s => (pre.v s).wire := funext fun s => hv k s
      rw [show QueryOutput.map (·.value) q = _ from hq k, h3, show ax.value = ax.wire from hax k,
        show bx.value = bx.wire from hbx k, h2] at h1
      exact h1.symm
  · obtain ⟨ts, rfl, h1, h2⟩ := hr
    rw [Horner.finish_foldl]
    refine ⟨?_, fun k => hornerE_honest (hal k) (h2 k)⟩
    show hornerVal alpha.wire (ts.map (·.wire)) = _
    rw [h1, quotientSum, descending_eq, polyQueries_eq, List.map_map]
    congr 1
    refine List.map_congr_left fun c _ => ?_
    simp only [Function.comp, (hd.of c).1, evalOf_map, answerOf_map, div_eq_mul_inv]

theorem runs_quotientValue {E : Env F} {u w x y z alpha : Element F} {pre : PreambleOutput F}
    {e : EvalOutput (Element F)} {q : QueryOutput (Element F)} {ax bx : Element F}
    (hu : m → u.Honest) (hw : m → w.Honest) (hx : m → x.Honest) (hy : m → y.Honest)
    (hz : m → z.Honest) (hal : m → alpha.Honest) (hp : m → pre.HonestPoints)
    (he : m → EvalOutput.Honest e) (hq : m → QueryOutput.Honest q)
    (hax : m → ax.Honest) (hbx : m → bx.Honest)
    (ha : m → Avoids u.wire (wirePoints E pre w.wire y.wire z.wire x.wire)) :
    Runs m (quotientValue E u w x y z alpha pre e q ax bx) (fun r =>
      Avoids u.wire (wirePoints E pre w.wire y.wire z.wire x.wire) ∧
      r.wire = quotientSum alpha.wire u.wire (wirePoints E pre w.wire y.wire z.wire x.wire)
        (evalOf (EvalOutput.map (·.wire) e))
        (answerOf (QueryOutput.map (·.wire) q) (fun s => (pre.v s).wire) ax.wire bx.wire) ∧
      (m → r.Honest)) := by
  rw [quotientValue]
  refine (runs_denominators hu hw hx hy hz hp ha).bind fun d hd => ?_
  refine (runs_quotients he hq (fun k s => ?_) hax hbx hal hd.2).bind fun h hh =>
    Runs.pure ⟨hd.1, hh.1, hh.2⟩
  cases s
  · exact (hp k pre.left (by simp)).2.2.2.2
  · exact (hp k pre.right (by simp)).2.2.2.2

/-! ### Consistency of the preamble -/

theorem runs_pointConsistent {b : F} {p : Point F}
    (hp : m → Point.Honest p ∧ p.y.wire ^ 2 = p.x.wire ^ 3 + b) :
    Runs m (Point.enforceConsistent b p) (fun _ => p.y.wire ^ 2 = p.x.wire ^ 3 + b) := by
  refine ⟨fun _ r hr => ?_, fun k => ?_⟩
  · simp only [Point.enforceConsistent, Syn.sat_bind, enforceEqual_sat, Point.alloc_sat] at hr
    obtain ⟨f, ⟨h1, -, -⟩, -, h2, h3⟩ := hr
    rw [← h2, ← h3]
    exact h1
  · obtain ⟨⟨hx, hy⟩, hc⟩ := hp k
    refine ⟨(), ?_, hc⟩
    have h := kind_alloc_sim (b := b) (k := .point) (n := some (p.x.value, p.y.value))
      ⟨_, _, rfl, by rw [show p.x.value = _ from hx, show p.y.value = _ from hy]; exact hc⟩
    rw [Point.enforceConsistent, Syn.sim_bind_ok (show (Point.alloc b _).sim = _ from h)]
    simp only [honestGadget, Option.getD_some]
    rw [show p.x.value = _ from hx, show p.y.value = _ from hy, Syn.sim_bind_ok (a := ()) (by simp),
      enforceEqual_sim, if_pos rfl]

/-- The points of a unified output. -/
def UnifiedOutput.points (o : UnifiedOutput F) : List (Point F) :=
  [o .bridgePreamble, o .bridgeSPrime, o .bridgeInnerError, o .bridgeOuterError, o .bridgeAb,
    o .bridgeQuery, o .bridgeF, o .bridgeEval]

/-- The points of both children are on the curve. -/
def PreambleOutput.OnCurve (b : F) (pre : PreambleOutput F) : Prop :=
  ∀ p ∈ UnifiedOutput.points pre.left.unified ++ UnifiedOutput.points pre.right.unified,
    p.y.wire ^ 2 = p.x.wire ^ 3 + b

theorem unified_consistent_eq (b : F) (o : UnifiedOutput F) : UnifiedOutput.enforceConsistent b o =
    (UnifiedOutput.points o).foldlM (fun _ p => Point.enforceConsistent b p) () := by
  have gen : ∀ (f : Point F → Syn F Unit) (p0 p1 p2 p3 p4 p5 p6 p7 : Point F),
      (do f p0; f p1; f p2; f p3; f p4; f p5; f p6; f p7) =
        [p0, p1, p2, p3, p4, p5, p6, p7].foldlM (fun _ p => f p) () := by
    intro f p0 p1 p2 p3 p4 p5 p6 p7
    simp only [List.foldlM_cons, List.foldlM_nil, bind_pure]
  exact gen _ _ _ _ _ _ _ _ _

theorem runs_pointsConsistent {b : F} : ∀ (ps : List (Point F)),
    (m → ∀ p ∈ ps, Point.Honest p ∧ p.y.wire ^ 2 = p.x.wire ^ 3 + b) →
    Runs m (ps.foldlM (fun _ p => Point.enforceConsistent b p) ()) (fun _ =>
      ∀ p ∈ ps, p.y.wire ^ 2 = p.x.wire ^ 3 + b)
  | [], _ => Runs.pure (by simp)
  | p :: ps, h => by
    rw [List.foldlM_cons]
    refine (runs_pointConsistent fun k => h k p (by simp)).bind fun _ hp => ?_
    refine (runs_pointsConsistent ps fun k q hq => h k q (by simp [hq])).mono fun _ hr => ?_
    intro q hq
    rcases List.mem_cons.1 hq with rfl | hq
    · exact hp
    · exact hr q hq

theorem runs_preambleConsistent {b : F} {pre : PreambleOutput F}
    (h : m → pre.OnCurve b ∧ ∀ p ∈ UnifiedOutput.points pre.left.unified ++
      UnifiedOutput.points pre.right.unified, Point.Honest p) :
    Runs m (pre.enforceConsistent b) (fun _ => pre.OnCurve b) := by
  rw [PreambleOutput.enforceConsistent, unified_consistent_eq, unified_consistent_eq]
  refine (runs_pointsConsistent _ fun k p hp => ?_).bind fun _ h1 => ?_
  · exact ⟨(h k).2 p (by simp [hp]), (h k).1 p (by simp [hp])⟩
  · refine (runs_pointsConsistent _ fun k p hp => ?_).mono fun _ h2 => ?_
    · exact ⟨(h k).2 p (by simp [hp]), (h k).1 p (by simp [hp])⟩
    · intro p hp
      rcases List.mem_append.1 hp with hp | hp
      · exact h1 p hp
      · exact h2 p hp

/-! ### The effective challenge -/

theorem squareBits_of_extract {nbits : ℕ} {sqrt : F → Option F} {gen : F} (hgen : ¬ IsSquare gen)
    {elem : Element F} {e : Endoscalar F} (h : (Endoscalar.extract nbits sqrt gen elem).sat e) :
    ∃ v, SquareBits nbits elem.wire v ∧ HasBits nbits e v := by
  obtain ⟨h1, h2⟩ := C36_extract nbits sqrt hgen elem e h
  have hl : (e.bits.map fun x => decide (x = 1)).length = nbits := by rw [List.length_map, h1]
  have hlt := natOfBits_lt (e.bits.map fun x => decide (x = 1))
  rw [hl] at hlt
  refine ⟨natOfBits (e.bits.map fun x => decide (x = 1)), ⟨hlt, fun i hi hne => ?_⟩, ?_⟩
  · rw [natOfBits_testBit _ i (by rw [hl]; exact hi), List.getElem_map, decide_eq_true_iff]
    exact (h2 i (by rw [h1]; exact hi)).2 hne
  · rw [HasBits]
    apply List.ext_getElem
    · simp [h1]
    · intro i hi hi'
      rw [List.getElem_map, List.getElem_range, natOfBits_testBit _ i (by simpa using hi),
        List.getElem_map]
      rcases (h2 i hi).1 with h | h <;> simp [h]

theorem _root_.Ragu.Spec.ExtractedBits.square {nbits : ℕ} {e : F} {v : ℕ} (h : ExtractedBits nbits e v) :
    SquareBits nbits e v := ⟨h.1, fun i hi _ => h.2 i hi⟩

theorem extractedBits_unique {nbits : ℕ} {e : F} {v v' : ℕ} (h : ExtractedBits nbits e v)
    (h' : ExtractedBits nbits e v') : v = v' := by
  refine Nat.eq_of_testBit_eq fun i => ?_
  by_cases hi : i < nbits
  · rw [Bool.eq_iff_iff]
    exact (h.2 i hi).trans (h'.2 i hi).symm
  · have e : ∀ w < 2 ^ nbits, w.testBit i = false := fun w hw =>
      Nat.testBit_lt_two_pow (lt_of_lt_of_le hw (Nat.pow_le_pow_right (by norm_num) (by omega)))
    rw [e v h.1, e v' h'.1]

theorem _root_.Ragu.Spec.VerifiedWith.mono {B B' : ℕ → Prop} (hB : ∀ v, B v → B' v) {nbits n : ℕ} {zeta : F}
    {p : Points F} {childV : Side → F} {q : QueryOutput F} {e : EvalOutput F}
    {mu nu muPrime nuPrime alpha u v : F}
    (h : VerifiedWith B nbits n zeta p childV q e mu nu muPrime nuPrime alpha u v) :
    VerifiedWith B' nbits n zeta p childV q e mu nu muPrime nuPrime alpha u v := by
  obtain ⟨h1, h2, h3, h4, h5, bits, h6, h7⟩ := h
  exact ⟨h1, h2, h3, h4, h5, bits, hB _ h6, h7⟩

theorem runs_beta [Finite F] {nbits : ℕ} {sqrt : F → Option F} {gen : F} (zeta : F)
    (hgen : ¬ IsSquare gen) (hs : SqrtSpec sqrt) {e : Element F} (he : m → e.Honest) :
    Runs m (do
      let endo ← Endoscalar.extract nbits sqrt gen e
      endo.lift nbits zeta) (fun r => ∃ v, SquareBits nbits e.wire v ∧
        r.wire = liftNative nbits zeta v ∧
        (m → r.Honest ∧ extractNative nbits sqrt gen e.wire = some v ∧
          ExtractedBits nbits e.wire v)) := by
  refine ⟨fun hm r hr => ?_, fun k => ?_⟩
  · obtain ⟨endo, h1, h2⟩ := (Syn.sat_bind _ _ _).1 hr
    obtain ⟨v, h3, h4⟩ := squareBits_of_extract hgen h1
    exact ⟨v, h3, (C35_lift nbits zeta h4).1 r h2, fun k => (hm k).elim⟩
  · obtain ⟨v, h1, h2, h3, endo, h4, h5, h6⟩ := C36_native nbits hs hgen e (he k)
    rw [show e.value = e.wire from he k] at h1 h3
    obtain ⟨r, h7, h8, h9⟩ := (C35_lift nbits zeta h6).2 h5
    exact ⟨r, by rw [Syn.sim_bind_ok h4, h7], v, ⟨h2, fun i hi _ => h3 i hi⟩, h9,
      fun _ => ⟨h8, h1, h2, h3⟩⟩

theorem runs_txz {k : ℕ} {x z : Element F} (hx : m → x.Honest ∧ x.wire ≠ 0)
    (hz : m → z.Honest ∧ z.wire ≠ 0) :
    Runs m (Txz.evaluate k x z) (fun r => x.wire ≠ 0 ∧ z.wire ≠ 0 ∧
      r.wire = tDef (2 ^ k) x.wire z.wire ∧ (m → r.Honest)) := by
  obtain ⟨h1, h2⟩ := C14_circuit k x z
  refine ⟨fun hm r hr => ?_, fun hm => ?_⟩
  · obtain ⟨a, b, c⟩ := h1 r hr
    exact ⟨a, b, c, fun k => (hm k).elim⟩
  · obtain ⟨r, a, b, c⟩ := h2 (hx hm).1 (hz hm).1 (hx hm).2 (hz hm).2
    exact ⟨r, a, (hx hm).2, (hz hm).2, c, fun _ => b⟩

end Ragu.Pcd

/-
Property C100: the types that the macros write.
-/
import Verif.Spec.Macros

namespace Ragu.Props
open Ragu.Macros Ragu.Spec

/-! ### Filling in a type without what is replaced -/

section
variable {P : Ty → Bool} {L : String → Bool} {ρ : Fill}

mutual
theorem fillTy_id (hP : ∀ t, P t = false → ρ.ty t = none) (hL : ∀ l, L l = false → ρ.lt l = l) :
    ∀ t, anyTy P L t = false → fillTy ρ t = t
  | .path q segs, h => by
    simp only [anyTy, Bool.or_eq_false_iff] at h
    simp only [fillTy, hP _ h.1.1, Option.getD_none, fillQ_id hP hL q h.1.2, fillSegs_id hP hL segs h.2]
  | .tuple ts, h => by
    simp only [anyTy, Bool.or_eq_false_iff] at h
    simp only [fillTy, hP _ h.1, Option.getD_none, fillTys_id hP hL ts h.2]
  | .infer, h => by
    simp only [anyTy] at h
    simp only [fillTy, hP _ h, Option.getD_none]
  | .array t n, h => by
    simp only [anyTy, Bool.or_eq_false_iff] at h
    simp only [fillTy, hP _ h.1, Option.getD_none, fillTy_id hP hL t h.2]
  | .reference l t, h => by
    simp only [anyTy, Bool.or_eq_false_iff] at h
    simp only [fillTy, hP _ h.1.1, Option.getD_none, hL l h.1.2, fillTy_id hP hL t h.2]
  | .other x, h => by
    simp only [anyTy] at h
    simp only [fillTy, hP _ h, Option.getD_none]
theorem fillQ_id (hP : ∀ t, P t = false → ρ.ty t = none) (hL : ∀ l, L l = false → ρ.lt l = l) :
    ∀ q, anyQ P L q = false → fillQ ρ q = q
  | none, _ => by simp only [fillQ]
  | some t, h => by
    simp only [anyQ] at h
    simp only [fillQ, fillTy_id hP hL t h]
theorem fillTys_id (hP : ∀ t, P t = false → ρ.ty t = none) (hL : ∀ l, L l = false → ρ.lt l = l) :
    ∀ ts, anyTys P L ts = false → fillTys ρ ts = ts
  | [], _ => by simp only [fillTys]
  | t :: ts, h => by
    simp only [anyTys, Bool.or_eq_false_iff] at h
    simp only [fillTys, fillTy_id hP hL t h.1, fillTys_id hP hL ts h.2]
theorem fillSegs_id (hP : ∀ t, P t = false → ρ.ty t = none) (hL : ∀ l, L l = false → ρ.lt l = l) :
    ∀ ss, anySegs P L ss = false → fillSegs ρ ss = ss
  | [], _ => by simp only [fillSegs]
  | s :: ss, h => by
    simp only [anySegs, Bool.or_eq_false_iff] at h
    simp only [fillSegs, fillSeg_id hP hL s h.1, fillSegs_id hP hL ss h.2]
theorem fillSeg_id (hP : ∀ t, P t = false → ρ.ty t = none) (hL : ∀ l, L l = false → ρ.lt l = l) :
    ∀ s, anySeg P L s = false → fillSeg ρ s = s
  | .mk x .none, _ => by simp only [fillSeg]
  | .mk x (.angle as), h => by
    simp only [anySeg] at h
    simp only [fillSeg, fillArgs_id hP hL as h]
  | .mk x (.paren ts), h => by
    simp only [anySeg] at h
    simp only [fillSeg, fillTys_id hP hL ts h]
theorem fillArgs_id (hP : ∀ t, P t = false → ρ.ty t = none) (hL : ∀ l, L l = false → ρ.lt l = l) :
    ∀ as, anyArgs P L as = false → fillArgs ρ as = as
  | [], _ => by simp only [fillArgs]
  | a :: as, h => by
    simp only [anyArgs, Bool.or_eq_false_iff] at h
    simp only [fillArgs, fillArg_id hP hL a h.1, fillArgs_id hP hL as h.2]
theorem fillArg_id (hP : ∀ t, P t = false → ρ.ty t = none) (hL : ∀ l, L l = false → ρ.lt l = l) :
    ∀ a, anyArg P L a = false → fillArg ρ a = a
  | .type t, h => by
    simp only [anyArg] at h
    simp only [fillArg, fillTy_id hP hL t h]
  | .lifetime l, h => by
    simp only [anyArg] at h
    simp only [fillArg, hL l h]
  | .assoc x t, h => by
    simp only [anyArg] at h
    simp only [fillArg, fillTy_id hP hL t h]
  | .constraint x bs, h => by
    simp only [anyArg] at h
    simp only [fillArg, fillBounds_id hP hL bs h]
  | .const x, _ => by simp only [fillArg]
theorem fillBounds_id (hP : ∀ t, P t = false → ρ.ty t = none) (hL : ∀ l, L l = false → ρ.lt l = l) :
    ∀ bs, anyBounds P L bs = false → fillBounds ρ bs = bs
  | [], _ => by simp only [fillBounds]
  | b :: bs, h => by
    simp only [anyBounds, Bool.or_eq_false_iff] at h
    simp only [fillBounds, fillBound_id hP hL b h.1, fillBounds_id hP hL bs h.2]
theorem fillBound_id (hP : ∀ t, P t = false → ρ.ty t = none) (hL : ∀ l, L l = false → ρ.lt l = l) :
    ∀ b, anyBound P L b = false → fillBound ρ b = b
  | .trait segs, h => by
    simp only [anyBound] at h
    simp only [fillBound, fillSegs_id hP hL segs h]
  | .lifetime l, h => by
    simp only [anyBound] at h
    simp only [fillBound, hL l h]
end
end

theorem holes_ty (l : String) (d t : Ty) (h : Ty.isInfer t = false) : (holes l d).ty t = none := by
  cases t <;> simp_all [holes, Ty.isInfer]

theorem holes_lt (l : String) (d : Ty) (x : String) (h : decide (x = "_") = false) :
    (holes l d).lt x = x := by
  simp_all [holes]

/-! ### `Kind!` -/

theorem inferences_lt (f : Ty) (l : String) :
    ((inferences f).lt l).getD l = (holes "static" (phantom f)).lt l := by
  simp only [inferences, holes]
  split <;> rfl

section
variable {P : Ty → Bool} {L : String → Bool} {ρ : Fill} {S : Strategy}

/-- What a strategy does with a type before it looks inside. -/
def topTy (S : Strategy) : Ty → Option Ty
  | .path q segs => (S.ty (.path q segs)).or (S.tyPath q segs)
  | t => S.ty t

/-- The strategy and the replacement agree, on types `P` and lifetimes `L` only. -/
structure Agree (P : Ty → Bool) (L : String → Bool) (ρ : Fill) (S : Strategy) : Prop where
  top : ∀ t, topTy S t = ρ.ty t
  lt : ∀ l, (S.lt l).getD l = ρ.lt l
  ty_none : ∀ t, P t = false → ρ.ty t = none
  lt_id : ∀ l, L l = false → ρ.lt l = l

mutual
theorem subst_ty (H : Agree P L ρ S) : ∀ t, OpenTy P L t → substTy S t = fillTy ρ t
  | .path q segs, h => by
    simp only [OpenTy] at h
    simp only [substTy, fillTy, fillQ_id H.ty_none H.lt_id q h.1, subst_segs H segs h.2, ← H.top, topTy]
    cases S.ty (.path q segs) <;> rfl
  | .tuple ts, h => by
    simp only [OpenTy] at h
    simp only [substTy, fillTy, subst_tys H ts h, ← H.top, topTy]
  | .infer, _ => by simp only [substTy, fillTy, ← H.top, topTy]
  | .array t n, h => by
    simp only [OpenTy] at h
    simp only [substTy, fillTy, fillTy_id H.ty_none H.lt_id t h, ← H.top, topTy]
  | .reference l t, h => by
    simp only [OpenTy] at h
    simp only [substTy, fillTy, fillTy_id H.ty_none H.lt_id t h.2, H.lt_id l h.1, ← H.top, topTy]
  | .other x, _ => by simp only [substTy, fillTy, ← H.top, topTy]
theorem subst_tys (H : Agree P L ρ S) : ∀ ts, OpenTys P L ts → substTys S ts = fillTys ρ ts
  | [], _ => by simp only [substTys, fillTys]
  | t :: ts, h => by
    simp only [OpenTys] at h
    simp only [substTys, fillTys, subst_ty H t h.1, subst_tys H ts h.2]
theorem subst_segs (H : Agree P L ρ S) : ∀ ss, OpenSegs P L ss → substSegs S ss = fillSegs ρ ss
  | [], _ => by simp only [substSegs, fillSegs]
  | s :: ss, h => by
    simp only [OpenSegs] at h
    simp only [substSegs, fillSegs, subst_seg H s h.1, subst_segs H ss h.2]
theorem subst_seg (H : Agree P L ρ S) : ∀ s, OpenSeg P L s → substSeg S s = fillSeg ρ s
  | .mk x .none, _ => by simp only [substSeg, fillSeg]
  | .mk x (.angle as), h => by
    simp only [OpenSeg] at h
    simp only [substSeg, fillSeg, subst_args H as h]
  | .mk x (.paren ts), h => by
    simp only [OpenSeg] at h
    simp only [substSeg, fillSeg, fillTys_id H.ty_none H.lt_id ts h]
theorem subst_args (H : Agree P L ρ S) : ∀ as, OpenArgs P L as → substArgs S as = fillArgs ρ as
  | [], _ => by simp only [substArgs, fillArgs]
  | a :: as, h => by
    simp only [OpenArgs] at h
    simp only [substArgs, fillArgs, subst_arg H a h.1, subst_args H as h.2]
theorem subst_arg (H : Agree P L ρ S) : ∀ a, OpenArg P L a → substArg S a = fillArg ρ a
  | .type t, h => by
    simp only [OpenArg] at h
    simp only [substArg, fillArg, subst_ty H t h]
  | .lifetime l, _ => by simp only [substArg, fillArg, H.lt]
  | .assoc x t, h => by
    simp only [OpenArg] at h
    simp only [substArg, fillArg, subst_ty H t h]
  | .constraint x bs, h => by
    simp only [OpenArg] at h
    simp only [substArg, fillArg, subst_bounds H bs h]
  | .const x, _ => by simp only [substArg, fillArg]
theorem subst_bounds (H : Agree P L ρ S) : ∀ bs, OpenBounds P L bs → substBounds S bs = fillBounds ρ bs
  | [], _ => by simp only [substBounds, fillBounds]
  | b :: bs, h => by
    simp only [OpenBounds] at h
    simp only [substBounds, fillBounds, subst_bound H b h.1, subst_bounds H bs h.2]
theorem subst_bound (H : Agree P L ρ S) : ∀ b, OpenBound P L b → substBound S b = fillBound ρ b
  | .trait segs, h => by
    simp only [OpenBound] at h
    simp only [substBound, fillBound, subst_segs H segs h]
  | .lifetime l, h => by
    simp only [OpenBound] at h
    simp only [substBound, fillBound, H.lt_id l h]
end
end

theorem inferences_agree (f : Ty) :
    Agree Ty.isInfer (· = "_") (holes "static" (phantom f)) (inferences f) where
  top t := by cases t <;> rfl
  lt := inferences_lt f
  ty_none := holes_ty _ _
  lt_id := holes_lt _ _

theorem infer_ty (f t : Ty) (h : Open t) :
    substTy (inferences f) t = fillTy (holes "static" (phantom f)) t := subst_ty (inferences_agree f) t h

theorem driverField_agree (D : String) :
    Agree (isDriverF D) (fun _ => false) (fieldOut D) (driverField D "DriverField") where
  top t := by
    simp only [fieldOut]
    cases t with
    | path q segs =>
      simp only [topTy, driverField, Option.none_or]
      split
      · rename_i x a y b
        simp only [isDriverF, Bool.and_eq_true, decide_eq_true_eq]
      · rename_i hn
        have : isDriverF D (.path q segs) = false := by
          unfold isDriverF
          split
          · rename_i he
            simp only [Ty.path.injEq] at he
            exact (hn _ _ _ _ he.1 he.2).elim
          · rfl
        rw [this]
        rfl
    | tuple ts => rfl
    | infer => rfl
    | array t n => rfl
    | reference l t => rfl
    | other x => rfl
  lt l := rfl
  ty_none t h := by simp [fieldOut, h]
  lt_id l _ := rfl

section
variable {l : String} {d : Ty}

mutual
theorem nohole_ty (hl : l ≠ "_") (hd : hasHole d = false) : ∀ t, hasHole (fillTy (holes l d) t) = false
  | .path q segs => by
    have h1 := nohole_q hl hd q
    have h2 := nohole_segs hl hd segs
    show anyTy _ _ ((none : Option Ty).getD (.path (fillQ (holes l d) q) (fillSegs (holes l d) segs))) = _
    simp [anyTy, Ty.isInfer, h1, h2]
  | .tuple ts => by
    have h1 := nohole_tys hl hd ts
    show anyTy _ _ ((none : Option Ty).getD (.tuple (fillTys (holes l d) ts))) = _
    simp [anyTy, Ty.isInfer, h1]
  | .infer => hd
  | .array t n => by
    have h1 := nohole_ty hl hd t
    unfold hasHole at h1
    show anyTy _ _ ((none : Option Ty).getD (.array (fillTy (holes l d) t) n)) = _
    simp [anyTy, Ty.isInfer, h1]
  | .reference x t => by
    have h1 := nohole_ty hl hd t
    unfold hasHole at h1
    have h2 := nohole_lt hl x
    show anyTy _ _ ((none : Option Ty).getD (.reference ((holes l d).lt x) (fillTy (holes l d) t))) = _
    simp [anyTy, Ty.isInfer, h1, h2]
  | .other x => rfl
theorem nohole_lt (hl : l ≠ "_") (x : String) : (holes l d).lt x ≠ "_" := by
  simp only [holes]
  split <;> assumption
theorem nohole_q (hl : l ≠ "_") (hd : hasHole d = false) :
    ∀ q, anyQ Ty.isInfer (· = "_") (fillQ (holes l d) q) = false
  | none => rfl
  | some t => nohole_ty hl hd t
theorem nohole_tys (hl : l ≠ "_") (hd : hasHole d = false) :
    ∀ ts, anyTys Ty.isInfer (· = "_") (fillTys (holes l d) ts) = false
  | [] => rfl
  | t :: ts => by
    have h1 := nohole_ty hl hd t
    unfold hasHole at h1
    simp only [fillTys, anyTys, h1, nohole_tys hl hd ts, Bool.or_self]
theorem nohole_segs (hl : l ≠ "_") (hd : hasHole d = false) :
    ∀ ss, anySegs Ty.isInfer (· = "_") (fillSegs (holes l d) ss) = false
  | [] => rfl
  | s :: ss => by
    simp only [fillSegs, anySegs, nohole_seg hl hd s, nohole_segs hl hd ss, Bool.or_self]
theorem nohole_seg (hl : l ≠ "_") (hd : hasHole d = false) :
    ∀ s, anySeg Ty.isInfer (· = "_") (fillSeg (holes l d) s) = false
  | .mk x .none => rfl
  | .mk x (.angle as) => nohole_args hl hd as
  | .mk x (.paren ts) => nohole_tys hl hd ts
theorem nohole_args (hl : l ≠ "_") (hd : hasHole d = false) :
    ∀ as, anyArgs Ty.isInfer (· = "_") (fillArgs (holes l d) as) = false
  | [] => rfl
  | a :: as => by
    simp only [fillArgs, anyArgs, nohole_arg hl hd a, nohole_args hl hd as, Bool.or_self]
theorem nohole_arg (hl : l ≠ "_") (hd : hasHole d = false) :
    ∀ a, anyArg Ty.isInfer (· = "_") (fillArg (holes l d) a) = false
  | .type t => nohole_ty hl hd t
  | .lifetime x => by simpa [fillArg, anyArg] using nohole_lt hl x
  | .assoc x t => nohole_ty hl hd t
  | .constraint x bs => nohole_bounds hl hd bs
  | .const x => rfl
theorem nohole_bounds (hl : l ≠ "_") (hd : hasHole d = false) :
    ∀ bs, anyBounds Ty.isInfer (· = "_") (fillBounds (holes l d) bs) = false
  | [] => rfl
  | b :: bs => by
    simp only [fillBounds, anyBounds, nohole_bound hl hd b, nohole_bounds hl hd bs, Bool.or_self]
theorem nohole_bound (hl : l ≠ "_") (hd : hasHole d = false) :
    ∀ b, anyBound Ty.isInfer (· = "_") (fillBound (holes l d) b) = false
  | .trait segs => nohole_segs hl hd segs
  | .lifetime x => by simpa [fillBound, anyBound] using nohole_lt hl x
end
end

/-- C100: `Kind!` puts `PhantomData<F>` for each `_` and `'static` for each `'_` in the type, and changes
nothing else, if they are where it looks for them; none is left. Without `@` the result is the kind of the
gadget of this type. -/
theorem C100_kind (core : List Seg) (f path : Ty) (hp : Open path) :
    kindMacro core f true path = fillTy (holes "static" (phantom f)) path ∧
    (hasHole f = false → hasHole (kindMacro core f true path) = false) ∧
    kindMacro core f false path = .path (some (fillTy (holes "static" (phantom f)) path))
      (core ++ [.mk "gadgets" .none, .mk "Gadget" (.angle [.lifetime "static", .type (phantom f)]),
        .mk "Kind" .none]) := by
  have h := infer_ty f path hp
  refine ⟨h, fun hf => ?_, ?_⟩
  · show hasHole (substTy (inferences f) path) = false
    rw [h]
    refine nohole_ty (by decide) ?_ path
    simpa [hasHole, phantom, anyTy, anyQ, anySegs, anySeg, anyArgs, anyArg, Ty.isInfer] using hf
  · simp only [kindMacro, replaceInferences, h]
    rfl

/-- C100: elsewhere they are left in place, for example in an array. -/
theorem C100_array_fails (core : List Seg) (f : Ty) :
    kindMacro core f true (.array .infer "3") = .array .infer "3" ∧
      fillTy (holes "static" (phantom f)) (.array .infer "3") ≠ .array .infer "3" := by
  refine ⟨rfl, ?_⟩
  show Ty.array (phantom f) "3" ≠ _
  simp [phantom]

/-! ### The derive macros -/

theorem isTy_ident (d : GenericDriver) (x : String) : d.isTy (.ident x) = (decide (x = d.ident)) := rfl

/-- C100: `Kind![F; @S<..>]`, with `_` for the driver, `'_` for its lifetime and any other arguments, is the
type for which the derive macros implement `GadgetKind` and `Write`: its parameters are the other arguments,
with their own holes filled, and `F`. -/
theorem C100_impl (d : GenericDriver) (ps : List Param) (f : Ty) (ρ : String → Ty) (lt : String → String)
    (hf : ∀ p ∈ ps, ¬ Param.named "DriverField" p) (hs : ∀ p ∈ ps, ∀ l, p = .lifetime l → l ≠ "static")
    (hc : ∀ p ∈ ps, ∀ x, p = .const x → x ≠ d.ident) (core : List Seg) (S : String) :
    kindMacro core f true (.path none [.mk S (.angle (ps.map (written d ρ lt)))]) =
      .path none [.mk S (.angle (fillArgs
        (names (fun x => if x = "DriverField" then some f else some (kindMacro core f true (ρ x)))
          (fun l => if l = "static" then l else (holes "static" f).lt (lt l)))
        (d.kindSubstArguments (ps.map Param.arg))))] := by
  show Ty.path none [.mk S (.angle (substArgs (inferences f) (ps.map (written d ρ lt))))] = _
  congr 4
  induction ps with
  | nil => rfl
  | cons p ps ih =>
    have ih := ih (fun p hp => hf p (by simp [hp])) (fun p hp => hs p (by simp [hp]))
      (fun p hp => hc p (by simp [hp]))
    simp only [List.map_cons, substArgs, GenericDriver.kindSubstArguments, GenericDriver.replaceArgs,
      fillArgs] at ih ⊢
    refine congrArg₂ List.cons ?_ ih
    have hf := hf p (by simp)
    have hs := hs p (by simp)
    have hc := hc p (by simp)
    have hfield : fillArg (names (fun x => if x = "DriverField" then some f
        else some (kindMacro core f true (ρ x)))
        (fun l => if l = "static" then l else (holes "static" f).lt (lt l)))
        (.type (phantom (.ident "DriverField"))) = .type (phantom f) := rfl
    rcases p with l | ⟨b, x, bs, df⟩ | x
    · have hl := hs l rfl
      by_cases h : l = d.lifetime
      · simp only [written, h, if_true, Param.arg, substArg, inferences, Option.getD_some, fillArg, names]
      · simp only [written, h, if_false, Param.arg, substArg, Ne.symm h, fillArg, names, hl,
          inferences_lt]
        rfl
    · have hx : x ≠ "DriverField" := hf
      by_cases h : x = d.ident
      · simp only [written, h, if_true, Param.arg, isTy_ident, decide_true, hfield]
        rfl
      · simp only [written, h, if_false, Param.arg, isTy_ident, decide_false, Bool.false_eq_true]
        simp only [substArg, fillArg, Ty.ident, fillTy, names, hx, if_false, Option.getD_some]
        rfl
    · have hx : x ≠ "DriverField" := hf
      have h := hc x rfl
      simp only [written, Param.arg, isTy_ident, h, decide_false, Bool.false_eq_true, if_false]
      simp only [substArg, fillArg, Ty.ident, fillTy, names, hx, if_false, Option.getD_some]
      rfl

/-- C100: the kind of a derived gadget is the type for which `GadgetKind` is implemented, for the field
`<D as Driver>::F`; and the gadget of this kind for the driver is again the struct. -/
theorem C100_rebind (core : List Seg) (d : GenericDriver) (ps : List Param)
    (hf : ∀ p ∈ ps, ¬ Param.named "DriverField" p) :
    d.kindArguments core (ps.map Param.arg) =
      fillArgs (names (fun x => if x = "DriverField" then some (d.field core) else none) id)
        (d.kindSubstArguments (ps.map Param.arg)) ∧
    d.rebindArguments (ps.map Param.arg) = ps.map Param.arg := by
  constructor
  · induction ps with
    | nil => rfl
    | cons p ps ih =>
      have ih := ih fun p hp => hf p (by simp [hp])
      simp only [List.map_cons, GenericDriver.kindSubstArguments, GenericDriver.kindArguments,
        GenericDriver.replaceArgs, fillArgs] at ih ⊢
      refine congrArg₂ List.cons ?_ ih
      have hf := hf p (by simp)
      rcases p with l | ⟨b, x, bs, df⟩ | x
      · simp only [Param.arg]
        split <;> rfl
      · have hx : x ≠ "DriverField" := hf
        simp only [Param.arg]
        split
        · rfl
        · simp [fillArg, Ty.ident, fillTy, names, hx, fillQ, fillSegs, fillSeg]
      · have hx : x ≠ "DriverField" := hf
        simp only [Param.arg]
        split
        · rfl
        · simp [fillArg, Ty.ident, fillTy, names, hx, fillQ, fillSegs, fillSeg]
  · simp only [GenericDriver.rebindArguments, GenericDriver.replaceArgs, List.map_map]
    refine List.map_congr_left fun p _ => ?_
    rcases p with l | ⟨b, x, bs, df⟩ | x <;> simp only [Function.comp, Param.arg, isTy_ident]
    · split <;> simp_all
    · by_cases h : x = d.ident <;> simp [h]
    · by_cases h : x = d.ident <;> simp [h]

/-- `DriverField` is `D::F`. -/
abbrev fieldFill (D : String) : Fill :=
  names (fun x => if x = "DriverField" then some (driverF D) else none) id

theorem clash_ty (D : String) (t : Ty) (h : clash D t = false) : (fieldFill D).ty t = none := by
  simp only [names]
  split
  · rename_i x
    simp only [clash, decide_eq_false_iff_not] at h
    simp [h]
  · rfl

theorem clash_subst (D : String) (q : Option Ty) (segs : List Seg) (h : clash D (.path q segs) = false)
    (S : Strategy) : (fieldFill D).ty (.path q (substSegs S segs)) = none := by
  simp only [names]
  split
  · rename_i x heq
    obtain ⟨rfl, hs⟩ := Ty.path.inj heq
    rcases segs with _ | ⟨⟨y, _ | as | ts⟩, _ | ⟨s, ss⟩⟩ <;> simp_all [substSegs, substSeg, clash]
  · rfl

mutual
theorem field_ty (D : String) : ∀ t, anyTy (clash D) (fun _ => false) t = false →
    fillTy (fieldFill D) (substTy (driverField D "DriverField") t) = t
  | .path q segs, h => by
    simp only [anyTy, Bool.or_eq_false_iff] at h
    obtain ⟨⟨h1, h2⟩, h3⟩ := h
    show fillTy _ (((driverField D "DriverField").tyPath q segs).getD _) = _
    cases hS : (driverField D "DriverField").tyPath q segs with
    | none =>
      simp only [Option.getD_none, fillTy, clash_subst D q segs h1,
        fillQ_id (clash_ty D) (fun _ _ => rfl) q h2, field_segs D segs h3]
    | some r =>
      simp only [driverField] at hS
      split at hS
      · rename_i x a y b
        split at hS
        · rename_i hxy
          obtain ⟨rfl, rfl⟩ := hxy
          cases hS
          cases a <;> cases b <;> simp_all [clash]
          rfl
        · cases hS
      · cases hS
  | .tuple ts, h => by
    simp only [anyTy, Bool.or_eq_false_iff] at h
    show fillTy _ (.tuple (substTys (driverField D "DriverField") ts)) = _
    show Ty.tuple (fillTys _ _) = _
    rw [field_tys D ts h.2]
  | .infer, _ => rfl
  | .array t n, h => fillTy_id (clash_ty D) (fun _ _ => rfl) _ h
  | .reference l t, h => fillTy_id (clash_ty D) (fun _ _ => rfl) _ h
  | .other x, _ => rfl
theorem field_tys (D : String) : ∀ ts, anyTys (clash D) (fun _ => false) ts = false →
    fillTys (fieldFill D) (substTys (driverField D "DriverField") ts) = ts
  | [], _ => by simp only [substTys, fillTys]
  | t :: ts, h => by
    simp only [anyTys, Bool.or_eq_false_iff] at h
    simp only [substTys, fillTys, field_ty D t h.1, field_tys D ts h.2]
theorem field_segs (D : String) : ∀ ss, anySegs (clash D) (fun _ => false) ss = false →
    fillSegs (fieldFill D) (substSegs (driverField D "DriverField") ss) = ss
  | [], _ => by simp only [substSegs, fillSegs]
  | s :: ss, h => by
    simp only [anySegs, Bool.or_eq_false_iff] at h
    simp only [substSegs, fillSegs, field_seg D s h.1, field_segs D ss h.2]
theorem field_seg (D : String) : ∀ s, anySeg (clash D) (fun _ => false) s = false →
    fillSeg (fieldFill D) (substSeg (driverField D "DriverField") s) = s
  | .mk x .none, _ => by simp only [substSeg, fillSeg]
  | .mk x (.angle as), h => by
    simp only [anySeg] at h
    simp only [substSeg, fillSeg, field_args D as h]
  | .mk x (.paren ts), h => by
    simp only [anySeg] at h
    simp only [substSeg, fillSeg, fillTys_id (clash_ty D) (fun _ _ => rfl) ts h]
theorem field_args (D : String) : ∀ as, anyArgs (clash D) (fun _ => false) as = false →
    fillArgs (fieldFill D) (substArgs (driverField D "DriverField") as) = as
  | [], _ => by simp only [substArgs, fillArgs]
  | a :: as, h => by
    simp only [anyArgs, Bool.or_eq_false_iff] at h
    simp only [substArgs, fillArgs, field_arg D a h.1, field_args D as h.2]
theorem field_arg (D : String) : ∀ a, anyArg (clash D) (fun _ => false) a = false →
    fillArg (fieldFill D) (substArg (driverField D "DriverField") a) = a
  | .type t, h => by
    simp only [anyArg] at h
    simp only [substArg, fillArg, field_ty D t h]
  | .lifetime l, _ => rfl
  | .assoc x t, h => by
    simp only [anyArg] at h
    simp only [substArg, fillArg, field_ty D t h]
  | .constraint x bs, h => by
    simp only [anyArg] at h
    simp only [substArg, fillArg, field_bounds D bs h]
  | .const x, _ => by simp only [substArg, fillArg]
theorem field_bounds (D : String) : ∀ bs, anyBounds (clash D) (fun _ => false) bs = false →
    fillBounds (fieldFill D) (substBounds (driverField D "DriverField") bs) = bs
  | [], _ => by simp only [substBounds, fillBounds]
  | b :: bs, h => by
    simp only [anyBounds, Bool.or_eq_false_iff] at h
    simp only [substBounds, fillBounds, field_bound D b h.1, field_bounds D bs h.2]
theorem field_bound (D : String) : ∀ b, anyBound (clash D) (fun _ => false) b = false →
    fillBound (fieldFill D) (substBound (driverField D "DriverField") b) = b
  | .trait segs, h => by
    simp only [anyBound] at h
    simp only [substBound, fillBound, field_segs D segs h]
  | .lifetime l, _ => rfl
end

/-- C100: the derived `impl GadgetKind` has the parameters of the struct without the driver and its lifetime,
in the same order, and one for the field. Their bounds and defaults are those of the struct with the
parameter for each `D::F`, so that with `D::F` for the parameter they are the same. -/
theorem C100_params (d : GenericDriver) (ps : List Param) :
    ∃ qs, d.implParams ps = qs ++ [.type false "DriverField" [.trait [.mk "ff" .none, .mk "Field" .none]] none] ∧
      ((∀ p ∈ ps, OpenParam d.ident p) →
        qs = (ps.filter fun p => !isDriver d p).map (fillParam (fieldOut d.ident))) ∧
      ((∀ p ∈ ps, anyParam (clash d.ident) p = false) →
        qs.map (fillParam (names (fun x => if x = "DriverField" then some (driverF d.ident) else none) id)) =
          ps.filter fun p => !isDriver d p) := by
  have hfilter : ps.filter d.keeps = ps.filter fun p => !isDriver d p := by
    refine List.filter_congr fun p _ => ?_
    cases p <;> simp [isDriver, GenericDriver.keeps]
  refine ⟨_, rfl, fun h => ?_, fun h => ?_⟩
  · rw [hfilter]
    refine List.map_congr_left fun p hp => ?_
    have hp := h p (List.mem_of_mem_filter hp)
    rcases p with l | ⟨b, x, bs, df⟩ | x
    · rfl
    · simp only [OpenParam] at hp
      simp only [Param.replaceField, fillParam, subst_bounds (driverField_agree d.ident) bs hp.1]
      cases df with
      | none => rfl
      | some t => simp only [Option.map_some, fillQ, subst_ty (driverField_agree d.ident) t (hp.2 t rfl)]
    · rfl
  rw [List.map_map, hfilter]
  conv_rhs => rw [← List.map_id (ps.filter fun p => !isDriver d p)]
  refine List.map_congr_left fun p hp => ?_
  have hp := h p (List.mem_of_mem_filter hp)
  rcases p with l | ⟨b, x, bs, df⟩ | x
  · rfl
  · simp only [anyParam, Bool.or_eq_false_iff] at hp
    simp only [Function.comp, Param.replaceField, fillParam, field_bounds d.ident bs hp.1, id]
    cases df with
    | none => rfl
    | some t =>
      simp only [anyQ] at hp
      simp only [Option.map_some, fillQ, field_ty d.ident t hp.2]
  · rfl

theorem lifetimes_single (l : String) (as : List Arg) : lifetimes as = [l] ↔ OnlyLifetime l as := by
  have hnil : ∀ as : List Arg, lifetimes as = [] ↔ ∀ a ∈ as, ∀ l', a ≠ .lifetime l' := by
    intro as
    simp only [lifetimes, List.filterMap_eq_nil_iff]
    refine forall₂_congr fun a _ => ?_
    cases a <;> simp
  induction as with
  | nil =>
    refine ⟨fun h => (nomatch h), ?_⟩
    rintro ⟨pre, post, h, -⟩
    simp at h
  | cons a as ih =>
    by_cases ha : ∃ l', a = .lifetime l'
    · obtain ⟨l', rfl⟩ := ha
      rw [show lifetimes (.lifetime l' :: as) = l' :: lifetimes as from rfl, List.cons.injEq, hnil]
      constructor
      · rintro ⟨rfl, h⟩
        exact ⟨[], as, rfl, by simpa using h⟩
      · rintro ⟨_ | ⟨b, pre⟩, post, h0, h1⟩
        · simp only [List.nil_append, List.cons.injEq, Arg.lifetime.injEq] at h0
          obtain ⟨rfl, rfl⟩ := h0
          exact ⟨rfl, by simpa using h1⟩
        · simp only [List.cons_append, List.cons.injEq] at h0
          exact absurd h0.1.symm (h1 b (by simp) l')
    · have ha' : ∀ l', a ≠ .lifetime l' := fun l' h => ha ⟨l', h⟩
      have : lifetimes (a :: as) = lifetimes as := by
        cases a with
        | lifetime l' => exact absurd rfl (ha' l')
        | _ => rfl
      rw [this]
      refine Iff.trans ih ?_
      constructor
      · rintro ⟨pre, post, rfl, h⟩
        refine ⟨a :: pre, post, rfl, ?_⟩
        intro b hb
        rcases List.mem_cons.1 hb with rfl | hb
        · exact ha'
        · exact h b hb
      · rintro ⟨_ | ⟨b, pre⟩, post, h0, h1⟩
        · simp only [List.nil_append, List.cons.injEq] at h0
          exact absurd h0.1 (ha' l)
        · simp only [List.cons_append, List.cons.injEq] at h0
          exact ⟨pre, post, h0.2, fun b hb => h1 b (by simp_all)⟩

theorem extractFromBounds_ok (x : String) (d : GenericDriver) : ∀ bs,
    extractFromBounds x bs = .ok d ↔ d.ident = x ∧ ∃ pre as post,
      bs = pre ++ post ∧ (∀ b ∈ pre, ∀ a, ¬ driverBound a b) ∧
      (∃ b rest, post = b :: rest ∧ driverBound (.angle as) b) ∧ lifetimes as = [d.lifetime]
  | [] => by
    refine ⟨fun h => (nomatch h), ?_⟩
    rintro ⟨-, pre, as, post, h, -, ⟨b, rest, rfl, -⟩, -⟩
    simp at h
  | b :: bs => by
    have skip : (∀ a, ¬ driverBound a b) → extractFromBounds x (b :: bs) = extractFromBounds x bs →
        (extractFromBounds x (b :: bs) = .ok d ↔ d.ident = x ∧ ∃ pre as post,
          b :: bs = pre ++ post ∧ (∀ b ∈ pre, ∀ a, ¬ driverBound a b) ∧
          (∃ b rest, post = b :: rest ∧ driverBound (.angle as) b) ∧ lifetimes as = [d.lifetime]) := by
      intro hb he
      rw [he, extractFromBounds_ok x d bs]
      refine and_congr_right fun _ => ⟨?_, ?_⟩
      · rintro ⟨pre, as, post, rfl, h1, h2, h3⟩
        refine ⟨b :: pre, as, post, rfl, ?_, h2, h3⟩
        intro c hc
        rcases List.mem_cons.1 hc with rfl | hc
        · exact hb
        · exact h1 c hc
      · rintro ⟨_ | ⟨c, pre⟩, as, post, h0, h1, h2, h3⟩
        · obtain ⟨c, rest, rfl, hc⟩ := h2
          simp only [List.nil_append, List.cons.injEq] at h0
          exact absurd (h0.1 ▸ hc) (hb _)
        · simp only [List.cons_append, List.cons.injEq] at h0
          exact ⟨pre, as, post, h0.2, fun c hc => h1 c (by simp [hc]), h2, h3⟩
    have hit : ∀ a, driverBound a b → extractFromBounds x (b :: bs) =
          (match a with
          | .angle as =>
            match lifetimes as with
            | [l] => .ok ⟨x, l⟩
            | _ => .error "expected a single lifetime bound"
          | _ => .error "expected a lifetime bound") →
        (extractFromBounds x (b :: bs) = .ok d ↔ d.ident = x ∧ ∃ pre as post,
          b :: bs = pre ++ post ∧ (∀ b ∈ pre, ∀ a, ¬ driverBound a b) ∧
          (∃ b rest, post = b :: rest ∧ driverBound (.angle as) b) ∧ lifetimes as = [d.lifetime]) := by
      intro a ha he
      rw [he]
      constructor
      · intro h
        rcases a with _ | as | ts
        · cases h
        · rcases hl : lifetimes as with _ | ⟨l, _ | ⟨l', ls⟩⟩ <;> simp only [hl] at h
          · cases h
          · cases h
            exact ⟨rfl, [], as, b :: bs, rfl, by simp, ⟨b, bs, rfl, ha⟩, hl⟩
          · cases h
        · cases h
      · rintro ⟨rfl, _ | ⟨c, pre⟩, as, post, h0, h1, ⟨c', rest, rfl, hc'⟩, h3⟩
        · simp only [List.nil_append, List.cons.injEq] at h0
          obtain ⟨rfl, rfl⟩ := h0
          have : a = .angle as := by
            cases b with
            | trait segs =>
              have := ha.symm.trans hc'
              simpa using this
            | lifetime l => exact ha.elim
          subst this
          simp only [h3]
        · simp only [List.cons_append, List.cons.injEq] at h0
          exact absurd ha (h0.1 ▸ h1 c (by simp) a)
    cases b with
    | lifetime l => exact skip (fun _ h => h) rfl
    | trait segs =>
      rcases hg : segs.getLast? with _ | ⟨y, args⟩
      · refine skip (fun a h => ?_) (by simp only [extractFromBounds, hg])
        simp only [driverBound, hg] at h
        cases h
      · by_cases hy : y = "Driver"
        · subst hy
          exact hit args hg (by
            simp only [extractFromBounds, hg, ne_eq, not_true, if_false]
            cases args <;> rfl)
        · refine skip (fun a h => ?_) (by simp only [extractFromBounds, hg, ne_eq, hy, not_false_iff, if_true])
          simp only [driverBound, hg, Option.some.injEq, Seg.mk.injEq] at h
          exact hy h.1

/-- C100: the driver of a struct is its first parameter with the attribute, and its lifetime the only one of
the first `Driver` bound of the parameter; without the attribute they are `D` and `'dr`. In all other cases
the macros fail. -/
theorem C100_extract (ps : List Param) (d : GenericDriver) :
    extract ps = .ok d ↔
      ((∀ p ∈ ps, marked p = false) ∧ d = ⟨"D", "dr"⟩) ∨
      ∃ pre bounds default post, ps = pre ++ .type true d.ident bounds default :: post ∧
        (∀ p ∈ pre, marked p = false) ∧
        ∃ bpre b bpost as, bounds = bpre ++ b :: bpost ∧ (∀ c ∈ bpre, ∀ a, ¬ driverBound a c) ∧
          driverBound (.angle as) b ∧ OnlyLifetime d.lifetime as := by
  simp only [← lifetimes_single]
  induction ps with
  | nil =>
    constructor
    · intro h
      cases h
      exact .inl ⟨by simp, rfl⟩
    · rintro (⟨-, rfl⟩ | ⟨pre, bounds, default, post, h, -⟩)
      · rfl
      · simp at h
  | cons p ps ih =>
    by_cases hm : marked p
    · obtain ⟨x, bounds, default, rfl⟩ : ∃ x bounds default, p = .type true x bounds default := by
        rcases p with l | ⟨b, x, bs, df⟩ | x
        · simp [marked] at hm
        · simp only [marked] at hm
          subst hm
          exact ⟨x, bs, df, rfl⟩
        · simp [marked] at hm
      rw [show extract (.type true x bounds default :: ps) = extractFromBounds x bounds from rfl,
        extractFromBounds_ok]
      constructor
      · rintro ⟨rfl, bpre, as, _, rfl, h1, ⟨b, rest, rfl, h2⟩, h3⟩
        exact .inr ⟨[], _, default, ps, rfl, by simp, bpre, b, rest, as, rfl, h1, h2, h3⟩
      · rintro (⟨h, -⟩ | ⟨_ | ⟨c, pre⟩, bounds', default', post, h0, h1, bpre, b, bpost, as, h2, h3, h4, h5⟩)
        · exact absurd (h _ List.mem_cons_self) (by simp [marked])
        · simp only [List.nil_append, List.cons.injEq, Param.type.injEq, true_and] at h0
          obtain ⟨⟨rfl, rfl, rfl⟩, rfl⟩ := h0
          exact ⟨rfl, bpre, as, b :: bpost, h2, h3, ⟨b, bpost, rfl, h4⟩, h5⟩
        · simp only [List.cons_append, List.cons.injEq] at h0
          exact absurd (h1 c (by simp)) (by simp [← h0.1, marked])
    · have hm : marked p = false := by simpa using hm
      have he : extract (p :: ps) = extract ps := by
        rcases p with l | ⟨b, x, bs, df⟩ | x
        · rfl
        · simp only [marked] at hm
          subst hm
          rfl
        · rfl
      rw [he, ih]
      refine or_congr ?_ ?_
      · simp [hm]
      · constructor
        · rintro ⟨pre, bounds, default, post, rfl, h1, h2⟩
          refine ⟨p :: pre, bounds, default, post, rfl, ?_, h2⟩
          intro c hc
          rcases List.mem_cons.1 hc with rfl | hc
          · exact hm
          · exact h1 c hc
        · rintro ⟨_ | ⟨c, pre⟩, bounds, default, post, h0, h1, h2⟩
          · simp only [List.nil_append, List.cons.injEq] at h0
            rw [h0.1] at hm
            simp [marked] at hm
          · simp only [List.cons_append, List.cons.injEq] at h0
            exact ⟨pre, bounds, default, post, h0.2, fun c hc => h1 c (by simp [hc]), h2⟩

/-! ### Examples -/

/-- `WithSuffix<'_, _, Output<'_, _, C>>`. -/
def exWritten : Ty :=
  .path none [.mk "WithSuffix" (.angle [.lifetime "_", .type .infer,
    .type (.path none [.mk "Output" (.angle [.lifetime "_", .type .infer, .type (.ident "C")])])])]

example : Open exWritten ∧ hasHole exWritten = true := by
  refine ⟨?_, rfl⟩
  simp [exWritten, Open, OpenTy, OpenSegs, OpenSeg, OpenArgs, OpenArg, Ty.ident, anyQ]

example : kindMacro [] (.ident "Fp") true exWritten =
    .path none [.mk "WithSuffix" (.angle [.lifetime "static", .type (phantom (.ident "Fp")),
      .type (.path none [.mk "Output" (.angle [.lifetime "static", .type (phantom (.ident "Fp")),
        .type (.ident "C")])])])] := rfl

/-- `<'a, #[ragu(driver)] MyD: Sync + Driver<'a>, K: Write<MyD::F>, const N: usize>`. -/
def exParams : List Param :=
  [.lifetime "a",
    .type true "MyD" [.trait [.mk "Sync" .none], .trait [.mk "Driver" (.angle [.lifetime "a"])]] none,
    .type false "K" [.trait [.mk "Write" (.angle [.type (driverF "MyD")])]] none,
    .const "N"]

example : extract exParams = .ok ⟨"MyD", "a"⟩ := rfl

example : (⟨"MyD", "a"⟩ : GenericDriver).implParams exParams =
    [.type false "K" [.trait [.mk "Write" (.angle [.type (.ident "DriverField")])]] none, .const "N",
      .type false "DriverField" [.trait [.mk "ff" .none, .mk "Field" .none]] none] := rfl

example : ∀ p ∈ exParams, OpenParam "MyD" p := by
  simp [exParams, OpenParam, OpenBounds, OpenBound, OpenSegs, OpenSeg, OpenArgs, OpenArg, OpenTy, driverF, anyQ]

example : (∀ p ∈ exParams, anyParam (clash "MyD") p = false) ∧
    (∀ p ∈ exParams, ¬ Param.named "DriverField" p) ∧
    (∀ p ∈ exParams, ∀ l, p = .lifetime l → l ≠ "static") ∧
    (∀ p ∈ exParams, ∀ x, p = .const x → x ≠ "MyD") := by
  simp only [exParams, List.forall_mem_cons, Param.named]
  refine ⟨⟨rfl, rfl, rfl, rfl, by simp⟩, ⟨id, by decide, by decide, by decide, by simp⟩, ?_, ?_⟩ <;>
  simp

end Ragu.Props

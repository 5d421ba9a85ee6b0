import Verif.Spec.DTypes
import Verif.Lemmas.Rounding
import Verif.Lemmas.PushNd
import Verif.Lemmas.Grouped

/-!
# Lemmas about data types
-/

namespace Cmomy.DTypes

open Nd Spec Axes

theorem selectDtype_eq (k : Kind) (t : DType) (out dtype : Option DType) :
    selectDtype k t out dtype
      = if askedType k t out dtype ∈ allowed then .ok (askedType k t out dtype) else .error .valueError := by
  unfold selectDtype askedType
  cases out <;> cases dtype <;> rfl

theorem mem_allowed {d : DType} : d ∈ allowed ↔ IsFloatType d := by
  simp [allowed, IsFloatType]

theorem selectDtype_ok {k : Kind} {t : DType} {out dtype : Option DType} (h : IsFloatType (askedType k t out dtype)) :
    selectDtype k t out dtype = .ok (askedType k t out dtype) := by
  rw [selectDtype_eq, if_pos (mem_allowed.2 h)]

variable {K : Type*} [Field K] [LinearOrder K] [IsStrictOrderedRing K] {C : Conv K}

theorem _root_.Cmomy.Spec.IsFloatType.real {d : DType} (h : IsFloatType d) : IsReal d := by
  rcases h with rfl | rfl <;> exact ⟨by decide, by decide⟩

theorem _root_.Cmomy.Spec.IsConv.idem (h : IsConv C) (t : DType) (y : K) : C.to t (C.to t y) = C.to t y := by
  cases t with
  | bool =>
    simp only [Conv.to]
    by_cases e : y = 0 <;> simp [e]
  | int => exact h.trunc_idem y
  | float16 => exact h.half.lo.idem y
  | float32 => exact h.single.lo.idem y
  | float64 => exact h.single.hi.idem y
  | complex => rfl
  | other => rfl

theorem _root_.Cmomy.Spec.IsConv.zero (h : IsConv C) (t : DType) : C.to t 0 = 0 := by
  have z : ∀ {fl : K → K}, IsRounding fl → fl 0 = 0 := by
    intro fl hf
    have := hf.neg 0
    rw [neg_zero] at this
    linarith
  cases t with
  | bool => simp [Conv.to]
  | int => exact h.trunc_small 0 (by simp)
  | float16 => exact z h.half.lo
  | float32 => exact z h.single.lo
  | float64 => exact z h.single.hi
  | complex => rfl
  | other => rfl

theorem _root_.Cmomy.Spec.IsConv.one (h : IsConv C) {d : DType} (hd : IsFloatType d) : C.to d 1 = 1 := by
  rcases hd with rfl | rfl
  · exact h.single.lo.one
  · exact h.single.hi.one

theorem mapArr_fit {t : DType} {a : Arr K} (h : AllFit C t a) : mapArr (C.to t) a = a := by
  unfold mapArr
  have : (fun i => C.to t (a.get i)) = a.get := funext fun i => h i
  rw [this]

/-- What becomes of a real array in the gufunc. -/
theorem gufuncCast_real {d t : DType} {a : Arr K} (ht : IsReal t) (hf : AllFit C t a) :
    gufuncCast C d ⟨t, a⟩ = .ok (mapArr (C.to d) a) := by
  unfold gufuncCast castFn
  rw [if_neg ht.2, if_neg ht.1]
  by_cases h : d = t
  · subst h
    rw [if_pos rfl]
    show Except.ok (mapArr id a) = _
    rw [mapArr_fit hf]
    rfl
  · rw [if_neg h]
    rfl

/-- What `np.asarray` makes of a real argument. -/
theorem asarray_real {d : DType} {a : Arg K} (ha : Arg.Real C a) (hd : IsReal d) :
    asarray C a (some d) = .ok ⟨d, mapArr (C.to d) a.arr⟩ := by
  simp only [asarray]
  by_cases h : d = a.type
  · rw [if_pos h]
    subst h
    rw [mapArr_fit ha.fits]
  · rw [if_neg h, if_neg (by rintro (e | e); exacts [ha.type.2 e, hd.2 e]), if_neg ha.type.1]

/-- The first array. -/
theorem first_real (hC : IsConv C) {d : DType} (hd : IsFloatType d) {x : Arg K} (hx : Arg.Real C x) :
    ∃ t, asarrayMaybeRecast C x (some d) false = .ok t ∧ t.type = (if x.kind = .ndarray then x.type else d) ∧
      gufuncCast C d t = .ok (once C d x) := by
  unfold asarrayMaybeRecast
  by_cases h : x.kind = .ndarray
  · rw [if_pos h, if_pos h]
    exact ⟨_, rfl, rfl, gufuncCast_real hx.type hx.fits⟩
  · rw [if_neg h, if_neg h, asarray_real hx hd.real]
    refine ⟨_, rfl, rfl, ?_⟩
    have hf : AllFit C d (mapArr (C.to d) x.arr) := fun i => hC.idem d _
    rw [gufuncCast_real hd.real hf, mapArr_fit hf]
    rfl

/-- What becomes of a further argument, when the first array has type `t`. -/
theorem further_real (hC : IsConv C) {d t : DType} (ht : IsReal t) {a : Arg K} (ha : Arg.Real C a) :
    ((asarrayMaybeRecast C a (some t) false).bind (gufuncCast C d))
      = .ok (if a.kind = .ndarray then once C d a else twice C t d a) := by
  unfold asarrayMaybeRecast
  by_cases h : a.kind = .ndarray
  · rw [if_pos h, if_pos h]
    exact gufuncCast_real ha.type ha.fits
  · rw [if_neg h, if_neg h, asarray_real ha ht]
    exact gufuncCast_real ht (fun i => hC.idem t _)

theorem mapM_bind {α β γ : Type*} {f : α → Py β} {g : β → Py γ} {h : α → γ} (l : List α)
    (H : ∀ a ∈ l, (f a).bind g = .ok (h a)) : ((l.mapM f).bind fun bs => bs.mapM g) = .ok (l.map h) := by
  induction l with
  | nil => rfl
  | cons a l ih =>
    have h1 := H a (by simp)
    have h2 := ih fun b hb => H b (by simp [hb])
    rw [List.mapM_cons]
    cases ea : f a with
    | error e => rw [ea] at h1; cases h1
    | ok b =>
      rw [ea] at h1
      cases el : l.mapM f with
      | error e => rw [el] at h2; cases h2
      | ok bs =>
        rw [el] at h2
        have h1' : g b = .ok (h a) := h1
        have h2' : bs.mapM g = .ok (l.map h) := h2
        show (b :: bs).mapM g = _
        rw [List.mapM_cons, h1', h2']
        rfl

theorem mem_of_mapM {α β : Type*} {f : α → Py β} {l : List α} {r : List β} (h : l.mapM f = .ok r) {a : α}
    (ha : a ∈ l) : ∃ b, f a = .ok b ∧ b ∈ r := by
  induction l generalizing r with
  | nil => cases ha
  | cons c l ih =>
    rw [List.mapM_cons] at h
    obtain ⟨b, e1, e2⟩ := Except_bind_ok h
    obtain ⟨bs, e3, e4⟩ := Except_bind_ok e2
    cases e4
    rcases List.mem_cons.1 ha with rfl | ha
    · exact ⟨b, e1, by simp⟩
    · obtain ⟨b', h1, h2⟩ := ih e3 ha
      exact ⟨b', h1, by simp [h2]⟩

/-- The arrays a kernel gets. -/
theorem prepared_real {β : Type*} (hC : IsConv C) {d : DType} (hd : IsFloatType d)
    (f : DType → Arr K → List (Arr K) → Py β) {x : Arg K} (hx : Arg.Real C x) {others : List (Arg K)}
    (ho : ∀ a ∈ others, Arg.Real C a) :
    (prepareTypes C x others (some d)).bind (callGufunc C d f)
      = f d (once C d x) (others.map fun a => if a.kind = .ndarray then once C d a
          else twice C (if x.kind = .ndarray then x.type else d) d a) := by
  obtain ⟨t, e1, e2, e3⟩ := first_real hC hd hx
  have ht : IsReal t.type := by
    rw [e2]
    split_ifs
    exacts [hx.type, hd.real]
  have e4 := mapM_bind (f := fun a => asarrayMaybeRecast C a (some t.type) false) (g := gufuncCast C d) others
    fun a ha => further_real hC ht (ho a ha)
  unfold prepareTypes
  rw [e1]
  cases e5 : others.mapM fun a => asarrayMaybeRecast C a (some t.type) false with
  | error e => rw [e5] at e4; cases e4
  | ok os =>
    rw [e5] at e4
    have e4' : os.mapM (gufuncCast C d) = .ok _ := e4
    show ((others.mapM fun a => asarrayMaybeRecast C a (some t.type) false).bind fun os => Except.ok (t, os)).bind
      (callGufunc C d f) = _
    rw [e5]
    show callGufunc C d f (t, os) = _
    unfold callGufunc
    rw [e3]
    show ((os.mapM (gufuncCast C d)).bind fun os => f d (once C d x) os) = _
    rw [e4']
    rw [← e2]
    rfl

/-! ### Weights that are zero -/

/-- Pushing values of weight zero does nothing. -/
theorem reduceVals_zero {V M : Type*} {k : Kernel K V M} (hk : ∀ x out, k.pushVal x 0 out = some out)
    {l : List (V × K)} (hl : ∀ p ∈ l, p.2 = 0) (out : M) : k.reduceVals l out = some out := by
  unfold Kernel.reduceVals
  induction l with
  | nil => rfl
  | cons p l ih =>
    rw [List.foldlM_cons, hl p (by simp), hk]
    exact ih fun q hq => hl q (by simp [hq])

theorem typedFamily1_zero (d : DType) (sizes : List ℕ) (x : K) (out : Mom K) :
    (typedFamily1 C d sizes).pushVal x 0 out = some out := by
  simp [typedFamily1, Precision.kernel1, Precision.pushVal]

theorem typedFamily2_zero (d : DType) (sizes : List ℕ) (x : K × K) (out : Com K) :
    (typedFamily2 C d sizes).pushVal x 0 out = some out := by
  simp [typedFamily2, Precision.kernel2, Precision.pushValCov]

theorem prepareSecondary_zero {a b : Arr K} {axis : ℤ} {n : ℕ} {e : Bool} (ha : ∀ i, a.get i = 0)
    (h : prepareSecondary a axis n e = .ok b) : ∀ i, b.get i = 0 := by
  unfold prepareSecondary at h
  split_ifs at h with h1 h2 h3
  · cases h
    intro i
    exact ha _
  all_goals
    obtain ⟨c, e1, e2⟩ := Except_bind_ok h
    obtain ⟨s, e3, e4⟩ := Except_bind_ok e2
    split_ifs at e4
    cases e4
  · cases e1
    exact ha
  · unfold Arr.moveaxisInt at e1
    cases eo : moveaxisOrder a.shape.length (([axis] : List ℤ).map .int) (([-1] : List ℤ).map .int) with
    | error e => rw [eo] at e1; cases e1
    | ok o =>
      rw [eo] at e1
      cases e1
      intro i
      exact ha _
  · cases e1
    exact ha

theorem sampleOperands_fst {ops : List (Arr K × ℤ)} {n : ℕ} {os : List (Arr K × ℕ)}
    (h : sampleOperands ops n = .ok os) : os.map Prod.fst = ops.map Prod.fst := by
  unfold sampleOperands at h
  obtain ⟨os', e1, e2⟩ := Except_bind_ok h
  split_ifs at e2 with hall
  cases e2
  clear h hall
  induction ops generalizing os with
  | nil => cases e1; rfl
  | cons p ops ih =>
    rw [List.mapM_cons] at e1
    obtain ⟨q, e3, e4⟩ := Except_bind_ok e1
    obtain ⟨qs, e5, e6⟩ := Except_bind_ok e4
    cases e6
    rw [List.map_cons, List.map_cons, ih e5]
    unfold sampleOperand at e3
    cases ec : coreAxes p.1.shape.length [p.2] with
    | error e => rw [ec] at e3; cases e3
    | ok cs =>
      rw [ec] at e3
      cases e3
      rfl

/-- A result of `reduce_vals` when all weights are zero. -/
theorem reduceValsNd_zero {V M : Type*} {val : List K → V} {core : Core K M} {fam : List ℕ → Kernel K V M}
    (hk : ∀ s x out, (fam s).pushVal x 0 out = some out) {mom : List ℕ} {momAxes : List ℤ} {x w : Arr K}
    {ys : List (Arr K)} {axis : AxisArg} (hw : ∀ i, w.get i = 0) {r : Arr (Option K)}
    (h : reduceValsNd val core fam mom momAxes x (w :: ys) axis = .ok r) :
    ∀ i, ∃ s c, r.get i = some (core.ent (fam s).zero c) := by
  unfold reduceValsNd at h
  obtain ⟨p, e1, e2⟩ := Except_bind_ok h
  unfold prepareValues at e1
  simp only [Bool.false_eq_true, false_and, if_false] at e1
  split_ifs at e1
  obtain ⟨ax, -, e3⟩ := Except_bind_ok e1
  obtain ⟨t, -, e4⟩ := Except_bind_ok e3
  obtain ⟨os, e5, e6⟩ := Except_bind_ok e4
  rw [List.mapM_cons] at e5
  obtain ⟨w', e7, e8⟩ := Except_bind_ok e5
  obtain ⟨ys', -, e9⟩ := Except_bind_ok e8
  cases e9
  cases e6
  have hw' := prepareSecondary_zero hw e7
  unfold reduceValsFrom at e2
  obtain ⟨sh, -, e10⟩ := Except_bind_ok e2
  obtain ⟨ops, e11, e12⟩ := Except_bind_ok e10
  have hops := sampleOperands_fst e11
  unfold fillVals at e12
  obtain ⟨ocs, -, e13⟩ := Except_bind_ok e12
  simp only at e13
  split_ifs at e13
  obtain ⟨loop, -, e14⟩ := Except_bind_ok e13
  split_ifs at e14
  cases e14
  intro i
  refine ⟨ocs.map fun a => sh.getD a 0, ocs.map i, ?_⟩
  simp only
  unfold Kernel.reduceValsFromZero
  rw [reduceVals_zero (hk _)]
  · rfl
  · intro q hq
    unfold samplesAt at hq
    match ops, hops with
    | [], hops => simp [valueOperands] at hops
    | [a], hops => simp [valueOperands] at hops
    | a :: b :: os, hops =>
      simp only [valueOperands, List.map_cons, List.cons.injEq] at hops
      obtain ⟨s, -, rfl⟩ := List.mem_map.1 hq
      dsimp only
      unfold Arr.read
      rw [hops.2.1]
      exact hw' _

end Cmomy.DTypes

import Verif.Lemmas.DTypes
import Verif.Props.RoundingError

/-!
# C77: data types

Which type a result has, what is refused, and whether the numbers of the arguments arrive in the kernels as they
were given.
-/

namespace Cmomy

open Spec DTypes Nd Axes

section general

variable {K : Type*} [Field K] [LinearOrder K] [IsStrictOrderedRing K] {C : Conv K} {β : Type*}
variable {x : Arg K} {others : List (Arg K)} {out dtype : Option DType}

/-! ### The type of the result -/

omit [IsStrictOrderedRing K] in
/-- **C77** The result has the type asked for, which is `float32` or `float64`. -/
theorem C77_type {f : DType → Arr K → List (Arr K) → Py β} {d : DType} {r : β}
    (h : valsCall C f x others out dtype = .ok (d, r)) :
    d = askedType x.kind x.type out dtype ∧ IsFloatType d := by
  unfold valsCall at h
  rw [selectDtype_eq] at h
  split_ifs at h with hd
  · obtain ⟨d', e0, h1⟩ := Except_bind_ok h
    cases e0
    obtain ⟨p, -, h2⟩ := Except_bind_ok h1
    cases e : callGufunc C (askedType x.kind x.type out dtype) f p with
    | error e' => rw [e] at h2; cases h2
    | ok b =>
      rw [e] at h2
      obtain ⟨rfl, -⟩ := Prod.mk.inj (Except.ok.inj h2)
      exact ⟨rfl, mem_allowed.1 hd⟩
  · cases h

omit [IsStrictOrderedRing K] in
/-- **C77** Any other type is refused, before anything else is looked at. -/
theorem C77_refused (f : DType → Arr K → List (Arr K) → Py β) (others : List (Arg K))
    (h : ¬ IsFloatType (askedType x.kind x.type out dtype)) :
    valsCall C f x others out dtype = .error .valueError := by
  unfold valsCall
  rw [selectDtype_eq, if_neg (fun e => h (mem_allowed.1 e))]
  rfl

omit [IsStrictOrderedRing K] in
/-- **C77** The functions on arrays of moments. -/
theorem C77_data_type {f : DType → Arr K → Py β} {d : DType} {r : β}
    (h : dataCall C f x out dtype = .ok (d, r)) :
    d = askedType x.kind x.type out dtype ∧ IsFloatType d := by
  unfold dataCall at h
  rw [selectDtype_eq] at h
  split_ifs at h with hd
  · obtain ⟨d', e0, h1⟩ := Except_bind_ok h
    cases e0
    obtain ⟨t, -, h2⟩ := Except_bind_ok h1
    obtain ⟨a, -, h3⟩ := Except_bind_ok h2
    cases e : f (askedType x.kind x.type out dtype) a with
    | error e' => rw [e] at h3; cases h3
    | ok b =>
      rw [e] at h3
      obtain ⟨rfl, -⟩ := Prod.mk.inj (Except.ok.inj h3)
      exact ⟨rfl, mem_allowed.1 hd⟩
  · cases h

/-! ### The numbers that arrive -/

/-- **C77** What the kernels get. The first argument and every `ndarray` are converted once, to the type of the result;
what is not an `ndarray` is converted to the type of the first argument before, if that is one. -/
theorem C77_values (hC : IsConv C) (f : DType → Arr K → List (Arr K) → Py β)
    (hd : IsFloatType (askedType x.kind x.type out dtype)) (hx : Arg.Real C x) (ho : ∀ a ∈ others, Arg.Real C a) :
    let d := askedType x.kind x.type out dtype
    valsCall C f x others out dtype
      = (f d (once C d x) (others.map fun a => if a.kind = .ndarray then once C d a
          else twice C (if x.kind = .ndarray then x.type else d) d a)).map (d, ·) := by
  intro d
  unfold valsCall
  rw [selectDtype_ok hd]
  show (prepareTypes C x others (some d)).bind (fun p => (callGufunc C d f p).map (d, ·)) = _
  rw [← prepared_real hC hd f hx ho]
  cases prepareTypes C x others (some d) <;> rfl

/-- **C77** An argument that does not pass through another type is converted once. -/
theorem C77_direct (hC : IsConv C) {d : DType} {x a : Arg K} (h : Direct C d x a) :
    (if a.kind = .ndarray then once C d a else twice C (if x.kind = .ndarray then x.type else d) d a)
      = once C d a := by
  by_cases ha : a.kind = .ndarray
  · rw [if_pos ha]
  · rw [if_neg ha]
    unfold twice once
    congr 1
    funext i
    by_cases hx : x.kind = .ndarray
    · rw [if_pos hx]
      rcases h with h | h | h | h
      · exact absurd h ha
      · exact absurd hx h
      · rw [h, hC.idem]
      · rw [h i]
    · rw [if_neg hx, hC.idem]

/-- **C77** If no argument passes through another type, then all numbers are converted once, to the type of the result. -/
theorem C77_once (hC : IsConv C) (f : DType → Arr K → List (Arr K) → Py β)
    (hd : IsFloatType (askedType x.kind x.type out dtype)) (hx : Arg.Real C x) (ho : ∀ a ∈ others, Arg.Real C a)
    (hs : ∀ a ∈ others, Direct C (askedType x.kind x.type out dtype) x a) :
    let d := askedType x.kind x.type out dtype
    valsCall C f x others out dtype = (f d (once C d x) (others.map (once C d))).map (d, ·) := by
  intro d
  rw [C77_values hC f hd hx ho]
  show (f d _ _).map _ = _
  congr 2
  exact List.map_congr_left fun a ha => C77_direct hC (hs a ha)

/-- **C77** Numbers of the type of the result are used as they were given, whatever they were given in. -/
theorem C77_given (hC : IsConv C) (f : DType → Arr K → List (Arr K) → Py β)
    (hd : IsFloatType (askedType x.kind x.type out dtype)) (hx : Arg.Real C x) (ho : ∀ a ∈ others, Arg.Real C a)
    (hs : ∀ a ∈ others, Direct C (askedType x.kind x.type out dtype) x a)
    (hf : ∀ a ∈ x :: others, AllFit C (askedType x.kind x.type out dtype) a.arr) :
    let d := askedType x.kind x.type out dtype
    valsCall C f x others out dtype = (f d x.arr (others.map Arg.arr)).map (d, ·) := by
  intro d
  have e : ∀ a ∈ x :: others, once C d a = a.arr := fun a ha => mapArr_fit (hf a ha)
  rw [C77_once hC f hd hx ho hs]
  show (f d _ _).map _ = _
  rw [e x (by simp)]
  congr 2
  exact List.map_congr_left fun a ha => e a (by simp [ha])

/-- **C77** With a first argument which is not an array, or one of the type of the result, no condition on the others is
left. -/
theorem C77_usual (hC : IsConv C) (f : DType → Arr K → List (Arr K) → Py β)
    (hd : IsFloatType (askedType x.kind x.type out dtype)) (hx : Arg.Real C x) (ho : ∀ a ∈ others, Arg.Real C a)
    (hu : x.kind ≠ .ndarray ∨ x.type = askedType x.kind x.type out dtype) :
    let d := askedType x.kind x.type out dtype
    valsCall C f x others out dtype = (f d (once C d x) (others.map (once C d))).map (d, ·) :=
  C77_once hC f hd hx ho fun _ _ => hu.elim (fun h => .inr (.inl h)) (fun h => .inr (.inr (.inl h)))

/-- **C77** In particular if neither `out` nor `dtype` is given. -/
theorem C77_default (hC : IsConv C) (f : DType → Arr K → List (Arr K) → Py β)
    (hx : Arg.Real C x) (ho : ∀ a ∈ others, Arg.Real C a) (hk : x.kind = .ndarray → IsFloatType x.type) :
    (x.kind = .plain → valsCall C f x others none none
      = (f .float64 (once C .float64 x) (others.map (once C .float64))).map (.float64, ·)) ∧
    (x.kind = .ndarray → valsCall C f x others none none
      = (f x.type x.arr (others.map (once C x.type))).map (x.type, ·)) := by
  constructor
  · intro h
    have e : askedType x.kind x.type none none = .float64 := by simp [askedType, h]
    have := C77_usual (out := none) (dtype := none) hC f (by rw [e]; exact .inr rfl) hx ho
      (.inl (by rw [h]; decide))
    rwa [e] at this
  · intro h
    have e : askedType x.kind x.type none none = x.type := by simp [askedType, h]
    have := C77_usual (out := none) (dtype := none) hC f (by rw [e]; exact hk h) hx ho (.inr e.symm)
    rw [e] at this
    rw [this]
    show (f _ _ _).map _ = _
    rw [show once C x.type x = x.arr from mapArr_fit hx.fits]

/-- **C77** The functions on arrays of moments convert once. -/
theorem C77_data (hC : IsConv C) (f : DType → Arr K → Py β) (hd : IsFloatType (askedType x.kind x.type out dtype))
    (hx : Arg.Real C x) :
    let d := askedType x.kind x.type out dtype
    dataCall C f x out dtype = (f d (once C d x)).map (d, ·) := by
  intro d
  obtain ⟨t, e1, -, e3⟩ := first_real hC hd hx
  unfold dataCall
  rw [selectDtype_ok hd]
  show (asarrayMaybeRecast C x (some d) false).bind _ = _
  rw [e1]
  show (gufuncCast C d t).bind _ = _
  rw [e3]
  rfl

/-- **C77** `vals_to_data` converts once. -/
theorem C77_vals_to_data (f : DType → Arr K → List (Arr K) → Py β)
    (hd : IsFloatType (askedType x.kind x.type out dtype)) (hx : Arg.Real C x) (ho : ∀ a ∈ others, Arg.Real C a) :
    let d := askedType x.kind x.type out dtype
    valsToDataCall C f x others out dtype = (f d (once C d x) (others.map (once C d))).map (d, ·) := by
  intro d
  unfold valsToDataCall
  rw [selectDtype_ok hd]
  show (asarray C x (some d)).bind _ = _
  rw [asarray_real hx hd.real]
  show (others.mapM (asarray C · (some d))).bind _ = _
  rw [mapM_ok_of_forall _ (fun a => ⟨d, once C d a⟩) others fun a ha => asarray_real (ho a ha) hd.real]
  show (f d _ ((others.map _).map TArr.arr)).map _ = _
  rw [List.map_map]
  rfl

/-- **C77** `push_vals` into an object of type `d`, when no argument passes through another type. -/
theorem C77_push_vals (hC : IsConv C) (f : DType → Arr K → List (Arr K) → Py β) {d : DType} (hd : IsFloatType d)
    (hx : Arg.Real C x) (ho : ∀ a ∈ others, Arg.Real C a) (hs : ∀ a ∈ others, Direct C d x a) :
    pushValsCall C f d x others = f d (once C d x) (others.map (once C d)) := by
  unfold pushValsCall
  rw [prepared_real hC hd f hx ho]
  congr 1
  exact List.map_congr_left fun a ha => C77_direct hC (hs a ha)

/-- **C77** `push_val` and `push_data` convert once, without conditions. -/
theorem C77_push_val (f : DType → Arr K → List (Arr K) → Py β) (d : DType) (hx : Arg.Real C x)
    (ho : ∀ a ∈ others, Arg.Real C a) :
    pushValCall C f d x others = f d (once C d x) (others.map (once C d)) := by
  unfold pushValCall
  have e : (others.mapM (asarray C · none)) = .ok (others.map fun a => ⟨a.type, a.arr⟩) :=
    mapM_ok_of_forall _ _ others fun a _ => rfl
  rw [e]
  show callGufunc C d f (⟨x.type, x.arr⟩, others.map fun a => ⟨a.type, a.arr⟩) = _
  unfold callGufunc
  show (gufuncCast C d ⟨x.type, x.arr⟩).bind (fun y => ((others.map fun a => (⟨a.type, a.arr⟩ : TArr K)).mapM
    (gufuncCast C d)).bind fun os => f d y os) = _
  rw [gufuncCast_real hx.type hx.fits, List.mapM_map,
    mapM_ok_of_forall (gufuncCast C d ∘ fun a : Arg K => ⟨a.type, a.arr⟩) (once C d) others
      fun a ha => gufuncCast_real (ho a ha).type (ho a ha).fits]
  rfl

/-! ### Complex numbers -/

omit [IsStrictOrderedRing K] in
/-- **C77** A complex array is refused, wherever it is passed, and so are plain complex numbers. -/
theorem C77_complex (f : DType → Arr K → List (Arr K) → Py β) {a : Arg K} (ha : a ∈ x :: others)
    (hc : a.type = .complex) (hk : a.kind ≠ .typed) :
    ∀ r, valsCall C f x others out dtype ≠ .ok r := by
  rintro ⟨d, r⟩ h
  have hd := (C77_type h).2
  unfold valsCall at h
  obtain ⟨d', e1, e2⟩ := Except_bind_ok h
  obtain ⟨p, e3, e4⟩ := Except_bind_ok e2
  have hcast : ∀ e : DType, ∀ y : Arr K, ∀ z, gufuncCast C e ⟨.complex, y⟩ ≠ .ok z := by
    intro e y z hz
    cases hz
  have hfail : ∀ t : DType, t ≠ .complex → ∀ b : Arg K, b.type = .complex → b.kind = .plain →
      ∀ z, asarrayMaybeRecast C b (some t) false ≠ .ok z := by
    intro t ht b hb hp z hz
    unfold asarrayMaybeRecast at hz
    rw [hp, if_neg (by decide)] at hz
    simp only [asarray, hb, if_neg ht, hp] at hz
    split_ifs at hz
  unfold prepareTypes at e3
  obtain ⟨t, e5, e6⟩ := Except_bind_ok e3
  obtain ⟨os, e7, e8⟩ := Except_bind_ok e6
  cases e8
  cases e9 : callGufunc C d' f (t, os) with
  | error e => rw [e9] at e4; cases e4
  | ok b =>
  rw [e9] at e4
  obtain ⟨rfl, -⟩ := Prod.mk.inj (Except.ok.inj e4)
  unfold callGufunc at e9
  obtain ⟨x', e10, e11⟩ := Except_bind_ok e9
  obtain ⟨os', e12, -⟩ := Except_bind_ok e11
  have ht : t.type ≠ .complex := by
    intro h
    exact hcast d' t.arr x' (by rw [← h]; exact e10)
  have hdc : d' ≠ .complex := by
    rcases hd with h | h <;> rw [h] <;> decide
  have hkind : a.kind = .ndarray ∨ a.kind = .plain := by
    cases e : a.kind <;> simp_all
  rcases List.mem_cons.1 ha with rfl | ha
  · rcases hkind with h | h
    · unfold asarrayMaybeRecast at e5
      rw [if_pos h, if_neg (by simp)] at e5
      cases e5
      exact ht hc
    · exact hfail d' hdc a hc h t e5
  · rcases hkind with h | h
    · obtain ⟨z, hz, hz'⟩ := mem_of_mapM e7 ha
      unfold asarrayMaybeRecast at hz
      rw [if_pos h, if_neg (by simp)] at hz
      cases hz
      obtain ⟨z', h1, -⟩ := mem_of_mapM e12 hz'
      rw [hc] at h1
      exact hcast d' _ _ h1
    · obtain ⟨z, hz, -⟩ := mem_of_mapM e7 ha
      exact hfail _ ht a hc h z hz

/-! ### The type of the first argument is imposed on the others -/

omit [IsStrictOrderedRing K] in
theorem imposed_real (hC : ∀ t y, C.to t (C.to t y) = C.to t y) {t : DType} (ht : IsReal t) {a : Arg K}
    (ha : Arg.Real C a) : Arg.Real C (imposed C t a) := by
  unfold imposed
  split_ifs
  · exact ha
  · exact ⟨ht, fun i => hC t _⟩

theorem imposed_same (hC : IsConv C) (t d : DType) (a : Arg K) :
    (if (imposed C t a).kind = .ndarray then once C d (imposed C t a) else twice C t d (imposed C t a))
      = if a.kind = .ndarray then once C d a else twice C t d a := by
  by_cases h : a.kind = .ndarray
  · have e : imposed C t a = a := if_pos h
    rw [e]
  · have e : imposed C t a = ⟨a.kind, t, ⟨a.arr.shape, fun i => C.to t (a.arr.get i)⟩⟩ := if_neg h
    rw [e, if_neg h, if_neg h]
    unfold twice
    simp only [hC.idem]

/-- **C77** If the first argument is an `ndarray`, everything else which is not one is converted to its type, even
if the result has another type. -/
theorem C77_imposed (hC : IsConv C) (f : DType → Arr K → List (Arr K) → Py β)
    (hd : IsFloatType (askedType x.kind x.type out dtype)) (hx : Arg.Real C x) (ho : ∀ a ∈ others, Arg.Real C a)
    (hk : x.kind = .ndarray) :
    valsCall C f x others out dtype = valsCall C f x (others.map (imposed C x.type)) out dtype := by
  rw [C77_values hC f hd hx ho, C77_values hC f hd hx (by
    intro b hb
    obtain ⟨a, ha, rfl⟩ := List.mem_map.1 hb
    exact imposed_real hC.idem hx.type (ho a ha))]
  show (f _ _ _).map _ = (f _ _ _).map _
  rw [List.map_map, if_pos hk]
  congr 2
  exact List.map_congr_left fun a _ => (imposed_same hC _ _ a).symm

/-- **C77** Also by `push_vals`. -/
theorem C77_push_imposed (hC : IsConv C) (f : DType → Arr K → List (Arr K) → Py β) {d : DType} (hd : IsFloatType d)
    (hx : Arg.Real C x) (ho : ∀ a ∈ others, Arg.Real C a) (hk : x.kind = .ndarray) :
    pushValsCall C f d x others = pushValsCall C f d x (others.map (imposed C x.type)) := by
  unfold pushValsCall
  rw [prepared_real hC hd f hx ho, prepared_real hC hd f hx (by
    intro b hb
    obtain ⟨a, ha, rfl⟩ := List.mem_map.1 hb
    exact imposed_real hC.idem hx.type (ho a ha)), List.map_map, if_pos hk]
  congr 1
  exact List.map_congr_left fun a _ => (imposed_same hC _ _ a).symm

theorem imposed_int (hC : IsConv C) {a : Arg K} (hk : a.kind ≠ .ndarray) (hs : ∀ i, |a.arr.get i| < 1) :
    imposed C .int a = constantly 0 a := by
  unfold imposed constantly
  rw [if_neg hk]
  congr 2
  funext i
  exact hC.trunc_small _ (hs i)

/-- **C77** Beside an array of integers, numbers between `-1` and `1` count as `0`, unless they are an `ndarray` too: the
weight of samples, or the `alpha` of `rolling_exp_vals`. -/
theorem C77_integers (hC : IsConv C) (f : DType → Arr K → List (Arr K) → Py β)
    (hd : IsFloatType (askedType x.kind x.type out dtype)) (hx : Arg.Real C x) {pre post : List (Arg K)} {a : Arg K}
    (ho : ∀ b ∈ pre ++ a :: post, Arg.Real C b) (hk : x.kind = .ndarray) (hi : x.type = .int)
    (ha : a.kind ≠ .ndarray) (hs : ∀ i, |a.arr.get i| < 1) :
    valsCall C f x (pre ++ a :: post) out dtype = valsCall C f x (pre ++ constantly 0 a :: post) out dtype := by
  have ho' : ∀ b ∈ pre ++ constantly 0 a :: post, Arg.Real C b := by
    intro b hb
    rcases List.mem_append.1 hb with hb | hb
    · exact ho b (by simp [hb])
    · rcases List.mem_cons.1 hb with rfl | hb
      · exact ⟨⟨DType.noConfusion, DType.noConfusion⟩, fun i => hC.zero .int⟩
      · exact ho b (by simp [hb])
  rw [C77_imposed hC f hd hx ho hk, C77_imposed hC f hd hx ho' hk, hi]
  congr 1
  rw [List.map_append, List.map_append, List.map_cons, List.map_cons, imposed_int hC ha hs,
    imposed_int hC (a := constantly 0 a) ha (fun i => by simp [constantly])]
  rfl

/-- **C77** Beside an array of truth values, numbers other than `0` count as `1`. -/
theorem C77_booleans (hC : IsConv C) (f : DType → Arr K → List (Arr K) → Py β)
    (hd : IsFloatType (askedType x.kind x.type out dtype)) (hx : Arg.Real C x) {pre post : List (Arg K)} {a : Arg K}
    (ho : ∀ b ∈ pre ++ a :: post, Arg.Real C b) (hk : x.kind = .ndarray) (hi : x.type = .bool)
    (h1 : C.trunc 1 = 1) (ha : a.kind ≠ .ndarray) (hs : ∀ i, a.arr.get i ≠ 0) :
    valsCall C f x (pre ++ a :: post) out dtype = valsCall C f x (pre ++ constantly 1 a :: post) out dtype := by
  have ho' : ∀ b ∈ pre ++ constantly 1 a :: post, Arg.Real C b := by
    intro b hb
    rcases List.mem_append.1 hb with hb | hb
    · exact ho b (by simp [hb])
    · rcases List.mem_cons.1 hb with rfl | hb
      · exact ⟨⟨DType.noConfusion, DType.noConfusion⟩, fun i => h1⟩
      · exact ho b (by simp [hb])
  have e : imposed C .bool a = imposed C .bool (constantly 1 a) := by
    unfold imposed
    rw [if_neg ha, if_neg (show (constantly 1 a).kind ≠ .ndarray from ha)]
    unfold constantly
    congr 2
    funext i
    show (if a.arr.get i = 0 then (0 : K) else 1) = if (1 : K) = 0 then 0 else 1
    rw [if_neg (hs i), if_neg one_ne_zero]
  rw [C77_imposed hC f hd hx ho hk, C77_imposed hC f hd hx ho' hk, hi]
  congr 1
  rw [List.map_append, List.map_append, List.map_cons, List.map_cons, e]

/-- **C77** `reduce_vals` of an array of integers with weights below `1` that are not an `ndarray`: nothing is
counted. -/
theorem C77_reduce_nothing (hC : IsConv C) {mom : List ℕ} {momAxes : List ℤ} {axis : AxisArg} {w : Arg K}
    (hd : IsFloatType (askedType x.kind x.type out dtype)) (hx : Arg.Real C x) (hw : Arg.Real C w)
    (hk : x.kind = .ndarray) (hi : x.type = .int) (hwk : w.kind ≠ .ndarray) (hs : ∀ i, |w.arr.get i| < 1)
    {d : DType} {r : Arr (Option K)} (h : reduceVals1 C mom momAxes axis x w out dtype = .ok (d, r)) :
    ∀ i, r.get i = some 0 := by
  unfold reduceVals1 at h
  rw [show [w] = [] ++ w :: [] from rfl, C77_integers (pre := []) (post := []) hC _ hd hx (by simpa using hw) hk hi hwk hs,
    C77_values hC _ hd hx (by
      intro b hb
      obtain rfl := List.mem_singleton.1 hb
      exact ⟨⟨DType.noConfusion, DType.noConfusion⟩, fun i => hC.zero .int⟩)] at h
  generalize e : reduceValsNd value1 core1 (typedFamily1 C (askedType x.kind x.type out dtype)) mom momAxes
      _ _ axis = q at h
  cases q with
  | error e' => cases h
  | ok r' =>
    obtain ⟨-, rfl⟩ := Prod.mk.inj (Except.ok.inj h)
    intro i
    obtain ⟨s, c, e1⟩ := reduceValsNd_zero (fun s y o => typedFamily1_zero _ s y o) (by
      intro i
      beta_reduce
      rw [if_neg (show (constantly 0 w).kind ≠ .ndarray from hwk)]
      show C.to _ (C.to _ 0) = 0
      rw [hC.zero, hC.zero]) e i
    rw [e1]
    rfl

/-- **C77** The same for pairs of values. -/
theorem C77_reduce_nothing2 (hC : IsConv C) {mom : List ℕ} {momAxes : List ℤ} {axis : AxisArg} {w y : Arg K}
    (hd : IsFloatType (askedType x.kind x.type out dtype)) (hx : Arg.Real C x) (hw : Arg.Real C w)
    (hy : Arg.Real C y) (hk : x.kind = .ndarray) (hi : x.type = .int) (hwk : w.kind ≠ .ndarray)
    (hs : ∀ i, |w.arr.get i| < 1) {d : DType} {r : Arr (Option K)}
    (h : reduceVals2 C mom momAxes axis x w y out dtype = .ok (d, r)) : ∀ i, r.get i = some 0 := by
  unfold reduceVals2 at h
  rw [show [w, y] = [] ++ w :: [y] from rfl, C77_integers (pre := []) (post := [y]) hC _ hd hx (by
      intro b hb
      rcases List.mem_cons.1 hb with rfl | hb
      · exact hw
      · obtain rfl := List.mem_singleton.1 hb
        exact hy) hk hi hwk hs,
    C77_values hC _ hd hx (by
      intro b hb
      rcases List.mem_cons.1 hb with rfl | hb
      · exact ⟨⟨DType.noConfusion, DType.noConfusion⟩, fun i => hC.zero .int⟩
      · obtain rfl := List.mem_singleton.1 hb
        exact hy)] at h
  generalize e : reduceValsNd value2 core2 (typedFamily2 C (askedType x.kind x.type out dtype)) mom momAxes
      _ _ axis = q at h
  cases q with
  | error e' => cases h
  | ok r' =>
    obtain ⟨-, rfl⟩ := Prod.mk.inj (Except.ok.inj h)
    intro i
    obtain ⟨s, c, e1⟩ := reduceValsNd_zero (fun s y o => typedFamily2_zero _ s y o) (by
      intro i
      beta_reduce
      rw [if_neg (show (constantly 0 w).kind ≠ .ndarray from hwk)]
      show C.to _ (C.to _ 0) = 0
      rw [hC.zero, hC.zero]) e i
    rw [e1]
    rfl

/-- **C77** `push_vals` of an array of integers with such weights leaves the object as it is. -/
theorem C77_push_nothing (hC : IsConv C) {z : ℤ} {w : Arg K} {d : DType} (hd : IsFloatType d) (hx : Arg.Real C x)
    (hw : Arg.Real C w) (hk : x.kind = .ndarray) (hi : x.type = .int) (hwk : w.kind ≠ .ndarray)
    (hs : ∀ i, |w.arr.get i| < 1) (hxp : x.arr.Proper) {obj obj' : Arr (Option K)} (hp : obj.Proper)
    (hwh : Whole core1 obj) (h : pushVals1 C d obj (.int z) x w = .ok obj') :
    obj'.shape = obj.shape ∧ ∀ i, InObject (core1 (K := K)) obj i → obj'.get i = obj.get i := by
  unfold pushVals1 at h
  rw [C77_push_imposed hC _ hd hx (by simpa using hw) hk, hi, List.map_singleton, imposed_int hC hwk hs] at h
  unfold pushValsCall at h
  have hz : Arg.Real C (constantly 0 w) := ⟨⟨DType.noConfusion, DType.noConfusion⟩, fun i => hC.zero .int⟩
  rw [prepared_real hC hd _ hx (by simpa using hz)] at h
  have hz0 : ∀ t, twice C t d (constantly 0 w) = ⟨w.arr.shape, fun _ => 0⟩ := by
    intro t
    unfold twice constantly
    simp only [hC.zero]
  rw [List.map_singleton, if_neg (show (constantly 0 w).kind ≠ .ndarray from hwk), hz0] at h
  simp only at h
  have hxp' : (once C d x).Proper := by
    intro i j hij
    show C.to d _ = C.to d _
    rw [hxp i j hij]
  have hwp : ∀ a ∈ (⟨w.arr.shape, fun _ => 0⟩ : Arr K) :: [], a.Proper := by
    intro a ha
    obtain rfl := List.mem_singleton.1 ha
    exact fun _ _ _ => rfl
  obtain ⟨h1, h2, h3⟩ := pushValsNd_inv hxp' hwp h
  obtain ⟨o, e1, e2⟩ := pushValsNd_ok value1 core1_ok (typedFamily1 C d) hp h1 h2 h3
  rw [e1] at h
  obtain rfl := Except.ok.inj h
  refine ⟨e2.shape, fun i hin => ?_⟩
  rw [e2.entry i hin, hwh i hin]
  congr 1
  have : ∀ r, (typedFamily1 C d (momShape (core1 (K := K)) obj)).reduceVals
      (valsSamples value1 (once C d x) ⟨w.arr.shape, fun _ => 0⟩ [] z (valRank (core1 (K := K)) obj) i) r
        = some r := by
    intro r
    refine reduceVals_zero (fun y o => typedFamily1_zero _ _ y o) ?_ r
    intro p hp
    obtain ⟨s, -, rfl⟩ := List.mem_map.1 hp
    show operandAt _ _ _ _ _ = 0
    unfold operandAt
    split_ifs <;> rfl
  simp only [this]
  cases cellAt core1 obj i <;> rfl

end general

/-! ### Labelled arrays -/

section labelled

variable {δ K : Type} [Field K] [LinearOrder K] [IsStrictOrderedRing K] {C : Conv K} {β : Type*}

theorem castFn_real {t d : DType} (ht : IsReal t) {y : Labelled.DataArray δ K} (hf : ∀ idx, FitsType C t (y.data idx)) :
    ∃ g, castFn C d t = .ok g ∧ mapNamed g y = onceNamed C d y := by
  unfold castFn
  rw [if_neg ht.2, if_neg ht.1]
  refine ⟨_, rfl, ?_⟩
  unfold mapNamed onceNamed
  by_cases h : d = t
  · subst h
    rw [if_pos rfl]
    congr 2
    funext idx
    exact (hf idx).symm
  · rw [if_neg h]

theorem xSecondary_real (hC : IsConv C) {d : DType} (hd : IsFloatType d) {dt : Option DType} (hdt : ∀ e ∈ dt, e = d)
    {a : XArg δ K} (ha : XReal C a) : xSecondary C dt d a = .ok (onceX C d a) := by
  cases a with
  | named t y =>
    obtain ⟨g, e1, e2⟩ := castFn_real (d := d) ha.1 ha.2
    show (castFn C d t).map _ = _
    rw [e1]
    show Except.ok (Labelled.Operand.named (mapNamed g y)) = _
    rw [e2]
    rfl
  | arg a =>
    have ha' : Arg.Real C a := ha
    show ((asarrayMaybeRecast C a dt false).bind fun t => (gufuncCast C d t).map Labelled.Operand.plain) = _
    cases dt with
    | none =>
      have : asarrayMaybeRecast C a none false = .ok ⟨a.type, a.arr⟩ := by
        unfold asarrayMaybeRecast
        split_ifs <;> rfl
      rw [this]
      show (gufuncCast C d ⟨a.type, a.arr⟩).map _ = _
      rw [gufuncCast_real ha'.type ha'.fits]
      rfl
    | some e =>
      obtain rfl := hdt e rfl
      obtain ⟨t, e1, -, e3⟩ := first_real hC hd ha'
      rw [e1]
      show (gufuncCast C e t).map _ = _
      rw [e3]
      rfl

/-- **C77** For labelled arrays everything is converted once, without conditions. -/
theorem C77_labelled (hC : IsConv C) (f : DType → Labelled.DataArray δ K → List (Labelled.Operand δ K) → Py β)
    {t : DType} {x : Labelled.DataArray δ K} {others : List (XArg δ K)} {out dtype : Option DType}
    (hd : IsFloatType (askedType .typed t out dtype)) (hx : XReal C (.named t x)) (ho : ∀ a ∈ others, XReal C a) :
    let d := askedType .typed t out dtype
    valsCallX C f t x others out dtype = (f d (onceNamed C d x) (others.map (onceX C d))).map (d, ·) := by
  intro d
  obtain ⟨g, e1, e2⟩ := castFn_real (d := d) hx.1 hx.2
  unfold valsCallX
  rw [selectDtype_ok hd]
  show (castFn C d t).bind _ = _
  rw [e1]
  show (others.mapM (xSecondary C (some d) d)).bind _ = _
  rw [mapM_ok_of_forall _ (onceX C d) others fun a ha =>
    xSecondary_real hC hd (by rintro e ⟨⟩; rfl) (ho a ha)]
  show (f d (mapNamed g x) _).map _ = _
  rw [e2]

/-- **C77** In a `Dataset`, each variable keeps its own type unless `dtype` is given. -/
theorem C77_dataset (hC : IsConv C) (f : DType → Labelled.DataArray δ K → List (Labelled.Operand δ K) → Py β)
    {t : DType} {x : Labelled.DataArray δ K} {others : List (XArg δ K)} {dtype : Option DType}
    (hd : IsFloatType (dtype.getD t)) (hx : XReal C (.named t x)) (ho : ∀ a ∈ others, XReal C a) :
    valsCallVar C f t x others dtype = (f (dtype.getD t) (onceNamed C (dtype.getD t) x)
      (others.map (onceX C (dtype.getD t)))).map (dtype.getD t, ·) := by
  obtain ⟨g, e1, e2⟩ := castFn_real (d := dtype.getD t) hx.1 hx.2
  have h1 : selectDtypeDataset dtype = .ok dtype := by
    cases dtype with
    | none => rfl
    | some d => exact if_pos (mem_allowed.2 hd)
  have h2 : selectDtype .ndarray t none dtype = .ok (dtype.getD t) := by
    have e : askedType .ndarray t none dtype = dtype.getD t := by
      cases dtype <;> rfl
    rw [← e] at hd ⊢
    exact selectDtype_ok hd
  unfold valsCallVar
  rw [h1]
  show (selectDtype .ndarray t none dtype).bind _ = _
  rw [h2]
  show (castFn C (dtype.getD t) t).bind _ = _
  rw [e1]
  show (others.mapM (xSecondary C dtype (dtype.getD t))).bind _ = _
  rw [mapM_ok_of_forall _ (onceX C (dtype.getD t)) others fun a ha =>
    xSecondary_real hC hd (by rintro e he; rw [Option.mem_def.1 he]; rfl) (ho a ha)]
  show (f _ (mapNamed g x) _).map _ = _
  rw [e2]

omit [IsStrictOrderedRing K] in
/-- **C77** A variable of another type is refused, and with it the whole call. -/
theorem C77_dataset_refused (f : DType → Labelled.DataArray δ K → List (Labelled.Operand δ K) → Py β)
    {t : DType} (x : Labelled.DataArray δ K) (others : List (XArg δ K)) {dtype : Option DType}
    (hd : ¬ IsFloatType (dtype.getD t)) : valsCallVar C f t x others dtype = .error .valueError := by
  unfold valsCallVar
  cases dtype with
  | none =>
    show (selectDtype .ndarray t none none).bind _ = _
    rw [selectDtype_eq, if_neg (show askedType .ndarray t none none ∉ allowed from fun e => hd (mem_allowed.1 e))]
    rfl
  | some d =>
    have : selectDtypeDataset (some d) = .error .valueError := if_neg (fun e => hd (mem_allowed.1 e))
    rw [this]
    rfl

/-! ### Objects -/

open Validate

omit [IsStrictOrderedRing K] in
/-- **C77** An object has type `float32` or `float64`: the one given, or the one NumPy finds. -/
theorem C77_construct {obj : Arg K} {dtype : Option DType} {mp : Input PArray δ} {ndim : Option ℤ}
    {axes : Option IntArg} {t : DType} {c : Arr K × PArray}
    (h : constructTyped C obj dtype mp ndim axes = .ok (t, c)) :
    t = dtype.getD obj.type ∧ IsFloatType t := by
  unfold constructTyped at h
  obtain ⟨s, e1, e2⟩ := Except_bind_ok h
  obtain ⟨c', -, e3⟩ := Except_bind_ok e2
  have hs : s.type = dtype.getD obj.type := by
    cases dtype with
    | none => cases e1; rfl
    | some d =>
      simp only [asarray] at e1
      split_ifs at e1 <;> cases e1 <;> rfl
  unfold validateFloatingDtype at e3
  simp only at e3
  split_ifs at e3 with hf
  · cases e3
    exact ⟨hs, hf⟩
  · cases e3

omit [IsStrictOrderedRing K] in
/-- **C77** Otherwise there is no object; a list of integers, for example, is refused. -/
theorem C77_construct_refused {obj : Arg K} {dtype : Option DType} (h : ¬ IsFloatType (dtype.getD obj.type))
    (mp : Input PArray δ) (ndim : Option ℤ) (axes : Option IntArg) :
    ∀ r, constructTyped C obj dtype mp ndim axes ≠ .ok r := by
  rintro ⟨t, c⟩ e
  obtain ⟨rfl, hf⟩ := C77_construct e
  exact h hf

/-- **C77** `astype` converts once, to `float32` or `float64`, and refuses anything else. -/
theorem C77_astype {t : DType} {obj : Arr K} (ht : IsReal t) (hf : AllFit C t obj) (dtype : Option DType) :
    (IsFloatType (dtype.getD .float64) → astypeTyped C t obj dtype
      = .ok ⟨dtype.getD .float64, ⟨obj.shape, fun i => C.to (dtype.getD .float64) (obj.get i)⟩⟩) ∧
    (¬ IsFloatType (dtype.getD .float64) → astypeTyped C t obj dtype = .error .valueError) := by
  constructor
  · intro h
    have e : validateFloatingDtype dtype = .ok dtype := by
      cases dtype with
      | none => rfl
      | some d => exact if_pos h
    unfold astypeTyped
    rw [e]
    exact asarray_real (a := ⟨.ndarray, t, obj⟩) ⟨ht, hf⟩ h.real
  · intro h
    cases dtype with
    | none => exact absurd (.inr rfl) h
    | some d =>
      have e : validateFloatingDtype (some d) = .error .valueError := if_neg h
      unfold astypeTyped
      rw [e]
      rfl

end labelled

/-! ### Cases -/

/-- The conversions of NumPy, as long as nothing overflows or underflows. -/
def convQ : Conv ℚ where
  trunc y := if 0 ≤ y then (⌊y⌋ : ℚ) else -(⌊-y⌋ : ℚ)
  half := toDigits nearestEven 11 none
  single := toDigits nearestEven 24 none
  double := toDigits nearestEven 53 none

theorem C77_convQ : IsConv convQ where
  trunc_small y h := by
    rw [abs_lt] at h
    show (if 0 ≤ y then (⌊y⌋ : ℚ) else -(⌊-y⌋ : ℚ)) = 0
    split_ifs with h0
    · have : ⌊y⌋ = 0 := Int.floor_eq_zero_iff.2 ⟨h0, h.2⟩
      rw [this]; simp
    · have : ⌊-y⌋ = 0 := Int.floor_eq_zero_iff.2 ⟨by linarith, by linarith⟩
      rw [this]; simp
  trunc_idem y := by
    have key : ∀ n : ℤ, (if (0 : ℚ) ≤ (n : ℚ) then (⌊(n : ℚ)⌋ : ℚ) else -(⌊-(n : ℚ)⌋ : ℚ)) = n := by
      intro n
      split_ifs
      · rw [Int.floor_intCast]
      · rw [Int.floor_neg, Int.ceil_intCast]; simp
    by_cases h0 : 0 ≤ y
    · have e : convQ.trunc y = ((⌊y⌋ : ℤ) : ℚ) := if_pos h0
      rw [e]
      exact key _
    · have e : convQ.trunc y = ((-⌊-y⌋ : ℤ) : ℚ) := (if_neg h0).trans (by push_cast; rfl)
      rw [e]
      exact key _
  half := C75_digits nearestEven_isIntRounding (by norm_num) (by norm_num) (by simp) (by simp)
  single := C75_digits nearestEven_isIntRounding (by norm_num) (by norm_num) (by simp) (by simp)

/-- Three integers in an `ndarray`. -/
def integersQ : Arg ℚ := ⟨.ndarray, .int, ⟨[3], fun i => if i 0 = 0 then 1 else if i 0 = 1 then 2 else 6⟩⟩

/-- The weight `1/2`, as a number. -/
def halfQ : Arg ℚ := ⟨.plain, .float64, ⟨[], fun _ => 1 / 2⟩⟩

/-- Type, shape and the first three numbers of a result. -/
def shown (r : Py (DType × Arr (Option ℚ))) : Py (DType × List ℕ × List (Option ℚ)) :=
  r.map fun p => (p.1, p.2.shape, (List.range 3).map fun k => p.2.get fun _ => k)

theorem integersQ_real : Arg.Real convQ integersQ where
  type := ⟨DType.noConfusion, DType.noConfusion⟩
  fits i := by
    show convQ.trunc (if i 0 = 0 then 1 else if i 0 = 1 then 2 else 6) = if i 0 = 0 then 1 else if i 0 = 1 then 2 else 6
    split_ifs <;> decide +kernel

theorem halfQ_real : Arg.Real convQ halfQ where
  type := ⟨DType.noConfusion, DType.noConfusion⟩
  fits i := by
    show toDigits nearestEven 53 none (1 / 2) = 1 / 2
    decide +kernel

/-- **C77_reduce_nothing**: its hypotheses are met, `reduce_vals` succeeds, and the weight of everything is `0`. -/
example : ∃ d r, reduceVals1 convQ [2] [-1] (.int 0) integersQ halfQ none (some .float64) = .ok (d, r) ∧
    ∀ i, r.get i = some 0 := by
  cases h : reduceVals1 convQ [2] [-1] (.int 0) integersQ halfQ none (some .float64) with
  | error e =>
    have : (reduceVals1 convQ [2] [-1] (.int 0) integersQ halfQ none (some .float64)).isOk = true := by decide +kernel
    rw [h] at this
    cases this
  | ok p =>
    exact ⟨p.1, p.2, rfl, C77_reduce_nothing C77_convQ (.inr rfl) integersQ_real halfQ_real rfl rfl
      Kind.noConfusion (fun i => by show |(1 / 2 : ℚ)| < 1; decide +kernel) h⟩

/-- The numbers of a run: nothing is counted if the integers are an `ndarray`; -/
example : shown (reduceVals1 convQ [2] [-1] (.int 0) integersQ halfQ none (some .float64))
    = .ok (.float64, [3], [some 0, some 0, some 0]) := by decide +kernel

/-- the mean of `1, 2, 6` is `3` and the variance is near `14/3` if they are a list, -/
example : shown (reduceVals1 convQ [2] [-1] (.int 0) { integersQ with kind := .plain } halfQ none (some .float64))
    = .ok (.float64, [3], [some (3 / 2), some 3, some (5254199565265579 / 1125899906842624)]) := by decide +kernel

/-- or if the weight is an `ndarray` too, -/
example : shown (reduceVals1 convQ [2] [-1] (.int 0) integersQ { halfQ with kind := .ndarray } none (some .float64))
    = .ok (.float64, [3], [some (3 / 2), some 3, some (5254199565265579 / 1125899906842624)]) := by decide +kernel

/-- or if the values are `float32`, which the result then is too. -/
example : shown (reduceVals1 convQ [2] [-1] (.int 0) { integersQ with type := .float32 } halfQ none none)
    = .ok (.float32, [3], [some (3 / 2), some 3, some (9786709 / 2097152)]) := by decide +kernel

/-- Truth values: the weight `1/2` counts as `1` (**C77_booleans**). -/
example : shown (reduceVals1 convQ [2] [-1] (.int 0) ⟨.ndarray, .bool, ⟨[3], fun _ => 1⟩⟩ halfQ none (some .float32))
    = .ok (.float32, [3], [some 3, some 1, some 0]) := by decide +kernel

/-- Without `dtype`, integers are refused (**C77_refused**). -/
example : shown (reduceVals1 convQ [2] [-1] (.int 0) integersQ halfQ none none) = .error .valueError := by
  decide +kernel

/-- An object with weight `1`, mean `5` and variance `5`. -/
def objectQ : Arr (Option ℚ) := ⟨[3], fun i => some (if i 0 = 0 then 1 else 5)⟩

/-- **C77_push_nothing**: `push_vals` of the integers changes nothing, -/
example : shown ((pushVals1 convQ .float64 objectQ (.int 0) integersQ halfQ).map (DType.float64, ·))
    = .ok (.float64, [3], [some 1, some 5, some 5]) := by decide +kernel

/-- and of the same numbers as `float64` it does. -/
example : shown ((pushVals1 convQ .float64 objectQ (.int 0) { integersQ with type := .float64 } halfQ).map
      (DType.float64, ·))
    = .ok (.float64, [3], [some (5 / 2), some (4278419646001971 / 1125899906842624),
        some (6485183463413515 / 1125899906842624)]) := by decide +kernel

/-- Labelled integers: `C77_labelled` applies, and the weight stays `1/2`. -/
example : (valsCallX convQ (fun _ _ os => .ok (os.map fun o => match o with
      | .named _ => (0 : ℚ)
      | .plain a => a.get fun _ => 0)) .int
      (⟨⟨["rec"], fun _ => 2⟩, fun _ => 3⟩ : Labelled.DataArray String ℚ) [.arg halfQ] none (some .float64))
    = .ok (.float64, [1 / 2]) := by decide +kernel

/-- `astype` to `float16` is refused, to `float32` it rounds. -/
example : (astypeTyped convQ .float64 ⟨[1], fun _ => 1 + 1 / 2 ^ 30⟩ (some .float16)).map (fun t => t.arr.get fun _ => 0)
    = .error .valueError := by decide +kernel

example : (astypeTyped convQ .float64 ⟨[1], fun _ => 1 + 1 / 2 ^ 30⟩ (some .float32)).map (fun t => t.arr.get fun _ => 0)
    = .ok 1 := by decide +kernel

/-- `CentralMomentsArray([1, 2, 3], mom_ndim=1)` is refused: the integers are not made floats. -/
example : ((constructTyped convQ ⟨.plain, .int, ⟨[3], fun i => i 0 + 1⟩⟩ none (.absent : Validate.Input Validate.PArray String)
    (some 1) none).map Prod.fst) = .error .valueError := by decide +kernel

end Cmomy

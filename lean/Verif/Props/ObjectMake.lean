import Verif.Lemmas.ObjectWrap
import Verif.Props.ObjectCollect
import Verif.Props.ValsOps
import Verif.Props.Convert

/-!
# Array objects made from values, raw moments, other arrays and nothing
-/

set_option linter.unusedSectionVars false

namespace Cmomy

open Spec Nd Axes Validate ObjectMake Convert

section Values

variable {K : Type*} [Field K] [LinearOrder K] [IsStrictOrderedRing K] {x y : Arr K}
  {weight : Option (Arr K)} {z : ℤ} {full : List ℕ} {δ : Type}

theorem meaning1_value (order : ℕ) (ho : 1 ≤ order) (v c : K) :
    (meaning1 order ho).raw [⟨c, v⟩] = c • (lawful1 (K := K) order ho).vraw v := by
  funext n
  show wsum [⟨c, v⟩] (fun x => x ^ (n : ℕ)) = c * v ^ (n : ℕ)
  simp [wsum]

theorem meaning2_value (o0 o1 : ℕ) (h0 : 1 ≤ o0) (h1 : 1 ≤ o1) (v : K × K) (c : K) :
    (meaning2 o0 o1 h0 h1).raw [⟨c, v.1, v.2⟩] = c • (lawful2 (K := K) o0 o1 h0 h1).vraw v := by
  funext n
  show wsum2 [⟨c, v.1, v.2⟩] (fun x y => x ^ (n.1 : ℕ) * y ^ (n.2 : ℕ))
    = c * (v.1 ^ (n.1 : ℕ) * v.2 ^ (n.2 : ℕ))
  simp [wsum2]

theorem validateMom_one {mom : IntArg} {order : ℕ} (ho : 1 ≤ order) (h : mom.tuple = [(order : ℤ)]) :
    validateMom mom = .ok [(order : ℤ)] :=
  ((C48_validate_mom mom _).1).2 ⟨h.symm, ⟨by simp, by simp; omega⟩⟩

theorem validateMom_two {mom : IntArg} {o0 o1 : ℕ} (h0 : 1 ≤ o0) (h1 : 1 ≤ o1)
    (h : mom.tuple = [(o0 : ℤ), (o1 : ℤ)]) : validateMom mom = .ok [(o0 : ℤ), (o1 : ℤ)] :=
  ((C48_validate_mom mom _).1).2 ⟨h.symm, ⟨by simp, by simp; omega⟩⟩

/-- **C62** `wrap_reduce_vals(x, mom=order, weight=w, axis=z)`: the cell at every index of the other axes
stands for the samples found along the axis; the moment axis is last. -/
theorem C62_wrap_reduce_vals {order : ℕ} (ho : 1 ≤ order) {mom : IntArg}
    (hmom : mom.tuple = [(order : ℤ)]) {mp : Input PArray δ}
    (hp : factory mp (some 1) none none = .ok ⟨1, [-1]⟩)
    (g : GoodValues x [givenWeight weight] z full) (hw : NonNeg (givenWeight weight)) :
    ∃ out, wrapReduceVals value1 core1 family1 mom mp x weight [] (some (.int z))
        = .ok (out, ⟨1, [-1]⟩) ∧
      ResultStands core1 (Holds order) out
        ((keptAxes full.length [full.length - fromEnd x z]).map (full.getD · 0)) [order + 1]
        (fun i => valueSamples x (givenWeight weight) full.length (full.length - fromEnd x z)
          (sampleCount x z) (readAs (keptAxes full.length [full.length - fromEnd x z]) i)) := by
  obtain ⟨out, e, h⟩ := Meaning.reduceVals_stands (val := value1) (fam := family1) (core := core1)
    (mom := [order]) (smp := fun v c => ⟨c, v⟩) (meaning1 order ho) (meaning1_value order ho) rfl rfl
    rfl g hw
  refine ⟨out, ?_, ?_⟩
  · unfold wrapReduceVals
    rw [validateMom_one ho hmom]
    show Except.bind (factory mp (some 1) none none) _ = _
    rw [hp]
    show (reduceValsNd value1 core1 family1 [order] [-1] x [givenWeight weight] (.int z)).map _ = _
    have e' : reduceValsNd value1 core1 family1 [order] [-1] x [givenWeight weight] (.int z) = .ok out := e
    rw [e']
    rfl
  · refine cast ?_ h
    congr 1
    funext i
    simp only [samplesOver, valueSamples, List.map_map]
    rfl

/-- **C62**, comoments. -/
theorem C62_wrap_reduce_vals_cov {o0 o1 : ℕ} (h0 : 1 ≤ o0) (h1 : 1 ≤ o1) {mom : IntArg}
    (hmom : mom.tuple = [(o0 : ℤ), (o1 : ℤ)]) {mp : Input PArray δ}
    (hp : factory mp (some 2) none none = .ok ⟨2, [-2, -1]⟩)
    (g : GoodValues x [givenWeight weight, y] z full) (hw : NonNeg (givenWeight weight)) :
    ∃ out, wrapReduceVals value2 core2 family2 mom mp x weight [y] (some (.int z))
        = .ok (out, ⟨2, [-2, -1]⟩) ∧
      ResultStands core2 (Holds2 o0 o1) out
        ((keptAxes full.length [full.length - fromEnd x z]).map (full.getD · 0)) [o0 + 1, o1 + 1]
        (fun i => valueSamples2 x y (givenWeight weight) full.length (full.length - fromEnd x z)
          (sampleCount x z) (readAs (keptAxes full.length [full.length - fromEnd x z]) i)) := by
  obtain ⟨out, e, h⟩ := Meaning.reduceVals_stands (val := value2) (fam := family2) (core := core2)
    (mom := [o0, o1]) (smp := fun v c => ⟨c, v.1, v.2⟩) (meaning2 o0 o1 h0 h1)
    (meaning2_value o0 o1 h0 h1) rfl rfl rfl g hw
  refine ⟨out, ?_, ?_⟩
  · unfold wrapReduceVals
    rw [validateMom_two h0 h1 hmom]
    show Except.bind (factory mp (some 2) none none) _ = _
    rw [hp]
    show (reduceValsNd value2 core2 family2 [o0, o1] [-2, -1] x [givenWeight weight, y] (.int z)).map _ = _
    have e' : reduceValsNd value2 core2 family2 [o0, o1] [-2, -1] x [givenWeight weight, y] (.int z)
      = .ok out := e
    rw [e']
    rfl
  · refine cast ?_ h
    congr 1
    funext i
    simp only [samplesOver, valueSamples2, List.map_map]
    rfl

/-- **C62** `wrap_resample_vals(x, mom=order, weight=w, axis=z, sampler=...)`: the axis has one place per
row of the frequency table, and the cell at a row stands for the samples with their weights multiplied by
the frequencies of the row. -/
theorem C62_wrap_resample_vals {order : ℕ} (ho : 1 ≤ order) {mom : IntArg}
    (hmom : mom.tuple = [(order : ℤ)]) {mp : Input PArray δ}
    (hp : factory mp (some 1) none none = .ok ⟨1, [-1]⟩)
    (g : GoodValues x [givenWeight weight] z full) (hw : NonNeg (givenWeight weight))
    {freq : List (List K)} (hf : ∀ fs ∈ freq, ∀ f ∈ fs, 0 ≤ f) (orderCF axesToEnd : Bool) :
    ∃ out, wrapResampleVals value1 core1 family1 mom mp freq (sampleCount x z) x weight []
        (some (.int z)) orderCF axesToEnd = .ok (out, ⟨1, [-1]⟩) ∧
      ResultStands core1 (Holds order) out
        ((axesOfResult full.length (full.length - fromEnd x z) axesToEnd).map (fun a =>
          if a = full.length - fromEnd x z then freq.length else full.getD a 0)) [order + 1]
        (fun i => List.zipWith reweighted
          (freq.getD (readAs (axesOfResult full.length (full.length - fromEnd x z) axesToEnd) i
            (full.length - fromEnd x z)) [])
          (valueSamples x (givenWeight weight) full.length (full.length - fromEnd x z)
            (sampleCount x z)
            (readAs (axesOfResult full.length (full.length - fromEnd x z) axesToEnd) i))) := by
  obtain ⟨out, e, h⟩ := Meaning.resampleVals_stands (val := value1) (fam := family1) (core := core1)
    (mom := [order]) (smp := fun v c => ⟨c, v⟩) (meaning1 order ho) (meaning1_value order ho)
    (fun _ _ _ => rfl) rfl rfl rfl g hw hf orderCF axesToEnd
  refine ⟨out, ?_, ?_⟩
  · unfold wrapResampleVals
    rw [validateMom_one ho hmom]
    show Except.bind (factory mp (some 1) none none) _ = _
    rw [hp]
    show (resampleValsNd value1 core1 family1 [order] [-1] freq (sampleCount x z) x [givenWeight weight]
      (.int z) orderCF axesToEnd).map _ = _
    have e' : resampleValsNd value1 core1 family1 [order] [-1] freq (sampleCount x z) x
      [givenWeight weight] (.int z) orderCF axesToEnd = .ok out := e
    rw [e']
    rfl
  · refine cast ?_ h
    congr 1
    funext i
    simp only [samplesOver, valueSamples, List.zip_map_right, List.map_map, List.zipWith_map_right,
      List.map_zip_eq_zipWith, List.map_zipWith, Function.comp_def]
    rfl

/-- **C62**, comoments. -/
theorem C62_wrap_resample_vals_cov {o0 o1 : ℕ} (h0 : 1 ≤ o0) (h1 : 1 ≤ o1) {mom : IntArg}
    (hmom : mom.tuple = [(o0 : ℤ), (o1 : ℤ)]) {mp : Input PArray δ}
    (hp : factory mp (some 2) none none = .ok ⟨2, [-2, -1]⟩)
    (g : GoodValues x [givenWeight weight, y] z full) (hw : NonNeg (givenWeight weight))
    {freq : List (List K)} (hf : ∀ fs ∈ freq, ∀ f ∈ fs, 0 ≤ f) (orderCF axesToEnd : Bool) :
    ∃ out, wrapResampleVals value2 core2 family2 mom mp freq (sampleCount x z) x weight [y]
        (some (.int z)) orderCF axesToEnd = .ok (out, ⟨2, [-2, -1]⟩) ∧
      ResultStands core2 (Holds2 o0 o1) out
        ((axesOfResult full.length (full.length - fromEnd x z) axesToEnd).map (fun a =>
          if a = full.length - fromEnd x z then freq.length else full.getD a 0)) [o0 + 1, o1 + 1]
        (fun i => List.zipWith reweighted2
          (freq.getD (readAs (axesOfResult full.length (full.length - fromEnd x z) axesToEnd) i
            (full.length - fromEnd x z)) [])
          (valueSamples2 x y (givenWeight weight) full.length (full.length - fromEnd x z)
            (sampleCount x z)
            (readAs (axesOfResult full.length (full.length - fromEnd x z) axesToEnd) i))) := by
  obtain ⟨out, e, h⟩ := Meaning.resampleVals_stands (val := value2) (fam := family2) (core := core2)
    (mom := [o0, o1]) (smp := fun v c => ⟨c, v.1, v.2⟩) (meaning2 o0 o1 h0 h1)
    (meaning2_value o0 o1 h0 h1) (fun _ _ _ => rfl) rfl rfl rfl g hw hf orderCF axesToEnd
  refine ⟨out, ?_, ?_⟩
  · unfold wrapResampleVals
    rw [validateMom_two h0 h1 hmom]
    show Except.bind (factory mp (some 2) none none) _ = _
    rw [hp]
    show (resampleValsNd value2 core2 family2 [o0, o1] [-2, -1] freq (sampleCount x z) x
      [givenWeight weight, y] (.int z) orderCF axesToEnd).map _ = _
    have e' : resampleValsNd value2 core2 family2 [o0, o1] [-2, -1] freq (sampleCount x z) x
      [givenWeight weight, y] (.int z) orderCF axesToEnd = .ok out := e
    rw [e']
    rfl
  · refine cast ?_ h
    congr 1
    funext i
    simp only [samplesOver, valueSamples2, List.zip_map_right, List.map_map, List.zipWith_map_right,
      List.map_zip_eq_zipWith, List.map_zipWith, Function.comp_def]
    rfl

theorem exWeight1_nonneg : NonNeg exWeight1 := fun i _ => by simp only [exWeight1]; positivity

theorem exWeight4_nonneg : NonNeg exWeight4 := fun i _ => by simp only [exWeight4]; positivity

/-- Shape and entries of an object. -/
def objEntries (r : Py (Arr (Option ℚ) × PArray)) (idx : List (List ℕ)) :
    Option (List ℕ × List (Option ℚ)) := entries (r.map Prod.fst) idx

example := C62_wrap_reduce_vals (order := 2) (δ := Unit) (by decide) (mom := .int 2) rfl (mp := .absent)
  rfl (weight := some exWeight1) exVals_good1 exWeight1_nonneg
example : objEntries (wrapReduceVals value1 core1 family1 (.int 2) (.absent : Input PArray Unit) exVals
    (some exWeight1) [] (some (.int 1)))
    [[0, 0, 0], [0, 0, 1], [0, 0, 2], [1, 1, 0], [1, 1, 1], [1, 1, 2]]
    = some ([2, 2, 3], [some 6, some (7 / 3), some (26 / 9), some 6, some (10 / 3), some (26 / 9)]) := by
  decide +kernel
-- without weights every sample counts once
example : objEntries (wrapReduceVals value1 core1 family1 (.int 1) (.absent : Input PArray Unit) exVals
    none [] (some (.int 1))) [[0, 0, 0], [0, 0, 1]] = some ([2, 2, 2], [some 3, some (5 / 3)]) := by
  decide +kernel
example := C62_wrap_reduce_vals_cov (o0 := 2) (o1 := 1) (δ := Unit) (by decide) (by decide)
  (mom := .seq [2, 1]) rfl (mp := .absent) rfl (weight := some exWeight4) exVals_good2 exWeight4_nonneg
example := C62_wrap_resample_vals (order := 2) (δ := Unit) (by decide) (mom := .int 2) rfl
  (mp := .absent) rfl (weight := some exWeight1) exVals_good1 exWeight1_nonneg
  (freq := [[1, 0, 2], [0, 0, 3]]) (by decide) false true
example := C62_wrap_resample_vals_cov (o0 := 2) (o1 := 1) (δ := Unit) (by decide) (by decide)
  (mom := .seq [2, 1]) rfl (mp := .absent) rfl (weight := some exWeight4) exVals_good2 exWeight4_nonneg
  (freq := [[1, 0, 2], [0, 0, 3]]) (by decide) false false

end Values

section Rejected

variable {K V M : Type*} [Field K] [DecidableEq K] {δ : Type}

/-- **C62** Neither function has a default axis. -/
theorem C62_axis_needed (val : List K → V) (core : Core K M) (fam : List ℕ → Kernel K V M) {mom : IntArg}
    {m : List ℤ} (hmom : validateMom mom = .ok m) (hn : m.length = core.nd) {mp : Input PArray δ} {p : PArray}
    (hp : factory mp (some m.length) none none = .ok p) (x : Arr K) (weight : Option (Arr K))
    (ys : List (Arr K)) (hy : ys.length + 1 = core.nd) (freq : List (List K)) (nsamp : ℕ)
    (orderCF axesToEnd : Bool) :
    wrapReduceVals val core fam mom mp x weight ys none = .error .typeError ∧
    wrapResampleVals val core fam mom mp freq nsamp x weight ys none orderCF axesToEnd
      = .error .typeError := by
  unfold wrapReduceVals wrapResampleVals
  rw [hn] at hp
  rw [hmom]
  simp only [Except.bind, axisArg, hn, ne_eq, not_true, if_false, hp]
  constructor <;> rw [if_neg (by omega)] <;> rfl

/-- **C62** The number of further values has to fit the number of moments. -/
theorem C62_wrong_count (val : List K → V) (core : Core K M) (fam : List ℕ → Kernel K V M) {mom : IntArg}
    {m : List ℤ} (hmom : validateMom mom = .ok m) (hn : m.length = core.nd) {mp : Input PArray δ} {p : PArray}
    (hp : factory mp (some m.length) none none = .ok p) (x : Arr K) (weight : Option (Arr K))
    (ys : List (Arr K)) (hy : ys.length + 1 ≠ core.nd) (axis : Option AxisArg) (freq : List (List K))
    (nsamp : ℕ) (orderCF axesToEnd : Bool) :
    wrapReduceVals val core fam mom mp x weight ys axis = .error .valueError ∧
    wrapResampleVals val core fam mom mp freq nsamp x weight ys axis orderCF axesToEnd
      = .error .valueError := by
  unfold wrapReduceVals wrapResampleVals
  rw [hn] at hp
  rw [hmom]
  simp only [Except.bind, axisArg, hn, ne_eq, not_true, if_false, hp]
  constructor <;> rw [if_pos (by omega)]

/-- **C62** Moment orders that are not valid are refused by all of them, with the same error. -/
theorem C62_bad_moments (val : List K → V) (core : Core K M) (fam : List ℕ → Kernel K V M) {mom : IntArg}
    (hmom : ¬ GoodMom mom.tuple) (mp : Input PArray δ) (x : Arr K) (weight : Option (Arr K))
    (ys : List (Arr K)) (axis : Option AxisArg) (freq : List (List K)) (nsamp : ℕ)
    (orderCF axesToEnd : Bool) :
    wrapReduceVals val core fam mom mp x weight ys axis = .error .valueError ∧
    wrapResampleVals val core fam mom mp freq nsamp x weight ys axis orderCF axesToEnd
      = .error .valueError ∧
    valsToData mom x weight ys = .error .valueError := by
  unfold wrapReduceVals wrapResampleVals valsToData
  rw [(C48_validate_mom mom []).2 hmom]
  exact ⟨rfl, rfl, rfl⟩

example : wrapReduceVals value1 core1 family1 (.int 2) (.absent : Input PArray Unit) exVals none [] none
    = .error .typeError :=
  (C62_axis_needed value1 core1 family1 (mom := .int 2) (m := [2]) rfl rfl (mp := .absent) rfl exVals none
    [] rfl [] 0 false false).1
example : wrapReduceVals value1 core1 family1 (.int 2) (.absent : Input PArray Unit) exVals none [exVals2]
    (some (.int 1)) = .error .valueError :=
  (C62_wrong_count value1 core1 family1 (mom := .int 2) (m := [2]) rfl rfl (mp := .absent) rfl exVals none
    [exVals2] (by decide) _ [] 0 false false).1
example : wrapReduceVals value1 core1 family1 (.int 0) (.absent : Input PArray Unit) exVals none []
    (some (.int 1)) = .error .valueError :=
  (C62_bad_moments value1 core1 family1 (mom := .int 0) (by unfold GoodMom; decide) _ exVals none [] _ [] 0
    false false).1

end Rejected

section Wrap

variable {K : Type} {δ : Type}

/-- **C62** `wrap(obj, mom_axes=...)`: accepted arrays are shown unchanged, with the value axes in their old
order followed by the moment axes in the order given. -/
theorem C62_wrap {obj : Arr K} {mp : Input PArray δ} {ndim : Option ℤ}
    {axes : Option IntArg} {p : PArray} (hf : factory mp ndim axes (some 1) = .ok p)
    (hg : GoodParams p) (hp : obj.Proper) (ha : AxesOf obj.shape p.axes)
    (h2 : ∀ z ∈ p.axes, 2 ≤ obj.shape.getD (Spec.wrap obj.shape.length z) 0) :
    ∃ out, ObjectMake.wrap obj mp ndim axes = .ok (out, ⟨p.ndim, Select.axesLast p.axes.length⟩) ∧
      IsObject out ((valPos obj p.axes).map (axisSize obj)) (momSizes obj p.axes) ∧
      HasValues out ((valPos obj p.axes).map (axisSize obj)) (momSizes obj p.axes)
        (fun i m => obj.get (withMoment (momPos obj p.axes) m (readAs (valPos obj p.axes) i))) := by
  obtain ⟨out, e, h⟩ := construct_cells (δ := δ) (mp := .obj p) (ndim := none) (axes := none) rfl hg hp
    ha h2
  refine ⟨out, ?_, h⟩
  unfold ObjectMake.wrap
  rw [hf]
  exact e

/-- **C62** What `wrap` refuses: moment axes that repeat or are not axes of the array, or that have fewer
than two places. -/
theorem C62_wrap_rejects {obj : Arr K} {mp : Input PArray δ} {ndim : Option ℤ}
    {axes : Option IntArg} {p : PArray} (hf : factory mp ndim axes (some 1) = .ok p)
    (hg : GoodParams p)
    (h : ¬ (AxesOf obj.shape p.axes ∧
      ∀ z ∈ p.axes, 2 ≤ obj.shape.getD (Spec.wrap obj.shape.length z) 0)) :
    ∀ r, ObjectMake.wrap obj mp ndim axes ≠ .ok r := by
  intro r hr
  unfold ObjectMake.wrap at hr
  rw [hf] at hr
  exact h ((C48_construct (δ := δ) obj (.obj p) none none p rfl hg).1.1 ⟨r, hr⟩)

variable [Field K] [LinearOrder K] [IsStrictOrderedRing K]

/-- **C62** So if the records of the array stand for samples, the cells of the object do. -/
theorem C62_wrap_stands {order : ℕ} {obj : Arr K} {mp : Input PArray δ} {ndim : Option ℤ}
    {axes : Option IntArg} {z : ℤ} (hf : factory mp ndim axes (some 1) = .ok ⟨1, [z]⟩)
    (hp : obj.Proper) (hz : InRange obj.shape.length z)
    (hs : axisSize obj (Spec.wrap obj.shape.length z) = order + 1) (ho : 1 ≤ order)
    {L : (ℕ → ℕ) → List (Sample K)}
    (hL : ∀ i, (∀ a < obj.shape.length, a ≠ Spec.wrap obj.shape.length z → i a < axisSize obj a) →
      Holds order (L i) (fun n => obj.get (Function.update i (Spec.wrap obj.shape.length z) n))) :
    ∃ out, ObjectMake.wrap obj mp ndim axes = .ok (out, ⟨1, [-1]⟩) ∧
      Stands core1 (Holds order) out
        ((keptAxes obj.shape.length [Spec.wrap obj.shape.length z]).map (axisSize obj)) [order + 1]
        (fun i => L (readAs (keptAxes obj.shape.length [Spec.wrap obj.shape.length z]) i)) := by
  obtain ⟨out, e, h1, h2⟩ := C62_wrap hf (by unfold GoodParams; simp) hp
    ⟨by simpa using hz, by simp⟩ (by
      intro z' hz'
      rw [List.mem_singleton.1 hz']
      unfold axisSize at hs; omega)
  have em : momSizes obj [z] = [order + 1] := by
    show [axisSize obj _] = _
    rw [hs]
  simp only [em] at h1 h2
  refine ⟨out, e, h1, rfl, fun i hi => ?_⟩
  refine holds_congr ho (fun n hn => ?_) (hL _ fun a ha hne => ?_)
  case refine_2 =>
    have hk : a ∈ keptAxes obj.shape.length [Spec.wrap obj.shape.length z] := by
      simpa [keptAxes] using ⟨ha, hne⟩
    have hk' := List.idxOf_lt_length_iff.2 hk
    have := hi ((keptAxes obj.shape.length [Spec.wrap obj.shape.length z]).idxOf a)
      (by rw [List.length_map]; exact hk')
    rw [List.getD_eq_getElem _ _ (by rw [List.length_map]; exact hk'), List.getElem_map,
      List.getElem_idxOf] at this
    exact this
  have := h2.value i hi [n] (within_one.2 ⟨n, by omega, rfl⟩)
  refine this.trans (congrArg obj.get (funext fun a => ?_))
  by_cases hxa : a = Spec.wrap obj.shape.length z
  · subst hxa; simp [withMoment, momPos]
  · rw [Function.update_of_ne hxa, withMoment, if_neg (by simpa [momPos] using hxa)]
    rfl

/-- Moments along the first axis: two cells of order two. -/
def exMake : Arr ℚ := ⟨[3, 2], fun i => if i 0 = 0 then 2 else if i 0 = 1 then i 1 else 0⟩

theorem exMake_proper : exMake.Proper := by
  intro i j h
  have h0 := h 0 (by decide)
  have h1 := h 1 (by decide)
  simp [exMake, h0, h1]

example := C62_wrap (δ := Unit) (mp := .absent) (ndim := none) (axes := some (.int 0)) rfl
  (by unfold GoodParams; simp) exMake_proper ⟨by simp [InRange, exMake], by simp⟩
  (by simp [Spec.wrap, exMake])
example := C62_wrap_stands (order := 2) (δ := Unit) (mp := .absent) (ndim := none) (axes := some (.int 0))
  (z := 0) rfl exMake_proper (by unfold InRange; decide) (by simp [Spec.wrap, axisSize, exMake])
  (by decide) (L := fun i => [⟨1, i 1⟩, ⟨1, i 1⟩]) (by
    intro i _
    refine .inl ⟨by simp [Spec.weight], ?_, ?_, ?_⟩
    · simp [exMake, Spec.wrap, Spec.weight]; norm_num
    · simp [exMake, Spec.wrap, mean, wsum, Spec.weight]; ring
    · intro n h1 h2
      have : n = 2 := by omega
      subst this
      simp [exMake, Spec.wrap, central, mean, wsum, Spec.weight]; ring_nf)
example : items ((ObjectMake.wrap exMake (.absent : Input PArray Unit) none (some (.int 0))).map Prod.fst)
    [[0, 0], [0, 1], [0, 2], [1, 0], [1, 1], [1, 2]] = some ([2, 3], [2, 0, 0, 2, 1, 0]) := by
  decide +kernel
example := C62_wrap_rejects (δ := Unit) (obj := exMake) (mp := .absent) (ndim := some 2)
  (axes := some (.seq [0, -2])) rfl (by unfold GoodParams; simp) (by simp [AxesOf, Spec.wrap, exMake])

end Wrap

section Nothing

variable {K : Type} [Field K] [LinearOrder K] [IsStrictOrderedRing K]

theorem zeros_object {obj : Arr K} {vs ms : List ℕ} (h : IsObject obj vs ms) :
    IsObject (⟨obj.shape, fun _ => 0⟩ : Arr K) vs ms :=
  ⟨fun _ _ _ => rfl, h.shape, h.count, h.orders⟩

theorem zeros_construct {obj : Arr K} {vs ms : List ℕ} (h : IsObject obj vs ms) :
    ∃ out, construct (δ := Unit) (⟨obj.shape, fun _ => 0⟩ : Arr K)
        (.obj ⟨ms.length, Select.axesLast ms.length⟩) none none
        = .ok (out, ⟨ms.length, Select.axesLast ms.length⟩) ∧
      IsObject out vs ms ∧ HasValues out vs ms (fun _ _ => 0) := by
  have hz := zeros_object h
  have hl : (Select.axesLast ms.length).length = ms.length := by simp [Select.axesLast]
  have hle : ms.length ≤ obj.shape.length := by rw [h.shape, List.length_append]; omega
  have hsz : momSizes (⟨obj.shape, fun _ => 0⟩ : Arr K) (Select.axesLast ms.length) = ms :=
    hz.momSizes_eq
  have hmem : ∀ z ∈ Select.axesLast ms.length, obj.shape.getD (Spec.wrap obj.shape.length z) 0 ∈ ms := by
    intro z hz'
    have : axisSize (⟨obj.shape, fun _ => 0⟩ : Arr K) (Spec.wrap obj.shape.length z)
        ∈ momSizes (⟨obj.shape, fun _ => 0⟩ : Arr K) (Select.axesLast ms.length) :=
      List.mem_map.2 ⟨_, List.mem_map.2 ⟨z, hz', rfl⟩, rfl⟩
    rw [hsz] at this
    exact this
  obtain ⟨out, e, h1, h2⟩ := construct_cells (δ := Unit) (obj := (⟨obj.shape, fun _ => 0⟩ : Arr K))
    (mp := .obj ⟨ms.length, Select.axesLast ms.length⟩) (ndim := none) (axes := none) rfl
    ⟨by have := h.count; simp only; omega, by simp [hl]⟩ hz.proper
    ⟨Select.axesLast_range _ _ hle, by
      rw [Select.wrap_axesLast _ _ hle]
      exact List.nodup_range.map_on (by intro a _ b _ h; omega)⟩
    (fun z hz' => h.orders _ (hmem z hz'))
  have hv : (valPos (⟨obj.shape, fun _ => 0⟩ : Arr K) (Select.axesLast ms.length)).map
      (axisSize (⟨obj.shape, fun _ => 0⟩ : Arr K)) = vs := by
    have e := hz.valPos_eq
    rw [e]
    refine List.ext_getElem (by simp) fun k k1 k2 => ?_
    simp only [List.getElem_map, List.getElem_range, axisSize, h.shape]
    rw [List.getD_eq_getElem _ _ (by rw [List.length_append]; omega), List.getElem_append_left k2]
  rw [hsz] at h1 h2
  rw [hv] at h1 h2
  refine ⟨out, ?_, h1, h2⟩
  rw [e, hl]

/-- **C62** `zeros_like(c)`, `c.new_like()` and, on the spot, `c.zero()`: the cells stand for no samples. -/
theorem C62_zeros {order : ℕ} {obj : Arr K} {vs : List ℕ} (h : IsObject obj vs [order + 1]) :
    (∃ out, zerosLike (obj, ⟨1, [-1]⟩) = .ok (out, ⟨1, [-1]⟩) ∧
      Stands core1 (Holds order) out vs [order + 1] (fun _ => [])) ∧
    (∃ out, newLikeZero (obj, ⟨1, [-1]⟩) = .ok (out, ⟨1, [-1]⟩) ∧
      Stands core1 (Holds order) out vs [order + 1] (fun _ => [])) ∧
    (zero (obj, ⟨1, [-1]⟩)).2 = ⟨1, [-1]⟩ ∧
    Stands core1 (Holds order) (zero (obj, ⟨1, [-1]⟩)).1 vs [order + 1] (fun _ => []) := by
  have hs : ∀ out : Arr K, IsObject out vs [order + 1] → HasValues out vs [order + 1] (fun _ _ => 0) →
      Stands core1 (Holds order) out vs [order + 1] (fun _ => []) := fun out h1 h2 =>
    ⟨h1, rfl, fun i hi => .inr ⟨h2.value i hi [0] (within_one.2 ⟨0, by omega, rfl⟩), by simp [wsum]⟩⟩
  obtain ⟨out, e, h1, h2⟩ := zeros_construct h
  exact ⟨⟨out, e, hs _ h1 h2⟩, ⟨out, e, hs _ h1 h2⟩, rfl,
    hs _ (zeros_object h) ⟨h.shape, fun _ _ _ _ => rfl⟩⟩

/-- **C62**, comoments. -/
theorem C62_zeros_cov {o0 o1 : ℕ} {obj : Arr K} {vs : List ℕ} (h : IsObject obj vs [o0 + 1, o1 + 1]) :
    (∃ out, zerosLike (obj, ⟨2, [-2, -1]⟩) = .ok (out, ⟨2, [-2, -1]⟩) ∧
      Stands core2 (Holds2 o0 o1) out vs [o0 + 1, o1 + 1] (fun _ => [])) ∧
    (∃ out, newLikeZero (obj, ⟨2, [-2, -1]⟩) = .ok (out, ⟨2, [-2, -1]⟩) ∧
      Stands core2 (Holds2 o0 o1) out vs [o0 + 1, o1 + 1] (fun _ => [])) ∧
    (zero (obj, ⟨2, [-2, -1]⟩)).2 = ⟨2, [-2, -1]⟩ ∧
    Stands core2 (Holds2 o0 o1) (zero (obj, ⟨2, [-2, -1]⟩)).1 vs [o0 + 1, o1 + 1] (fun _ => []) := by
  have hs : ∀ out : Arr K, IsObject out vs [o0 + 1, o1 + 1] →
      HasValues out vs [o0 + 1, o1 + 1] (fun _ _ => 0) →
      Stands core2 (Holds2 o0 o1) out vs [o0 + 1, o1 + 1] (fun _ => []) := fun out h1 h2 =>
    ⟨h1, rfl, fun i hi => .inr ⟨h2.value i hi [0, 0]
      (within_two.2 ⟨0, by omega, 0, by omega, rfl⟩), by simp [wsum2]⟩⟩
  obtain ⟨out, e, h1, h2⟩ := zeros_construct h
  exact ⟨⟨out, e, hs _ h1 h2⟩, ⟨out, e, hs _ h1 h2⟩, rfl,
    hs _ (zeros_object h) ⟨h.shape, fun _ _ _ _ => rfl⟩⟩

example := C62_zeros exStat_object.object
example := C62_zeros_cov exColl2_stands.object
example : items ((zerosLike (exStat, (⟨1, [-1]⟩ : PArray))).map Prod.fst) [[0, 0], [1, 3]]
    = some ([2, 4], [0, 0]) := by decide +kernel

end Nothing

section Raw

theorem centralToRaw_congr {K : Type*} [Field K] [CharZero K] {order : ℕ} (ho : 1 ≤ order) {c c' : Mom K}
    (h : EqUpTo order c c') (mem : Mom K) :
    EqUpTo order (centralToRaw order c mem) (centralToRaw order c' mem) := by
  intro n hn
  rw [centralToRaw_apply, centralToRaw_apply, h 0 (by omega), h 1 ho]
  have : shift (c' 1) (full c) n = shift (c' 1) (full c') n := by
    unfold shift
    refine Finset.sum_congr rfl fun i hi => ?_
    have := Finset.mem_range.1 hi
    unfold full
    rw [h (n - i) (by omega)]
  rw [this]

theorem centralToRawCov_congr {K : Type*} [Field K] {o0 o1 : ℕ} (h0 : 1 ≤ o0) (h1 : 1 ≤ o1) {c c' : Com K}
    (h : EqUpTo2 o0 o1 c c') (mem : Com K) :
    EqUpTo2 o0 o1 (centralToRawCov o0 o1 c mem) (centralToRawCov o0 o1 c' mem) := by
  intro n m hn hm
  unfold centralToRawCov
  rw [fillCov_apply, fillCov_apply, if_pos ⟨hn, hm⟩, if_pos ⟨hn, hm⟩, h 1 0 h0 (by omega),
    h 0 1 (by omega) h1]
  have hrow : ∀ i a t, centralToRawCovRow (c' 0 1) c n m i a t
      = centralToRawCovRow (c' 0 1) c' n m i a t := by
    intro i a t
    unfold centralToRawCovRow
    simp only
    rw [List.foldl_ext]
    intro s j _
    rw [h (n - i) (m - j) (by omega) (by omega)]
  unfold centralToRawCovEntry
  simp only [hrow, h n m hn hm]

variable {K : Type*} [Field K] [LinearOrder K] [IsStrictOrderedRing K] {δ : Type} {raw : Arr K}
  {vs : List ℕ}

/-- **C62** `wrap_raw(raw)` for an array of weights and raw moments of samples: the object holds their
moments. -/
theorem C62_wrap_raw {order : ℕ} {L : (ℕ → ℕ) → List (Sample K)} (h : IsObject raw vs [order + 1])
    (hr : ∀ i, InBounds vs i → IsRawMoments order (L i) (fun n => raw.get (atMom vs.length i [n])))
    (hW : ∀ i, InBounds vs i → weight (L i) ≠ 0) (mem : Mom K) {mp : Input PArray δ} {ndim : Option ℤ}
    {axes : Option IntArg} (hp : factory mp ndim axes (some 1) = .ok ⟨1, [-1]⟩) :
    ∃ out, wrapRaw core1 (fun r => rawToCentral order r mem) raw mp ndim axes = .ok (out, ⟨1, [-1]⟩) ∧
      ObjectOf out vs order L := by
  have ho : 1 ≤ order := by have := h.orders (order + 1) (by simp); omega
  obtain ⟨out, e, h1, h2, h3⟩ := h.convert core1_ok rfl (fun r => rawToCentral order r mem)
  refine ⟨out, ?_, ⟨⟨h1, h2, h.count, h.orders⟩, hW, fun i hi => ?_⟩⟩
  · unfold wrapRaw
    rw [hp]
    show (momentsTypeNd core1 (fun r => rawToCentral order r mem) false raw [-1] false).map _ = _
    have e' : momentsTypeNd core1 (fun r => rawToCentral order r mem) false raw [-1] false = .ok out := e
    rw [e']
    rfl
  · refine isMoments_of_eqUpTo ho (fun n hn => ?_)
      (C14_raw_to_central order ho (L i) (hW i hi) _ mem (hr i hi))
    exact h3 i hi [n] (within_one.2 ⟨n, by omega, rfl⟩)

/-- **C62**, comoments. -/
theorem C62_wrap_raw_cov {o0 o1 : ℕ} {L : (ℕ → ℕ) → List (Sample2 K)}
    (h : IsObject raw vs [o0 + 1, o1 + 1])
    (hr : ∀ i, InBounds vs i →
      IsRawComoments o0 o1 (L i) (fun n m => raw.get (atMom vs.length i [n, m])))
    (hW : ∀ i, InBounds vs i → weight2 (L i) ≠ 0) (mem : Com K) {mp : Input PArray δ}
    {ndim : Option ℤ} {axes : Option IntArg}
    (hp : factory mp ndim axes (some 1) = .ok ⟨2, [-2, -1]⟩) :
    ∃ out, wrapRaw core2 (fun r => rawToCentralCov o0 o1 r mem) raw mp ndim axes
        = .ok (out, ⟨2, [-2, -1]⟩) ∧ ObjectOf2 out vs o0 o1 L := by
  have h0 : 1 ≤ o0 := by have := h.orders (o0 + 1) (by simp); omega
  have h1' : 1 ≤ o1 := by have := h.orders (o1 + 1) (by simp); omega
  obtain ⟨out, e, h1, h2, h3⟩ := h.convert core2_ok rfl (fun r => rawToCentralCov o0 o1 r mem)
  refine ⟨out, ?_, ⟨⟨h1, h2, h.count, h.orders⟩, hW, fun i hi => ?_⟩⟩
  · unfold wrapRaw
    rw [hp]
    show (momentsTypeNd core2 (fun r => rawToCentralCov o0 o1 r mem) false raw [-2, -1] false).map _ = _
    have e' : momentsTypeNd core2 (fun r => rawToCentralCov o0 o1 r mem) false raw [-2, -1] false
      = .ok out := e
    rw [e']
    rfl
  · refine isComoments_of_eqUpTo2 h0 h1' (fun n m hn hm => ?_)
      (C15_raw_to_central o0 o1 h0 h1' (L i) (hW i hi) _ mem (hr i hi))
    exact h3 i hi [n, m] (within_two.2 ⟨n, by omega, m, by omega, rfl⟩)

/-- **C62** `wrap_raw(raw).to_raw()` gives `raw` back, whatever the numbers are. -/
theorem C62_raw_roundtrip {order : ℕ} (h : IsObject raw vs [order + 1]) (mem mem' : Mom K)
    {mp : Input PArray δ} {ndim : Option ℤ} {axes : Option IntArg}
    (hp : factory mp ndim axes (some 1) = .ok ⟨1, [-1]⟩) :
    ∃ out back, wrapRaw core1 (fun r => rawToCentral order r mem) raw mp ndim axes
        = .ok (out, ⟨1, [-1]⟩) ∧
      ObjectStats.toRaw core1 (fun c => centralToRaw order c mem') out none = .ok back ∧
      HasValues back vs [order + 1] (fun i m => raw.get (atMom vs.length i m)) := by
  have ho : 1 ≤ order := by have := h.orders (order + 1) (by simp); omega
  obtain ⟨out, e, h1, h2, h3⟩ := h.convert core1_ok rfl (fun r => rawToCentral order r mem)
  obtain ⟨back, b1, b2⟩ := toRaw_object_none (⟨h1, h2, h.count, h.orders⟩ : IsObject out vs _) core1_ok rfl
    (fun c => centralToRaw order c mem')
  refine ⟨out, back, ?_, b1, b2.shape, fun i hi m hm => ?_⟩
  · unfold wrapRaw
    rw [hp]
    show (momentsTypeNd core1 (fun r => rawToCentral order r mem) false raw [-1] false).map _ = _
    have e' : momentsTypeNd core1 (fun r => rawToCentral order r mem) false raw [-1] false = .ok out := e
    rw [e']
    rfl
  · rw [b2.value i hi m hm]
    obtain ⟨n, hn, rfl⟩ := within_one.1 hm
    refine (centralToRaw_congr ho (fun l hl => ?_) mem' n (by omega)).trans
      (C14_roundtrip_raw order (fun l => raw.get (atMom vs.length i [l])) mem mem' n (by omega))
    exact h3 i hi [l] (within_one.2 ⟨l, by omega, rfl⟩)

/-- **C62**, comoments. -/
theorem C62_raw_roundtrip_cov {o0 o1 : ℕ} (h : IsObject raw vs [o0 + 1, o1 + 1]) (mem mem' : Com K)
    {mp : Input PArray δ} {ndim : Option ℤ} {axes : Option IntArg}
    (hp : factory mp ndim axes (some 1) = .ok ⟨2, [-2, -1]⟩) :
    ∃ out back, wrapRaw core2 (fun r => rawToCentralCov o0 o1 r mem) raw mp ndim axes
        = .ok (out, ⟨2, [-2, -1]⟩) ∧
      ObjectStats.toRaw core2 (fun c => centralToRawCov o0 o1 c mem') out none = .ok back ∧
      HasValues back vs [o0 + 1, o1 + 1] (fun i m => raw.get (atMom vs.length i m)) := by
  have h0 : 1 ≤ o0 := by have := h.orders (o0 + 1) (by simp); omega
  have h1' : 1 ≤ o1 := by have := h.orders (o1 + 1) (by simp); omega
  obtain ⟨out, e, h1, h2, h3⟩ := h.convert core2_ok rfl (fun r => rawToCentralCov o0 o1 r mem)
  obtain ⟨back, b1, b2⟩ := toRaw_object_none (⟨h1, h2, h.count, h.orders⟩ : IsObject out vs _) core2_ok rfl
    (fun c => centralToRawCov o0 o1 c mem')
  refine ⟨out, back, ?_, b1, b2.shape, fun i hi m hm => ?_⟩
  · unfold wrapRaw
    rw [hp]
    show (momentsTypeNd core2 (fun r => rawToCentralCov o0 o1 r mem) false raw [-2, -1] false).map _ = _
    have e' : momentsTypeNd core2 (fun r => rawToCentralCov o0 o1 r mem) false raw [-2, -1] false
      = .ok out := e
    rw [e']
    rfl
  · rw [b2.value i hi m hm]
    obtain ⟨n, hn, n', hn', rfl⟩ := within_two.1 hm
    refine (centralToRawCov_congr h0 h1' (fun l l' hl hl' => ?_) mem' n n' (by omega) (by omega)).trans
      (C15_roundtrip_raw o0 o1 h0 h1' (fun l l' => raw.get (atMom vs.length i [l, l'])) mem mem' n n'
        (by omega) (by omega))
    exact h3 i hi [l, l'] (within_two.2 ⟨l, by omega, l', by omega, rfl⟩)

/-- **C62, finding.** `wrap_raw` leaves moment axes where they are, so the object it makes need not have
them last; `wrap` moves them. -/
theorem C62_wrap_raw_keeps_axes {M : Type*} {core : Core K M} (hc : core.Ok) (conv : M → M)
    {mp : Input PArray δ} {ndim : Option ℤ} {axes : Option IntArg} {p : PArray}
    (hp : factory mp ndim axes (some 1) = .ok p) (hn : p.ndim = core.nd) (hl : p.axes.length = core.nd)
    (hraw : raw.Proper) (ha : AxesOf raw.shape p.axes) :
    ∃ out, wrapRaw core conv raw mp ndim axes = .ok (out, p) ∧ out.shape = raw.shape := by
  obtain ⟨out, e, h⟩ := (momentsTypeNd_spec hc conv false hraw ha.1 ha.2 hl false).2 (.inl rfl)
  refine ⟨out, ?_, ?_⟩
  · unfold wrapRaw
    rw [hp]
    show (if p.ndim ≠ core.nd then _ else _) = _
    rw [if_neg (by simpa using hn), e]
    rfl
  · have := h.1
    simp only [Bool.false_eq_true, if_false] at this
    rw [this]
    refine List.ext_getElem (by simp) fun k k1 k2 => ?_
    simp [axisSize, List.getElem?_eq_getElem k2]

/-- Weights and raw moments of two cells. -/
def exRaw : Arr ℚ := ⟨[2, 3], fun i => if i 1 = 0 then 2 else if i 1 = 1 then i 0 else i 0 * i 0 + 1⟩

theorem exRaw_object : IsObject exRaw [2] [3] where
  proper := by
    intro i j h
    have h0 := h 0 (by decide)
    have h1 := h 1 (by decide)
    simp [exRaw, h0, h1]
  shape := rfl
  count := by decide
  orders := by decide

example := C62_wrap_raw (order := 2) (δ := Unit) (L := fun i => [⟨1, (i 0 : ℚ) - 1⟩, ⟨1, (i 0 : ℚ) + 1⟩])
  exRaw_object (by
    intro i _
    refine ⟨by simp [exRaw, atMom, Spec.weight]; try norm_num, fun n h1 h2 => ?_⟩
    obtain rfl | rfl : n = 1 ∨ n = 2 := by omega
    · simp [exRaw, atMom, rawMoment, wsum, Spec.weight]; ring
    · simp [exRaw, atMom, rawMoment, wsum, Spec.weight]; ring)
  (by intro i _; simp [Spec.weight]) (fun _ => 0) (mp := .absent) (ndim := none) (axes := none) rfl
example := C62_raw_roundtrip (order := 2) (δ := Unit) exRaw_object (fun _ => 7) (fun _ => 8) (mp := .absent)
  (ndim := none) (axes := none) rfl
example : items ((wrapRaw core1 (fun r => rawToCentral 2 r (fun _ => 7)) exRaw (.absent : Input PArray Unit)
    none none).map Prod.fst) [[0, 0], [0, 1], [0, 2], [1, 0], [1, 1], [1, 2]]
    = some ([2, 3], [2, 0, 1, 2, 1, 1]) := by decide +kernel
example := C62_wrap_raw_cov (o0 := 1) (o1 := 1) (δ := Unit) (L := fun i => [⟨1, i 0, 2⟩])
  (raw := ⟨[2, 2, 2], fun i => (if i 1 = 0 then 1 else (i 0 : ℚ)) * (if i 2 = 0 then 1 else 2)⟩)
  (vs := [2]) {
    proper := by
      intro i j h
      have h0 := h 0 (by decide)
      have h1 := h 1 (by decide)
      have h2 := h 2 (by decide)
      simp [h0, h1, h2]
    shape := rfl
    count := by decide
    orders := by decide }
  (by
    intro i _
    refine ⟨by simp [atMom, Spec.weight2], fun n m hn hm h => ?_⟩
    obtain ⟨rfl, rfl⟩ | ⟨rfl, rfl⟩ | ⟨rfl, rfl⟩ :
        (n = 1 ∧ m = 0) ∨ (n = 0 ∧ m = 1) ∨ (n = 1 ∧ m = 1) := by omega
    all_goals simp [atMom, rawMoment2, wsum2, Spec.weight2])
  (by intro i _; simp [Spec.weight2]) (fun _ _ => 0) (mp := .absent) (ndim := some 2) (axes := none) rfl
example := C62_raw_roundtrip_cov (o0 := 1) (o1 := 1) (δ := Unit) exColl2_stands.object (fun _ _ => 7)
  (fun _ _ => 8) (mp := .absent) (ndim := some 2) (axes := none) rfl
example := C62_wrap_raw_keeps_axes (δ := Unit) core1_ok (fun r => rawToCentral 2 r (fun _ => 7))
  (mp := .absent) (ndim := none) (axes := some (.int 0)) (p := ⟨1, [0]⟩) rfl rfl rfl exMake_proper
  ⟨by simp [InRange, exMake], by simp⟩

end Raw

section Data

/-- Shapes that have a common shape can be repeated to fill it. -/
theorem Spec.IsBroadcast.broadcasts {shapes : List (List ℕ)} {full s : List ℕ} (h : IsBroadcast shapes full)
    (hs : s ∈ shapes) : Broadcasts s full := by
  intro k a hk
  have hkl : k < s.length := by
    by_contra hlt
    rw [List.getElem?_eq_none (by rw [List.length_reverse]; omega)] at hk
    cases hk
  have hr := h.rank s hs
  rw [List.getElem?_reverse hkl, List.getElem?_eq_getElem (by omega)] at hk
  have hk' := Option.some.inj hk
  rcases h.fits s hs (s.length - 1 - k) (by omega) with h1 | h1
  · rw [List.getD_eq_getElem _ _ (by omega), hk'] at h1
    exact .inl h1
  · rw [List.getD_eq_getElem _ _ (by omega), hk'] at h1
    right
    rw [List.getElem?_reverse (by omega), List.getElem?_eq_getElem (by omega), h1,
      List.getD_eq_getElem _ _ (by omega)]
    congr 2
    omega

variable {K : Type*} [Field K] [LinearOrder K] [IsStrictOrderedRing K] {x y : Arr K}
  {weight : Option (Arr K)} {obj : Arr K} {vs ms : List ℕ}

/-- Assigning to one moment. -/
theorem Spec.IsObject.assign_one (h : IsObject obj vs ms) {name : String} (hs : Selectable name true ms)
    (e0 : selShape name true ms = []) {t : List ℕ} (es : selection name true ms = [([], t)])
    {v : Arr K} (hv : v.Proper) (hb : Broadcasts v.shape vs) (copy : Bool) :
    ∃ out, Select.assignMoment obj (Select.axesLast ms.length) [(name, v)] true copy
        = (if copy then obj else out, .ok out) ∧ IsObject out vs ms ∧
      ∀ i, InBounds vs i → ∀ m, Within ms m → out.get (atMom vs.length i m)
        = if m = t then stretch v vs.length i else obj.get (atMom vs.length i m) := by
  obtain ⟨a, a1, a2, a3⟩ := h.assign hs hv (by rw [e0, List.append_nil]; exact hb) copy
  refine ⟨a, a1, a2, fun i hi m hm => ?_⟩
  obtain ⟨a4, a5⟩ := a3 i hi m hm
  rw [es] at a4 a5
  by_cases hmt : m = t
  · rw [if_pos hmt, a4 [] (by simp [hmt]), e0, List.append_nil]
    unfold stretch
    refine hv _ _ fun ax hax => ?_
    by_cases h1 : v.shape.getD ax 0 = 1
    · rw [if_pos h1, if_pos h1]
    · rw [if_neg h1, if_neg h1, atMom, if_pos]
      by_contra hlt
      have hz : vs = [] := List.eq_nil_of_length_eq_zero (by omega)
      subst hz
      have hk := hb (v.shape.length - 1 - ax) (v.shape.getD ax 0) (by
        rw [List.getElem?_reverse (by omega), List.getD_eq_getElem _ _ hax]
        rw [show v.shape.length - 1 - (v.shape.length - 1 - ax) = ax by omega]
        exact List.getElem?_eq_getElem hax)
      simp at hk
      exact h1 (by simpa using hk)
  · rw [if_neg hmt, a5 (by simpa using hmt)]

/-- **C62** `vals_to_data(x, mom=order, weight=w)`: values and weights are repeated to a common shape, and the
cell at every index stands for the one sample found there. -/
theorem C62_vals_to_data {order : ℕ} (ho : 1 ≤ order) {mom : IntArg}
    (hmom : mom.tuple = [(order : ℤ)]) (hx : x.Proper) (hw : (givenWeight weight).Proper)
    (hb : IsBroadcast [x.shape, (givenWeight weight).shape] vs) :
    ∃ out, valsToData mom x weight [] = .ok out ∧
      Stands core1 (Holds order) out vs [order + 1]
        (fun i => [⟨stretch (givenWeight weight) vs.length i, stretch x vs.length i⟩]) := by
  have hz : IsObject (⟨vs ++ [order + 1], fun _ => 0⟩ : Arr K) vs [order + 1] :=
    ⟨fun _ _ _ => rfl, rfl, by simp, by simp; omega⟩
  obtain ⟨a, a1, a2, a3⟩ := hz.assign_one (name := "weight") (t := [0]) hz.weight_selectable rfl rfl hw
    (hb.broadcasts (by simp)) false
  obtain ⟨b, b1, b2, b3⟩ := a2.assign_one (name := "xave") (t := [1])
    ⟨by simp [knownNames], by
      intro p hp
      have : p = ([], [1]) := by simpa [selection, selection1] using hp
      rw [this]
      exact within_one.2 ⟨1, by omega, rfl⟩⟩ rfl rfl hx (hb.broadcasts (by simp)) false
  refine ⟨b, ?_, b2, rfl, fun i hi => ?_⟩
  · unfold valsToData
    rw [validateMom_one ho hmom]
    have e1 : broadcastShapes ([x.shape, (givenWeight weight).shape]) = .ok vs :=
      broadcastShapes_iff.2 hb
    show (broadcastShapes ([x.shape, (givenWeight weight).shape])).bind _ = _
    rw [e1]
    have e2 : ([(order : ℤ)].map (fun z => (z + 1).toNat)) = [order + 1] := by
      simp only [List.map_cons, List.map_nil]; congr 1
    show (Select.assignMoment ⟨vs ++ [(order : ℤ)].map (fun z => (z + 1).toNat), fun _ => 0⟩
      (Select.axesLast 1) ([("weight", givenWeight weight)] ++ [("xave", x)]) true false).2 = _
    rw [e2]
    have e3 := C40_assign_sequence _ _ hz.good [("weight", givenWeight weight)] [("xave", x)]
      (by simpa using hw) (by simpa using hx) true false a (by rw [a1])
    exact (congrArg Prod.snd e3).trans (congrArg Prod.snd b1)
  · refine holds_congr ho (fun n hn => ?_) ((meaning1 order ho).of_value (meaning1_value order ho)
      (stretch x vs.length i) (stretch (givenWeight weight) vs.length i))
    show b.get (atMom vs.length i [n]) = valToData _ _ n
    rw [b3 i hi [n] (within_one.2 ⟨n, by omega, rfl⟩), a3 i hi [n] (within_one.2 ⟨n, by omega, rfl⟩)]
    rcases n with _ | _ | n <;> simp [valToData]

/-- **C62**, comoments. -/
theorem C62_vals_to_data_cov {o0 o1 : ℕ} (h0 : 1 ≤ o0) (h1 : 1 ≤ o1) {mom : IntArg}
    (hmom : mom.tuple = [(o0 : ℤ), (o1 : ℤ)]) (hx : x.Proper) (hy : y.Proper)
    (hw : (givenWeight weight).Proper)
    (hb : IsBroadcast [x.shape, y.shape, (givenWeight weight).shape] vs) :
    ∃ out, valsToData mom x weight [y] = .ok out ∧
      Stands core2 (Holds2 o0 o1) out vs [o0 + 1, o1 + 1]
        (fun i => [⟨stretch (givenWeight weight) vs.length i, stretch x vs.length i,
          stretch y vs.length i⟩]) := by
  have hz : IsObject (⟨vs ++ [o0 + 1, o1 + 1], fun _ => 0⟩ : Arr K) vs [o0 + 1, o1 + 1] :=
    ⟨fun _ _ _ => rfl, rfl, by simp, by simp; omega⟩
  obtain ⟨a, a1, a2, a3⟩ := hz.assign_one (name := "weight") (t := [0, 0]) hz.weight_selectable rfl rfl hw
    (hb.broadcasts (by simp)) false
  obtain ⟨b, b1, b2, b3⟩ := a2.assign_one (name := "xave") (t := [1, 0])
    ⟨by simp [knownNames], by
      intro p hp
      have : p = ([], [1, 0]) := by simpa [selection, selection2] using hp
      rw [this]
      exact within_two.2 ⟨1, by omega, 0, by omega, rfl⟩⟩ rfl rfl hx (hb.broadcasts (by simp)) false
  obtain ⟨c, c1, c2, c3⟩ := b2.assign_one (name := "yave") (t := [0, 1])
    ⟨by simp [knownNames], by
      intro p hp
      have : p = ([], [0, 1]) := by simpa [selection, selection2] using hp
      rw [this]
      exact within_two.2 ⟨0, by omega, 1, by omega, rfl⟩⟩ rfl rfl hy (hb.broadcasts (by simp)) false
  refine ⟨c, ?_, c2, rfl, fun i hi => ?_⟩
  · unfold valsToData
    rw [validateMom_two h0 h1 hmom]
    have e1 : broadcastShapes ([x.shape, y.shape, (givenWeight weight).shape]) = .ok vs :=
      broadcastShapes_iff.2 hb
    show (broadcastShapes ([x.shape, y.shape, (givenWeight weight).shape])).bind _ = _
    rw [e1]
    have e2 : ([(o0 : ℤ), (o1 : ℤ)].map (fun z => (z + 1).toNat)) = [o0 + 1, o1 + 1] := by
      simp only [List.map_cons, List.map_nil]; congr 1
    show (Select.assignMoment ⟨vs ++ [(o0 : ℤ), (o1 : ℤ)].map (fun z => (z + 1).toNat), fun _ => 0⟩
      (Select.axesLast 2) ([("weight", givenWeight weight)] ++ ([("xave", x)] ++ [("yave", y)]))
      true false).2 = _
    rw [e2]
    have e3 := C40_assign_sequence _ _ hz.good [("weight", givenWeight weight)]
      ([("xave", x)] ++ [("yave", y)]) (by simpa using hw) (by simpa using ⟨hx, hy⟩) true false a
      (by rw [a1])
    have e4 := C40_assign_sequence _ _ a2.good [("xave", x)] [("yave", y)] (by simpa using hx)
      (by simpa using hy) true false b (by rw [b1])
    exact (congrArg Prod.snd e3).trans ((congrArg Prod.snd e4).trans (congrArg Prod.snd c1))
  · refine holds2_congr h0 h1 (fun n m hn hm => ?_) ((meaning2 o0 o1 h0 h1).of_value
      (meaning2_value o0 o1 h0 h1) (stretch x vs.length i, stretch y vs.length i)
      (stretch (givenWeight weight) vs.length i))
    have hin : Within [o0 + 1, o1 + 1] [n, m] := within_two.2 ⟨n, by omega, m, by omega, rfl⟩
    show c.get (atMom vs.length i [n, m]) = valToDataCov _ _ _ n m
    rw [c3 i hi _ hin, b3 i hi _ hin, a3 i hi _ hin]
    rcases n with _ | _ | n <;> rcases m with _ | _ | m <;> simp [valToDataCov, setAt]

/-- **C62** `vals_to_data` needs one further variable for two moments and none for one. -/
theorem C62_vals_to_data_count {mom : IntArg} {m : List ℤ} (hmom : validateMom mom = .ok m)
    (ys : List (Arr K)) (hy : ys.length + 1 ≠ m.length) :
    valsToData mom x weight ys = .error .valueError := by
  have hm : 1 ≤ m.length := by
    have := (((C48_validate_mom mom _).1).1 hmom).2.1
    omega
  unfold valsToData
  rw [hmom]
  show (if _ then _ else _) = _
  rw [if_pos (by omega)]

/-- **C62** Shapes that do not fit are refused. -/
theorem C62_vals_to_data_shapes {mom : IntArg} {m : List ℤ} (hmom : validateMom mom = .ok m)
    (ys : List (Arr K)) (hb : ∀ full, ¬ IsBroadcast ((x :: ys ++ [givenWeight weight]).map Arr.shape) full) :
    ∃ e, valsToData mom x weight ys = .error e := by
  unfold valsToData
  rw [hmom]
  by_cases hy : ys.length ≠ m.length - 1
  · exact ⟨.valueError, by show (if _ then _ else _) = _; rw [if_pos hy]⟩
  · cases e : broadcastShapes ((x :: ys ++ [givenWeight weight]).map Arr.shape) with
    | error e' => exact ⟨e', by
        have e2 : broadcastShapes ((x :: ys ++ [weightArg weight]).map Arr.shape) = .error e' := e
        show (if _ then _ else _) = _
        rw [if_neg hy, e2]
        rfl⟩
    | ok full => exact absurd (broadcastShapes_iff.1 e) (hb full)

theorem holds_unique {order : ℕ} {L : List (Sample K)} {a b : Mom K} (ha : Holds order L a)
    (hb : Holds order L b) (h0 : b 0 ≠ 0) : EqUpTo order a b := by
  obtain ⟨hW, hb⟩ | ⟨h, _⟩ := hb
  swap
  · exact absurd h h0
  obtain ⟨_, ha⟩ | ⟨_, h⟩ := ha
  swap
  · exact absurd (by simpa [wsum, Spec.weight] using h 0 (by omega)) hW
  intro n hn
  rcases n with _ | _ | n
  · rw [ha.weight, hb.weight]
  · rw [ha.mean, hb.mean]
  · rw [ha.central _ (by omega) hn, hb.central _ (by omega) hn]

/-- Values and weights of one shape. -/
theorem goodValues_same {x w : Arr K} (hx : x.Proper) (hw : w.Proper) (hs : w.shape = x.shape) {z : ℤ}
    (hz : InRange x.shape.length z) : GoodValues x [w] z x.shape where
  proper := hx
  range := hz
  usable := by
    have hlt := wrap_lt hz
    intro a ha
    rw [List.mem_singleton.1 ha]
    refine ⟨hw, ?_⟩
    rw [hs]
    have hd : x.shape.length - fromEnd x z = Spec.wrap x.shape.length z := by unfold fromEnd; omega
    have he : ∀ p, axisSize w p = axisSize x p := fun p => by unfold axisSize; rw [hs]
    by_cases h1 : x.shape.length = 1
    · right; left
      refine ⟨h1, ?_⟩
      rw [he]
      show _ = axisSize x (Spec.wrap x.shape.length z)
      congr 1
      omega
    · right; right
      refine ⟨by omega, by unfold fromEnd; omega, ?_⟩
      rw [hd, he]
      rfl
  common := by
    have hone : ∀ s ∈ wideShapes x [w], s = x.shape := by
      intro s h
      simp only [wideShapes, List.mem_cons, List.mem_map, List.mem_filter] at h
      rcases h with h | ⟨a, ⟨ha, _⟩, rfl⟩
      · exact h
      · rcases ha with rfl | ha
        · exact hs
        · cases ha
    refine ⟨fun s h => by rw [hone s h], fun s h p hp => ?_, fun q hq => ⟨x.shape, by simp [wideShapes],
      by omega, by congr 1; omega⟩⟩
    right
    rw [hone s h]
    congr 1
    omega

/-- **C62** Two routes to the same moments, for weights of the same shape as the values: reducing the
object made by `wrap(vals_to_data(x, weight=w))` along an axis, and `wrap_reduce_vals` along it. -/
theorem C62_two_routes {order : ℕ} (ho : 1 ≤ order) {mom : IntArg} (hmom : mom.tuple = [(order : ℤ)])
    {x w : Arr K} (hx : x.Proper) (hw : w.Proper) (hs : w.shape = x.shape) (h0 : NonNeg w) {z : ℤ}
    (hz : InRange x.shape.length z)
    (hne : ∀ a < x.shape.length, a ≠ Spec.wrap x.shape.length z → x.shape.getD a 0 ≠ 0) :
    ∃ obj r1 r2, valsToData mom x (some w) [] = .ok obj ∧
      ObjectOps.reduce core1 (kernel1 order) obj (some (.one (.int (Spec.wrap x.shape.length z)))) none
        none false false = .ok r1 ∧
      wrapReduceVals value1 core1 family1 mom (.absent : Input PArray Unit) x (some w) [] (some (.int z))
        = .ok (r2, ⟨1, [-1]⟩) ∧
      r1.shape = r2.shape ∧
      ∀ i, InBounds ((keptAxes x.shape.length [Spec.wrap x.shape.length z]).map (x.shape.getD · 0)) i →
        r2.get (atMom (x.shape.length - 1) i [0]) ≠ some 0 → ∀ n ≤ order,
        r1.get (atMom (x.shape.length - 1) i [n]) = r2.get (atMom (x.shape.length - 1) i [n]) := by
  have hlt := wrap_lt hz
  set ax := Spec.wrap x.shape.length z with hax
  have hb : IsBroadcast [x.shape, (givenWeight (some w)).shape] x.shape := by
    have hone : ∀ s ∈ [x.shape, (givenWeight (some w)).shape], s = x.shape := by
      intro s h
      simp only [List.mem_cons, List.not_mem_nil, or_false] at h
      rcases h with rfl | rfl
      · rfl
      · exact hs
    refine ⟨fun s h => by rw [hone s h], fun s h p hp => ?_, fun q hq => ⟨x.shape, by simp, by omega, by congr 1; omega⟩⟩
    right
    rw [hone s h]
    congr 1
    omega
  obtain ⟨obj, e1, hS⟩ := C62_vals_to_data ho hmom (weight := some w) hx hw hb
  have hol : obj.shape.length = x.shape.length + 1 := by
    rw [hS.object.shape, List.length_append]; rfl
  obtain ⟨r1, e2, s1⟩ := C61_reduce hS (fun i hi => by
      simp only [Spec.weight, List.map_cons, List.map_nil, List.sum_cons, List.sum_nil, add_zero]
      refine h0 _ fun a ha => ?_
      have ha' : a < x.shape.length := by rw [← hs]; exact ha
      show (if w.shape.getD a 0 = 1 then 0 else _) < w.shape.getD a 0
      split_ifs with h
      · omega
      · have := hi a ha'
        show i (a + x.shape.length - w.shape.length) < _
        rw [hs, Nat.add_sub_cancel]
        exact this)
    (axis := .one (.int ax)) (s := [ax])
    ⟨ax, rfl, by
      refine ⟨⟨by omega, by rw [hol]; omega⟩, ?_⟩
      unfold Spec.wrap
      rw [Int.emod_eq_of_lt (by omega) (by rw [hol]; omega)]
      simp⟩
    (by simp) (by simpa using hlt) (fun a ha hn => hne a ha (by simpa using hn)) false false
  obtain ⟨r2, e3, s2⟩ := C62_wrap_reduce_vals (weight := some w) (δ := Unit) (mp := .absent) ho hmom rfl
    (goodValues_same hx hw hs hz) h0
  have hd : x.shape.length - fromEnd x z = ax := by unfold fromEnd; omega
  rw [hd] at s2
  have hkl : ((keptAxes x.shape.length [ax]).map (x.shape.getD · 0)).length = x.shape.length - 1 := by
    rw [List.length_map, keptAxes_single_length hlt]
  simp only [Bool.false_eq_true, if_false] at s1
  refine ⟨obj, r1, r2, e1, e2, e3, by rw [s1.shape, s2.shape], fun i hi hnz n hn => ?_⟩
  obtain ⟨a, ha, ea⟩ := s1.holds i hi
  obtain ⟨b, hb', eb⟩ := s2.holds i hi
  rw [hkl] at ea eb
  rw [ea [n] (within_one.2 ⟨n, by omega, rfl⟩), eb [n] (within_one.2 ⟨n, by omega, rfl⟩)]
  rw [eb [0] (within_one.2 ⟨0, by omega, rfl⟩)] at hnz
  have hL : allSamplesOver (fun i => [(⟨stretch (givenWeight (some w)) x.shape.length i,
        stretch x x.shape.length i⟩ : Sample K)]) x.shape [ax] (readAs (keptAxes x.shape.length [ax]) i)
      = valueSamples x (givenWeight (some w)) x.shape.length ax (sampleCount x z)
          (readAs (keptAxes x.shape.length [ax]) i) := by
    have key : ∀ a : Arr K, a.Proper → a.shape = x.shape → ∀ s < x.shape.getD ax 0, ∀ j : ℕ → ℕ,
        stretch a x.shape.length (Function.update j ax s) = operandAt a x.shape.length ax j s := by
      intro a hp ha s hs' j
      unfold stretch operandAt
      rw [ha, if_neg (by omega)]
      have hone : ∀ p < a.shape.length, (if x.shape.getD p 0 = 1 then 0
          else Function.update j ax s (p + x.shape.length - x.shape.length))
          = if p = ax then s else if axisSize a p = 1 then 0 else j p := by
        intro p hp'
        rw [Nat.add_sub_cancel]
        by_cases hpa : p = ax
        · subst hpa
          rw [if_pos rfl, Function.update_self]
          split_ifs with h
          · omega
          · rfl
        · rw [if_neg hpa, Function.update_of_ne hpa]
          unfold axisSize
          rw [ha]
      by_cases h1 : x.shape.length = 1
      · rw [if_pos h1]
        refine hp _ _ fun p hp' => ?_
        have hone' := hone p hp'
        rw [ha] at hp'
        rw [if_pos (by omega : p = ax)] at hone'
        exact hone'
      · rw [if_neg h1]
        refine hp _ _ fun p hp' => ?_
        have hone' := hone p hp'
        simp only [Nat.sub_self, Nat.add_zero]
        exact hone'
    unfold allSamplesOver valueSamples
    simp only [List.map_cons, List.map_nil, allIdx]
    rw [List.flatMap_assoc]
    simp only [List.flatMap_cons, List.flatMap_nil, List.append_nil]
    rw [← List.map_eq_flatMap]
    refine List.map_congr_left fun s hs' => ?_
    rw [key x hx rfl s (List.mem_range.1 hs'), key (givenWeight (some w)) hw hs s (List.mem_range.1 hs')]
  rw [hL] at ha
  have := holds_unique ha hb' (fun h => hnz (congrArg some h)) n hn
  exact congrArg some this

/-- **C62, finding.** One weight per row or one per column? For a square array of values and a list of
weights both functions accept them: `wrap_reduce_vals(x, weight=w, axis=0)` gives row `s` the weight `w[s]`,
and `vals_to_data(x, weight=w)` gives column `c` the weight `w[c]`. -/
theorem C62_weights_align_differently {order : ℕ} (ho : 1 ≤ order) {mom : IntArg}
    (hmom : mom.tuple = [(order : ℤ)]) {n : ℕ} {x w : Arr K} (hx : x.Proper) (hw : w.Proper)
    (hxs : x.shape = [n, n]) (hws : w.shape = [n]) (h0 : NonNeg w) :
    (∃ obj, valsToData mom x (some w) [] = .ok obj ∧
      Stands core1 (Holds order) obj [n, n] [order + 1]
        (fun i => [⟨w.get (fun _ => i 1), x.get i⟩])) ∧
    ∃ r, wrapReduceVals value1 core1 family1 mom (.absent : Input PArray Unit) x (some w) []
        (some (.int 0)) = .ok (r, ⟨1, [-1]⟩) ∧
      ResultStands core1 (Holds order) r [n] [order + 1] (fun i =>
        (List.range n).map (fun s => ⟨w.get (fun _ => s), x.get (fun p => if p = 0 then s else i 0)⟩)) := by
  constructor
  · have hb : IsBroadcast [x.shape, (givenWeight (some w)).shape] [n, n] := by
      show IsBroadcast [x.shape, w.shape] [n, n]
      rw [hxs, hws]
      refine ⟨by simp, ?_, ?_⟩
      · intro s hs p hp
        simp only [List.mem_cons, List.not_mem_nil, or_false] at hs
        rcases hs with rfl | rfl
        · right; rfl
        · right
          have : p = 0 := by simpa using hp
          subst this
          rfl
      · intro q hq
        exact ⟨[n, n], by simp, by simp, by congr 1⟩
    obtain ⟨obj, e, h⟩ := C62_vals_to_data ho hmom (weight := some w) hx hw hb
    refine ⟨obj, e, h.object, h.nd, fun i hi => ?_⟩
    have hi0 := hi 0 (by simp)
    have hi1 := hi 1 (by simp)
    simp only [List.getD_cons_zero, List.getD_cons_succ] at hi0 hi1
    have := h.holds i hi
    have ew : stretch (givenWeight (some w)) 2 i = w.get (fun _ => i 1) := by
      refine hw _ _ fun a ha => ?_
      have ha0 : a = 0 := by rw [hws] at ha; simpa using ha
      subst ha0
      show (if w.shape.getD 0 0 = 1 then 0 else i (0 + 2 - w.shape.length)) = i 1
      rw [hws]
      simp only [List.getD_cons_zero, List.length_singleton]
      split_ifs
      · omega
      · rfl
    have ex : stretch x 2 i = x.get i := by
      refine hx _ _ fun a ha => ?_
      rw [hxs] at ha
      show (if x.shape.getD a 0 = 1 then 0 else i (a + 2 - x.shape.length)) = i a
      rw [hxs]
      have ha' : a = 0 ∨ a = 1 := by simp at ha; omega
      rcases ha' with rfl | rfl <;> simp <;> omega
    simp only [List.length_cons, List.length_nil, Nat.zero_add, Nat.reduceAdd] at this ⊢
    rw [ew, ex] at this
    exact this
  · have hz : InRange x.shape.length 0 := by rw [hxs]; unfold InRange; simp
    have hwr : Spec.wrap x.shape.length 0 = 0 := by simp [Spec.wrap]
    have hfe : fromEnd x 0 = 2 := by unfold fromEnd; rw [hwr, hxs]; rfl
    have hsc : sampleCount x 0 = n := by unfold sampleCount axisSize; rw [hwr, hxs]; rfl
    have g : GoodValues x [givenWeight (some w)] 0 [n, n] := by
      refine ⟨hx, hz, ?_, ?_⟩
      · intro a ha
        rw [List.mem_singleton.1 ha]
        refine ⟨hw, .inr (.inl ⟨?_, ?_⟩)⟩
        · show w.shape.length = 1; rw [hws]; rfl
        · show axisSize w 0 = _; rw [hsc]; unfold axisSize; rw [hws]; rfl
      · have : wideShapes x [givenWeight (some w)] = [[n, n]] := by
          show x.shape :: (List.filter _ [w]).map _ = _
          simp [hxs, hws]
        rw [this]
        refine ⟨by simp, ?_, ?_⟩
        · intro s hs p hp
          rw [List.mem_singleton.1 hs]
          right; rfl
        · intro q hq
          exact ⟨[n, n], by simp, by simp, by congr 1⟩
    obtain ⟨r, e, h⟩ := C62_wrap_reduce_vals (weight := some w) (δ := Unit) (mp := .absent) ho hmom rfl g h0
    rw [hfe, hsc] at h
    refine ⟨r, e, h.shape, fun i hi => ?_⟩
    obtain ⟨b, hb, eb⟩ := h.holds i hi
    refine ⟨b, ?_, eb⟩
    refine cast ?_ hb
    congr 1
    unfold valueSamples
    refine List.map_congr_left fun s hs => ?_
    have hs' := List.mem_range.1 hs
    have hi0 : i 0 < n := by
      have := hi 0 (by simp [keptAxes, List.range_succ])
      simpa [keptAxes, List.range_succ] using this
    congr 1
    · show operandAt w 2 0 _ s = _
      unfold operandAt
      rw [hws]
      rfl
    · show operandAt x 2 0 _ s = _
      unfold operandAt
      rw [hxs]
      refine hx _ _ fun a ha => ?_
      have ha' : a = 0 ∨ a = 1 := by rw [hxs] at ha; simp at ha; omega
      rcases ha' with rfl | rfl
      · rfl
      · simp only [List.length_cons, List.length_nil, axisSize, hxs]
        simp [readAs, keptAxes, List.range_succ, List.idxOf]
        omega

/-- Values with three rows and two columns, and weights of the same shape. -/
def exTable : Arr ℚ := ⟨[3, 2], fun i => 1 + 2 * i 0 - i 1⟩

def exTableW : Arr ℚ := ⟨[3, 2], fun i => 1 + i 0 * i 1⟩

theorem exTable_proper : exTable.Proper := by
  intro i j h
  have h0 := h 0 (by decide)
  have h1 := h 1 (by decide)
  simp [exTable, h0, h1]

theorem exTableW_proper : exTableW.Proper := by
  intro i j h
  have h0 := h 0 (by decide)
  have h1 := h 1 (by decide)
  simp [exTableW, h0, h1]

example := C62_vals_to_data (order := 2) (by decide) (mom := .int 2) rfl (weight := some ⟨[2], fun i => 1 + (i 0 : ℚ)⟩)
  (vs := [3, 2]) exTable_proper (fun i j h => by simp [givenWeight, h 0 (by decide)])
  ⟨by decide, by decide, by decide⟩
example : items (valsToData (.int 2) exTable (some ⟨[2], fun i => 1 + i 0⟩) [])
    [[0, 0, 0], [0, 0, 1], [0, 0, 2], [2, 1, 0], [2, 1, 1], [2, 1, 2]]
    = some ([3, 2, 3], [1, 1, 0, 2, 4, 0]) := by decide +kernel
example := C62_vals_to_data_cov (o0 := 2) (o1 := 1) (by decide) (by decide) (mom := .seq [2, 1]) rfl
  (weight := none) (vs := [3, 2]) exTable_proper exTableW_proper (num_proper 1)
  ⟨by decide, by decide, by decide⟩
example : items (valsToData (.seq [1, 1]) exTable none [exTableW])
    [[2, 1, 0, 0], [2, 1, 1, 0], [2, 1, 0, 1], [2, 1, 1, 1]] = some ([3, 2, 2, 2], [1, 4, 3, 0]) := by
  decide +kernel
example := C62_vals_to_data_count (x := exTable) (weight := none) (mom := .int 2) (m := [2]) rfl [exTableW]
  (by decide)
example := C62_vals_to_data_shapes (x := exTable) (weight := some ⟨[3], fun _ => (1 : ℚ)⟩) (mom := .int 2)
  (m := [2]) rfl [] (by
    intro full h
    have e : broadcastShapes [[3, 2], [3]] = .ok full := broadcastShapes_iff.2 h
    have : broadcastShapes [[3, 2], [3]] = .error .valueError := by decide
    rw [this] at e
    cases e)
example := C62_two_routes (order := 2) (by decide) (mom := .int 2) rfl exTable_proper exTableW_proper rfl
  (fun i _ => by simp only [exTableW]; positivity) (z := 0) (by unfold InRange; decide) (by decide)
example := C62_weights_align_differently (order := 2) (by decide) (mom := .int 2) rfl (n := 2)
  (x := ⟨[2, 2], fun i => 1 + 2 * i 0 - (i 1 : ℚ)⟩) (w := ⟨[2], fun i => 1 + (i 0 : ℚ)⟩)
  (fun i j h => by simp [h 0 (by decide), h 1 (by decide)]) (fun i j h => by simp [h 0 (by decide)]) rfl rfl
  (fun i _ => by simp only; positivity)
-- the two totals for these values: weights 1, 2 by row and by column
example : objEntries (wrapReduceVals value1 core1 family1 (.int 1) (.absent : Input PArray Unit)
    ⟨[2, 2], fun i => 1 + 2 * i 0 - (i 1 : ℚ)⟩ (some ⟨[2], fun i => 1 + i 0⟩) [] (some (.int 0))) [[0, 0], [1, 0]]
    = some ([2, 2], [some 3, some 3]) := by decide +kernel
example : entries ((valsToData (.int 1) ⟨[2, 2], fun i => 1 + 2 * i 0 - (i 1 : ℚ)⟩
    (some ⟨[2], fun i => 1 + i 0⟩) []).bind fun d => ObjectOps.reduce core1 (kernel1 1) d
      (some (.one (.int 0))) none none false false) [[0, 0], [1, 0]]
    = some ([2, 2], [some 2, some 4]) := by decide +kernel

end Data

end Cmomy

import Verif.Lemmas.LabelledMake
import Verif.Props.LabelledCollect
import Verif.Props.LabelledStats
import Verif.Props.Convert

/-!
# C70: labelled objects made from arrays, values, raw moments and nothing stand for the right samples
-/

set_option linter.unusedSectionVars false

namespace Cmomy

open Spec Labelled Axes Validate Convert
open Nd (core1 core2 core1_ok core2_ok value1 value2 family1 family2)

variable {δ : Type} [DecidableEq δ]

/-! ### The names of the moment dimensions -/

section Names

variable {mom0 mom1 : δ}

/-- **C70** Accepted parameters name one or two moment dimensions, as many as asked for. -/
theorem C70_params {mp : Input (PX δ) (DimsArg δ)}
    (hmp : ∀ p, mp = .obj p → (p.ndim = 1 ∨ p.ndim = 2) ∧ (p.dims.length : ℤ) = p.ndim)
    {ndim : Option ℤ} {dims : Option (DimsArg δ)} {axes : Option IntArg} {data : OutDims δ}
    {dflt : Option ℤ} {p : PX δ} (h : factoryX mom0 mom1 mp ndim dims axes data dflt = .ok p) :
    (p.ndim = 1 ∨ p.ndim = 2) ∧ (p.dims.length : ℤ) = p.ndim ∧ ∀ n, ndim = some n → p.ndim = n := by
  have key : ∀ ndim dims axes, fromParamsX mom0 mom1 ndim dims axes data dflt = .ok p →
      (p.ndim = 1 ∨ p.ndim = 2) ∧ (p.dims.length : ℤ) = p.ndim ∧ ∀ n, ndim = some n → p.ndim = n := by
    intro ndim dims axes h
    unfold fromParamsX at h
    cases e : validateMomDimsAndMomNdim mom0 mom1 dims ndim data dflt axes with
    | error e' => rw [e] at h; cases h
    | ok r =>
      rw [e] at h
      obtain rfl := Except.ok.inj h
      obtain ⟨h1, h2, h3, -⟩ := C48_mom_dims mom0 mom1 dims ndim data dflt axes r.1 r.2 e
      exact ⟨h1, h2, h3⟩
  cases mp with
  | obj q =>
    unfold factoryX at h
    cases ndim with
    | none =>
      obtain rfl := Except.ok.inj h
      exact ⟨(hmp _ rfl).1, (hmp _ rfl).2, fun n hn => by cases hn⟩
    | some k =>
      simp only at h
      split_ifs at h with hk
      obtain rfl := Except.ok.inj h
      exact ⟨(hmp _ rfl).1, (hmp _ rfl).2, fun n hn => by rw [hk]; exact Option.some.inj hn⟩
  | absent => exact key _ _ _ h
  | dict n a d =>
    obtain ⟨h1, h2, h3⟩ := key _ _ _ h
    exact ⟨h1, h2, fun k hk => h3 k (by rw [hk]; rfl)⟩

/-- **C70** Names that are given are used, in the order given. -/
theorem C70_names_given {ndim : Option ℤ} {l : List δ} {axes : Option IntArg} {data : OutDims δ}
    {dflt : Option ℤ} {p : PX δ}
    (h : factoryX mom0 mom1 .absent ndim (some (.seq l)) axes data dflt = .ok p) : p.dims = l := by
  unfold factoryX fromParamsX at h
  cases e : validateMomDimsAndMomNdim mom0 mom1 (some (.seq l)) ndim data dflt axes with
  | error e' => rw [e] at h; cases h
  | ok r =>
    rw [e] at h
    obtain rfl := Except.ok.inj h
    exact (C48_mom_dims mom0 mom1 _ ndim data dflt axes r.1 r.2 e).2.2.2.2.1 l rfl

/-- **C70** Without names and without an array to take them from, the names are the default ones; with an
array they are those of its last dimensions, or those on the axes given. -/
theorem C70_names_default {ndim : Option ℤ} {axes : Option IntArg} {data : OutDims δ} {dflt : Option ℤ}
    {p : PX δ} (h : factoryX mom0 mom1 .absent ndim none axes data dflt = .ok p) :
    (data = none → p.dims = [mom0, mom1].take p.ndim.toNat) ∧
    (∀ l, data = some l → axes = none → p.dims = l.drop (l.length - p.ndim.toNat) ∧ p.ndim ≤ l.length) ∧
    (∀ l a, data = some l → axes = some a →
      p.dims.map some = a.tuple.map (fun z => l[Spec.wrap l.length z]?)) := by
  unfold factoryX fromParamsX at h
  cases e : validateMomDimsAndMomNdim mom0 mom1 none ndim data dflt axes with
  | error e' => rw [e] at h; cases h
  | ok r =>
    rw [e] at h
    obtain rfl := Except.ok.inj h
    obtain ⟨h1, h2, h3⟩ := C48_default_dims mom0 mom1 ndim data dflt axes r.1 r.2 e
    exact ⟨h1, h3, h2⟩

/-- **C70** An entry of a dictionary is used instead of the argument; `None` for the names counts as an
entry. The number of moments is the only argument that wins over its entry. -/
theorem C70_names_dict (n : Option (Option ℤ)) (a : Option (Option IntArg))
    (d : Option (DimsArg δ)) (k : ℤ) (dims : Option (DimsArg δ)) (axes : Option IntArg)
    (data : OutDims δ) (dflt : Option ℤ) :
    factoryX mom0 mom1 (.dict n a (some d)) (some k) dims axes data dflt
      = factoryX mom0 mom1 .absent (some k) d (a.getD axes) data dflt := rfl

/-- **C70** Parameters made earlier are taken as they are: names and axes given besides them have no
effect, and another number of moments is an error. -/
theorem C70_names_object (p : PX δ) (ndim : Option ℤ) (dims : Option (DimsArg δ)) (axes : Option IntArg)
    (data : OutDims δ) (dflt : Option ℤ) :
    factoryX mom0 mom1 (.obj p) ndim dims axes data dflt
      = if ∃ n, ndim = some n ∧ p.ndim ≠ n then .error .assertion else .ok p := by
  unfold factoryX
  cases ndim with
  | none => simp
  | some n => by_cases h : p.ndim = n <;> simp [h]

end Names

/-! ### From an array -/

section Wrap

variable {mom0 mom1 : δ} {α : Type}

/-- **C70** `wrap(obj)`: an array is accepted if it has the moment dimensions, with at least two places
each, and it is not changed. -/
theorem C70_wrap {obj : DataArray δ α} {mp : Input (PX δ) (DimsArg δ)} {ndim : Option ℤ}
    {axes : Option IntArg} {dims : Option (DimsArg δ)} {p : PX δ}
    (hp : factoryX mom0 mom1 mp ndim dims axes (some obj.dims) (some 1) = .ok p)
    (r : DataArray δ α × PX δ) :
    wrapX mom0 mom1 obj mp ndim axes dims = .ok r ↔
      r = (obj, p) ∧ ∀ d ∈ p.dims, d ∈ obj.dims ∧ 2 ≤ obj.size d := by
  unfold wrapX
  rw [hp]
  simp only [Except.bind, constructX]
  split_ifs with h1 h2
  · obtain ⟨d, hd, hn⟩ := h1
    simp only [Except.map, reduceCtorEq, false_iff]
    exact fun h => hn (h.2 d hd).1
  · obtain ⟨d, hd, hn⟩ := h2
    simp only [Except.map, reduceCtorEq, false_iff]
    intro h
    have := (h.2 d hd).2
    omega
  · push Not at h1 h2
    simp only [Except.map, Except.ok.injEq]
    exact ⟨fun h => ⟨h.symm, fun d hd => ⟨h1 d hd, by have := h2 d hd; omega⟩⟩, fun h => h.1.symm⟩

/-- **C70** Everything else is refused. -/
theorem C70_wrap_refused {obj : DataArray δ α} {mp : Input (PX δ) (DimsArg δ)} {ndim : Option ℤ}
    {axes : Option IntArg} {dims : Option (DimsArg δ)} {p : PX δ}
    (hp : factoryX mom0 mom1 mp ndim dims axes (some obj.dims) (some 1) = .ok p)
    (h : ∃ d ∈ p.dims, d ∉ obj.dims ∨ obj.size d < 2) :
    wrapX mom0 mom1 obj mp ndim axes dims = .error .valueError := by
  unfold wrapX
  rw [hp]
  simp only [Except.bind, constructX]
  obtain ⟨d, hd, h⟩ := h
  by_cases h1 : ∃ d ∈ p.dims, d ∉ obj.dims
  · rw [if_pos h1]; rfl
  · rw [if_neg h1, if_pos]
    · rfl
    · push Not at h1
      exact ⟨d, hd, by have := h.resolve_left (not_not.2 (h1 d hd)); omega⟩

end Wrap

/-! ### From nothing -/

section Nothing

variable {K : Type} [Field K] [LinearOrder K] [IsStrictOrderedRing K] {mom0 mom1 : δ}

theorem zerosLike_construct {α : Type} [Zero α] {obj : DataArray δ α} {moms : List δ}
    (g : MomentObject obj moms) : constructX moms obj.zerosLike = .ok obj.zerosLike := by
  unfold constructX
  rw [if_neg, if_neg]
  · rintro ⟨d, hd, h⟩
    have := g.orders d hd
    have : obj.size d ≤ 1 := h
    omega
  · rintro ⟨d, hd, h⟩
    exact h (g.object.momPresent d hd)

/-- **C70** `zeros_like(c)` and `c.new_like()`: the same dimensions and sizes, and the cells stand for no
samples. -/
theorem C70_zeros {obj : DataArray δ K} {md : δ} (g : MomentObject obj [md]) (order : ℕ) :
    ∃ out, zerosLikeX mom0 mom1 (obj, ⟨1, [md]⟩) = .ok (out, ⟨1, [md]⟩) ∧
      newLikeZeroX (obj, ⟨1, [md]⟩) = .ok (out, ⟨1, [md]⟩) ∧
      out.dims = obj.dims ∧ out.size = obj.size ∧
      StandsNamed core1 (Holds (K := K) order) out [md] (fun _ => []) := by
  refine ⟨obj.zerosLike, ?_, ?_, rfl, rfl,
    ⟨g.object.distinct, g.object.momDistinct, g.object.momPresent, rfl⟩, fun c _ => ?_⟩
  · unfold zerosLikeX wrapX
    show (constructX [md] obj.zerosLike).map _ = _
    rw [zerosLike_construct g]
    rfl
  · unfold newLikeZeroX
    show (constructX [md] obj.zerosLike).map _ = _
    rw [zerosLike_construct g]
    rfl
  · exact .inr ⟨rfl, by simp [wsum]⟩

/-- **C70**, comoments. -/
theorem C70_zeros_cov {obj : DataArray δ K} {m0 m1 : δ} (g : MomentObject obj [m0, m1]) (o0 o1 : ℕ) :
    ∃ out, zerosLikeX mom0 mom1 (obj, ⟨2, [m0, m1]⟩) = .ok (out, ⟨2, [m0, m1]⟩) ∧
      newLikeZeroX (obj, ⟨2, [m0, m1]⟩) = .ok (out, ⟨2, [m0, m1]⟩) ∧
      out.dims = obj.dims ∧ out.size = obj.size ∧
      StandsNamed core2 (Holds2 (K := K) o0 o1) out [m0, m1] (fun _ => []) := by
  refine ⟨obj.zerosLike, ?_, ?_, rfl, rfl,
    ⟨g.object.distinct, g.object.momDistinct, g.object.momPresent, rfl⟩, fun c _ => ?_⟩
  · unfold zerosLikeX wrapX
    show (constructX [m0, m1] obj.zerosLike).map _ = _
    rw [zerosLike_construct g]
    rfl
  · unfold newLikeZeroX
    show (constructX [m0, m1] obj.zerosLike).map _ = _
    rw [zerosLike_construct g]
    rfl
  · exact .inr ⟨rfl, by simp [wsum2]⟩

end Nothing

/-! ### From values -/

section Values

variable {K : Type} [Field K] [LinearOrder K] [IsStrictOrderedRing K] {mom0 mom1 : δ}
  {x : DataArray δ K} {weight : Option (Operand δ K)} {y : Operand δ K} {dim : δ} {size : δ → ℕ}

/-- **C70** `wrap_reduce_vals(x, mom=order, dim=dim, weight=w)`: the dimensions are those of values and
weight except `dim`, in order of appearance, then the moment dimension. The cell at the coordinates `c`
stands for the samples met there along `dim`. -/
theorem C70_wrap_reduce_vals {order : ℕ} (ho : 1 ≤ order) {mom : IntArg}
    (hmom : mom.tuple = [(order : ℤ)]) {mp : Input (PX δ) (DimsArg δ)} {dims : Option (DimsArg δ)}
    {md : δ} (hp : factoryX mom0 mom1 mp (some 1) dims none none none = .ok ⟨1, [md]⟩)
    (g : GoodLabelled x [givenOperand weight] dim size [md]) (hn : NonNegOperand (givenOperand weight))
    {axis : Option (Option AxisArg)} {dimArg : Option (Option δ)}
    (hsel : Chosen x.dims [] axis dimArg dim) :
    ∃ out, wrapReduceValsX mom0 mom1 value1 core1 family1 mom mp dims x weight [] axis dimArg
        = .ok (out, ⟨1, [md]⟩) ∧
      ResultNamed core1 (Holds order) out [md] (otherDims [.named x, givenOperand weight] dim ++ [md])
        (sizesOfVals size dim 0 [md] [order])
        (namedSamples (otherDims [.named x, givenOperand weight] dim) dim (nameFromEnd x dim) (size dim)
          (.named x) (givenOperand weight)) := by
  obtain ⟨out, e, h⟩ := reduceValsX_result (fam := family1) (core := core1) (mom := [order])
    (smp := fun v c => ⟨c, v⟩) (meaning1 order ho) (meaning1_value order ho) value1 rfl rfl rfl rfl g hn hsel
  refine ⟨out, ?_, ?_⟩
  · unfold wrapReduceValsX
    rw [validateMom_one ho hmom]
    show Except.bind (factoryX mom0 mom1 mp (some 1) dims none none none) _ = _
    rw [hp]
    show (reduceValsX value1 core1 family1 [order] [md] x [givenOperand weight] axis dimArg).map _ = _
    rw [e]
    rfl
  · refine cast ?_ h
    congr 1
    funext c
    simp only [samplesNamed, namedSamples, List.map_map, Function.comp_def]
    rfl

/-- **C70**, comoments. -/
theorem C70_wrap_reduce_vals_cov {o0 o1 : ℕ} (h0 : 1 ≤ o0) (h1 : 1 ≤ o1) {mom : IntArg}
    (hmom : mom.tuple = [(o0 : ℤ), (o1 : ℤ)]) {mp : Input (PX δ) (DimsArg δ)}
    {dims : Option (DimsArg δ)} {m0 m1 : δ}
    (hp : factoryX mom0 mom1 mp (some 2) dims none none none = .ok ⟨2, [m0, m1]⟩)
    (g : GoodLabelled x [givenOperand weight, y] dim size [m0, m1])
    (hn : NonNegOperand (givenOperand weight))
    {axis : Option (Option AxisArg)} {dimArg : Option (Option δ)}
    (hsel : Chosen x.dims [] axis dimArg dim) :
    ∃ out, wrapReduceValsX mom0 mom1 value2 core2 family2 mom mp dims x weight [y] axis dimArg
        = .ok (out, ⟨2, [m0, m1]⟩) ∧
      ResultNamed core2 (Holds2 o0 o1) out [m0, m1]
        (otherDims [.named x, givenOperand weight, y] dim ++ [m0, m1])
        (sizesOfVals size dim 0 [m0, m1] [o0, o1])
        (namedSamples2 (otherDims [.named x, givenOperand weight, y] dim) dim (nameFromEnd x dim)
          (size dim) (.named x) y (givenOperand weight)) := by
  obtain ⟨out, e, h⟩ := reduceValsX_result (fam := family2) (core := core2) (mom := [o0, o1])
    (smp := fun v c => ⟨c, v.1, v.2⟩) (meaning2 o0 o1 h0 h1) (meaning2_value o0 o1 h0 h1) value2 rfl rfl
    rfl rfl g hn hsel
  refine ⟨out, ?_, ?_⟩
  · unfold wrapReduceValsX
    rw [validateMom_two h0 h1 hmom]
    show Except.bind (factoryX mom0 mom1 mp (some 2) dims none none none) _ = _
    rw [hp]
    show (reduceValsX value2 core2 family2 [o0, o1] [m0, m1] x [givenOperand weight, y] axis dimArg).map _
      = _
    rw [e]
    rfl
  · refine cast ?_ h
    congr 1
    funext c
    simp only [samplesNamed, namedSamples2, List.map_map, Function.comp_def]
    rfl

/-- **C70** `wrap_resample_vals(x, mom=order, dim=dim, weight=w, sampler=…, rep_dim=rep)`: the cell at
place `c rep` of the new dimension stands for the samples with their weights multiplied by the
frequencies of that row. -/
theorem C70_wrap_resample_vals {order : ℕ} (ho : 1 ≤ order) {mom : IntArg}
    (hmom : mom.tuple = [(order : ℤ)]) {mp : Input (PX δ) (DimsArg δ)} {dims : Option (DimsArg δ)}
    {md rep : δ} (hp : factoryX mom0 mom1 mp (some 1) dims none none none = .ok ⟨1, [md]⟩)
    (g : GoodLabelled x [givenOperand weight] dim size [rep, md])
    (hn : NonNegOperand (givenOperand weight))
    {freq : List (List K)} (hf : ∀ fs ∈ freq, ∀ f ∈ fs, 0 ≤ f)
    {axis : Option (Option AxisArg)} {dimArg : Option (Option δ)}
    (hsel : Chosen x.dims [] axis dimArg dim) (orderCF axesToEnd : Bool) :
    ∃ out, wrapResampleValsX mom0 mom1 value1 core1 family1 mom mp dims freq (size dim) x weight [] axis
        dimArg rep orderCF axesToEnd = .ok (out, ⟨1, [md]⟩) ∧
      ResultNamed core1 (Holds order) out [md]
        (dimsOfVals x (otherDims [.named x, givenOperand weight] dim) dim rep [md] axesToEnd)
        (sizesOfVals size rep freq.length [md] [order])
        (fun c => List.zipWith reweighted (freq.getD (c rep) [])
          (namedSamples (otherDims [.named x, givenOperand weight] dim) dim (nameFromEnd x dim)
            (size dim) (.named x) (givenOperand weight) c)) := by
  obtain ⟨out, e, h⟩ := resampleValsX_result (fam := family1) (core := core1) (mom := [order])
    (smp := fun v c => ⟨c, v⟩) (meaning1 order ho) (meaning1_value order ho) (fun _ _ _ => rfl) value1 rfl
    rfl rfl rfl g hn hf hsel orderCF axesToEnd
  refine ⟨out, ?_, ?_⟩
  · unfold wrapResampleValsX
    rw [validateMom_one ho hmom]
    show Except.bind (factoryX mom0 mom1 mp (some 1) dims none none none) _ = _
    rw [hp]
    show (resampleValsX value1 core1 family1 [order] [md] freq (size dim) x [givenOperand weight] axis
      dimArg rep orderCF axesToEnd).map _ = _
    rw [e]
    rfl
  · refine cast ?_ h
    congr 1
    funext c
    simp only [samplesNamed, namedSamples, List.zip_map_right, List.map_map, List.zipWith_map_right,
      List.map_zip_eq_zipWith, List.map_zipWith, Function.comp_def]
    rfl

/-- **C70**, comoments. -/
theorem C70_wrap_resample_vals_cov {o0 o1 : ℕ} (h0 : 1 ≤ o0) (h1 : 1 ≤ o1) {mom : IntArg}
    (hmom : mom.tuple = [(o0 : ℤ), (o1 : ℤ)]) {mp : Input (PX δ) (DimsArg δ)}
    {dims : Option (DimsArg δ)} {m0 m1 rep : δ}
    (hp : factoryX mom0 mom1 mp (some 2) dims none none none = .ok ⟨2, [m0, m1]⟩)
    (g : GoodLabelled x [givenOperand weight, y] dim size [rep, m0, m1])
    (hn : NonNegOperand (givenOperand weight))
    {freq : List (List K)} (hf : ∀ fs ∈ freq, ∀ f ∈ fs, 0 ≤ f)
    {axis : Option (Option AxisArg)} {dimArg : Option (Option δ)}
    (hsel : Chosen x.dims [] axis dimArg dim) (orderCF axesToEnd : Bool) :
    ∃ out, wrapResampleValsX mom0 mom1 value2 core2 family2 mom mp dims freq (size dim) x weight [y] axis
        dimArg rep orderCF axesToEnd = .ok (out, ⟨2, [m0, m1]⟩) ∧
      ResultNamed core2 (Holds2 o0 o1) out [m0, m1]
        (dimsOfVals x (otherDims [.named x, givenOperand weight, y] dim) dim rep [m0, m1] axesToEnd)
        (sizesOfVals size rep freq.length [m0, m1] [o0, o1])
        (fun c => List.zipWith reweighted2 (freq.getD (c rep) [])
          (namedSamples2 (otherDims [.named x, givenOperand weight, y] dim) dim (nameFromEnd x dim)
            (size dim) (.named x) y (givenOperand weight) c)) := by
  obtain ⟨out, e, h⟩ := resampleValsX_result (fam := family2) (core := core2) (mom := [o0, o1])
    (smp := fun v c => ⟨c, v.1, v.2⟩) (meaning2 o0 o1 h0 h1) (meaning2_value o0 o1 h0 h1)
    (fun _ _ _ => rfl) value2 rfl rfl rfl rfl g hn hf hsel orderCF axesToEnd
  refine ⟨out, ?_, ?_⟩
  · unfold wrapResampleValsX
    rw [validateMom_two h0 h1 hmom]
    show Except.bind (factoryX mom0 mom1 mp (some 2) dims none none none) _ = _
    rw [hp]
    show (resampleValsX value2 core2 family2 [o0, o1] [m0, m1] freq (size dim) x [givenOperand weight, y]
      axis dimArg rep orderCF axesToEnd).map _ = _
    rw [e]
    rfl
  · refine cast ?_ h
    congr 1
    funext c
    simp only [samplesNamed, namedSamples2, List.zip_map_right, List.map_map, List.zipWith_map_right,
      List.map_zip_eq_zipWith, List.map_zipWith, Function.comp_def]
    rfl

end Values

/-! ### From raw moments -/

section Raw

variable {K : Type} [Field K] [LinearOrder K] [IsStrictOrderedRing K] {mom0 mom1 : δ}
  {raw : DataArray δ K}

theorem withNames_twice (moms : List δ) (a b : List ℕ) (c : δ → ℕ) :
    withNames moms a (withNames moms b c) = withNames moms a c := by
  funext d
  unfold withNames
  split_ifs <;> rfl

/-- **C70** `wrap_raw(raw)`: weights and raw moments become an object of the same samples. The dimensions
stay where they are. -/
theorem C70_wrap_raw {order : ℕ} {md : δ} {L : (δ → ℕ) → List (Sample K)} (h : RawNamed raw md order L)
    (mem : Mom K) {mp : Input (PX δ) (DimsArg δ)} {ndim : Option ℤ} {axes : Option IntArg}
    {dims : Option (DimsArg δ)}
    (hp : factoryX mom0 mom1 mp ndim dims axes (some raw.dims) (some 1) = .ok ⟨1, [md]⟩) :
    ∃ out, wrapRawX mom0 mom1 core1 (fun r => rawToCentral order r mem) raw mp ndim axes dims
        = .ok (out, ⟨1, [md]⟩) ∧
      out.dims = raw.dims ∧ (∀ d ∈ raw.dims, out.size d = raw.size d) ∧ MomentsNamed out md order L := by
  obtain ⟨y, e, hs⟩ := C57_moments_type core1_ok (fun r => rawToCentral order r mem) false
    h.object.distinct h.object.momDistinct h.object.momPresent rfl false
  have hd : y.dims = raw.dims := hs.dims_eq
  have hz : ∀ d ∈ raw.dims, y.size d = raw.size d := hs.size_eq
  have hin : ∀ c, InLabelled y [md] c → InLabelled raw [md] c := by
    intro c hc d hdv
    have := hc d (by unfold valDims at hdv ⊢; rwa [hd])
    rwa [hz d (mem_valDims.1 hdv).1] at this
  refine ⟨y, ?_, hd, hz, ⟨⟨hd ▸ h.object.distinct, h.object.momDistinct,
    fun d h' => hd ▸ h.object.momPresent d h', rfl⟩, ?_, h.positive, fun c hc => h.nonzero c (hin c hc),
    fun c hc => ?_⟩⟩
  · unfold wrapRawX
    rw [hp]
    show (momentsTypeX core1 (fun r => rawToCentral order r mem) false raw [md] false).map _ = _
    rw [e]
    rfl
  · rw [hz md (h.object.momPresent md (by simp)), h.size]
  · refine isMoments_of_eqUpTo h.positive (fun n hn => ?_)
      (C14_raw_to_central order h.positive (L c) (h.nonzero c (hin c hc)) _ mem (h.moments c (hin c hc)))
    rw [hs.entry_eq _ fun d hdd => ?_]
    · show rawToCentral order (fun l => entry raw (withNames [md] [l] (withNames [md] [n] c))) mem
        (withNames [md] [n] c md) = _
      simp only [withNames_twice]
      congr 1
      simp [withNames]
    · have hdd : d ∈ raw.dims := hdd
      unfold withNames
      split_ifs with hm
      · obtain rfl : d = md := by simpa using hm
        rw [h.size]
        simp
        omega
      · exact hin c hc d (mem_valDims.2 ⟨hdd, hm⟩)

/-- **C70**, comoments. -/
theorem C70_wrap_raw_cov {o0 o1 : ℕ} {m0 m1 : δ} {L : (δ → ℕ) → List (Sample2 K)}
    (h : RawNamed2 raw m0 m1 o0 o1 L)
    (mem : Com K) {mp : Input (PX δ) (DimsArg δ)} {ndim : Option ℤ} {axes : Option IntArg}
    {dims : Option (DimsArg δ)}
    (hp : factoryX mom0 mom1 mp ndim dims axes (some raw.dims) (some 1) = .ok ⟨2, [m0, m1]⟩) :
    ∃ out, wrapRawX mom0 mom1 core2 (fun r => rawToCentralCov o0 o1 r mem) raw mp ndim axes dims
        = .ok (out, ⟨2, [m0, m1]⟩) ∧
      out.dims = raw.dims ∧ (∀ d ∈ raw.dims, out.size d = raw.size d) ∧
      ComomentsNamed out m0 m1 o0 o1 L := by
  have hne : m0 ≠ m1 := by have := h.object.momDistinct; simpa using this
  obtain ⟨y, e, hs⟩ := C57_moments_type core2_ok (fun r => rawToCentralCov o0 o1 r mem) false
    h.object.distinct h.object.momDistinct h.object.momPresent rfl false
  have hd : y.dims = raw.dims := hs.dims_eq
  have hz : ∀ d ∈ raw.dims, y.size d = raw.size d := hs.size_eq
  have hin : ∀ c, InLabelled y [m0, m1] c → InLabelled raw [m0, m1] c := by
    intro c hc d hdv
    have := hc d (by unfold valDims at hdv ⊢; rwa [hd])
    rwa [hz d (mem_valDims.1 hdv).1] at this
  refine ⟨y, ?_, hd, hz, ⟨⟨hd ▸ h.object.distinct, h.object.momDistinct,
    fun d h' => hd ▸ h.object.momPresent d h', rfl⟩, ?_, ?_, h.positive0, h.positive1,
    fun c hc => h.nonzero c (hin c hc), fun c hc => ?_⟩⟩
  · unfold wrapRawX
    rw [hp]
    show (momentsTypeX core2 (fun r => rawToCentralCov o0 o1 r mem) false raw [m0, m1] false).map _ = _
    rw [e]
    rfl
  · rw [hz m0 (h.object.momPresent m0 (by simp)), h.size0]
  · rw [hz m1 (h.object.momPresent m1 (by simp)), h.size1]
  · refine isComoments_of_eqUpTo2 h.positive0 h.positive1 (fun n m hn hm => ?_)
      (C15_raw_to_central o0 o1 h.positive0 h.positive1 (L c) (h.nonzero c (hin c hc)) _ mem
        (h.moments c (hin c hc)))
    rw [hs.entry_eq _ fun d hdd => ?_]
    · show rawToCentralCov o0 o1
        (fun k l => entry raw (withNames [m0, m1] [k, l] (withNames [m0, m1] [n, m] c))) mem
        (withNames [m0, m1] [n, m] c m0) (withNames [m0, m1] [n, m] c m1) = _
      simp only [withNames_twice]
      congr 1
      · simp [withNames]
      · simp [withNames, List.idxOf_cons, hne]
    · have hdd : d ∈ raw.dims := hdd
      unfold withNames
      split_ifs with hm'
      · rcases List.mem_cons.1 hm' with rfl | h'
        · rw [h.size0]
          simp
          omega
        · obtain rfl : d = m1 := by simpa using h'
          rw [h.size1]
          simp [List.idxOf_cons, hne]
          omega
      · exact hin c hc d (mem_valDims.2 ⟨hdd, hm'⟩)

end Raw

/-! ### One object per value -/

section Data

variable {K : Type} [Field K] [LinearOrder K] [IsStrictOrderedRing K] {mom0 mom1 : δ}
  {x : DataArray δ K} {weight : Option (Operand δ K)} {y : Operand δ K} {size : δ → ℕ}

/-- **C70** `vals_to_data(x, mom=order, weight=w)`: the dimensions are those of values and weight, in
order of appearance, then the moment dimension. The cell at the coordinates `c` stands for the one sample
found there. -/
theorem C70_vals_to_data {order : ℕ} (ho : 1 ≤ order) {mom : IntArg}
    (hmom : mom.tuple = [(order : ℤ)]) {mp : Input (PX δ) (DimsArg δ)} {dims : Option (DimsArg δ)}
    {md : δ} (hp : factoryX mom0 mom1 mp (some 1) dims none none none = .ok ⟨1, [md]⟩)
    {loop : List δ} (hloop : loop = allDims [.named x, givenOperand weight])
    (hf : ∀ o ∈ [.named x, givenOperand weight], Fills loop size [md] o) :
    ∃ out, valsToDataX mom0 mom1 mom mp dims x weight [] = .ok out ∧ out.dims = loop ++ [md] ∧
      (∀ d ∈ loop, out.size d = size d) ∧ out.size md = order + 1 ∧
      StandsNamed core1 (Holds order) out [md]
        (fun c => [⟨shownAt loop c (givenOperand weight), shownAt loop c (.named x)⟩]) := by
  subst hloop
  obtain ⟨a, a1, a2, -, -, a3⟩ := fills_array hf (o := .named x) (by simp)
  obtain ⟨w, w1, w2, -, -, w3⟩ := fills_array hf (o := givenOperand weight) (by simp)
  have ea : arrayAs (allDims [.named x, givenOperand weight]) (.named x, []) = a := by
    unfold arrayAs; simp only [a1]
  have ew : arrayAs (allDims [.named x, givenOperand weight]) (givenOperand weight, []) = w := by
    unfold arrayAs; simp only [w1]
  have hb := (fills_common hf).2
  simp only [List.map_cons, List.map_nil, ea, ew] at hb
  obtain ⟨out, e, h⟩ := C62_vals_to_data (weight := some w) ho hmom a2 w2 hb
  obtain ⟨r1, r2, r3, r4⟩ := valsToDataX_ok (p := ⟨1, [md]⟩) (validateMom_one ho hmom) hp (by simp)
    (x := x) (weight := weight) (ys := []) rfl hf (ms := [order + 1]) rfl h.object.shape (by
      show ObjectMake.valsToData mom (arrayAs (allDims [.named x, givenOperand weight]) (.named x, []))
        (some (arrayAs (allDims [.named x, givenOperand weight]) (givenOperand weight, []))) [] = _
      rw [ea, ew, e])
  refine ⟨_, r1, rfl, r3, by simpa using r4, standsNamed_of_nd core1_ok r2 rfl h fun c hc => ?_⟩
  simp only [List.length_map]
  exact congrArg₂ (fun u v => [(⟨u, v⟩ : Sample K)]) (w3 c hc) (a3 c hc)

/-- **C70**, comoments. -/
theorem C70_vals_to_data_cov {o0 o1 : ℕ} (h0 : 1 ≤ o0) (h1 : 1 ≤ o1) {mom : IntArg}
    (hmom : mom.tuple = [(o0 : ℤ), (o1 : ℤ)]) {mp : Input (PX δ) (DimsArg δ)}
    {dims : Option (DimsArg δ)} {m0 m1 : δ} (hne : m0 ≠ m1)
    (hp : factoryX mom0 mom1 mp (some 2) dims none none none = .ok ⟨2, [m0, m1]⟩)
    {loop : List δ} (hloop : loop = allDims [.named x, givenOperand weight, y])
    (hf : ∀ o ∈ [.named x, givenOperand weight, y], Fills loop size [m0, m1] o) :
    ∃ out, valsToDataX mom0 mom1 mom mp dims x weight [y] = .ok out ∧ out.dims = loop ++ [m0, m1] ∧
      (∀ d ∈ loop, out.size d = size d) ∧ out.size m0 = o0 + 1 ∧ out.size m1 = o1 + 1 ∧
      StandsNamed core2 (Holds2 o0 o1) out [m0, m1]
        (fun c => [⟨shownAt loop c (givenOperand weight), shownAt loop c (.named x), shownAt loop c y⟩]) := by
  subst hloop
  obtain ⟨a, a1, a2, -, -, a3⟩ := fills_array hf (o := .named x) (by simp)
  obtain ⟨w, w1, w2, -, -, w3⟩ := fills_array hf (o := givenOperand weight) (by simp)
  obtain ⟨b, b1, b2, -, -, b3⟩ := fills_array hf (o := y) (by simp)
  have ea : arrayAs (allDims [.named x, givenOperand weight, y]) (.named x, []) = a := by
    unfold arrayAs; simp only [a1]
  have ew : arrayAs (allDims [.named x, givenOperand weight, y]) (givenOperand weight, []) = w := by
    unfold arrayAs; simp only [w1]
  have eb : arrayAs (allDims [.named x, givenOperand weight, y]) (y, []) = b := by
    unfold arrayAs; simp only [b1]
  have hb := (fills_common hf).2
  simp only [List.map_cons, List.map_nil, ea, ew, eb] at hb
  obtain ⟨out, e, h⟩ := C62_vals_to_data_cov (weight := some w) h0 h1 hmom a2 b2 w2
    (isBroadcast_perm hb fun s => by simp [givenWeight]; tauto)
  obtain ⟨r1, r2, r3, r4⟩ := valsToDataX_ok (p := ⟨2, [m0, m1]⟩) (validateMom_two h0 h1 hmom) hp
    (by simpa using hne) (x := x) (weight := weight) (ys := [y]) rfl hf (ms := [o0 + 1, o1 + 1]) rfl
    h.object.shape (by
      show ObjectMake.valsToData mom (arrayAs (allDims [.named x, givenOperand weight, y]) (.named x, []))
        (some (arrayAs (allDims [.named x, givenOperand weight, y]) (givenOperand weight, [])))
        [arrayAs (allDims [.named x, givenOperand weight, y]) (y, [])] = _
      rw [ea, ew, eb, e])
  simp only [List.map_cons, List.map_nil, List.cons.injEq, and_true] at r4
  refine ⟨_, r1, rfl, r3, r4.1, r4.2, standsNamed_of_nd core2_ok r2 rfl h fun c hc => ?_⟩
  simp only [List.length_map]
  exact congrArg (fun u => [u]) ((congr (congrArg₂ (fun u v z => (⟨u, v, z⟩ : Sample2 K)) (w3 c hc)
    (a3 c hc)) (b3 c hc)))

/-- **C70** A wrong number of further values is refused. -/
theorem C70_vals_to_data_count {mom : IntArg} {m : List ℤ} (hmom : validateMom mom = .ok m)
    {mp : Input (PX δ) (DimsArg δ)} {dims : Option (DimsArg δ)} {ys : List (Operand δ K)}
    (hy : ys.length + 1 ≠ m.length) : ∃ e, valsToDataX mom0 mom1 mom mp dims x weight ys = .error e := by
  have hm : 1 ≤ m.length := by
    have := (((C48_validate_mom mom _).1).1 hmom).2.1
    omega
  unfold valsToDataX
  rw [hmom]
  simp only [Except.bind]
  cases factoryX mom0 mom1 mp (some m.length) dims none none none with
  | error e => exact ⟨e, rfl⟩
  | ok p => exact ⟨.valueError, by simp only []; rw [if_pos (by omega)]⟩

/-- **C70** Labelled arrays that disagree about the size of a dimension are refused. -/
theorem C70_vals_to_data_sizes {mom : IntArg} {mp : Input (PX δ) (DimsArg δ)}
    {dims : Option (DimsArg δ)} {ys : List (Operand δ K)} {u v : DataArray δ K} {d : δ}
    (hu : .named u ∈ .named x :: givenOperand weight :: ys)
    (hv : .named v ∈ .named x :: givenOperand weight :: ys) (hdu : d ∈ u.dims) (hdv : d ∈ v.dims)
    (hne : u.size d ≠ v.size d) : ∃ e, valsToDataX mom0 mom1 mom mp dims x weight ys = .error e := by
  unfold valsToDataX
  cases validateMom mom with
  | error e => exact ⟨e, rfl⟩
  | ok m =>
  simp only [Except.bind]
  cases factoryX mom0 mom1 mp (some m.length) dims none none none with
  | error e => exact ⟨e, rfl⟩
  | ok p =>
  simp only []
  split_ifs with hy
  · exact ⟨_, rfl⟩
  have hl : ∃ e, loopDims ((.named x :: weightArgX weight :: ys).filterMap Operand.frame?) [] p.dims
      = .error e := by
    unfold loopDims unifiedDims
    by_cases h1 : ∀ f ∈ (.named x :: weightArgX weight :: ys).filterMap Operand.frame?, f.1.Nodup
    · rw [if_neg (not_not.2 h1), if_pos]
      · exact ⟨_, rfl⟩
      · intro h2
        exact absurd (h2 u.frame (List.mem_filterMap.2 ⟨_, hu, rfl⟩) v.frame
          (List.mem_filterMap.2 ⟨_, hv, rfl⟩) d hdu hdv (by simp)) hne
    · rw [if_pos h1]
      exact ⟨_, rfl⟩
  obtain ⟨e, he⟩ := hl
  exact ⟨e, by rw [he]⟩

/-- **C70** Values with a dimension that has the name of a moment dimension are refused. -/
theorem C70_vals_to_data_taken {mom : IntArg} {m : List ℤ} (hmom : validateMom mom = .ok m)
    {mp : Input (PX δ) (DimsArg δ)} {dims : Option (DimsArg δ)} {p : PX δ}
    (hp : factoryX mom0 mom1 mp (some m.length) dims none none none = .ok p) {ys : List (Operand δ K)}
    {d : δ} (hd : d ∈ x.dims) (hdp : d ∈ p.dims) :
    ∃ e, valsToDataX mom0 mom1 mom mp dims x weight ys = .error e := by
  unfold valsToDataX
  rw [hmom]
  simp only [Except.bind]
  rw [hp]
  simp only []
  split_ifs with hy
  · exact ⟨_, rfl⟩
  cases e : loopDims ((.named x :: weightArgX weight :: ys).filterMap Operand.frame?) [] p.dims with
  | error e' => exact ⟨e', rfl⟩
  | ok loop =>
  have hl : d ∉ loop := by
    unfold loopDims at e
    cases e' : unifiedDims ((.named x :: weightArgX weight :: ys).filterMap Operand.frame?) [] with
    | error e'' => rw [e'] at e; cases e
    | ok ds =>
      rw [e'] at e
      obtain rfl := Except.ok.inj e
      intro h
      have := (List.mem_filter.1 h).2
      simp [hdp] at this
  simp only []
  have hx : (Operand.named x).arrangeAs loop [] = .error .valueError := by
    show compatData x loop [] = _
    unfold compatData
    rw [if_neg, if_pos ⟨d, hd, by simpa using hl⟩]
    intro h
    rw [List.append_nil] at h
    exact hl (h ▸ hd)
  rw [List.mapM_cons, hx]
  exact ⟨_, rfl⟩

theorem Spec.GoodLabelled.fills {x : DataArray δ K} {weight : Option (Operand δ K)} {ys : List (Operand δ K)}
    {dim : δ} {reserved : List δ} (g : GoodLabelled x (givenOperand weight :: ys) dim size reserved)
    (hb : ByName weight) (hy : ∀ o ∈ ys, ∃ z, o = .named z) :
    ∀ o ∈ .named x :: givenOperand weight :: ys,
      Fills (allDims (.named x :: givenOperand weight :: ys)) size reserved o := by
  intro o ho
  have hg := g.good o ho
  rcases o with z | a
  · exact ⟨hg.1, hg.2.2⟩
  · rcases List.mem_cons.1 ho with h | h
    · cases h
    rcases List.mem_cons.1 h with h | h
    · rcases weight with _ | w | b
      · obtain rfl := Operand.plain.inj h
        exact ⟨fun _ _ _ => rfl, by simp, by simp⟩
      · cases h
      · exact hb.elim
    · obtain ⟨z, hz⟩ := hy _ h
      cases hz

theorem shownAt_number {weight : Option (Operand δ K)} (hb : ByName weight) (loop loop' : List δ)
    (dim : δ) (fe : ℕ) (c : δ → ℕ) (s : ℕ) :
    shownAt loop (Function.update c dim s) (givenOperand weight)
      = numberNamed loop' dim fe (givenOperand weight) c s := by
  rcases weight with _ | w | b
  · simp [givenOperand, shownAt, numberNamed, stretch, operandAt]
  · rfl
  · exact hb.elim

/-- **C70** Values whose weights are labelled, or that have none: `vals_to_data` and then `reduce` over a
dimension shows the same, where there is weight, as `wrap_reduce_vals` over this dimension at once. -/
theorem C70_two_ways {order : ℕ} (ho : 1 ≤ order) {mom : IntArg}
    (hmom : mom.tuple = [(order : ℤ)]) {mp : Input (PX δ) (DimsArg δ)} {dims : Option (DimsArg δ)}
    {md : δ} (hp : factoryX mom0 mom1 mp (some 1) dims none none none = .ok ⟨1, [md]⟩) {dim : δ}
    (g : GoodLabelled x [givenOperand weight] dim size [md]) (hn : NonNegOperand (givenOperand weight))
    (hb : ByName weight) (hz : ∀ d ∈ otherDims [.named x, givenOperand weight] dim, size d ≠ 0)
    (argsort : List ℤ → List ℕ) (byFirst : Bool) (groupDim : Option δ) (axesToEnd : Bool) :
    ∃ data a b, valsToDataX mom0 mom1 mom mp dims x weight [] = .ok data ∧
      reduceObjX core1 (family1 [data.size md]) argsort data [md] none (some (some [dim])) none none
        byFirst groupDim false axesToEnd = .ok a ∧
      wrapReduceValsX mom0 mom1 value1 core1 family1 mom mp dims x weight [] none (some (some dim))
        = .ok (b, ⟨1, [md]⟩) ∧
      a.dims = b.dims ∧ (∀ d ∈ b.dims, a.size d = b.size d) ∧
      ∀ c, (∀ d ∈ b.dims, c d < b.size d) →
        entry b (withNames [md] [0] c) ≠ some 0 → entry a c = entry b c := by
  have hmem : ∀ {d}, d ∈ allDims [.named x, givenOperand weight] → d = dim ∨
      d ∈ otherDims [.named x, givenOperand weight] dim := by
    intro d hd
    by_cases h : d = dim
    · exact .inl h
    · exact .inr (List.mem_filter.2 ⟨hd, by simpa using h⟩)
  have hother : ∀ {d}, d ∈ otherDims [.named x, givenOperand weight] dim →
      d ∈ allDims [.named x, givenOperand weight] ∧ d ≠ dim := by
    intro d hd
    have := List.mem_filter.1 hd
    exact ⟨this.1, by simpa using this.2⟩
  have hx := g.good (.named x) (by simp)
  have hdim : dim ∈ allDims [.named x, givenOperand weight] := allDims_named (by simp) hx.2.1
  have hdmd : dim ≠ md := by
    have := (hx.2.2 dim hx.2.1).2
    simpa using this
  have hmdl : md ∉ allDims [.named x, givenOperand weight] := by
    intro h
    obtain ⟨o, ho', hd⟩ := mem_allDims.1 h
    have hg := g.good o ho'
    cases o with
    | named z => exact (hg.2.2 md hd).2 (by simp)
    | plain a => cases hd
  obtain ⟨data, e1, d1, d2, d3, d4⟩ := C70_vals_to_data (x := x) (weight := weight) ho hmom hp rfl
    (g.fills hb (by simp))
  have hall : ∀ d ∈ data.dims, d ∈ allDims [.named x, givenOperand weight] ∨ d = md := by
    intro d hd
    rw [d1] at hd
    simpa using hd
  have hwt : ∀ c, InLabelled data [md] c → 0 ≤ Spec.weight [(⟨shownAt (allDims [.named x,
      givenOperand weight]) c (givenOperand weight), shownAt (allDims [.named x, givenOperand weight]) c
      (.named x)⟩ : Sample K)] := by
    intro c hc
    have hbnd : ∀ d ∈ allDims [.named x, givenOperand weight], c d < size d := by
      intro d hd
      have := hc d (mem_valDims.2 ⟨by rw [d1]; exact List.mem_append_left _ hd, by
        rintro h
        obtain rfl : d = md := by simpa using h
        exact hmdl hd⟩)
      rwa [d2 d hd] at this
    simp only [Spec.weight, List.map_cons, List.map_nil, List.sum_cons, List.sum_nil, add_zero]
    rcases weight with _ | w | w
    · exact zero_le_one
    · have hw := g.good (.named w) (by simp [givenOperand])
      refine hn c fun d hd => ?_
      rw [(hw.2.2 d hd).1]
      exact hbnd d (allDims_named (by simp [givenOperand]) hd)
    · exact hb.elim
  have hv : ∀ d ∈ [dim], d ∈ valDims data [md] := by
    intro d hd
    obtain rfl : d = dim := by simpa using hd
    exact mem_valDims.2 ⟨by rw [d1]; exact List.mem_append_left _ hdim, by simpa using hdmd⟩
  have hz' : ∀ d ∈ data.dims, d ∉ [dim] → data.size d ≠ 0 := by
    intro d hd hne
    rcases hall d hd with h | rfl
    · rw [d2 d h]
      exact hz d ((hmem h).resolve_left (by simpa using hne))
    · rw [d3]; omega
  obtain ⟨a, e2, ha⟩ := C66_reduce ho d3 d4 hwt argsort (dim := some (some [dim])) (axis := none)
    (ds := [dim]) (.inl ⟨rfl, rfl⟩) (by simp) (by simp) hv hz' byFirst groupDim false axesToEnd
  obtain ⟨b, e3, hb'⟩ := C70_wrap_reduce_vals ho hmom hp g hn (axis := none) (dimArg := some (some dim))
    (.inl ⟨rfl, rfl⟩)
  have hdims : dimsReduced data.dims [dim] [md] false false
      = otherDims [.named x, givenOperand weight] dim ++ [md] := by
    show data.dims.filter _ = _
    rw [d1, List.filter_append]
    simp only [List.mem_singleton]
    congr 1
    simp [Ne.symm hdmd]
  have had := ha.dims_eq.trans hdims
  have hsize : ∀ d ∈ otherDims [.named x, givenOperand weight] dim ++ [md],
      (if d ∈ [dim] then 1 else data.size d) = sizesOfVals size dim 0 [md] [order] d := by
    intro d hd
    unfold sizesOfVals
    rcases List.mem_append.1 hd with h | h
    · have h' := hother h
      have hmd : d ≠ md := by rintro rfl; exact hmdl h'.1
      rw [if_neg (by simpa using h'.2), if_neg h'.2, if_neg (by simpa using hmd), d2 d h'.1]
    · obtain rfl : d = md := by simpa using h
      rw [if_neg (by simpa using Ne.symm hdmd), if_neg (Ne.symm hdmd), if_pos h, d3]
      simp
  refine ⟨data, a, b, e1, e2, e3, had.trans hb'.dims_eq.symm, fun d hd => ?_, fun c hc h0 => ?_⟩
  · rw [hb'.dims_eq] at hd
    rw [hb'.size_eq d hd, ha.size_eq d (by rw [hdims]; exact hd), hsize d hd]
  · rw [hb'.dims_eq] at hc
    have hc' : ∀ d ∈ otherDims [.named x, givenOperand weight] dim ++ [md],
        c d < sizesOfVals size dim 0 [md] [order] d := fun d hd => hb'.size_eq d hd ▸ hc d hd
    obtain ⟨rb, hb1, hb2⟩ := hb'.holds c fun d hd _ => hc' d hd
    obtain ⟨ra, ha1, ha2⟩ := ha.holds c fun d hd _ => by
      rw [hdims] at hd
      rw [hsize d hd]
      exact hc' d hd
    have hL : samplesOverNames (fun c => [(⟨shownAt (allDims [.named x, givenOperand weight]) c
          (givenOperand weight), shownAt (allDims [.named x, givenOperand weight]) c (.named x)⟩ :
          Sample K)]) data.size [dim] c
        = namedSamples (otherDims [.named x, givenOperand weight] dim) dim (nameFromEnd x dim) (size dim)
          (.named x) (givenOperand weight) c := by
      unfold samplesOverNames namedSamples
      simp only [allCoords, d2 dim hdim, List.flatMap_assoc,
        List.flatMap_cons, List.flatMap_nil, List.append_nil]
      rw [← List.map_eq_flatMap]
      refine List.map_congr_left fun s _ => ?_
      rw [shownAt_number hb _ (otherDims [.named x, givenOperand weight] dim) dim (nameFromEnd x dim)]
      rfl
    rw [hL] at ha1
    have hmd := hc' md (by simp)
    have hs : sizesOfVals size dim 0 [md] [order] md = order + 1 := by
      rw [← hsize md (by simp), if_neg (by simpa using Ne.symm hdmd), d3]
    rw [hs] at hmd
    have hb0 : rb 0 ≠ 0 := by
      intro h
      apply h0
      rw [hb2 [0] (within_one.2 ⟨0, by rw [hs]; omega, rfl⟩)]
      exact congrArg some h
    have hself : withNames [md] [c md] c = c := by
      funext d
      unfold withNames
      split_ifs with h
      · obtain rfl : d = md := by simpa using h
        simp
      · rfl
    have e4 := hb2 [c md] (within_one.2 ⟨c md, by rw [hs]; omega, rfl⟩)
    have e5 := ha2 [c md] (within_one.2 ⟨c md, by
      show _ < if md ∈ [dim] then 1 else data.size md
      rw [if_neg (by simpa using Ne.symm hdmd), d3]; omega, rfl⟩)
    rw [hself] at e4 e5
    rw [e4, e5]
    exact congrArg some (holds_unique ha1 hb1 hb0 (c md) (by omega))

end Data

/-! ### Concrete cases -/

section Examples

open ExDim

-- the names of the moment dimensions
example := C70_params (mom0 := m) (mom1 := n) (mp := .absent) (by intro p h; cases h) (ndim := some 2)
  (dims := none) (axes := none) (data := some [p, m, t]) (dflt := some 1) (p := ⟨2, [m, t]⟩) rfl
example := C70_names_given (mom0 := m) (mom1 := n) (ndim := none) (l := [t, q]) (axes := none)
  (data := some [p, m, t]) (dflt := none) (p := ⟨2, [t, q]⟩) rfl
example := C70_names_default (mom0 := m) (mom1 := n) (ndim := some 2) (axes := none) (data := none)
  (dflt := none) (p := ⟨2, [m, n]⟩) rfl
example := C70_names_default (mom0 := m) (mom1 := n) (ndim := none) (axes := some (.int 1))
  (data := some [p, m, t]) (dflt := some 1) (p := ⟨1, [m]⟩) rfl
example : factoryX m n (.dict none none (some none)) (some 1) (some (.str q)) none (some [p, m, t]) none
    = .ok ⟨1, [t]⟩ := by decide +kernel
example : factoryX m n (.obj ⟨1, [t]⟩) (some 2) none none none none = .error .assertion := by decide +kernel
-- names may repeat
example : factoryX m n .absent (some 2) (some (.seq [m, m])) none none none = .ok ⟨2, [m, m]⟩ := by
  decide +kernel

example : (wrapX m n exGather .absent none (some (.int 1)) none).isOk :=
  by rw [(C70_wrap (p := ⟨1, [m]⟩) rfl (exGather, ⟨1, [m]⟩)).2 ⟨rfl, by decide⟩]; rfl
example := C70_wrap_refused (mom0 := m) (mom1 := n) (obj := exGather) (mp := .absent) (ndim := none)
  (axes := none) (dims := some (.str q)) (p := ⟨1, [q]⟩) rfl ⟨q, by decide, by decide⟩
example : (wrapX m n exGather .absent none none (some (.str q))).toOption.isSome = false := by decide +kernel

example := C70_zeros (mom0 := m) (mom1 := n) exGather_object 2
example := C70_zeros_cov (mom0 := m) (mom1 := n) exGather2_object 1 1

theorem exNamedW_nonneg : NonNegOperand (.named exNamedW) := by
  intro c _
  show (0 : ℚ) ≤ 1 + (c t : ℚ) * (c q : ℚ)
  positivity

theorem exUnit_good : GoodLabelled exNamedX [givenOperand none] t exSize [m] where
  distinct := by decide
  good := by
    intro o ho
    rcases List.mem_cons.1 ho with rfl | ho
    · exact ⟨by decide, by decide, by decide⟩
    · rw [List.mem_singleton.1 ho]
      exact ⟨⟨fun _ _ _ => rfl, .inl rfl⟩, fun h => absurd h (by decide)⟩

example := C70_wrap_reduce_vals (mom0 := m) (mom1 := n) (order := 2) (by omega) (mom := .int 2) rfl
  (mp := .absent) (dims := none) (md := m) rfl (weight := some (.named exNamedW)) exNamed_good1
  exNamedW_nonneg (axis := none) (dimArg := some (some t)) (.inl ⟨rfl, rfl⟩)
example := C70_wrap_reduce_vals (mom0 := m) (mom1 := n) (order := 2) (by omega) (mom := .int 2) rfl
  (mp := .absent) (dims := none) (md := m) rfl (weight := none) exUnit_good
  (fun _ _ => zero_le_one) (axis := none) (dimArg := some (some t)) (.inl ⟨rfl, rfl⟩)
example : dimEntries ((wrapReduceValsX m n value1 core1 family1 (.int 2) .absent none exNamedX
    (some (.named exNamedW)) [] none (some (some t))).map Prod.fst)
    [[(p, 0), (q, 0), (m, 0)], [(p, 1), (q, 1), (m, 0)], [(p, 1), (q, 1), (m, 1)],
      [(p, 1), (q, 1), (m, 2)]]
    = some ([p, q, m], [2, 2, 3], [some 3, some 6, some (11 / 3), some (20 / 9)]) := by
  decide +kernel
example := C70_wrap_reduce_vals_cov (mom0 := m) (mom1 := n) (o0 := 1) (o1 := 1) (by omega) (by omega)
  (mom := .seq [1, 1]) rfl (mp := .absent) (dims := none) (m0 := m) (m1 := n) rfl
  (weight := some (.named exNamedW)) exNamed_good2 exNamedW_nonneg (axis := none)
  (dimArg := some (some t)) (.inl ⟨rfl, rfl⟩)

example := C70_wrap_resample_vals (mom0 := m) (mom1 := n) (order := 2) (by omega) (mom := .int 2) rfl
  (mp := .absent) (dims := none) (md := m) (rep := b) rfl (weight := some (.named exNamedW))
  exNamed_goodRep exNamedW_nonneg (freq := [[1, 1, 1], [0, 3, 0]]) (by decide +kernel) (axis := none)
  (dimArg := some (some t)) (.inl ⟨rfl, rfl⟩) false true
example : dimEntries ((wrapResampleValsX m n value1 core1 family1 (.int 2) .absent none
    [[1, 1, 1], [0, 3, 0]] 3 exNamedX (some (.named exNamedW)) [] none (some (some t)) b false true).map
    Prod.fst) [[(p, 1), (q, 1), (b, 0), (m, 1)], [(p, 1), (q, 1), (b, 1), (m, 1)]]
    = some ([p, q, b, m], [2, 2, 2, 3], [some (11 / 3), some 3]) := by
  decide +kernel

theorem exNamed_goodRep2 :
    GoodLabelled exNamedX [.named exNamedW, .named exNamedY] t exSize [b, m, n] where
  distinct := by decide
  good := by
    intro o ho
    simp only [List.mem_cons, List.not_mem_nil, or_false] at ho
    rcases ho with rfl | rfl | rfl <;> exact ⟨by decide, by decide, by decide⟩

example := C70_wrap_resample_vals_cov (mom0 := m) (mom1 := n) (o0 := 1) (o1 := 1) (by omega) (by omega)
  (mom := .seq [1, 1]) rfl (mp := .absent) (dims := none) (m0 := m) (m1 := n) (rep := b) rfl
  (weight := some (.named exNamedW)) exNamed_goodRep2 exNamedW_nonneg
  (freq := [[1, 1, 1], [0, 3, 0]]) (by decide +kernel) (axis := none)
  (dimArg := some (some t)) (.inl ⟨rfl, rfl⟩) true false

/-- Weights and raw moments, the moments first. -/
def exRawX : DataArray ExDim ℚ where
  dims := [m, p]
  data idx := if idx.getD 0 0 = 0 then 2 else if idx.getD 0 0 = 1 then (idx.getD 1 0 : ℚ)
    else (idx.getD 1 0 : ℚ) ^ 2 + 1
  size d := match d with
    | p => 2
    | _ => 3

theorem exRawX_raw : RawNamed exRawX m 2 (fun c => [⟨1, (c p : ℚ) - 1⟩, ⟨1, (c p : ℚ) + 1⟩]) where
  object := ⟨by decide, by decide, by decide, rfl⟩
  size := rfl
  positive := by omega
  nonzero := by intro c _; norm_num [Spec.weight]
  moments := by
    intro c _
    have e : ∀ n, entry exRawX (withNames [m] [n] c)
        = if n = 0 then 2 else if n = 1 then (c p : ℚ) else (c p : ℚ) ^ 2 + 1 := fun n => rfl
    refine ⟨(e 0).trans (by norm_num [Spec.weight]), fun n h1 h2 => (e n).trans ?_⟩
    obtain rfl | rfl : n = 1 ∨ n = 2 := by omega
    · simp [rawMoment, wsum, Spec.weight]; ring
    · simp [rawMoment, wsum, Spec.weight]; ring

example := C70_wrap_raw (mom0 := m) (mom1 := n) exRawX_raw (fun _ => 7) (mp := .absent) (ndim := none)
  (axes := none) (dims := some (.str m)) rfl
example : dimEntries ((wrapRawX m n core1 (fun r => rawToCentral 2 r (fun _ => 7)) exRawX .absent none none
    (some (.str m))).map Prod.fst) [[(p, 1)], [(p, 1), (m, 1)], [(p, 1), (m, 2)]]
    = some ([m, p], [3, 2], [2, 1, 1]) := by decide +kernel

/-- The comoments of one pair `(p, 2)`. -/
def exRawX2 : DataArray ExDim ℚ where
  dims := [p, m, n]
  data idx := (if idx.getD 1 0 = 0 then 1 else (idx.getD 0 0 : ℚ)) * (if idx.getD 2 0 = 0 then 1 else 2)
  size _ := 2

theorem exRawX2_raw : RawNamed2 exRawX2 m n 1 1 (fun c => [⟨1, (c p : ℚ), 2⟩]) where
  object := ⟨by decide, by decide, by decide, rfl⟩
  size0 := rfl
  size1 := rfl
  positive0 := by omega
  positive1 := by omega
  nonzero := by intro c _; norm_num [Spec.weight2]
  moments := by
    intro c _
    have e : ∀ k l, entry exRawX2 (withNames [m, n] [k, l] c)
        = (if k = 0 then 1 else (c p : ℚ)) * (if l = 0 then 1 else 2) := fun k l => rfl
    refine ⟨(e 0 0).trans (by norm_num [Spec.weight2]), fun k l h1 h2 _ => (e k l).trans ?_⟩
    rcases k with _ | _ | k
    · rcases l with _ | _ | l
      · norm_num [rawMoment2, wsum2, Spec.weight2]
      · norm_num [rawMoment2, wsum2, Spec.weight2]
      · omega
    · rcases l with _ | _ | l
      · norm_num [rawMoment2, wsum2, Spec.weight2]
      · norm_num [rawMoment2, wsum2, Spec.weight2]
      · omega
    · omega

example := C70_wrap_raw_cov (mom0 := m) (mom1 := n) exRawX2_raw (fun _ _ => 7) (mp := .absent)
  (ndim := some 2) (axes := none) (dims := none) rfl

theorem exNamed_fills : ∀ o ∈ [.named exNamedX, .named exNamedW],
    Fills (allDims [.named exNamedX, .named exNamedW]) exSize [m] o :=
  exNamed_good1.fills (weight := some (.named exNamedW)) trivial (by simp)

theorem exNamed_fills2 : ∀ o ∈ [.named exNamedX, .named exNamedW, .named exNamedY],
    Fills (allDims [.named exNamedX, .named exNamedW, .named exNamedY]) exSize [m, n] o :=
  exNamed_good2.fills (weight := some (.named exNamedW)) trivial (by simp)

/-- Three weights without names: they go with the last dimension. -/
theorem exPlain_fills : ∀ o ∈ [.named exNamedX, .plain exPlain1],
    Fills (allDims [.named exNamedX, .plain exPlain1]) exSize [m] o := by
  intro o ho
  simp only [List.mem_cons, List.not_mem_nil, or_false] at ho
  rcases ho with rfl | rfl
  · exact ⟨by decide, by decide⟩
  · refine ⟨?_, by decide, by decide⟩
    intro i j h
    have h0 := h 0 (by decide)
    simp [exPlain1, h0]

example := C70_vals_to_data (mom0 := m) (mom1 := n) (order := 2) (by omega) (mom := .int 2) rfl
  (mp := .absent) (dims := none) (md := m) rfl (weight := some (.named exNamedW)) rfl exNamed_fills
example := C70_vals_to_data (mom0 := m) (mom1 := n) (order := 2) (by omega) (mom := .int 2) rfl
  (mp := .absent) (dims := none) (md := m) rfl (weight := some (.plain exPlain1)) rfl exPlain_fills
example : dimEntries (valsToDataX m n (.int 2) .absent none exNamedX (some (.named exNamedW)) [])
    [[(p, 1), (t, 2), (q, 1)], [(p, 1), (t, 2), (q, 1), (m, 1)], [(p, 1), (t, 2), (q, 1), (m, 2)]]
    = some ([p, t, q, m], [2, 3, 2, 3], [3, 5, 0]) := by decide +kernel
example := C70_vals_to_data_cov (mom0 := m) (mom1 := n) (o0 := 1) (o1 := 1) (by omega) (by omega)
  (mom := .seq [1, 1]) rfl (mp := .absent) (dims := none) (m0 := m) (m1 := n) (by decide) rfl
  (weight := some (.named exNamedW)) rfl exNamed_fills2

example := C70_vals_to_data_count (mom0 := m) (mom1 := n) (x := exNamedX) (weight := none)
  (mom := .int 2) (m := [2]) rfl (mp := .absent) (dims := none) (ys := [.named exNamedY]) (by decide)
example := C70_vals_to_data_sizes (mom0 := m) (mom1 := n) (x := exNamedX) (weight := none)
  (mom := .seq [1, 1]) (mp := .absent) (dims := none) (ys := [.named exGather]) (u := exNamedX)
  (v := exGather) (d := p) (by simp) (by simp) (by decide) (by decide) (by decide)
example := C70_vals_to_data_taken (mom0 := m) (mom1 := n) (x := exNamedX) (weight := none)
  (mom := .int 2) (m := [2]) rfl (mp := .absent) (dims := some (.str t)) (p := ⟨1, [t]⟩) rfl
  (ys := []) (d := t) (by decide) (by decide)

example := C70_two_ways (mom0 := m) (mom1 := n) (order := 2) (by omega) (mom := .int 2) rfl
  (mp := .absent) (dims := none) (md := m) rfl (weight := some (.named exNamedW)) exNamed_good1
  exNamedW_nonneg trivial (by decide) exArgsort true none false
example := C70_two_ways (mom0 := m) (mom1 := n) (order := 2) (by omega) (mom := .int 2) rfl
  (mp := .absent) (dims := none) (md := m) rfl (weight := none) exUnit_good
  (fun _ _ => zero_le_one) trivial (by decide) exArgsort true none false

/-- As many places as samples. -/
def exSquare : DataArray ExDim ℚ where
  dims := [p, t]
  data idx := (idx.getD 0 0 : ℚ) + 2 * (idx.getD 1 0 : ℚ)
  size _ := 2

-- weights without names: `wrap_reduce_vals` takes one per sample, `vals_to_data` one per place along the
-- last dimension, so that the two ways differ
example : dimEntries ((wrapReduceValsX m n value1 core1 family1 (.int 1) .absent none exSquare
    (some (.plain ⟨[2], fun i => 1 + 2 * (i 0 : ℚ)⟩)) [] none (some (some p))).map Prod.fst)
    [[(t, 0), (m, 0)], [(t, 1), (m, 0)]] = some ([t, m], [2, 2], [some 4, some 4]) := by decide +kernel
example : dimEntries ((valsToDataX m n (.int 1) .absent none exSquare
    (some (.plain ⟨[2], fun i => 1 + 2 * (i 0 : ℚ)⟩)) []).bind fun d =>
      reduceObjX core1 (family1 [2]) exArgsort d [m] none (some (some [p])) none none true none false false)
    [[(t, 0), (m, 0)], [(t, 1), (m, 0)]] = some ([t, m], [2, 2], [some 2, some 6]) := by decide +kernel

end Examples

end Cmomy

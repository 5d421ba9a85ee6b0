import Verif.Lemmas.Out
import Verif.Lemmas.OutNd
import Verif.Props.LabelledCollect
import Verif.Props.NdArray

/-!
# C72: results written to a given array

A call with `out=`, an array of the shape of the result, gives the same result as the call without,
and `out` then holds the numbers of the result, in the order of its dimensions.
-/

set_option linter.unusedSectionVars false

namespace Cmomy

open Spec Axes Labelled
open Nd (core1 core2 core1_ok core2_ok value1 value2 family1 family2)
open ExDim

/-- The shape of a result, for the examples. -/
def shapeOf {δ α : Type} [DecidableEq δ] (r : Py (DataArray δ α)) : Option (List ℕ) :=
  match r with
  | .ok y => some y.values.shape
  | .error _ => none

theorem shapeOf_some {δ α : Type} [DecidableEq δ] {r : Py (DataArray δ α)} {s : List ℕ}
    (h : shapeOf r = some s) : ∃ z, r = .ok z ∧ s = z.values.shape := by
  cases r with
  | error e => cases h
  | ok y => exact ⟨y, rfl, (Option.some.inj h).symm⟩

/-- What `out` holds at some indices afterwards, for the examples. -/
def outEntries {ρ α : Type} (r : Py (ρ × Nd.Arr α)) (is : List (List ℕ)) : Option (List ℕ × List α) :=
  match r with
  | .ok y => some (y.2.shape, is.map (fun i => y.2.get (fun a => i.getD a 0)))
  | .error _ => none

/-- An array full of sevens. -/
def sevens (s : List ℕ) : Nd.Arr (Option ℚ) := ⟨s, fun _ => some 7⟩

/-- Weights for samples `t` at places `p`, stored in another order. -/
def exOutW : DataArray ExDim ℚ where
  dims := [t, p]
  data idx := 1 + idx.getD 0 0 * idx.getD 1 0
  size d := match d with
    | p => 2
    | _ => 3

/-- A number for every sample of `exGather`. -/
def exOutAlpha : DataArray ExDim ℚ where
  dims := [t]
  data idx := 1 / (2 + idx.getD 0 0)
  size d := match d with
    | t => 2
    | _ => 3

/-- Whether `out` differs from a result with the given dimensions and shape at an index. -/
def outWrong (r : Py (DataArray ExDim (Option ℚ) × Nd.Arr (Option ℚ))) (dims : List ExDim)
    (s i : List ℕ) : Bool :=
  match r with
  | .ok o => decide (o.1.dims = dims ∧ o.1.values.shape = s ∧ o.2.shape = s ∧
      (∀ a ∈ List.range 4, i.getD a 0 < s.getD a 0) ∧
      o.2.get (fun a => i.getD a 0) ≠ o.1.values.get (fun a => i.getD a 0))
  | .error _ => false

theorem outWrong_some {r : Py (DataArray ExDim (Option ℚ) × Nd.Arr (Option ℚ))} {dims : List ExDim}
    {s i : List ℕ} (h : outWrong r dims s i = true) :
    ∃ z o, r = .ok (z, o) ∧ z.dims = dims ∧ z.values.shape = s ∧ o.shape = s ∧
      ∃ i, (∀ a < 4, i a < z.values.shape.getD a 0) ∧ o.get i ≠ z.values.get i := by
  cases r with
  | error e => cases h
  | ok o =>
    obtain ⟨h1, h2, h3, h4, h5⟩ := of_decide_eq_true h
    exact ⟨o.1, o.2, rfl, h1, h2, h3, _, by
      rw [h2]; exact fun a ha => h4 a (List.mem_range.2 ha), h5⟩

variable {δ : Type} [DecidableEq δ]

theorem filter_once {l y core plain out : List δ}
    (h : y = l.filter (fun d => decide (d ∉ core ++ plain ++ out)) ++ out)
    (hs : ∀ d, d ∈ core ++ plain ++ out ↔ d ∈ core) :
    y = l.filter (fun d => decide (d ∉ core)) ++ out := by
  rw [h]
  refine congrArg₂ _ (List.filter_congr fun d _ => ?_) rfl
  simp only [hs]

section

variable {K V M : Type} [Field K] [DecidableEq K]

/-! ### Arrays -/

/-- `reduce_data` of an array, whichever of `keepdims` and `axes_to_end` are given. -/
theorem C72_reduce_array {core : Nd.Core K M} (hc : core.Ok) (k : Kernel K V M) {data : Nd.Arr K}
    {mom zs : List ℤ} (g : GoodCall data mom zs) (hnd : mom.length = core.nd)
    {keepdims axesToEnd : Bool} {r out : Nd.Arr (Option K)}
    (h : Nd.reduceNd core k data mom (.many (zs.map .int)) keepdims axesToEnd = .ok r)
    (hout : out.shape = r.shape) :
    Nd.reduceNdOut core k data mom (.many (zs.map .int)) keepdims axesToEnd out = .ok (r, r) := by
  rw [Nd.reduceNd_ints core k g.momRange g.momDistinct g.range g.distinct] at h
  have e1 := (normalizeAxes_int_ok_iff mom data.shape.length none false _).2
    ⟨g.momRange, rfl, .inr g.momDistinct⟩
  have e2 := (normalizeAxes_int_ok_iff zs data.shape.length (some core.nd) false _).2
    ⟨g.range, rfl, .inr g.distinct⟩
  have lt : ∀ l : List ℤ, (∀ z ∈ l, InRange data.shape.length z) →
      ∀ a ∈ l.map (wrap data.shape.length), a < data.shape.length := by
    intro l hl a ha
    obtain ⟨z, hz, rfl⟩ := List.mem_map.1 ha
    exact wrap_lt (hl z hz)
  unfold Nd.reduceNdOut
  rw [e1]
  show Except.bind (Nd.reductionAxes (.many (zs.map .int)) data.shape.length core.nd _) _ = _
  rw [show Nd.reductionAxes (.many (zs.map .int)) data.shape.length core.nd
    (mom.map (wrap data.shape.length)) = normalizeAxes (zs.map .int) data.shape.length
      (some core.nd) false from rfl, e2]
  exact Nd.reduceCoreOut_ok core hc k g.proper (by simpa using g.some_axis) g.distinct
    (lt zs g.range) g.momDistinct (lt mom g.momRange) g.disjoint g.nonempty (by simpa using hnd) h hout

example : ∃ r, Nd.reduceNd core1 (kernel1 2) exNd [-1] (.many ([1, 0].map .int)) true true = .ok r ∧
    Nd.reduceNdOut core1 (kernel1 2) exNd [-1] (.many ([1, 0].map .int)) true true ⟨r.shape, fun _ => none⟩
      = .ok (r, r) :=
  let ⟨r, h, _⟩ := Nd.reduceNd_spec core1_ok (kernel1 2) exNd_good true true
  ⟨r, h, C72_reduce_array core1_ok (kernel1 2) exNd_good rfl h rfl⟩

/-- Without axes the data are returned and `out` is left as it was. -/
theorem C72_reduce_array_nothing (core : Nd.Core K M) (k : Kernel K V M) {data : Nd.Arr K}
    {mom : List ℤ} (hr : ∀ z ∈ mom, InRange data.shape.length z)
    (hd : (mom.map (wrap data.shape.length)).Nodup) (keepdims axesToEnd : Bool)
    (out : Nd.Arr (Option K)) :
    Nd.reduceNdOut core k data mom (.many []) keepdims axesToEnd out
      = .ok (⟨data.shape, fun i => some (data.get i)⟩, out) := by
  have e1 := (normalizeAxes_int_ok_iff mom data.shape.length none false _).2 ⟨hr, rfl, .inr hd⟩
  unfold Nd.reduceNdOut
  rw [e1]
  rfl

example := C72_reduce_array_nothing core1 (kernel1 2) (data := exNd) (mom := [-1])
  (by intro z hz; rw [List.mem_singleton.1 hz]; unfold InRange; decide) (by decide) true false
  (sevens [1])

/-! ### Labelled moments -/

/-- `reduce_data` -/
theorem C72_reduce_data (core : Nd.Core K M) (k : Kernel K V M) {x : DataArray δ K}
    {moms ds : List δ} (g : GoodReduce x moms ds)
    {axis : Option AxesArg} {dim : Option (Option (List δ))}
    (hsel : ChosenMany x.dims moms axis dim ds) {keepdims axesToEnd : Bool}
    {z : DataArray δ (Option K)} {out : Nd.Arr (Option K)}
    (h : reduceX core k x moms axis dim keepdims axesToEnd = .ok z)
    (hout : out.shape = z.values.shape) :
    reduceOutX core k x moms axis dim keepdims axesToEnd out = .ok (z, z.values) := by
  have hs := selectAxisDimMult_ok g.distinct g.dsDistinct g.present g.notMom hsel
  unfold reduceX at h
  unfold reduceOutX
  rw [hs] at h ⊢
  obtain ⟨_, e, h⟩ := bind_inv h
  cases e
  obtain ⟨y, hy, hz⟩ := bind_inv h
  simp only [Except.bind]
  rw [if_neg g.some_dim]
  refine reduceOut_ok g hy ?_ hz hout
  rw [(applyUfunc_dims g.distinct (by intro d hd; exact List.mem_append_left _ hd) hy).1]
  congr 1
  refine List.filter_congr fun d _ => ?_
  by_cases h1 : d ∈ ds <;> by_cases h2 : d ∈ moms <;> cases keepdims <;> simp [h1, h2]

theorem exGather_reduce : GoodReduce exGather [m] [t] where
  distinct := by decide
  momDistinct := by decide
  momPresent := by decide
  dsDistinct := by decide
  present := by decide
  notMom := by decide
  some_dim := by decide
  nonempty := by decide

example : ∃ z, reduceX core1 (kernel1 2) exGather [m] none (some (some [t])) true false = .ok z ∧
    reduceOutX core1 (kernel1 2) exGather [m] none (some (some [t])) true false (sevens [3, 3, 1])
      = .ok (z, z.values) :=
  let ⟨z, h, hs⟩ := shapeOf_some (s := [3, 3, 1]) (by decide +kernel)
  ⟨z, h, C72_reduce_data core1 (kernel1 2) exGather_reduce (.inl ⟨rfl, rfl⟩) h hs⟩

example : outEntries (reduceOutX core1 (kernel1 2) exGather [m] none (some (some [t])) true false
    (sevens [3, 3, 1])) [[1, 0, 0], [1, 1, 0], [1, 2, 0], [2, 1, 0]]
    = some ([3, 3, 1], [some 2, some 6, some 25, some 7]) := by decide +kernel

/-- Without dimensions `out` is left as it was. -/
theorem C72_reduce_nothing (core : Nd.Core K M) (k : Kernel K V M) {x : DataArray δ K}
    {moms : List δ} (hx : x.dims.Nodup) (hm : moms.Nodup) (hmp : ∀ d ∈ moms, d ∈ x.dims)
    {keepdims axesToEnd : Bool} {z : DataArray δ (Option K)} {out : Nd.Arr (Option K)}
    (h : reduceX core k x moms none (some (some [])) keepdims axesToEnd = .ok z)
    (hout : out.shape.length = x.dims.length) :
    reduceOutX core k x moms none (some (some [])) keepdims axesToEnd out = .ok (z, out) := by
  have hs : selectAxisDimMult x.dims moms none (some (some [])) = .ok ([], []) :=
    selectAxisDimMult_ok hx List.nodup_nil (by simp) (by simp) (.inl ⟨rfl, rfl⟩)
  unfold reduceX at h
  unfold reduceOutX
  rw [hs] at h ⊢
  obtain ⟨_, e, h⟩ := bind_inv h
  cases e
  obtain ⟨y, hy, hz⟩ := bind_inv h
  simp only [Except.bind]
  have hv : ∃ v, outForReduce out.shape x.dims [] moms keepdims axesToEnd = .ok v := by
    obtain ⟨f1, f2⟩ := positions_facts hmp hm
    have ho := order_end f1 f2
    have e1 : (moms.map x.dims.idxOf).map (fun a : ℕ => (a : ℤ))
        = moms.map (fun d => (x.dims.idxOf d : ℤ)) := by rw [List.map_map]; rfl
    rw [e1, List.length_map] at ho
    have := whole_moveaxis hout ho
    unfold outForReduce
    cases axesToEnd
    · cases keepdims
      · exact ⟨_, by simpa using this⟩
      · exact ⟨_, by simpa using this⟩
    · exact ⟨_, rfl⟩
  obtain ⟨v, hv⟩ := hv
  rw [hv]
  simp only [if_true]
  rw [hy]
  simp only
  rw [hz]
  rfl

example : ∃ z, reduceX core1 (kernel1 2) exGather [m] none (some (some [])) false false = .ok z ∧
    reduceOutX core1 (kernel1 2) exGather [m] none (some (some [])) false false (sevens [3, 3, 2])
      = .ok (z, sevens [3, 3, 2]) :=
  let ⟨z, h, _⟩ := shapeOf_some (s := [3, 3, 2]) (by decide +kernel)
  ⟨z, h, C72_reduce_nothing core1 (kernel1 2) (by decide) (by decide) (by decide) h rfl⟩

/-- `cumulative` -/
theorem C72_cumulative (core : Nd.Core K M) (k : Kernel K V M) (inverse : Bool) {x : DataArray δ K}
    {moms : List δ} (hx : x.dims.Nodup) (hm : moms.Nodup) (hmp : ∀ d ∈ moms, d ∈ x.dims)
    {axis : Option (Option AxisArg)} {dim : Option (Option δ)} {axesToEnd : Bool}
    {z : DataArray δ (Option K)} {out : Nd.Arr (Option K)}
    (h : cumulativeX core k inverse x moms axis dim axesToEnd = .ok z)
    (hout : out.shape = z.values.shape) :
    cumulativeOutX core k inverse x moms axis dim axesToEnd out = .ok (z, z.values) := by
  refine sameOut_ok hx hm hmp (fun sd y hy _ _ => ?_) ?_ hout
  · exact filter_once (applyUfunc_dims hx (by simp) hy).1 (fun d => by simp; try tauto)
  · rw [← h]; unfold cumulativeX renameTo
    simp only [bind_ok_right]

example : ∃ z, cumulativeX core1 (kernel1 2) false exGather [m] none (some (some t)) false = .ok z ∧
    cumulativeOutX core1 (kernel1 2) false exGather [m] none (some (some t)) false (sevens [3, 3, 2])
      = .ok (z, z.values) :=
  let ⟨z, h, hs⟩ := shapeOf_some (s := [3, 3, 2]) (by decide +kernel)
  ⟨z, h, C72_cumulative core1 (kernel1 2) false (by decide) (by decide) (by decide) h hs⟩

example : outEntries (cumulativeOutX core1 (kernel1 2) false exGather [m] none (some (some t)) false
    (sevens [3, 3, 2])) [[2, 0, 0], [2, 1, 0], [2, 0, 1], [2, 1, 1], [2, 2, 1]]
    = some ([3, 3, 2], [some 1, some 2, some 2, some 7, some 25]) := by decide +kernel

/-- `resample_data`, to a new dimension `rep`. -/
theorem C72_resample_data (core : Nd.Core K M) (k : Kernel K V M) (freq : List (List K)) (nsamp : ℕ)
    {x : DataArray δ K} {moms : List δ} (hx : x.dims.Nodup) (hm : moms.Nodup)
    (hmp : ∀ d ∈ moms, d ∈ x.dims) {axis : Option (Option AxisArg)} {dim : Option (Option δ)}
    {rep : δ} (hr : rep ∉ x.dims) {axesToEnd : Bool}
    {z : DataArray δ (Option K)} {out : Nd.Arr (Option K)}
    (h : resampleX core k freq nsamp x moms axis dim rep axesToEnd = .ok z)
    (hout : out.shape = z.values.shape) :
    resampleOutX core k freq nsamp x moms axis dim rep axesToEnd out = .ok (z, z.values) := by
  refine resampleOut_ok hx hm hmp hr (fun sd y hy _ _ => ?_) h hout
  rw [(applyUfunc_dims hx (by simp) hy).1]
  congr 1
  refine List.filter_congr fun d hd => ?_
  have : d ≠ rep := fun e => hr (e ▸ hd)
  by_cases h1 : d = sd.2 <;> by_cases h2 : d ∈ moms <;> simp [this, h1, h2]

example : ∃ z, resampleX core1 (kernel1 2) [[2, 0], [1, 1], [0, 2]] 2 exGather [m] none (some (some t)) b false = .ok z ∧
    resampleOutX core1 (kernel1 2) [[2, 0], [1, 1], [0, 2]] 2 exGather [m] none (some (some t)) b false (sevens [3, 3, 3])
      = .ok (z, z.values) :=
  let ⟨z, h, hs⟩ := shapeOf_some (s := [3, 3, 3]) (by decide +kernel)
  ⟨z, h, C72_resample_data core1 (kernel1 2) [[2, 0], [1, 1], [0, 2]] 2 (by decide) (by decide) (by decide) (by decide) h hs⟩

/-- `reduce_data_grouped`; `groupDim` is the new name of the dimension, if any. -/
theorem C72_grouped (core : Nd.Core K M) (k : Kernel K V M) (by_ : List ℤ) {x : DataArray δ K}
    {moms : List δ} (hx : x.dims.Nodup) (hm : moms.Nodup) (hmp : ∀ d ∈ moms, d ∈ x.dims)
    {axis : Option (Option AxisArg)} {dim : Option (Option δ)} {groupDim : Option δ}
    {axesToEnd : Bool} {z : DataArray δ (Option K)} {out : Nd.Arr (Option K)}
    (h : groupedX core k by_ x moms axis dim groupDim axesToEnd = .ok z)
    (hout : out.shape = z.values.shape) :
    groupedOutX core k by_ x moms axis dim groupDim axesToEnd out = .ok (z, z.values) := by
  refine sameOut_ok hx hm hmp (fun sd y hy _ _ => ?_) h hout
  exact filter_once (applyUfunc_dims hx (by simp) hy).1 (fun d => by simp; try tauto)

example : ∃ z, groupedX core1 (kernel1 2) [1, 0] exGather [m] none (some (some t)) (some b) false = .ok z ∧
    groupedOutX core1 (kernel1 2) [1, 0] exGather [m] none (some (some t)) (some b) false (sevens [3, 3, 2])
      = .ok (z, z.values) :=
  let ⟨z, h, hs⟩ := shapeOf_some (s := [3, 3, 2]) (by decide +kernel)
  ⟨z, h, C72_grouped core1 (kernel1 2) [1, 0] (by decide) (by decide) (by decide) h hs⟩

/-- `reduce_data_indexed` -/
theorem C72_indexed (core : Nd.Core K M) (k : Kernel K V M) (index start stop : List ℤ)
    (scale : Option (List K)) {x : DataArray δ K}
    {moms : List δ} (hx : x.dims.Nodup) (hm : moms.Nodup) (hmp : ∀ d ∈ moms, d ∈ x.dims)
    {axis : Option (Option AxisArg)} {dim : Option (Option δ)} {groupDim : Option δ}
    {axesToEnd : Bool} {z : DataArray δ (Option K)} {out : Nd.Arr (Option K)}
    (h : indexedX core k index start stop scale x moms axis dim groupDim axesToEnd = .ok z)
    (hout : out.shape = z.values.shape) :
    indexedOutX core k index start stop scale x moms axis dim groupDim axesToEnd out
      = .ok (z, z.values) := by
  refine sameOut_ok hx hm hmp (fun sd y hy _ _ => ?_) (?_ : _ = Except.ok z) hout
  · obtain ⟨_, _, hy⟩ := bind_inv hy
    exact filter_once (applyUfunc_dims hx (by simp) hy).1 (fun d => by simp; try tauto)
  · rw [← h]; unfold indexedX
    simp only [bind_assoc']
    rfl

example : ∃ z, indexedX core1 (kernel1 2) [1, 0, 1] [0, 1, 1] [1, 3, 1] none exGather [m] none (some (some t)) (some b) false = .ok z ∧
    indexedOutX core1 (kernel1 2) [1, 0, 1] [0, 1, 1] [1, 3, 1] none exGather [m] none (some (some t)) (some b) false (sevens [3, 3, 3])
      = .ok (z, z.values) :=
  let ⟨z, h, hs⟩ := shapeOf_some (s := [3, 3, 3]) (by decide +kernel)
  ⟨z, h, C72_indexed core1 (kernel1 2) [1, 0, 1] [0, 1, 1] [1, 3, 1] none (by decide) (by decide) (by decide) h hs⟩

/-- `jackknife_data` -/
theorem C72_jackknife_data (core : Nd.Core K M) (k : Kernel K V M) {x : DataArray δ K}
    {moms : List δ} (hx : x.dims.Nodup) (hm : moms.Nodup) (hmp : ∀ d ∈ moms, d ∈ x.dims)
    {axis : Option (Option AxisArg)} {dim : Option (Option δ)} {rep : Option δ}
    {axesToEnd : Bool} {z : DataArray δ (Option K)} {out : Nd.Arr (Option K)}
    (h : jackknifeX core k x moms axis dim rep axesToEnd = .ok z)
    (hout : out.shape = z.values.shape) :
    jackknifeOutX core k x moms axis dim rep axesToEnd out = .ok (z, z.values) := by
  unfold jackknifeX at h
  obtain ⟨red, hred, h⟩ := bind_inv h
  unfold jackknifeOutX
  rw [hred]
  refine sameOut_ok hx hm hmp (fun sd y hy _ _ => ?_) h hout
  rw [(applyUfunc₂_dims hx (reduceX_sub hx hmp hred) hy).1]
  congr 1
  refine List.filter_congr fun d _ => ?_
  by_cases h1 : d = sd.2 <;> by_cases h2 : d ∈ moms <;> simp [h1, h2]

example : ∃ z, jackknifeX core1 (kernel1 2) exGather [m] none (some (some t)) (some b) false = .ok z ∧
    jackknifeOutX core1 (kernel1 2) exGather [m] none (some (some t)) (some b) false (sevens [3, 3, 2])
      = .ok (z, z.values) :=
  let ⟨z, h, hs⟩ := shapeOf_some (s := [3, 3, 2]) (by decide +kernel)
  ⟨z, h, C72_jackknife_data core1 (kernel1 2) (by decide) (by decide) (by decide) h hs⟩

/-- `moments_type` -/
theorem C72_moments_type (core : Nd.Core K M) (conv : M → M) (orderCF : Bool) {x : DataArray δ K}
    {moms : List δ} (hx : x.dims.Nodup) (hm : moms.Nodup) (hmp : ∀ d ∈ moms, d ∈ x.dims)
    {axesToEnd : Bool} {z : DataArray δ K} {out : Nd.Arr K}
    (h : momentsTypeX core conv orderCF x moms axesToEnd = .ok z)
    (hout : out.shape = z.values.shape) :
    momentsTypeOutX core conv orderCF x moms axesToEnd out = .ok (z, z.values) := by
  obtain ⟨y, hy, hz⟩ := bind_inv h
  refine transformOut_ok hx hm hmp hy ?_ hz hout
  exact filter_once (applyUfunc_dims hx (by simp) hy).1 (fun d => by simp; try tauto)

example : ∃ z, momentsTypeX core1
      (fun c : Mom ℚ => Cmomy.Convert.centralToRaw 2 c (fun _ => 0)) true exGather [m] false = .ok z ∧
    momentsTypeOutX core1
      (fun c : Mom ℚ => Cmomy.Convert.centralToRaw 2 c (fun _ => 0)) true exGather [m] false ⟨[3, 3, 2], fun _ => 7⟩
      = .ok (z, z.values) :=
  let ⟨z, h, hs⟩ := shapeOf_some (s := [3, 3, 2]) (by decide +kernel)
  ⟨z, h, C72_moments_type core1
    (fun c : Mom ℚ => Cmomy.Convert.centralToRaw 2 c (fun _ => 0)) true (by decide) (by decide) (by decide) h hs⟩

/-! ### Labelled values -/

/-- `reduce_vals` -/
theorem C72_reduce_vals (val : List K → V) (core : Nd.Core K M) (fam : List ℕ → Kernel K V M)
    (mom : List ℕ) {moms : List δ} {x : DataArray δ K} {others : List (Operand δ K)}
    {axis : Option (Option AxisArg)} {dim : Option (Option δ)}
    {z : DataArray δ (Option K)} {out : Nd.Arr (Option K)}
    (h : reduceValsX val core fam mom moms x others axis dim = .ok z)
    (hout : out.shape = z.values.shape) :
    reduceValsOutX val core fam mom moms x others axis dim out = .ok (z, z.values) :=
  throughView_whole rfl h rfl rfl hout

example : ∃ z, reduceValsX value1 core1 family1 [2] [m] exNamedX [.named exNamedW] none (some (some t)) = .ok z ∧
    reduceValsOutX value1 core1 family1 [2] [m] exNamedX [.named exNamedW] none (some (some t)) (sevens [2, 2, 3])
      = .ok (z, z.values) :=
  let ⟨z, h, hs⟩ := shapeOf_some (s := [2, 2, 3]) (by decide +kernel)
  ⟨z, h, C72_reduce_vals value1 core1 family1 [2] h hs⟩

/-- `resample_vals`, if weights and further values have no dimensions of their own, or with
`axes_to_end`. -/
theorem C72_resample_vals (val : List K → V) (core : Nd.Core K M) (fam : List ℕ → Kernel K V M)
    (mom : List ℕ) {moms : List δ} (freq : List (List K)) (nsamp : ℕ) {x : DataArray δ K}
    (hx : x.dims.Nodup) (hm : moms.Nodup) (hmx : ∀ d ∈ moms, d ∉ x.dims)
    (hnd : moms.length = core.nd) {others : List (Operand δ K)}
    {axis : Option (Option AxisArg)} {dim : Option (Option δ)} {rep : δ}
    (hr : rep ∉ x.dims ∧ rep ∉ moms) {orderCF axesToEnd : Bool}
    (ho : axesToEnd = true ∨ ∀ o ∈ others, ∀ d ∈ operandDims o, d ∈ x.dims)
    {z : DataArray δ (Option K)} {out : Nd.Arr (Option K)}
    (h : resampleValsX val core fam mom moms freq nsamp x others axis dim rep orderCF axesToEnd
      = .ok z) (hout : out.shape = z.values.shape) :
    resampleValsOutX val core fam mom moms freq nsamp x others axis dim rep orderCF axesToEnd out
      = .ok (z, z.values) := by
  unfold resampleValsX at h
  rcases ho with rfl | ho
  · refine valsOut_end (?_ : _ = Except.ok z) hout
    rw [← h]; unfold renameTo; simp only [bind_ok_right]; rfl
  refine valsOut_ok hx hm hmx hnd (fun r hr' => ?_) ho (fun p os y hp ho' hpx hy => ?_)
    (?_ : _ = Except.ok z) hout
  · cases hr'; exact hr
  · rw [hp] at hy
    rw [applyVals_dims hx ho' (by simp) hy]
    congr 1
    refine List.filter_congr fun d hd => ?_
    have h1 : d ≠ rep := fun e => hr.1 (e ▸ hd)
    have h2 : d ∉ moms := fun e => hmx d e hd
    simp [h1, h2]
  · rw [← h]; unfold renameTo; simp only [bind_ok_right]; rfl

example : ∃ z, resampleValsX value1 core1 family1 [2] [m] [[1, 1, 1], [0, 3, 0]] 3 exNamedX [.named exOutW] none
      (some (some t)) b false false = .ok z ∧
    resampleValsOutX value1 core1 family1 [2] [m] [[1, 1, 1], [0, 3, 0]] 3 exNamedX [.named exOutW] none
      (some (some t)) b false false (sevens [2, 2, 3])
      = .ok (z, z.values) :=
  let ⟨z, h, hs⟩ := shapeOf_some (s := [2, 2, 3]) (by decide +kernel)
  ⟨z, h, C72_resample_vals value1 core1 family1 [2] [[1, 1, 1], [0, 3, 0]] 3 (by decide) (by decide) (by decide) rfl (by decide)
    (.inr (by intro o ho d hd; simp at ho; subst ho; revert d; decide)) h hs⟩

/-- Weights with a dimension `q` that the values do not have: the numbers in `out` belong to the
dimensions `p`, `q` and those of the result to `q`, `p`. -/
theorem C72_resample_vals_extra :
    ∃ z o, resampleValsOutX value1 core1 family1 [2] [m] [[1, 1, 1], [0, 3, 0]] 3 exNamedX
        [.named exNamedW] none (some (some t)) b false false (sevens [2, 2, 2, 3]) = .ok (z, o) ∧
      z.dims = [q, p, b, m] ∧ z.values.shape = [2, 2, 2, 3] ∧ o.shape = [2, 2, 2, 3] ∧
      ∃ i, (∀ a < 4, i a < z.values.shape.getD a 0) ∧ o.get i ≠ z.values.get i := by
  refine outWrong_some (i := [1, 0, 0, 0]) ?_
  decide +kernel

/-- `jackknife_vals` -/
theorem C72_jackknife_vals (val : List K → V) (core : Nd.Core K M) (fam : List ℕ → Kernel K V M)
    (mom : List ℕ) {moms : List δ} {x : DataArray δ K}
    (hx : x.dims.Nodup) (hm : moms.Nodup) (hmx : ∀ d ∈ moms, d ∉ x.dims)
    (hnd : moms.length = core.nd) {others : List (Operand δ K)}
    {axis : Option (Option AxisArg)} {dim : Option (Option δ)} {rep : Option δ}
    {orderCF axesToEnd : Bool}
    (ho : axesToEnd = true ∨ ∀ o ∈ others, ∀ d ∈ operandDims o, d ∈ x.dims)
    {z : DataArray δ (Option K)} {out : Nd.Arr (Option K)}
    (h : jackknifeValsX val core fam mom moms x others axis dim rep orderCF axesToEnd = .ok z)
    (hout : out.shape = z.values.shape) :
    jackknifeValsOutX val core fam mom moms x others axis dim rep orderCF axesToEnd out
      = .ok (z, z.values) := by
  unfold jackknifeValsX at h
  obtain ⟨red, hred, h⟩ := bind_inv h
  unfold jackknifeValsOutX
  rw [hred]
  rcases ho with rfl | ho
  · exact valsOut_end h hout
  refine valsOut_ok hx hm hmx hnd (fun r hr' => by cases hr') ho (fun p os y hp ho' hpx hy => ?_)
    h hout
  rw [hp] at hy
  rw [applyVals_dims hx ho' (by
    intro g hg d hd hn
    rw [List.mem_singleton.1 hg] at hd
    rcases reduceValsX_sub hx ho hred d hd with h1 | h1
    · exact h1
    · exact absurd (by simp [h1]) hn) hy]
  refine congrArg₂ _ (List.filter_congr fun d hd => ?_) rfl
  have h2 : d ∉ moms := fun e => hmx d e hd
  simp [h2]

example : ∃ z, jackknifeValsX value1 core1 family1 [2] [m] exNamedX [.named exOutW] none
      (some (some t)) (some b) false false = .ok z ∧
    jackknifeValsOutX value1 core1 family1 [2] [m] exNamedX [.named exOutW] none
      (some (some t)) (some b) false false (sevens [2, 3, 3])
      = .ok (z, z.values) :=
  let ⟨z, h, hs⟩ := shapeOf_some (s := [2, 3, 3]) (by decide +kernel)
  ⟨z, h, C72_jackknife_vals value1 core1 family1 [2] (by decide) (by decide) (by decide) rfl
    (.inr (by intro o ho d hd; simp at ho; subst ho; revert d; decide)) h hs⟩

end

section

variable {K V M : Type} [Field K] [LinearOrder K] [IsStrictOrderedRing K]

/-! ### Rolling -/

theorem padded_zero {window : ℕ} {center : Bool} (h : center = false ∨ window ≤ 2) :
    padded window center = 0 := by
  unfold padded
  rcases h with rfl | h
  · rfl
  · split_ifs <;> omega

theorem padded_pos {window : ℕ} (h : 3 ≤ window) : padded window true ≠ 0 := by
  unfold padded
  rw [if_pos rfl]
  omega

/-- `rolling_data`, not centred, or over at most two samples. -/
theorem C72_rolling_data (core : Nd.Core K M) (k : Kernel K V M) {window : ℕ}
    (minPeriods : Option ℤ) {center : Bool} (hc : center = false ∨ window ≤ 2) (zeroMissing : Bool)
    {x : DataArray δ K} {moms : List δ} (hx : x.dims.Nodup) (hm : moms.Nodup)
    (hmp : ∀ d ∈ moms, d ∈ x.dims) {axis : Option (Option AxisArg)} {dim : Option (Option δ)}
    {axesToEnd : Bool} {z : DataArray δ (Option K)} {out : Nd.Arr (Option K)}
    (h : rollingX core k window minPeriods center zeroMissing x moms axis dim axesToEnd = .ok z)
    (hout : out.shape = z.values.shape) :
    rollingOutX core k window minPeriods center zeroMissing x moms axis dim axesToEnd out
      = .ok (z, z.values) := by
  unfold rollingOutX refuseShort
  simp only [padded_zero hc, if_true, bind_ok_right]
  refine sameOut_ok hx hm hmp (fun sd y hy _ _ => ?_) (?_ : _ = Except.ok z) hout
  · exact filter_once (applyUfunc_dims hx (by simp) hy).1 (fun d => by simp; try tauto)
  · rw [← h]; unfold rollingX renameTo
    simp only [bind_ok_right]

example : ∃ z, rollingX core1 (kernel1 2) 2 none false true exGather [m] none (some (some t)) false = .ok z ∧
    rollingOutX core1 (kernel1 2) 2 none false true exGather [m] none (some (some t)) false (sevens [3, 3, 2])
      = .ok (z, z.values) :=
  let ⟨z, h, hs⟩ := shapeOf_some (s := [3, 3, 2]) (by decide +kernel)
  ⟨z, h, C72_rolling_data core1 (kernel1 2) none (.inl rfl) true (by decide) (by decide) (by decide) h hs⟩

/-- Centred over three samples or more, an `out` of the shape of the result is refused. -/
theorem C72_rolling_center (core : Nd.Core K M) (k : Kernel K V M) {window : ℕ} (hw : 3 ≤ window)
    (minPeriods : Option ℤ) (zeroMissing : Bool)
    {x : DataArray δ K} {moms : List δ} (hx : x.dims.Nodup) (hm : moms.Nodup)
    (hmp : ∀ d ∈ moms, d ∈ x.dims) {axis : Option (Option AxisArg)} {dim : Option (Option δ)}
    {axesToEnd : Bool} {z : DataArray δ (Option K)} {out : Nd.Arr (Option K)}
    (h : rollingX core k window minPeriods true zeroMissing x moms axis dim axesToEnd = .ok z)
    (hout : out.shape = z.values.shape) :
    rollingOutX core k window minPeriods true zeroMissing x moms axis dim axesToEnd out
      = .error .valueError := by
  have hs := sameOut_ok (axis := axis) (dim := dim) (axesToEnd := axesToEnd) (out := out) (new := none) (inner := fun sd =>
    applyUfunc x (sd.2 :: moms) [] (sd.2 :: moms) [] (fun a =>
      Nd.rollingInner core k window minPeriods true zeroMissing a (axisBefore core.nd)
        (Nd.axesLast core.nd))) hx hm hmp (fun sd y hy _ _ => by
    exact filter_once (applyUfunc_dims hx (by simp) hy).1 (fun d => by simp; try tauto)) (z := z) (by
    rw [← h]; unfold rollingX renameTo
    simp only [bind_ok_right]) hout
  unfold sameOut at hs
  obtain ⟨sd, hsd, hs⟩ := bind_inv hs
  obtain ⟨v, y, hv, hy, hvy⟩ := throughView_inv hs
  unfold rollingOutX sameOut
  rw [hsd]
  simp only [Except.bind]
  unfold throughView
  dsimp only at hy
  rw [hv, hy]
  simp only [Except.bind, refuseShort, if_neg (padded_pos hw), if_pos hvy]

example : ∃ z, rollingX core1 (kernel1 2) 3 none true true exGather [m] none (some (some t)) false = .ok z ∧
    rollingOutX core1 (kernel1 2) 3 none true true exGather [m] none (some (some t)) false (sevens [3, 3, 2])
      = .error .valueError :=
  let ⟨z, h, hs⟩ := shapeOf_some (s := [3, 3, 2]) (by decide +kernel)
  ⟨z, h, C72_rolling_center core1 (kernel1 2) (by decide) none true (by decide) (by decide) (by decide) h hs⟩

/-- `rolling_exp_data` with a labelled `alpha` that has no dimensions of its own, or with
`axes_to_end`. -/
theorem C72_rolling_exp_data (core : Nd.Core K M) (k : Kernel K V M) {alpha : DataArray δ K}
    (adjust : Bool) (minPeriods : Option ℤ) (zeroMissing : Bool) {x : DataArray δ K}
    {moms : List δ} (hx : x.dims.Nodup) (hm : moms.Nodup) (hmp : ∀ d ∈ moms, d ∈ x.dims)
    {axis : Option (Option AxisArg)} {dim : Option (Option δ)} {axesToEnd : Bool}
    (ha : axesToEnd = true ∨ ∀ d ∈ alpha.dims, d ∈ x.dims)
    {z : DataArray δ (Option K)} {out : Nd.Arr (Option K)}
    (h : rollingExpX core k alpha adjust minPeriods zeroMissing x moms axis dim axesToEnd = .ok z)
    (hout : out.shape = z.values.shape) :
    rollingExpOutX core k alpha adjust minPeriods zeroMissing x moms axis dim axesToEnd out
      = .ok (z, z.values) := by
  rcases ha with rfl | ha
  · refine sameOut_end (?_ : _ = Except.ok z) hout
    rw [← h]; unfold rollingExpX renameTo
    simp only [bind_ok_right]
  refine sameOut_ok hx hm hmp (fun sd y hy _ _ => ?_) (?_ : _ = Except.ok z) hout
  · rw [(applyUfunc₂_dims hx ha hy).1]
    congr 1
    refine List.filter_congr fun d _ => ?_
    by_cases h1 : d = sd.2 <;> by_cases h2 : d ∈ moms <;> simp [h1, h2]
  · rw [← h]; unfold rollingExpX renameTo
    simp only [bind_ok_right]

example : ∃ z, rollingExpX core1 (kernel1 2) exOutAlpha true none true exGather [m] none (some (some t)) false = .ok z ∧
    rollingExpOutX core1 (kernel1 2) exOutAlpha true none true exGather [m] none (some (some t)) false (sevens [3, 3, 2])
      = .ok (z, z.values) :=
  let ⟨z, h, hs⟩ := shapeOf_some (s := [3, 3, 2]) (by decide +kernel)
  ⟨z, h, C72_rolling_exp_data core1 (kernel1 2) true none true (by decide) (by decide) (by decide)
    (.inr (by decide)) h hs⟩

/-- `rolling_exp_data` with one `alpha`, or one for every sample. -/
theorem C72_rolling_exp_plain (core : Nd.Core K M) (k : Kernel K V M) (alpha : K ⊕ List K)
    (adjust : Bool) (minPeriods : Option ℤ) (zeroMissing : Bool) {x : DataArray δ K}
    {moms : List δ} (hx : x.dims.Nodup) (hm : moms.Nodup) (hmp : ∀ d ∈ moms, d ∈ x.dims)
    {axis : Option (Option AxisArg)} {dim : Option (Option δ)} {axesToEnd : Bool}
    {z : DataArray δ (Option K)} {out : Nd.Arr (Option K)}
    (h : rollingExpPlainX core k alpha adjust minPeriods zeroMissing x moms axis dim axesToEnd
      = .ok z) (hout : out.shape = z.values.shape) :
    rollingExpPlainOutX core k alpha adjust minPeriods zeroMissing x moms axis dim axesToEnd out
      = .ok (z, z.values) := by
  refine sameOut_ok hx hm hmp (fun sd y hy _ _ => ?_) (?_ : _ = Except.ok z) hout
  · exact filter_once (applyUfunc_dims hx (by simp) hy).1 (fun d => by simp; try tauto)
  · rw [← h]; unfold rollingExpPlainX renameTo
    simp only [bind_ok_right]
    rfl

example : ∃ z, rollingExpPlainX core1 (kernel1 2) (.inl (1 / 2)) true none true exGather [m] none (some (some t)) false = .ok z ∧
    rollingExpPlainOutX core1 (kernel1 2) (.inl (1 / 2)) true none true exGather [m] none (some (some t)) false (sevens [3, 3, 2])
      = .ok (z, z.values) :=
  let ⟨z, h, hs⟩ := shapeOf_some (s := [3, 3, 2]) (by decide +kernel)
  ⟨z, h, C72_rolling_exp_plain core1 (kernel1 2) (.inl (1 / 2)) true none true (by decide) (by decide) (by decide) h hs⟩

/-- `rolling_vals`, not centred, or over at most two samples. -/
theorem C72_rolling_vals (val : List K → V) (core : Nd.Core K M) (fam : List ℕ → Kernel K V M)
    (mom : List ℕ) {moms : List δ} {window : ℕ} (minPeriods : Option ℤ) {center : Bool}
    (hc : center = false ∨ window ≤ 2) (zeroMissing : Bool) {x : DataArray δ K}
    (hx : x.dims.Nodup) (hm : moms.Nodup) (hmx : ∀ d ∈ moms, d ∉ x.dims)
    (hnd : moms.length = core.nd) {others : List (Operand δ K)}
    {axis : Option (Option AxisArg)} {dim : Option (Option δ)} {orderCF axesToEnd : Bool}
    (ho : axesToEnd = true ∨ ∀ o ∈ others, ∀ d ∈ operandDims o, d ∈ x.dims)
    {z : DataArray δ (Option K)} {out : Nd.Arr (Option K)}
    (h : rollingValsX val core fam mom moms window minPeriods center zeroMissing x others axis dim
      orderCF axesToEnd = .ok z) (hout : out.shape = z.values.shape) :
    rollingValsOutX val core fam mom moms window minPeriods center zeroMissing x others axis dim
      orderCF axesToEnd out = .ok (z, z.values) := by
  unfold rollingValsX at h
  unfold rollingValsOutX refuseShort
  simp only [padded_zero hc, if_true, bind_ok_right]
  rcases ho with rfl | ho
  · refine valsOut_end (?_ : _ = Except.ok z) hout
    rw [← h]; unfold renameTo; simp only [bind_ok_right]; rfl
  refine valsOut_ok hx hm hmx hnd (fun r hr' => by cases hr') ho (fun p os y hp ho' hpx hy => ?_)
    (?_ : _ = Except.ok z) hout
  · rw [hp] at hy
    rw [applyVals_dims hx ho' (by simp) hy]
    refine congrArg₂ _ (List.filter_congr fun d hd => ?_) rfl
    have h2 : d ∉ moms := fun e => hmx d e hd
    simp [h2]
  · rw [← h]; unfold renameTo; simp only [bind_ok_right]; rfl

example : ∃ z, rollingValsX value1 core1 family1 [2] [m] 2 none false true exNamedX [.named exOutW] none
      (some (some t)) false false = .ok z ∧
    rollingValsOutX value1 core1 family1 [2] [m] 2 none false true exNamedX [.named exOutW] none
      (some (some t)) false false (sevens [2, 3, 3])
      = .ok (z, z.values) :=
  let ⟨z, h, hs⟩ := shapeOf_some (s := [2, 3, 3]) (by decide +kernel)
  ⟨z, h, C72_rolling_vals value1 core1 family1 [2] none (.inl rfl) true (by decide) (by decide) (by decide) rfl
    (.inr (by intro o ho d hd; simp at ho; subst ho; revert d; decide)) h hs⟩

/-- Centred over three samples or more, an `out` of the shape of the result is refused. -/
theorem C72_rolling_vals_center (val : List K → V) (core : Nd.Core K M)
    (fam : List ℕ → Kernel K V M) (mom : List ℕ) {moms : List δ} {window : ℕ} (hw : 3 ≤ window)
    (minPeriods : Option ℤ) (zeroMissing : Bool) {x : DataArray δ K}
    (hx : x.dims.Nodup) (hm : moms.Nodup) (hmx : ∀ d ∈ moms, d ∉ x.dims)
    (hnd : moms.length = core.nd) {others : List (Operand δ K)}
    {axis : Option (Option AxisArg)} {dim : Option (Option δ)} {orderCF axesToEnd : Bool}
    (ho : axesToEnd = true ∨ ∀ o ∈ others, ∀ d ∈ operandDims o, d ∈ x.dims)
    {z : DataArray δ (Option K)} {out : Nd.Arr (Option K)}
    (h : rollingValsX val core fam mom moms window minPeriods true zeroMissing x others axis dim
      orderCF axesToEnd = .ok z) (hout : out.shape = z.values.shape) :
    rollingValsOutX val core fam mom moms window minPeriods true zeroMissing x others axis dim
      orderCF axesToEnd out = .error .valueError := by
  unfold rollingValsX at h
  have hs : valsOut x others (core.nd + 1) core.nd moms axis dim none none axesToEnd out (fun p =>
      applyVals p.2 [] p.1 [] (p.1 :: moms) (fun _ => split fun a os =>
        Nd.rollingValsFrom val core fam mom (Nd.axesLast core.nd) window minPeriods true zeroMissing
          (-1) a os orderCF)) = .ok (z, z.values) := by
    rcases ho with rfl | ho
    · refine valsOut_end (?_ : _ = Except.ok z) hout
      rw [← h]; unfold renameTo; simp only [bind_ok_right]; rfl
    refine valsOut_ok hx hm hmx hnd (fun r hr' => by cases hr') ho (fun p os y hp ho' hpx hy => ?_)
      (?_ : _ = Except.ok z) hout
    · rw [hp] at hy
      rw [applyVals_dims hx ho' (by simp) hy]
      refine congrArg₂ _ (List.filter_congr fun d hd => ?_) rfl
      have h2 : d ∉ moms := fun e => hmx d e hd
      simp [h2]
    · rw [← h]; unfold renameTo; simp only [bind_ok_right]; rfl
  unfold valsOut at hs
  obtain ⟨p, hp, hs⟩ := bind_inv hs
  obtain ⟨v, y, hv, hy, hvy⟩ := throughView_inv hs
  unfold rollingValsOutX valsOut
  rw [hp]
  simp only [Except.bind]
  unfold throughView
  dsimp only at hy
  rw [hv, hy]
  simp only [Except.bind, refuseShort, if_neg (padded_pos hw), if_pos hvy]

example : ∃ z, rollingValsX value1 core1 family1 [2] [m] 3 none true true exNamedX [.named exNamedW]
      none (some (some t)) false true = .ok z ∧
    rollingValsOutX value1 core1 family1 [2] [m] 3 none true true exNamedX [.named exNamedW]
      none (some (some t)) false true (sevens [2, 2, 3, 3]) = .error .valueError :=
  let ⟨z, h, hs⟩ := shapeOf_some (s := [2, 2, 3, 3]) (by decide +kernel)
  ⟨z, h, C72_rolling_vals_center value1 core1 family1 [2] (by decide) none true (by decide) (by decide) (by decide) rfl
    (.inl rfl) h hs⟩

/-- `rolling_exp_vals` -/
theorem C72_rolling_exp_vals (val : List K → V) (core : Nd.Core K M) (fam : List ℕ → Kernel K V M)
    (mom : List ℕ) {moms : List δ} (adjust : Bool) (minPeriods : Option ℤ)
    (zeroMissing : Bool) {x : DataArray δ K}
    (hx : x.dims.Nodup) (hm : moms.Nodup) (hmx : ∀ d ∈ moms, d ∉ x.dims)
    (hnd : moms.length = core.nd) {w alpha : Operand δ K} {ys : List (Operand δ K)}
    {axis : Option (Option AxisArg)} {dim : Option (Option δ)} {orderCF axesToEnd : Bool}
    (ho : axesToEnd = true ∨ ∀ o ∈ w :: alpha :: ys, ∀ d ∈ operandDims o, d ∈ x.dims)
    {z : DataArray δ (Option K)} {out : Nd.Arr (Option K)}
    (h : rollingExpValsX val core fam mom moms adjust minPeriods zeroMissing x w alpha ys axis dim
      orderCF axesToEnd = .ok z) (hout : out.shape = z.values.shape) :
    rollingExpValsOutX val core fam mom moms adjust minPeriods zeroMissing x w alpha ys axis dim
      orderCF axesToEnd out = .ok (z, z.values) := by
  unfold rollingExpValsX at h
  rcases ho with rfl | ho
  · refine valsOut_end (?_ : _ = Except.ok z) hout
    rw [← h]; unfold renameTo; simp only [bind_ok_right]; rfl
  refine valsOut_ok hx hm hmx hnd (fun r hr' => by cases hr') ho (fun p os y hp ho' hpx hy => ?_)
    (?_ : _ = Except.ok z) hout
  · rw [hp] at hy
    rw [applyVals_dims hx ho' (by simp) hy]
    refine congrArg₂ _ (List.filter_congr fun d hd => ?_) rfl
    have h2 : d ∉ moms := fun e => hmx d e hd
    simp [h2]
  · rw [← h]; unfold renameTo; simp only [bind_ok_right]; rfl

example : ∃ z, rollingExpValsX value1 core1 family1 [2] [m] true none true exNamedX (.named exOutW)
      (.plain exPlain1) [] none (some (some t)) false false = .ok z ∧
    rollingExpValsOutX value1 core1 family1 [2] [m] true none true exNamedX (.named exOutW)
      (.plain exPlain1) [] none (some (some t)) false false (sevens [2, 3, 3])
      = .ok (z, z.values) :=
  let ⟨z, h, hs⟩ := shapeOf_some (s := [2, 3, 3]) (by decide +kernel)
  ⟨z, h, C72_rolling_exp_vals value1 core1 family1 [2] true none true (by decide) (by decide) (by decide) rfl
    (.inr (by intro o ho d hd; simp at ho; rcases ho with rfl | rfl <;> revert d <;> decide)) h hs⟩

end

end Cmomy

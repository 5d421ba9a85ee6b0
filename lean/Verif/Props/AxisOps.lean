import Verif.Lemmas.AxisOps
import Verif.Props.NdArray

/-!
# C55: operations along one axis of an n-dimensional array

`core` and `k` are `core1`, `kernel1 order` for one variable and `core2`, `kernel2 o0 o1` for two;
`core1_ok`, `core2_ok` are the facts `core.Ok` used.
-/

namespace Cmomy

open Spec Axes Nd

theorem exNd_axis : GoodAxis exNd [-1] 1 where
  proper := exNd_good.proper
  momRange := by unfold InRange; decide
  momDistinct := by decide
  range := by unfold InRange; decide
  notMom := by decide

theorem exNdFront_axis : GoodAxis exNdFront [0] 1 where
  proper := exNdFront_good.proper
  momRange := by unfold InRange; decide
  momDistinct := by decide
  range := by unfold InRange; decide
  notMom := by decide

theorem exNd2_axis : GoodAxis exNd2 [-2, -1] 0 where
  proper := exNd2_good.proper
  momRange := by unfold InRange; decide
  momDistinct := by decide
  range := by unfold InRange; decide
  notMom := by decide

section

variable {K V M : Type*} [Field K] [DecidableEq K]

/-- `cumulative` along an axis: the entry at an original index `i` is that of the one-dimensional
cumulative moments of the records along the axis. -/
theorem C55_cumulative {core : Core K M} (hc : core.Ok) (k : Kernel K V M) (inverse : Bool)
    {data : Arr K} {mom : List ℤ} {z : ℤ} (g : GoodAxis data mom z) (hm : mom.length = core.nd)
    (axesToEnd : Bool) :
    ∃ out, cumulativeNd core k inverse data (.int z) mom axesToEnd = .ok out ∧
      Shows out (layoutAfter data mom z axesToEnd) (axisSize data) (fun i =>
        (((if inverse then k.cumulativeInverse else k.cumulative) (sliceAt core data mom z i)).bind
          (fun rows => rows[i (wrap data.shape.length z)]?)).map (entryAt core data mom i)) :=
  cumulativeNd_spec hc k inverse g hm axesToEnd

-- the moment axis in front, the sample axis in the middle, both moved to the end
example : entries (cumulativeNd core1 (kernel1 2) false exNdFront (.int 1) [0] true)
    [[1, 0, 0], [1, 0, 1], [1, 1, 0], [1, 1, 1], [1, 1, 2]]
    = some ([2, 2, 3], [some 1, some 3, some 3, some (11 / 3), some (11 / 9)]) := by
  decide +kernel

example := C55_cumulative core1_ok (kernel1 2) false exNdFront_axis rfl true
example := C55_cumulative core2_ok (kernel2 1 1) true exNd2_axis rfl false

/-- `resample_data` along an axis: succeeds exactly when the table is as wide as the axis is long;
every slice is resampled with the same table, and the axis gets the number of replicates as its
size. -/
theorem C55_resample_data {core : Core K M} (hc : core.Ok) (k : Kernel K V M)
    (freq : List (List K)) (nsamp : ℕ) {data : Arr K} {mom : List ℤ} {z : ℤ}
    (g : GoodAxis data mom z) (hm : mom.length = core.nd) (axesToEnd : Bool) :
    (nsamp ≠ axisSize data (wrap data.shape.length z) →
      resampleDataNd core k freq nsamp data (.int z) mom axesToEnd = .error .valueError) ∧
    (nsamp = axisSize data (wrap data.shape.length z) →
      ∃ out, resampleDataNd core k freq nsamp data (.int z) mom axesToEnd = .ok out ∧
        Shows out (layoutAfter data mom z axesToEnd)
          (sizesAfter data (wrap data.shape.length z) freq.length) (fun i =>
          ((k.resampleData freq (sliceAt core data mom z i))[i (wrap data.shape.length z)]?).join.map
            (entryAt core data mom i))) :=
  resampleDataNd_spec hc k freq nsamp g hm axesToEnd

example : entries (resampleDataNd core1 (kernel1 2) [[2, 0], [1, 1], [0, 2]] 2 exNdFront (.int 1)
    [0] false) [[0, 0, 1], [1, 0, 1], [1, 1, 1], [2, 1, 1]]
    = some ([3, 3, 2], [some 2, some 3, some (11 / 3), some (11 / 9)]) := by
  decide +kernel

example := C55_resample_data core1_ok (kernel1 2) [[2, 0], [1, 1], [0, 2]] 2 exNdFront_axis rfl false
example := C55_resample_data core2_ok (kernel2 1 1) [[2, 0]] 2 exNd2_axis rfl true

/-- `jackknife_data` along an axis (no kept axis may be empty: the total is computed by
`reduce_data`): every slice is jackknifed on its own. -/
theorem C55_jackknife_data {core : Core K M} (hc : core.Ok) (k : Kernel K V M)
    {data : Arr K} {mom : List ℤ} {z : ℤ} (g : GoodAxis data mom z) (hm : mom.length = core.nd)
    (hne : ∀ a ∈ keptAxes data.shape.length [wrap data.shape.length z], axisSize data a ≠ 0)
    (axesToEnd : Bool) :
    ∃ out, jackknifeDataNd core k data (.int z) mom axesToEnd = .ok out ∧
      Shows out (layoutAfter data mom z axesToEnd) (axisSize data) (fun i =>
        ((k.jackknifeData (sliceAt core data mom z i)).bind
          (fun rows => (rows[i (wrap data.shape.length z)]?).join)).map (entryAt core data mom i)) :=
  jackknifeDataNd_spec hc k g hm hne axesToEnd

example : entries (jackknifeDataNd core1 (kernel1 2) exNdFront (.int 1) [0] true)
    [[1, 0, 0], [1, 0, 1], [1, 1, 0], [1, 1, 1]]
    = some ([2, 2, 3], [some 2, some 4, some 1, some 3]) := by
  decide +kernel

example := C55_jackknife_data core1_ok (kernel1 2) exNdFront_axis rfl (by decide) true
example := C55_jackknife_data core2_ok (kernel2 1 1) exNd2_axis rfl (by decide) false

/-- `reduce_data_grouped` along an axis: when the one-dimensional call on every slice fails, so does
this one, with `ValueError`; otherwise every slice is grouped with the same labels. -/
theorem C55_grouped {core : Core K M} (hc : core.Ok) (k : Kernel K V M) (by_ : List ℤ)
    {data : Arr K} {mom : List ℤ} {z : ℤ} (g : GoodAxis data mom z) (hm : mom.length = core.nd)
    (axesToEnd : Bool) :
    (∀ m, by_.length = axisSize data (wrap data.shape.length z) → by_.max? = some m → -1 ≤ m →
      ∃ out, groupedNd core k by_ data (.int z) mom axesToEnd = .ok out ∧
        Shows out (layoutAfter data mom z axesToEnd)
          (sizesAfter data (wrap data.shape.length z) (m + 1).toNat) (fun i =>
          (match k.reduceDataGrouped (sliceAt core data mom z i) by_ none with
            | .ok rows => (rows[i (wrap data.shape.length z)]?).join
            | .error _ => none).map (entryAt core data mom i))) ∧
    (∀ e, (∀ i, k.reduceDataGrouped (sliceAt core data mom z i) by_ none = .error e) →
      e = .valueError ∧ groupedNd core k by_ data (.int z) mom axesToEnd = .error .valueError) :=
  groupedNd_spec hc k by_ g hm axesToEnd

example : entries (groupedNd core1 (kernel1 2) [1, -1] exNdFront (.int 1) [0] true)
    [[1, 0, 0], [1, 1, 0], [1, 1, 1]]
    = some ([2, 2, 3], [some 0, some 1, some 3]) := by
  decide +kernel

example := (C55_grouped core1_ok (kernel1 2) [1, -1] exNdFront_axis rfl true).1 1 rfl rfl (by decide)

/-- `reduce_data_indexed` along an axis: succeeds exactly when the index arrays are valid for the
length of the axis and the scale has the length of the index. -/
theorem C55_indexed {core : Core K M} (hc : core.Ok) (k : Kernel K V M)
    (index start stop : List ℤ) (scale : Option (List K))
    {data : Arr K} {mom : List ℤ} {z : ℤ} (g : GoodAxis data mom z) (hm : mom.length = core.nd)
    (axesToEnd : Bool) :
    (Indexed.validateIndex (axisSize data (wrap data.shape.length z)) index start stop = .ok () →
      (∀ sc, scale = some sc → sc.length = index.length) →
      ∃ out, indexedNd core k index start stop scale data (.int z) mom axesToEnd = .ok out ∧
        Shows out (layoutAfter data mom z axesToEnd)
          (sizesAfter data (wrap data.shape.length z) start.length) (fun i =>
          (match Indexed.reduceDataIndexed k (sliceAt core data mom z i) index start stop scale with
            | .ok rows => (rows[i (wrap data.shape.length z)]?).join
            | .error _ => none).map (entryAt core data mom i))) ∧
    ((Indexed.validateIndex (axisSize data (wrap data.shape.length z)) index start stop ≠ .ok () ∨
        ∃ sc, scale = some sc ∧ sc.length ≠ index.length) →
      indexedNd core k index start stop scale data (.int z) mom axesToEnd = .error .valueError) :=
  indexedNd_spec hc k index start stop scale g hm axesToEnd

example : entries (indexedNd core1 (kernel1 2) [1, 0, 1] [0, 1, 1] [1, 3, 1] none exNdFront (.int 1)
    [0] true) [[1, 0, 0], [1, 1, 0], [1, 1, 1], [1, 2, 0]]
    = some ([2, 3, 3], [some 2, some 3, some (11 / 3), some 0]) := by
  decide +kernel

example := (C55_indexed core1_ok (kernel1 2) [1, 0, 1] [0, 1, 1] [1, 3, 1] none exNdFront_axis rfl
  true).1 (by decide) (by simp)

/-- `moments_type` (and `to_raw`, `moments_to_comoments`-like conversions of whole records): each
record is converted on its own. With an explicit memory order the call is refused when moving the
moment axes to the end would change the shape. -/
theorem C55_moments_type {core : Core K M} (hc : core.Ok) (conv : M → M) (orderCF : Bool)
    {data : Arr K} {mom : List ℤ} (hp : data.Proper)
    (hr : ∀ m ∈ mom, InRange data.shape.length m)
    (hd : (mom.map (wrap data.shape.length)).Nodup) (hm : mom.length = core.nd)
    (axesToEnd : Bool) :
    let lay := if axesToEnd then keptAxes data.shape.length (mom.map (wrap data.shape.length))
        ++ mom.map (wrap data.shape.length) else List.range data.shape.length
    (orderCF = true → lay.map (axisSize data) ≠ data.shape →
      momentsTypeNd core conv orderCF data mom axesToEnd = .error .valueError) ∧
    (orderCF = false ∨ lay.map (axisSize data) = data.shape →
      ∃ out, momentsTypeNd core conv orderCF data mom axesToEnd = .ok out ∧
        Shows out lay (axisSize data) (fun i =>
          entryAt core data mom i
            (conv (recordAt core data (mom.map (wrap data.shape.length)) i)))) :=
  momentsTypeNd_spec hc conv orderCF hp hr hd hm axesToEnd

example := (C55_moments_type core1_ok (fun c : Mom ℚ => Cmomy.Convert.centralToRaw 2 c (fun _ => 0)) false exNdFront_good.proper
  exNdFront_good.momRange exNdFront_good.momDistinct rfl true).2 (.inl rfl)

-- an explicit memory order with the moment axis moved from the front is refused
example : (momentsTypeNd core1 (fun c : Mom ℚ => Cmomy.Convert.centralToRaw 2 c (fun _ => 0)) true exNdFront [0] true).isOk = false := by
  rw [(C55_moments_type core1_ok _ true exNdFront_good.proper exNdFront_good.momRange
    exNdFront_good.momDistinct rfl true).1 rfl (by decide)]; rfl

/-- A sample axis that is also a moment axis is refused by all operations, in both modes. -/
theorem C55_moment_axis_rejected (core : Core K M) (k : Kernel K V M) {data : Arr K}
    {mom : List ℤ} {z : ℤ} (hr : ∀ m ∈ mom, InRange data.shape.length m)
    (hz : InRange data.shape.length z)
    (hmem : wrap data.shape.length z ∈ mom.map (wrap data.shape.length)) (axesToEnd : Bool) :
    (∀ inverse, cumulativeNd core k inverse data (.int z) mom axesToEnd = .error .valueError) ∧
    (∀ freq nsamp, resampleDataNd core k freq nsamp data (.int z) mom axesToEnd
      = .error .valueError) ∧
    (∀ by_, groupedNd core k by_ data (.int z) mom axesToEnd = .error .valueError) ∧
    (∀ index start stop scale, indexedNd core k index start stop scale data (.int z) mom axesToEnd
      = .error .valueError) := by
  refine ⟨fun inverse => ?_, fun freq nsamp => ?_, fun by_ => ?_, fun index start stop scale => ?_⟩
  · exact prepare_rejects hr hz hmem axesToEnd _ (gufuncRows_rejects core hr hz hmem _ _ _)
  · refine prepare_rejects hr hz hmem axesToEnd _ ?_
    unfold resampleInner
    split_ifs
    · rfl
    · exact gufuncRows_rejects core hr hz hmem _ _ _
  · refine prepare_rejects hr hz hmem axesToEnd _ ?_
    unfold groupedInner
    split_ifs
    · rfl
    · split
      · rfl
      · split_ifs
        · rfl
        · exact gufuncRows_rejects core hr hz hmem _ _ _
  · refine prepare_rejects hr hz hmem axesToEnd _ ?_
    cases hv : Indexed.validateIndex (sizeOf data (wrap data.shape.length z : ℤ)) index start stop with
    | error e => rw [validateIndex_error hv]; rfl
    | ok u =>
      show (if _ then _ else _) = _
      split_ifs
      · rfl
      · exact gufuncRows_rejects core hr hz hmem _ _ _

example := C55_moment_axis_rejected core1 (kernel1 2) (data := exNdFront) (mom := [0]) (z := -3)
  exNdFront_good.momRange (by unfold InRange; decide) (by decide) false

/-- An axis out of range is refused with `AxisError`. -/
theorem C55_axis_out_of_range (core : Core K M) (k : Kernel K V M) {data : Arr K}
    {mom : List ℤ} {z : ℤ} (hz : ¬ InRange data.shape.length z) (axesToEnd : Bool) :
    (∀ inverse, cumulativeNd core k inverse data (.int z) mom axesToEnd = .error .axisError) ∧
    (∀ freq nsamp, resampleDataNd core k freq nsamp data (.int z) mom axesToEnd
      = .error .axisError) ∧
    (∀ by_, groupedNd core k by_ data (.int z) mom axesToEnd = .error .axisError) ∧
    (∀ index start stop scale, indexedNd core k index start stop scale data (.int z) mom axesToEnd
      = .error .axisError) := by
  have h : prepareData data (.int z) mom core.nd axesToEnd = .error .axisError := by
    unfold prepareData
    have : normalizeAxisIndex (.int z) data.shape.length (some core.nd) = .error .axisError :=
      (npNormalize_error _ _ _).2 ⟨rfl, hz⟩
    rw [this]; rfl
  refine ⟨fun _ => ?_, fun _ _ => ?_, fun _ => ?_, fun _ _ _ _ => ?_⟩
  · unfold cumulativeNd; rw [h]; rfl
  · unfold resampleDataNd; rw [h]; rfl
  · unfold groupedNd; rw [h]; rfl
  · unfold indexedNd; rw [h]; rfl

example := C55_axis_out_of_range core1 (kernel1 2) (data := exNdFront) (mom := [0]) (z := 3)
  (by unfold InRange; decide) true

end

section Ordered

variable {K V M : Type*} [Field K] [LinearOrder K] [IsStrictOrderedRing K]

/-- `rolling_data` along an axis, centred or not: wherever the one-dimensional rolling average of the
records along the axis is defined, the entries are those of its rows, a missing row being `nan`,
except that `zero_missing_weights` makes its weight zero. `hz`: the record of zeros is the empty
state of the kernel. -/
theorem C55_rolling_data {core : Core K M} (hc : core.Ok) (k : Kernel K V M)
    (hz : core.recd (fun _ => 0) = k.zero) (window : ℕ) (minPeriods : Option ℤ)
    (center zeroMissing : Bool) {data : Arr K} {mom : List ℤ} {z : ℤ} (g : GoodAxis data mom z)
    (hm : mom.length = core.nd) (axesToEnd : Bool) :
    ∃ out, rollingDataNd core k window minPeriods center zeroMissing data (.int z) mom axesToEnd
        = .ok out ∧
      out.shape = (layoutAfter data mom z axesToEnd).map (axisSize data) ∧
      ∀ i, (∀ a ∈ layoutAfter data mom z axesToEnd, i a < axisSize data a) →
        ∀ rows, k.rollingData window minPeriods center (sliceAt core data mom z i) = some rows →
          out.get (along (layoutAfter data mom z axesToEnd) i) =
            match (rows[i (wrap data.shape.length z)]?).join with
            | some r => some (entryAt core data mom i r)
            | none =>
              if zeroMissing = true ∧ ∀ m ∈ mom.map (wrap data.shape.length), i m = 0 then some 0
              else none := by
  obtain ⟨out, h1, h2, h3⟩ := rollingDataNd_spec hc k hz window minPeriods center zeroMissing g hm
    axesToEnd
  refine ⟨out, h1, h2, fun i hi rows hrows => ?_⟩
  rw [h3 i hi]
  beta_reduce
  rw [hrows]
  simp only [Option.bind_some]
  cases (rows[i (wrap data.shape.length z)]?).join with
  | some r => exact if_neg (by simp)
  | none => simp

example : entries (rollingDataNd core1 (kernel1 2) 2 none false true exNdFront (.int 1) [0] true)
    [[1, 0, 0], [1, 0, 1], [1, 1, 0], [1, 1, 1]]
    = some ([2, 2, 3], [some 0, none, some 3, some (11 / 3)]) := by
  decide +kernel

-- centred, window 3: one zero record is appended and one row dropped
example : entries (rollingDataNd core1 (kernel1 2) 3 (some 1) true false exNdFront (.int 1) [0] false)
    [[0, 0, 1], [1, 0, 1], [0, 1, 1], [1, 1, 1]]
    = some ([3, 2, 2], [some 3, some (11 / 3), some 3, some (11 / 3)]) := by
  decide +kernel

example := C55_rolling_data core1_ok (kernel1 2) rfl 3 (some 1) true false exNdFront_axis rfl false
example := C55_rolling_data core2_ok (kernel2 1 1) rfl 2 none false true exNd2_axis rfl true

/-- `rolling_exp_data` with one number `alpha` for all samples. -/
theorem C55_rolling_exp_scalar {core : Core K M} (hc : core.Ok) (k : Kernel K V M) (alpha : Arr K)
    (h0 : alpha.shape = []) (alphaAxis : Option AxisArg) (adjust : Bool) (minPeriods : Option ℤ)
    (zeroMissing : Bool) {data : Arr K} {mom : List ℤ} {z : ℤ} (g : GoodAxis data mom z)
    (hm : mom.length = core.nd) (axesToEnd : Bool) :
    ∃ out, rollingExpDataNd core k alpha alphaAxis adjust minPeriods zeroMissing data (.int z) mom
        axesToEnd = .ok out ∧
      out.shape = (layoutAfter data mom z axesToEnd).map (axisSize data) ∧
      ∀ i, (∀ a ∈ layoutAfter data mom z axesToEnd, i a < axisSize data a) →
        ∀ rows, k.rollingExpData adjust minPeriods
            (List.replicate (axisSize data (wrap data.shape.length z)) (alpha.get fun _ => 0))
            (sliceAt core data mom z i) = some rows →
          out.get (along (layoutAfter data mom z axesToEnd) i) =
            match (rows[i (wrap data.shape.length z)]?).join with
            | some r => some (entryAt core data mom i r)
            | none =>
              if zeroMissing = true ∧ ∀ m ∈ mom.map (wrap data.shape.length), i m = 0 then some 0
              else none := by
  have ha : prepareAlpha alpha alphaAxis (axisSize data (wrap data.shape.length z))
      = .ok (-1, ⟨[axisSize data (wrap data.shape.length z)], fun _ => alpha.get (fun _ => 0)⟩) := by
    unfold prepareAlpha
    rw [if_pos (by rw [h0]; rfl)]
  obtain ⟨_, h⟩ := rollingExp_rows hc k adjust minPeriods zeroMissing g hm axesToEnd ha
    (by unfold InRange; simp)
  obtain ⟨out, h1, h2, h3⟩ := h (by unfold axisSize wrap; simp)
    ⟨keptAxes data.shape.length (wrap data.shape.length z :: mom.map (wrap data.shape.length)), [],
      by simp, by
        have : wrap [axisSize data (wrap data.shape.length z)].length (-1) = 0 := by
          unfold wrap; simp
        rw [this]
        exact List.Forall₂.nil⟩
  refine ⟨out, h1, h2, fun i hi rows hrows => ?_⟩
  rw [h3 i hi]
  beta_reduce
  have hrep : (List.range (axisSize data (wrap data.shape.length z))).map
      (fun s => matched (⟨[axisSize data (wrap data.shape.length z)],
        fun _ => alpha.get (fun _ => 0)⟩ : Arr K)
          [wrap [axisSize data (wrap data.shape.length z)].length (-1)] (keptAxes data.shape.length
            (wrap data.shape.length z :: mom.map (wrap data.shape.length))) i [s])
      = List.replicate (axisSize data (wrap data.shape.length z)) (alpha.get fun _ => 0) := by
    unfold matched
    simp
  rw [hrep, hrows]
  simp only [Option.bind_some]
  cases (rows[i (wrap data.shape.length z)]?).join with
  | some r => exact if_neg (by simp)
  | none => simp

example : entries (rollingExpDataNd core1 (kernel1 2) ⟨[], fun _ => 1 / 2⟩ none true none false
    exNdFront (.int 1) [0] true) [[1, 0, 0], [1, 0, 1], [1, 1, 0], [1, 1, 1]]
    = some ([2, 2, 3], [some 1, some 3, some (5 / 2), some (19 / 5)]) := by
  decide +kernel

example := C55_rolling_exp_scalar core1_ok (kernel1 2) (⟨[], fun _ => 1 / 2⟩ : Arr ℚ) rfl none true
  none false exNdFront_axis rfl true

/-- `rolling_exp_data` with an array `alpha`: refused when its sample axis has another length than
that of the data; otherwise, when its remaining axes fit onto those of the data, each slice uses the
matching numbers. A one-dimensional `alpha` is used for all slices. -/
theorem C55_rolling_exp_array {core : Core K M} (hc : core.Ok) (k : Kernel K V M) (alpha : Arr K)
    (h0 : alpha.shape ≠ []) (alphaAxis : Option ℤ)
    (hr : ∀ y, alphaAxis = some y → alpha.shape.length ≠ 1 → InRange alpha.shape.length y)
    (adjust : Bool) (minPeriods : Option ℤ)
    (zeroMissing : Bool) {data : Arr K} {mom : List ℤ} {z : ℤ} (g : GoodAxis data mom z)
    (hm : mom.length = core.nd) (axesToEnd : Bool) :
    (axisSize alpha (alphaAxisOf alpha.shape.length alphaAxis)
        ≠ axisSize data (wrap data.shape.length z) →
      rollingExpDataNd core k alpha (alphaAxis.map .int) adjust minPeriods zeroMissing data (.int z)
        mom axesToEnd = .error .valueError) ∧
    (axisSize alpha (alphaAxisOf alpha.shape.length alphaAxis)
        = axisSize data (wrap data.shape.length z) →
      FitsOnto alpha [alphaAxisOf alpha.shape.length alphaAxis] data (keptAxes data.shape.length
        (wrap data.shape.length z :: mom.map (wrap data.shape.length))) →
      ∃ out, rollingExpDataNd core k alpha (alphaAxis.map .int) adjust minPeriods zeroMissing data
          (.int z) mom axesToEnd = .ok out ∧
        out.shape = (layoutAfter data mom z axesToEnd).map (axisSize data) ∧
        ∀ i, (∀ a ∈ layoutAfter data mom z axesToEnd, i a < axisSize data a) →
          ∀ rows, k.rollingExpData adjust minPeriods
            ((List.range (axisSize data (wrap data.shape.length z))).map (fun s =>
              matched alpha [alphaAxisOf alpha.shape.length alphaAxis]
                (keptAxes data.shape.length
                  (wrap data.shape.length z :: mom.map (wrap data.shape.length))) i [s]))
            (sliceAt core data mom z i) = some rows →
          out.get (along (layoutAfter data mom z axesToEnd) i) =
            match (rows[i (wrap data.shape.length z)]?).join with
            | some r => some (entryAt core data mom i r)
            | none =>
              if zeroMissing = true ∧ ∀ m ∈ mom.map (wrap data.shape.length), i m = 0 then some 0
              else none) := by
  have hn : 0 < alpha.shape.length := List.length_pos_iff.2 h0
  obtain ⟨cz, ha, hcz, hw⟩ : ∃ cz, prepareAlpha alpha (alphaAxis.map .int)
      (axisSize data (wrap data.shape.length z)) = .ok (cz, alpha) ∧
      InRange alpha.shape.length cz ∧
      wrap alpha.shape.length cz = alphaAxisOf alpha.shape.length alphaAxis := by
    have hlast : InRange alpha.shape.length (-1) ∧
        wrap alpha.shape.length (-1) = alpha.shape.length - 1 := by
      have h : InRange alpha.shape.length (-1) := by unfold InRange; omega
      refine ⟨h, ?_⟩
      have := wrap_neg h (by omega)
      omega
    unfold prepareAlpha
    rw [if_neg (by omega)]
    cases alphaAxis with
    | none => exact ⟨-1, rfl, hlast⟩
    | some y =>
      by_cases h1 : alpha.shape.length = 1
      · refine ⟨-1, by simp only [Option.map_some, if_pos h1], hlast.1, ?_⟩
        rw [hlast.2]
        simp [alphaAxisOf, h1]
      · have hy := hr y rfl h1
        have hnorm : normalizeAxisIndex (.int y) alpha.shape.length none
            = .ok (wrap alpha.shape.length y) := (npNormalize_int _ _ _).2 ⟨hy, rfl⟩
        have hlt := wrap_lt hy
        have hneg : positiveToNegative (wrap alpha.shape.length y) alpha.shape.length
            = (wrap alpha.shape.length y : ℤ) - alpha.shape.length := by
          unfold positiveToNegative
          rw [if_neg (by omega)]
        refine ⟨(wrap alpha.shape.length y : ℤ) - alpha.shape.length, ?_, ?_, ?_⟩
        · simp only [Option.map_some, if_neg h1, hnorm]
          rw [← hneg]; rfl
        · unfold InRange; omega
        · have := wrap_neg (n := alpha.shape.length)
            (z := (wrap alpha.shape.length y : ℤ) - alpha.shape.length)
            (by unfold InRange; omega) (by omega)
          simp only [alphaAxisOf, if_neg h1]
          omega
  obtain ⟨hbad, hgood⟩ := rollingExp_rows hc k adjust minPeriods zeroMissing g hm axesToEnd ha hcz
  rw [hw] at hbad hgood
  refine ⟨hbad, fun h hf => ?_⟩
  obtain ⟨out, h1, h2, h3⟩ := hgood h hf
  refine ⟨out, h1, h2, fun i hi rows hrows => ?_⟩
  rw [h3 i hi]
  beta_reduce
  rw [hrows]
  simp only [Option.bind_some]
  cases (rows[i (wrap data.shape.length z)]?).join with
  | some r => exact if_neg (by simp)
  | none => simp

/-- Different decay for the two slices: axis 0 of `alpha` along the samples, axis 1 along the other
axis of the data. -/
def exAlpha : Arr ℚ := ⟨[2, 2], fun i => if i 1 = 0 then 1 / 2 else 1 / 4⟩

example : entries (rollingExpDataNd core1 (kernel1 2) exAlpha (some (.int 0)) true none false
    exNdFront (.int 1) [0] true) [[0, 1, 0], [1, 1, 0], [1, 1, 1]]
    = some ([2, 2, 3], [some (5 / 2), some (11 / 4), some (41 / 11)]) := by
  decide +kernel

example := (C55_rolling_exp_array core1_ok (kernel1 2) exAlpha (by decide) (some 0)
  (by rintro y h _; cases h; unfold InRange; decide) true none false exNdFront_axis rfl true).2
  (by decide) ⟨[], [2], by decide, by
    have : keptAxes exAlpha.shape.length [alphaAxisOf exAlpha.shape.length (some 0)] = [1] := by
      decide
    rw [this]
    exact List.Forall₂.cons (.inr (by decide)) List.Forall₂.nil⟩

end Ordered

end Cmomy

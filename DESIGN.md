# Formal model of cmomy: design

The code is read as text from `/repo` at the pinned commit. Nothing is executed.
The formal artefact is a Lean 4 library, `lean/Verif/*.lean`.

## 1. Approach

* **Arithmetic.** Kernels are modelled over an arbitrary field `K` of characteristic 0, and over
  a linearly ordered field wherever the code compares numbers (`wold < dummy_mom[0]`, `den > 0`,
  quantiles). Every theorem about kernels is an exact-arithmetic statement. Rounding, overflow,
  `fastmath` reassociation and float32/float64 differences are **outside** the model.
* **Division.** The totalised `x / 0 = 0` is never relied on. Each kernel returns
  `Option`; `none` stands for "a division by zero took place" (ZeroDivisionError, inf or nan
  depending on the numba error model: in each case there is no finite result). Loops thread the
  `Option`, i.e. a poisoned accumulator stays poisoned. A separate theorem (C09) says exactly
  when `none` occurs.
* **NaN written on purpose** (`out[i] = np.nan` in the rolling kernels) is `none` in an
  `Option`-valued output row, distinct from poisoning.
* **Arrays.** A moment array of order `mom` is a function `ℕ → K` together with the number
  `mom`; entries beyond `mom` are junk. A theorem (C13) shows that kernels neither read nor write
  them, so the missing bounds checks cannot hide an out-of-range access. A comoment array is `ℕ → ℕ → K`.
  Loops over samples are recursions/folds over `List`.
* **In-place updates.** The state is updated entry by entry with `Function.update`, in the
  order used by the code (descending `a`), so read-after-write mistakes would be visible.
* **Two moment dimensionalities.** `_lib/X.py` and `_lib/X_cov.py` have textually identical sample loops and differ
  in the pusher they call. The sample loops are therefore modelled once, over a record `Kernel`
  of pushers, and instantiated with the 1-d and the comoment pushers. Pushers are modelled twice.
* **Errors** raised by the Python code are values of an `Except`-like type.

## 2. Specification (separate from the model)

`Verif/Spec/*.lean` contains the vocabulary used in the theorem statements:
a sample list is `List (K × K)` of (weight, value) or `List (K × K × K)`; `wsum`, `mean`,
`central n` are plain sums over the list; `IsMoments mom samples out` says entry 0 is the total weight,
entry 1 the mean, entry n the central moment; same for pairs. No model function is used there.

## 3. Proof architecture

1. Umbral lemma: `shift t c n = Σ_i C(n,i) c(n-i) t^i` composes additively, is linear, commutes in two indices.
2. Pusher loop → closed form (`Σ` over binomials) by induction on the loops, including the descending in-place outer loop.
3. Refinement: *raw sums* `S_n(out) = W·(moment n about 0)` are additive under push, scaled under scaled push;
   a moment array with non-zero weight is determined by its raw sums. This makes
   moment arrays a partial commutative group, shared by 1-d and comoments (`LawfulKernel`).
4. All loops (reduce, cumulative, resample, jackknife, grouped, indexed, rolling, exponential) are then inductions
   over the sample list with an invariant on raw sums.
5. Index/shape/option/rng/cache/sampler logic: separate small models, proved by list induction or by
   invariants over histories.

## 4. Per property

| id | modelled | proof |
|----|----------|-------|
| C01 | `_push.push_val`, `push.reduce_vals` | refinement to raw sums, induction over stream |
| C02 | `_push_cov.push_val`, `push_cov.reduce_vals` | same with two indices |
| C03 | `_push.push_data`, `_push_cov.push_data` | raw sums additive + determinacy |
| C04 | `reduce_data`, `reduce_data_fromzero`, merge trees | permutation/tree induction on raw sums |
| C05 | all pushers | case analysis; induction for insertion anywhere |
| C06 | `push_data_scale` | raw-sum group law |
| C07 | `push_data_scale`, weight scaling | definitional unfolding of the two copies + induction on k |
| C08 | pushers at two orders | closed form does not mention order |
| C09 | pushers as `Option` | induction characterising `none` |
| C10 | `reduce_vals` | via C01 and sums |
| C11 | `reduce_vals` (1-d, cov) | sums of squares; Cauchy–Schwarz on weighted lists |
| C12 | push with data and accumulator the same buffer | separate aliased model, loop invariant |
| C13 | pushers | agreement on entries ≤ order implies agreement of results; frame |
| C14 | `convert.central_to_raw`, `raw_to_central` | closed form + umbral inverse |
| C15 | `convert_cov.*` | two-index version |
| C16 | `_validate_mom_moments_to_comoments`, `moments_to_comoments`, `comoments_to_moments` | list/shape lemmas; spec identity |
| C17 | `_push_cov` | closed form symmetric |
| C18 | `_push_cov` against `_push` | closed form at `a1 = 0` / spec |
| C19 | `freq_to_indices`, `indices_to_freq` (kernel and API checks) | list induction, counting |
| C20 | `resample_data_fromzero` | raw sums |
| C21 | `resample_vals` | raw sums; equality by determinacy |
| C22 | `jackknife_*_fromzero`, `jackknife_freq` | raw sums, subtraction law |
| C23 | `cumulative` | induction |
| C24 | `cumulative_inverse` | induction; witness for the false general statement |
| C25 | `_rolling.rolling_data` + wrapper `max(min_count,1)` | window invariant |
| C26 | `_rolling.rolling_vals` | same |
| C27 | `rolling._rolling_data` padding and slicing | list lemmas on top of C25 |
| C28 | `rolling_exp_data/vals`, adjust | invariant |
| C29 | same, not adjust | invariant |
| C30 | `rolling_exp_var_bias_correction` | invariant to closed form |
| C31 | `reduce_data_grouped` | induction, per-group projection |
| C32 | `reduce_data_indexed_fromzero`, `factor_by_to_index` | raw sums + permutation |
| C33 | `block_by` | arithmetic on `List.range`/`replicate` |
| C34 | `factor_by`, `factor_by_to_index` | `pd.factorize(sort=True)`, `np.argsort`, `np.unique` modelled by their documented contract |
| C35 | `_validate_index` | decision logic |
| C36 | `freq_to_index_start_end_scales` + indexed reduction | list induction |
| C37 | `moveaxis_order` | insertion invariant |
| C38 | `normalize_axis_index/tuple`, `positive_to_negative_index` | omega |
| C39 | `_reduce_data` axis move + reshape | permutation of index tuples |
| C40 | `moment_indexer`, select/assign | decision logic over entries |
| C41 | `set_options` | history induction |
| C42 | `default_rng` state machine | history induction |
| C43 | `parallel_heuristic`, cached factories | history induction + witness for staleness |
| C44 | wrapper operations (`__init__`, `copy`, `new_like`, `zeros_like`, `push_*`, `+`, `-`, `*`, `+=`, indexing) over a heap of buffers with views | refinement of every operation and every history of operations to multisets of samples; the two ways of reading overlapping operands are a parameter `buf` |
| C45 | `bootstrap_confidence_interval`: percentile, basic, bca; `_compute_a`, `_percentile_of_score`, `_compute_z0` | order statistics; `np.quantile` by its documented `linear` method. For bca the functions `ndtr`/`ndtri` are parameters with the properties proved for the code's own in C53 |
| C46 | `IndexSampler` lazy attributes, `from_params`, `from_data`, `factory_sampler` dispatch, `random_indices` | history induction; generator draws are an uninterpreted stream |
| C47 | `_transpose_like`, and the dimension lists built by the labelled drivers | list lemmas; `xarray.transpose(..., missing_dims="ignore")` and `apply_ufunc` by contract |
| C48 | `validate_*`, `mom_to_mom_shape`, `MomParamsArray.from_params/factory/get_mom`, constructor checks, default dimension names | decision logic, each decision stated against a separate description |
| C49 | `_binom`, `factory_binomial`, indices used by kernels | factorial identity; reads recorded by an instrumented kernel |
| C50 | `*_parallel.py`: every gufunc over shared memory, as programs of single reads and writes, all interleavings; the loops of `push*`, `resample*`, `indexed*`, `rolling*` cell by cell | footprints + commutation for every schedule (an invariant over steps); every cell program is shown to compute the serial loop of C01–C32 (refinement) |
| C51 | `vals_to_data`, `reduce_data`, `reduce_vals` | raw sums |
| C52 | `block_by` + grouped reduce + reduce | raw sums |
| C53 | `core/prob.py` `ndtr`, `ndtri` over the reals, with their literal coefficients | monotonicity by derivative bounds on each branch, seams compared with rational enclosures of `log` and `sqrt` |
| C54 | array branches of `reduce_vals`, `resample_vals`, `jackknife_vals`, `rolling_vals`, `rolling_exp_vals`; `prepare_values_for_reduction`, `prepare_out_from_values`, `get_axes_from_values` | broadcasting is described separately (`IsBroadcast`); moving axes is shown to commute with it; each call is compared entry by entry with the one-dimensional kernel on the samples contributed there; acceptance is characterised by inverting every step |
| C55 | array branches of `cumulative`, `resample_data`, `jackknife_data`, `reduce_data_grouped`, `reduce_data_indexed`, `rolling_data`, `rolling_exp_data`, `moments_type` with `axis`, moment axes anywhere, `axes_to_end` | `prepare_data_for_reduction`, gufunc `axes=`, broadcasting, padding and slicing are modelled on index functions; the result is compared entry by entry with the one-dimensional kernel on the slice |
| C56 | `CentralMomentsArray.zeros`, `push_val`, `push_vals`, `push_data`, `push_datas` on objects of any shape | each call is compared cell by cell with the one-dimensional kernel; acceptance by inverting every step; histories by induction over the calls, using that the contents of a cell are determined by its raw sums |
| C57 | `DataArray` branches of `reduce_data`, `cumulative`, `moments_type`, `resample_data`, `jackknife_data`, `reduce_data_grouped`, `reduce_data_indexed`, `rolling_data`, `rolling_exp_data`; `select_axis_dim`, `select_axis_dim_mult` | `apply_ufunc` by contract on names and sizes; the arranged array is shown to be a prepared n-dimensional call (C55), its result is read back by name; results are compared at named coordinates, so the stored order of dimensions cannot matter |
| C58 | `DataArray` branches of `reduce_vals`, `resample_vals`, `jackknife_vals`, `rolling_vals`, `rolling_exp_vals`; `xprepare_values_for_reduction`, `xprepare_secondary_value_for_reduction` | operands are labelled or plain; the arrays that `apply_ufunc` hands on are shown to be a prepared call with arrays (C54) whose sample axis is last; its result is read back by name and compared with the samples that each operand contributes at named coordinates |
| C59 | `weight`, `mean`, `var`, `std`, `cov`, `cmom`, `to_raw`, `rmom` of `CentralMomentsArray` | the methods are compositions of `select_moment`/`assign_moment` (C40) and `moments_type` (C55) on arrays whose moment axes are last; the entries are compared with the statistics of the samples each record stands for (C14, C15) |
| C60 | `reshape`, `moveaxis`, `resample` of `CentralMomentsArray`, `utils.moveaxis` | a cell is the record at one index of the value axes; each method is shown to return an array whose cell at `i` is the old cell at `f i`, with `f` given explicitly (for `reshape`: the reading orders of both arrays agree); positions and coordinates are related by mixed-radix induction, orders of axes by uniqueness of the move (C31) |
| C61 | `reduce` (plain, `by`, `block`), `cumulative`, `resample_and_reduce`, `jackknife_and_reduce` of `CentralMomentsArray` | `Stands` says what samples each cell of an object stands for; each method is shown to return cells that stand for the samples collected, by translating standing-for into raw sums (`Meaning`), which the kernels add, scale and subtract; the axes of the result are given explicitly; composition theorems (results are objects again, equal samples give equal entries, bootstrap by indices = bootstrap by frequencies) follow from these | weights of cells not negative; jackknife needs weight left in every replicate; `by` is a list of group numbers; no `out=`, dtype, `data_reduced=`; for plain `reduce` and jackknife the axes kept have size > 0 |
| C62 | `wrap`, `zeros_like`, `wrap_reduce_vals`, `wrap_resample_vals`, `wrap_raw` (`wrapper/constructors.py`), `new_like()`, `zero()`, `vals_to_data` | the array functions of C54 are combined with parameter checking (C48); cells are shown to stand for the samples found in values and weights (`valueSamples`), for the samples whose raw moments were given, for the one sample at an index, or for none; `wrap` shows every entry of the array at a stated place; `C62_two_routes` ties values reduced directly to objects reduced later | weights and frequencies not negative; no `out=`, dtype, `copy`, memory order; moment axes last in the parameters (true unless parameters with other axes are passed), except for `wrap` and `C62_wrap_raw_keeps_axes` |
| C63 | `CentralMomentsArray.__getitem__`, `__iter__`, `concat` for arrays and array objects | numpy indexing and `np.concatenate` by contract; what a key selects is described separately (`Reads`, `IsSlice`), and `a[key]` is shown to follow it by recursion on the key; `concat` by the position of each part (`Joins`); samples follow from C60 and C61 | keys: integers, slices, `...`, `None`, one list of integers or booleans among slices; no `concat` of an empty list |
| C64 | `CentralMomentsData.push_val`, `push_vals`, `push_data`, `push_datas` for `DataArray` objects with labelled or plain arguments | `apply_ufunc` by contract, the gufuncs of C56 on the arranged arrays; every call updates each cell at named coordinates from what the arguments show there (`UpdatedNamed`); samples of any history by induction over the calls; refusals by the names and sizes that do not fit | a `DataArray` given as `scale`; `Dataset`; coordinates |
| C65 | `isel`, `__getitem__`, `iter`, `transpose`, `stack`, `rename`, `to_array`, `zeros` of `CentralMomentsData` over a `DataArray`; `CentralMomentsArray.to_dataarray` | xarray by contract; each method is shown to return an object whose cell at the coordinates `c` is the old cell at `f c` (`CellsNamed`), with `f` described by name; samples carry over (`C65_keep_samples`); refusals by the names and sizes that do not fit | coordinates; `unstack` and `sel` (C82, C83); multi-dimensional indexers; `Dataset` |
| C66 | `reduce` (plain, `by`, `block`), `cumulative`, `resample_and_reduce`, `jackknife_and_reduce`, `+`, `-` of `CentralMomentsData` over a `DataArray` | the functions on labelled arrays of C57 and the pushes of C64, combined as the methods do; each method is shown to return entries whose records stand for the samples collected at named coordinates (`ResultNamed`), by raw sums (`Meaning`, C61); the dimensions of the result are given by name and order; refusals by labels, sizes and names; results are objects again and equal samples give equal entries, so that calls can be chained | as C61: weights of cells not negative, jackknife needs weight left; labels are integers or missing; no `out=`, dtype, `data_reduced=`, `groups=`, `use_map`, coordinates, `Dataset` |
| C67 | `select_moment`, `assign_moment`, `weight`, `mean`, `var`, `std`, `cov`, `cmom`, `to_raw`, `rmom`, `*`, `*=` of `CentralMomentsData` over a `DataArray` | `apply_ufunc` by contract around `select_moment` and `assign_moment` of C40; the entries selected, and the entries after an assignment, are given by name (`selection`, `assignedAt`); in-place effects on the stored array through the view that was arranged; from there the statistics of the samples as in C59; multiplication by raw sums | combined names that another dimension has; labelled values with further dimensions; coordinates, `Dataset` |
| C68 | `moments_to_comoments`, `comoments_to_moments` for arrays with any moment axes and for `DataArray`s, with the temporary renaming; the method of the objects | moving the moment axes to the end (C40) around the single-record conversions of C16; `apply_ufunc` by contract; the samples of the result are the pairs `(x, x)`; there and back |
| C69 | `moveaxis` and `concat` for `DataArray`s and labelled objects | `DataArray.transpose` and `xr.concat` by contract; the places chosen by number or by name, then the insertion invariant of C37; `concat` by the position of a coordinate among the parts, entries found by name whatever the order of the dimensions of each part |
| C70 | `DataArray` branches of `wrap`, `zeros_like`, `wrap_reduce_vals`, `wrap_resample_vals`, `wrap_raw` (`wrapper/constructors.py`), `new_like()`, `vals_to_data`; `MomParamsXArray.from_params`/`factory` | parameter checking of C48 with the labelled functions of C57, C58 and the array function of C62; for `vals_to_data` every operand is shown to be arranged so that it broadcasts to all dimensions in order of appearance (`fills_common`), then the array theorem is read by name; two ways of reducing values are compared through the samples |
| C71 | `construct_rolling_window_array` (`rolling.py:157-294`), both branches; `MomParamsXArrayOptional` (`moment_params.py:400-432, 573-649`); xarray's `rolling(...).construct(...)` as padding, sliding windows and strided selection | entries of padding, windowing and strided selection are composed by name (`construct_rolls`), for any number of rolled dimensions; the windows of moments filled with zeros stand for the samples seen (`window_stands`); reducing them and `rolling_data` have the same raw sums over the same window (`window_reduced`, `rolling_named`), hence the same entries |
| C72 | `out=` of the reductions: `xprepare_out_for_reduce_data`, `xprepare_out_for_transform`, `xprepare_out_for_resample_vals`, `xprepare_out_for_resample_data` (`core/prepare.py`), the squeezing and moving of `out` in `_reduce_data`, and the `DataArray` branches of `reduce_data`, `reduce_vals`, `cumulative`, `moments_type`, the grouped, indexed, resampling, jackknife and rolling functions | a view is a shape and a map of positions; writing to it fills `out`. The view has the dimensions that `apply_ufunc` gives, so moving it back is the final transposition of C47, and `out` holds the numbers of the result (`sameOut_ok`, `reduceOut_ok`, `resampleOut_ok`, `valsOut_ok`, `reduceCoreOut_ok`). An `out` of another shape than the result is outside the model |
| C73 | `Dataset` branches of `reduce_data` (with and without `use_map`), `reduce_data_grouped`, `reduce_data_indexed`, `cumulative`, `moments_type`, `resample_data`, `jackknife_data`, `rolling_data`, `rolling_exp_data` (plain `alpha`); which variables get tables with `paired=False` (`_randsamp_indices_dataarray_or_dataset`) | a data set is a list of named arrays; `apply_ufunc` for a `Dataset` with `on_missing_core_dim="copy"`, `Dataset.map`, `transpose`, `rename` and the check of sizes by contract. Each variable is followed through the passes (`mapVars_ok`, `mapVars_then`) and compared with the `DataArray` call of C57 for it alone (`same_dataset`, `own_dataset`, `resized_dataset`); variables without the dimensions are shown to keep their entries, with the order of their dimensions; when sizes conflict the call is refused |
| C74 | coordinates of the results of `reduce_data`, `reduce_data_grouped`, `reduce_data_indexed`, `cumulative`, `moments_type`, `resample_data`, `jackknife_data`, `rolling_data`, `rolling_exp_data` and `CentralMomentsData.reduce` (with `by` as labels or as the name of a coordinate, `block`, `coords_policy`, `groups`) for a `DataArray`; `replace_coords_from_isel` | a coordinate is a named labelled array; `apply_ufunc`, `isel`, `assign_coords`, `rename` by contract on coordinates. Results are described by which coordinates remain (`CoordsWithout`), at which samples they are read (`CoordsPicked`) or which labels are assigned (`CoordsLabelled`), each up to the names by which they are found; the group of a sample by the tables of C34 and C33; that "first" is the first sample by stability of the sort (`IsStableArgsort`) | labels of one type (integers for `by`); indexes apart from their coordinates; attributes; `out=`, `data_reduced=`, `use_map`; `Dataset`; new names that another coordinate has |
| C75 | the push functions and sample loops with every operation rounded, in the order of the source (`Model/Rounding.lean`): one rounding for the type of the arrays, one for double precision, any that are monotone, odd and leave small integers alone (`IsPrecision`); rounding to `p` binary digits to nearest or towards zero, with or without gradual underflow, is such a pair (`C75_digits`) | induction over the samples: what a push keeps (`Kept`) is kept by every loop that only adds samples; what a change of units commutes with (`Carried`) commutes with every loop; the relation to the exact model by putting no rounding (`C75_exact`); counterexamples by running the model | overflow, nan, `fastmath`; variances after subtracting (false, see section 6) |
| C76 | as C75, with roundings of relative error at most `u` (`Accurate`; rounding to nearest with `p` digits has `u = 2 ^ -p`, `C76_digits`) | every rounding is a factor between `1 - u` and `1 / (1 - u)` (`Fac`); in a push the errors of average and variance are combined with weights that sum to one, so that only the error of the push is added (`mean_step`, `var_step`), and induction over the samples (`Near.foldlM`) | the best constants; higher moments (second comoments: C79); `cumulative` and merges of results (C81); exponential averages; underflow and overflow |
| C77 | `select_dtype`, `asarray_maybe_recast`, `validate_floating_dtype`, the conversions in `core/prepare.py` and those of a gufunc called with a signature and `casting="same_kind"`; the constructor and `astype`. Conversions are functions on a field: cutting off the fraction, rounding to half, single and double precision (`IsConv`, met by `convQ`, `C77_convQ`) | the numbers of the arguments are of their type (`Arg.Real`); then a conversion to a wider or the same type changes nothing, and the chain of conversions shrinks to one (`C77_values`, `C77_labelled`, `C77_dataset`), or to two when the first argument is an `ndarray` and another one is not (`C77_imposed`). The consequences for `reduce_vals` and `push_vals` follow with the array functions of C54 and C44 in the arithmetic of C75 (`C77_reduce_nothing`, `C77_push_nothing`) |
| C78 | `to_dataset`, `to_dataarray` of `CentralMomentsData` over a `DataArray` or a `Dataset`; `DataArray.to_dataset`, `Dataset.to_array` and `Dataset.transpose` of xarray by their contracts, without coordinates beyond names, labels and the order of dimensions they cause | `SplitOf` and `StackOf` say by names which entry goes where, the order of value dimensions left open; the transpositions are permutations that keep entries (`step_order`), so both ways compose to the identity (`C78_there_and_back`, `C78_back_and_there`), and records, hence reductions (C57), carry over (`C78_reduce`). Repeated labels, an empty dimension and an existing name for the new dimension are `undefined`: no claim |
| C79 | as C76, for the kernels of two variables | a push writes `[1, 1]`, `[2, 0]` and `[0, 2]` by one formula (`secondVal`, `pushDataCovTmp_second`), however large the orders are; its roundings are collected into three factors (`second_factors`), the error of one push follows with signs allowed (`cov_step`), and induction over the samples (`NearCov.foldlM`). The averages reuse C76 | the best constants; entries of third and higher order; `cumulative` and exponential averages; underflow and overflow |
| C80 | `as_dict`, `items`, `keys`, `values`, iteration, `c[name]`, `c[names]`, `assign`, `new_like` and the constructor of `CentralMomentsData` over a `Dataset`; xarray's look-up, selection and `assign` by their contracts, without coordinates | membership in lists of variables; the check of the moment shape never fails for a variable of the same data set, as dimensions of one name have one size (`momShape_common`). `Selected`, `Assigned` and `BadAfter` say what selecting and assigning should give. The operations are those of C73: they keep the moment dimensions of every variable (`MomKept`), so looking up before or after is the same (`get_each`). Two moment dimensions that different variables have are enough for `c[names]` and `assign`, as in the code. Not modelled: names of coordinates, `c[dict]`, callables handed to `assign` |
| C81 | as C76; merges are the trees of C04 (`MergeTree`: chunks reduced by `reduce_data`, results pushed into each other), `cumulative` as in C23 | what is pushed is itself rounded, so the errors cannot be counted per record as in C76: a push is an exact merge of the numbers at hand up to a few roundings (`push_local`), average and mean square of the result are weighted averages of the parts' with the computed weights, so errors are averaged and only those of the push are added (`Merged.push`); induction over the tree and over the rows. A sample has the effect of a record without variance (`MergedFrom.pushVal`), which gives groups of samples reduced first and merged later | the best constants; merges of comoments; `cumulative_inverse` (C75 shows that subtracting can give a negative variance); underflow and overflow |
| C82 | `unstack` of `CentralMomentsData` over a `DataArray`, with `stack` as in C65 | xarray by contract: labels are replaced by their numbers in each level, and the array is filled at the numbers of each position; where an entry is found is shown for all coordinates (`unstack_ok`), and the positions written by `stack` meet every tuple of numbers exactly once (`exists_unravel`, `unravel_inj`) | levels with the name of a dimension; labels that do not appear (removed by pandas before); `sparse`; several stacked dimensions at once; `Dataset` |
| C83 | `sel` of `CentralMomentsData` over a `DataArray` | xarray and pandas by contract for labels that differ from each other: labels are looked up, then `isel` as in C65. The statement speaks of labels only (`LabelAsked`, `AskedAt`), with existence and uniqueness of the record asked for (`asked_unique`) | labels that appear twice; dimensions without labels, where xarray takes labels for positions; slices with missing ends; `method`, `tolerance`; multi-dimensional indexers; `Dataset` |
| C84 | `isel`, `stack`, `unstack` and `reduce_data` over a `DataArray`, in pairs | no new model: the models of C57, C65 and C82 composed. The records met along the reduced dimensions are shown to be the same lists, in the same order (`records_rearranged`), so the kernel is arbitrary and the equality holds for rounded arithmetic too | empty selections (the reduction of an array with an empty dimension is refused by the reshape in the model of C57); `Dataset` |
| C85 | `cumulative`, `resample_data`, `jackknife_data`, `reduce_data_grouped`, `reduce_data_indexed`, `rolling_data`, `rolling_exp_data` over a `DataArray`, each together with `isel` | no new model: the models of C57 and C65 composed. One lemma for all calls whose result at `c` depends on the records along the dimension, the place along it and the moment (`isel_along`); dimension given by name, since selecting can change its number | `alpha` of `rolling_exp_data` given as an array with several dimensions; `Dataset` |
| C86 | `bootstrap_confidence_interval` for NumPy arrays with any number of axes: `expand_dims`, `squeeze`, comparison and arithmetic by broadcasting, `_compute_a`, `_percentile_of_score`, `_compute_z0`, the levels of `bca`, `_quantile_along_axis` with its loop, `np.moveaxis(…, -1, 0)` | `Model/IntervalNd.lean`. Proved by reading every intermediate array at a place: the row the loop fills there is the interval of C45 for the numbers there (`row_eq`), and the loop succeeds iff every row does. Corollaries name the quantiles of `Spec/Interval.lean`. Found: a single number as `theta_hat` is refused (`AxisError`) for three or more axes when `axis >= 2` (`C86_number_as_estimate`) | broadcasting that would repeat `theta_boot`, dtypes, the warning (the labelled branch is C87) |
| C87 | `bootstrap_confidence_interval` for `DataArray`s (204-256): choice of the dimension, renaming of `theta_jack`, `apply_ufunc` with its core dimensions, `np.moveaxis(…, 0, -1)`, `transpose(ci_dim, ...)` | `Model/IntervalLabelled.lean`, with the contract of `apply_ufunc` of C57. The prepared arrays have the replicates last and meet the hypotheses of C86 (`applyCI_run`), so every place is that of C86; the rest tells which coordinates by name belong to it. Found: the labelled branch compares `method` as written, so `"BCa"` gives no estimates to the inner function, which lowers the case and raises `ValueError` (`C87_method_case`) | coordinates (`assign_coords`), attributes, dask, `Dataset`, inputs with fewer dimensions than the others |

## 5. Trusted base

* Lean 4.33.0 kernel; axioms at most `propext`, `Classical.choice`, `Quot.sound`. `AXIOMS.md` lists the axioms of every theorem named in
  `MANIFEST.json`; it is written by `tools/axioms.py` from `#print axioms`.
* The reading of the Python text into Lean definitions (each definition cites its lines).
* Behaviour of libraries, used by contract and visible as definitions in `Verif/Model`:
  * elementwise float arithmetic is replaced by exact field arithmetic;
  * a generalised ufunc called with `axes=` finds core dimensions on these axes, broadcasts loop axes from the end, and calls the core
    kernel independently for every loop position (`Model/Gufunc.lean`); it refuses to broadcast an operand it writes to;
  * `np.moveaxis`, `np.transpose`, `reshape`, `np.pad`, basic and fancy indexing as documented;
  * `argsort` returns a sorting permutation; `np.unique` the sorted distinct values with first positions and counts;
    `pd.factorize(sort=True)` ranks distinct non-missing values; `np.quantile(method="linear")` interpolates order statistics;
  * `Generator.choice`, `shuffle`, `integers` return some value of the documented shape and range;
  * xarray `transpose(..., missing_dims="ignore")`, `rename`, and `apply_ufunc`: which dimensions it loops over, how it arranges its inputs
    (missing loop dimensions become axes of size one, leading ones are dropped), which results it accepts and how it names their
    dimensions (`unifiedDims`, `compatData`, `wrapResult` in `Model/LabelledNd.lean`);
  * a parallel loop runs its positions as threads whose single reads and writes of array cells are atomic and sequentially consistent;
  * `math.erf` is the error function.
* **Not modelled**: floating point beyond C75 (overflow, nan arithmetic, `fastmath`, and rounding outside of the compiled kernels), dask laziness, xarray coordinates beyond C74 and attributes, numba
  compilation, random number generation itself, formatting/docstrings/typing, `compile.py`.

### What is modelled, file by file

`python3 tools/coverage.py` lists, for every function of `/repo/src/cmomy`, the model files whose comments cite its lines. In short:

| code | modelled | not modelled |
|------|----------|--------------|
| `_lib/_push*.py`, `_binomial.py`, `push*.py`, `resample*.py`, `indexed*.py`, `_rolling*.py`, `rolling*.py`, `convert*.py`, `utils.py` | every function. The `*_parallel.py` twins differ from the serial files only in the decorator's `parallel=True` and are covered by C50. With rounding: `_push.py`, `_push_cov.py` and the loops (C75) | numba signatures, `fastmath` |
| `factory.py`, `options.py`, `random.py` | all | |
| `_lib/decorators.py` | thread-pool test, target selection | caching and compile flags |
| `core/prob.py` | all | |
| `core/array_utils.py` | axis normalisation, `moveaxis_order`, `asarray_maybe_recast`, `select_dtype` | chunk handling |
| `core/validate.py`, `core/moment_params.py` | everything about array parameters; `MomParamsXArray` made from arguments | `Dataset` beyond the rule that dimensions are named, and the parameters of the functions of C73 |
| `core/prepare.py` | `prepare_data_for_reduction`, `prepare_values_for_reduction`, `prepare_secondary_value_for_reduction`, `prepare_out_from_values`, `get_axes_from_values`, `xprepare_values_for_reduction`, `xprepare_secondary_value_for_reduction`, views of a given labelled `out`, conversions of data types | a given `out` of the array functions other than `reduce_data` |
| `reduction.py`, `resample/resample.py`, `rolling.py`, `convert.py` | array branches with `out=None` (n-dimensional, any axis); `out=` of `reduce_data`; `DataArray` branches with or without `out=` of the shape of the result; dimension names of `Dataset` results, and the `Dataset` branches for central moments; coordinates of `DataArray` results of data | coordinates of `*_vals` and `Dataset` results, `keep_attrs`, dask, `out=` of the other array branches or of another shape |
| `resample/sampler.py`, `confidence_interval.py` | all but formatting | coordinates, attributes, dask and `Dataset` in the labelled branch of `bootstrap_confidence_interval` (204-256) |
| `utils.py` | `moment_indexer`, `select_moment`, `assign_moment`, `vals_to_data` | |
| `wrapper/wrap_abc.py`, `wrap_np.py` | construction, operators, pushes, views, copies, statistics, rearranging (`reshape`, `moveaxis`, `take`, ...), collecting (`reduce`, `cumulative`, resampling, jackknife), indexing, iterating, `concat`, `to_dataarray` | keys with several lists |
| `wrapper/constructors.py` | all but options for data types and memory | `Dataset`, `fastpath`, `out=` given |
| `wrapper/wrap_xr.py` | for `DataArray` objects: pushes, selection by position, iterating, `transpose`, `stack`, `rename`, `moveaxis`, `concat`, conversion to comoments, `to_array`, `zeros`, collecting (`reduce`, `cumulative`, resampling, jackknife), `+`, `-`, `*`, statistics, `select_moment`, `assign_moment`; coordinates after `reduce`; `to_dataset`, `to_dataarray` | other coordinates, `sel`, `unstack`, other methods for `Dataset`, the rest |
| `compile.py`, `core/formatting.py`, `core/docstrings`, `core/typing*` | | all |

## 6. Disagreements found between expected properties and the code

Each item is a theorem about the model where one is named; the rest was found while reading.

* Rolling sums with weights of mixed sign can drop the whole window (`C25_mixed_signs_wrong`).
* `rolling_exp_*` with `alpha = 0` and `adjust=False` divides zero by zero (`C29_alpha_zero_undefined`).
* `cumulative` is not invertible at rows of total weight zero (`C24_zero_weight_row_not_invertible`).
* The first drawn/indexed sample is copied, not pushed, so a sample of weight zero leaves its moments behind
  (`C20_zero_weight_draw_copies_first`, `C32_zero_weight_first_copies`).
* `_validate_index` refuses some usable index arrays (`C35_too_strict`); `scale` of wrong length is refused only by NumPy (`C32_wrong_scale_length`).
* `freq_to_index_start_end_scales` with a negative frequency reads uninitialised entries (`C36_negative_frequency_reads_garbage`).
* Imaginary axis numbers name the wrong value axis unless the moment axes are last (`C38_imaginary_wrong_for_leading_moments`).
* `reduce_data` refuses an empty kept axis (`C39_empty_kept_axis_rejected`) and with no axis ignores `axes_to_end` (`C39_no_axis`).
* `set_options` blocks that overlap without nesting do not restore the options (`C41_overlapping_not_restored`).
* Cached factories keep the kernel chosen for the first thread-safety answer (`C43_factory_stale_parallel`, `C43_factory_stale_serial`).
* `a += a[::-1]` depends on NumPy buffering overlapping operands (`C44_shifted_overlap_differs`).
* Basic intervals with unsymmetric explicit levels are labelled wrongly (`C45_basic_unsymmetric_levels_wrong`); an unknown `method` silently means
  percentile; bca does not refuse levels outside [0, 1].
* `IndexSampler` given both tables does not compare them (`C46_both_tables_unchecked`); with `fastpath=True` and none it recurses
  (`C46_fastpath_recurses`); `factory_sampler(freq=..., shuffle=True)` loses `shuffle` (`C46_factory_shuffle_lost`); the labelled `from_data` ignores
  `replace` (`C46_labelled_ignores_replace`); `replace=False` with two or more replicates fails at the default size (`C46_no_replacement_fails`).
* Renaming the replicate dimension onto an existing one is a `ValueError` from xarray (`C47_collision`).
* A moment extent of one is accepted as order zero (`C48_shape_one_gives_order_zero`, `C48_order_zero_reaches_kernel`); axes and names of moments are not
  checked (`C48_axes_unchecked`, `C48_dims_unchecked`); `MomParams(ndim=2)` with `axes` ignores them (`C48_axes_silently_ignored`).
* `nmax` is not enforced when orders are validated and the table is built once at import (`C49_not_enforced`).
* An output that aliases itself (stride zero) races (`C50_shared_output_races`).
* `ndtri` returns uninitialised memory outside [0, 1] (`C53_outside`) and jumps by about 4e-9 at p = 0.02425 (`C53_jump`).
* `moments_type` with `order="C"` or `"F"` and `axes_to_end=True` allocates its result with the shape of the input and fails unless the shapes coincide
  (`C55_moments_type`).
* Labelled `reduce_data(axis=None)` is a `ValueError` unless the moment dimensions come last, although `dim=None` works
  (`C57_select_many`, `C57_reduce_axis_none`).
* `jackknife_data` without `data_reduced` fails on an empty kept axis (through `reduce_data`).
* Labelled `reduce_data_indexed` with `coords_policy="first"` reads `index[group_start]`, an `IndexError` when a last group is empty and
  `group_start == len(index)`.
* `alpha` with more loop dimensions than the data enlarges the result of `rolling_exp_data`.
* `rolling_exp_vals` refuses an array of decay constants that is wider than values and weight (`C54_rolling_exp_alpha_wider`), although the
  same array as a weight widens the result. Whether NumPy also refuses when the only new axes are leading
  ones of size one is not settled: the model marks this case `undefined` (`widenError`) and no theorem speaks about it.
* For labelled objects `assign_moment`, `*`, `cmom`, `rmom` and `to_raw(weight=...)` move the moment dimensions to the end, `to_raw()` does not
  (`C67_assign`, `C67_mul`, `C67_to_raw`).
* `assign_moment(ave=DataArray)` for comoments without `dim_combined` matches by position: a dimension of the object that happens to have two places is
  taken for the two variables (example below `C67_assign_mismatch`).
* An array without names that is passed along with labelled values is matched by position with all dimensions of the call. When a
  labelled weight has a dimension that `x` lacks, a plain `y` of the shape of `x` is matched with that dimension instead of the one
  of `x` (`C58_plain_shifted`, with an example where the sizes agree so that nothing is refused).
* The value functions allocate the moments last whatever axes `mom_params` gives, and hand these axes to the gufunc
  (`C54_mom_axes_not_last`).
* The default `axis=-1` of the object methods `resample`, `resample_and_reduce` and `jackknife_and_reduce` names the last moment axis. The
  latter two always refuse it; `resample` accepts it when there are as many indices as moments and then permutes the moments of every cell
  (`C60_resample_default_axis`). `axis=-1j` names the last value axis.
* `moveaxis` with a moment axis that is not last moves other axes around it, so that the moment axis may change its place without being named
  (example after `C60_axes_to_end`); with `axes_to_end=True` the moment axes always come last.
* `wrap_raw(raw, mom_axes=...)` leaves the moment axes where they are, so the object need not have them last (`C62_wrap_raw_keeps_axes`); `wrap`
  moves them (`C62_wrap`).
* `vals_to_data(x, weight=w)` gives a list of weights to the last axis, `wrap_reduce_vals(x, weight=w, axis=0)` to the sample axis; for square `x`
  both accept it and disagree (`C62_weights_align_differently`).
* Indexing an array object only checks that the last axes of the result have the sizes of the moment axes. `c[..., k]` is accepted when the last
  value axis happens to have that size, and mixes the `k`-th moments of neighbouring cells into one record (`C63_moment_index_accepted`);
  `c[..., ::-1]` reverses the moments of every cell (`C63_moments_reversed`).
* `concat` accepts the moment axis, and takes it by default for objects without value axes: the result has the moments of the second object
  as further moments of the first (`C63_concat_moment_axis`). It also joins an object of comoments to one of moments (`C63_concat_mixed`).
* `concat` of labelled objects takes the last dimensions of the joined array for the moment dimensions. When the first object has them
  elsewhere, the outcome silently has other moment dimensions (`C69_concat_takes_last`). Moment dimensions may be joined, too
  (`C69_concat_moment_dim`), and `axis` is not looked at when `dim` is a new name (`C69_concat_new`).
* A list of weights without names is matched with the sample dimension by `wrap_reduce_vals`, but with the last dimension by `vals_to_data`. If both
  have the same size, `vals_to_data` followed by `reduce` silently weights other samples (last examples of `Props/LabelledMake.lean`; for labelled
  weights the two agree, `C70_two_ways`).
* `mom_dims=("mom", "mom")` is accepted as the names of two moment dimensions (example beside `C70_names_object`).
* The value functions convert further arguments that are not an `ndarray` to the type of the first argument if that is one, not to the
  type of the result (`prepare_values_for_reduction`, `dtype=target.dtype`; `C77_imposed`). For an array of integers
  `reduce_vals(x, weight=0.5, dtype=float)` therefore counts nothing and returns zeros (`C77_reduce_nothing`), `c.push_vals(x, weight=0.5)`
  leaves `c` as it is (`C77_push_nothing`) and `rolling_exp_vals(x, alpha=0.3, dtype=float)` runs with `alpha=0` (`C77_integers`). For
  truth values every weight other than zero counts as one (`C77_booleans`). `push_val`, `vals_to_data` and the functions on
  labelled arrays do not do this (`C77_push_val`, `C77_vals_to_data`, `C77_labelled`).
* `CentralMomentsArray([1, 2, 3], mom_ndim=1)` is refused, since a list of integers is not made an array of floats
  (`C77_construct_refused`).
* `to_dataarray` of an object over a `Dataset` repeats a variable without moment dimensions along them, so that its number stands for weight,
  average and variance of a record (`C78_no_moments`). The reductions of a `Dataset` copy such variables instead (C73).
* `construct_rolling_window_array` of an array ignores `mom_params` (`C71_array_mom_params`): with `mom_params={"ndim": 1}` and `axis=None` the moment axis
  is rolled as well, with `mom_ndim=1` it is not (example beside it).
* `rolling_data` and `rolling_vals` with `center=True` and a window of three or more refuse an `out` of the shape of the result (`C72_rolling_center`,
  `C72_rolling_vals_center`): the data are padded first, and `out` is used for the padded result.
* `resample_vals`, `jackknife_vals`, `rolling_vals` and `rolling_exp_vals` with weights that have a dimension of their own write the numbers to `out` in
  another order of dimensions than the result has (`C72_resample_vals_extra`), silently if the sizes allow it; with `axes_to_end=True` they do not.
* `reduce_data` with nothing to reduce over leaves `out` as it was (`C72_reduce_nothing`, `C72_reduce_array_nothing`).
* Iterating over an object without value axes raises `ValueError` and not `TypeError` (`C63_iter_scalar`).
* `push_vals` of a labelled object with plain `x` drops the names of a labelled `weight` or `y` and matches them by position
  (`C64_push_vals_plain`).
* A labelled argument with an additional dimension of size one is accepted by the pushes of a labelled object that has value dimensions, and
  adds the dimension to the object (example after `C64_push_val_refused`); of any other size it is refused.
* Every push onto a labelled object moves its moment dimensions to the end (`C64_push_val`, `UpdatedNamed.dims`).
* `push_vals` and `push_datas` along a dimension that the object has, too, raise `ValueError` (`C64_push_vals_refused`,
  `C64_push_datas_refused`): no record is combined with the samples at its own coordinate.
* `to_array` of a labelled object takes the last dimensions for the moment dimensions (`C65_to_array_by_position`). If the moment dimensions are
  elsewhere, the result is an object whose records are mixtures, and nothing is refused (example after `C65_to_array_by_position`).
* `transpose()` of a labelled object without arguments raises `ValueError` unless there are only moment dimensions
  (`C65_transpose_incomplete`); `xarray` would reverse the dimensions.
* `rename` of a moment dimension is accepted, but the object still looks for the old name, so that selecting and rearranging are refused from
  then on (`C65_rename_moment_breaks`).
* `isel` and `[...]` along a moment dimension are accepted when its size stays: `c.isel(mom=[0, 2, 1])` exchanges the mean and the variance
  (`C65_isel_entries`, example).
* A labelled object whose first dimension is a moment dimension cannot be iterated (`C65_iter_moment_first`).
* `to_x(dims=..., mom_dims=...)` ignores `mom_dims` when `dims` names all dimensions (`C65_to_x`).
* `obj.reduce(dim, by=labels)` of a labelled object with the default `coords_policy` does not compare the number of labels with the size of the
  dimension: with fewer labels the cells at the end are left out, and surplus labels that are missing or negative are accepted (`C66_reduce_by`,
  example with two labels for three places). With `coords_policy="group"`, and for array objects, both are refused (`C66_reduce_by_code_refused`).
* With the default policy only groups that occur have a place in the result; with the others, all numbers from zero to the highest have one
  (`C66_reduce_by`, `C66_reduce_by_code`).
* `axes_to_end` has no effect on `reduce` without `by` and `block` (`C66_reduce`).
* `+` and `-` of labelled objects move the moment dimensions to the end, whatever their place was (`C66_add`), and take a second object with
  fewer dimensions for each coordinate of the missing ones, so that its samples are counted repeatedly.
* `cumulative`, `reduce_data_grouped` (without `group_dim`) and `rolling_data` of a `Dataset` with a `dim` that no variable has hand the data
  back unchanged (`C73_unknown_dim`, `C73_grouped`, `C73_rolling_data`: no variable has the dimensions, so all are copied); `reduce_data`
  refuses it (`C73_reduce_unknown`), `reduce_data_indexed` and `rolling_exp_data` fail on the size (`C73_indexed`, `C73_rolling_exp_plain`).
* For a `Dataset`, `reduce_data_grouped`, `reduce_data_indexed` and `reduce_data(keepdims=True)` fail when a variable without the moment
  dimensions has the sample dimension, unless the number of groups happens to be the number of samples (`C73_grouped`, `C73_indexed`,
  `C73_reduce_data`).
* Variables that are only copied have their dimensions reordered by `reduce_data` and `resample_data` (sample dimension first), and renamed by
  `group_dim` and `rep_dim` (`C73_reduce_data`, `C73_resample_data`, `C73_grouped`).
* `resample_data(ds, paired=False)` fails when two or more variables are to be resampled and another variable is not (`C73_unpaired`).
* `reduce_data(ds, dim=None, axis=...)` ignores `axis`.
* `obj.reduce(by=..., coords_policy="first")` need not take the labels of the first sample of a group: the samples are grouped with
  `np.argsort` without `kind`, which is not stable, so any sample of the group may come first (`C74_first_unstable`; with a stable sort
  `C74_reduce_by` gives the first and the last).
* `coords_policy=None` is documented to drop the coordinates along the dimension. With `block`, or with `by` the name of a coordinate,
  labels are assigned as for `"group"` (`C74_block_group`, `C74_by_coord_group`). Conversely `"group"` with `by` as an array and no `groups`
  assigns nothing (`C74_grouped`).
* `reduce_data_indexed(coords_policy="last")` gives an empty group that ends at place `0` the labels of the last entry of `index`, a sample
  of another group; any other empty group gets those of the sample before it. With an empty `index` and groups, the labelled call fails on
  the labels though the array call returns zeros (`C74_indexed`).
* `obj.reduce(by=..., groups=...)` ignores `groups` for the policies `"first"` and `"last"` (`C74_reduce_by`).
* After `jackknife_data` the dimension of replicates carries the labels of the samples left out (`C74_jackknife_data`).
* Rolling averages subtract the sample that leaves the window, so that rounding can make a variance negative: the samples 1, 2, 2 with
  window 2 have variance `-3 / 2 ** 56` in the last window in double precision (`C75_rolling_negative`), and `std` is then nan. The same for
  leaving one sample out (`C75_jackknife_negative`). Adding samples never does that (`C75_variance`).
* With rounding the average of samples of different sign can lie outside of their range (`C75_average_outside`).
* `bootstrap_confidence_interval` raises `AxisError` for a number as `theta_hat`, which its annotation allows, when the replicates have three
  or more axes and `axis >= 2` (`C86_number_as_estimate`).
* For labelled input `bootstrap_confidence_interval` compares `method` as written, for arrays it ignores the case: `"BCa"` works for arrays
  and raises `ValueError` (estimates missing, although given) for `DataArray`s (`C87_method_case`).

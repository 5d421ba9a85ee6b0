{"id": "C01", "title": "Accumulating weighted values gives the exact weighted central moments", "statement": "Starting from zeros and accumulating any finite stream of (value, weight) pairs gives, in exact arithmetic, entry 0 = total weight, entry 1 = weighted mean and entry n = weighted central moment of order n for every 2 <= n <= mom, for any mom >= 1; it holds for all non-negative weights with positive total and for signed weights whenever no non-zero-weight push leaves a zero running weight.", "quantifier": "all streams (any length), all values, all admissible weights, all orders mom >= 1", "why_tests_cant": "The update is an in-place one-pass recurrence; a wrong binomial, sign or read-after-write at one order only shows for particular orders and data, and length and order are unbounded.", "anchors": ["src/cmomy/_lib/_push.py:push_val", "src/cmomy/_lib/push.py:push_val", "src/cmomy/_lib/push.py:reduce_vals", "src/cmomy/reduction.py:reduce_vals", "src/cmomy/wrapper/wrap_np.py:CentralMomentsArray.push_vals"]}
{"id": "C02", "title": "Accumulating weighted pairs gives the exact weighted comoments", "statement": "Starting from zeros and accumulating any stream of (x, y, weight) triples gives entry (0,0) = total weight, (1,0) and (0,1) = the two means and entry (i,j) = the weighted mean of (x-xave)^i (y-yave)^j for every other i <= mom0, j <= mom1.", "quantifier": "all streams, all values, admissible weights, all orders (mom0, mom1) with both >= 1", "why_tests_cant": "Four nested loops with running products and in-place descending updates; the skipped entries depend on (mom0, mom1).", "anchors": ["src/cmomy/_lib/_push_cov.py:push_val", "src/cmomy/_lib/push_cov.py:reduce_vals", "src/cmomy/reduction.py:reduce_vals"]}
{"id": "C03", "title": "Merging two moment arrays equals the moments of the concatenated samples", "statement": "If array A holds the moments of samples S and array B the moments of samples T, then pushing A into B yields the moments of S and T together, for 1-variable moments and comoments, whenever the combined weight is non-zero or A has zero weight.", "quantifier": "all sample lists S, T, all orders", "why_tests_cant": "Merging is a separate formula from single-value pushing; exactness over all pairs and orders is an algebraic identity, not a sample.", "anchors": ["src/cmomy/_lib/_push.py:push_data", "src/cmomy/_lib/_push_cov.py:push_data", "src/cmomy/wrapper/wrap_abc.py:CentralMomentsABC.__add__", "src/cmomy/wrapper/wrap_np.py:CentralMomentsArray.push_data"]}
{"id": "C04", "title": "Reduction does not depend on order or chunking", "statement": "Reducing a sequence of moment arrays gives the same result for every permutation of the sequence and for every way of splitting it into chunks reduced separately and then merged (any merge tree), when weights are non-negative.", "quantifier": "all sequences, all permutations, all binary merge trees, all orders", "why_tests_cant": "There are factorially many orders and Catalan-many trees; floating tests compare only a few with tolerance.", "anchors": ["src/cmomy/_lib/push.py:reduce_data", "src/cmomy/_lib/push.py:reduce_data_fromzero", "src/cmomy/_lib/push_cov.py:reduce_data_fromzero", "src/cmomy/reduction.py:reduce_data"]}
{"id": "C05", "title": "Zero-weight data never influences a result", "statement": "Pushing a value or moment array of weight zero (whatever its other entries) leaves the accumulator unchanged, so inserting zero-weight samples anywhere in a stream does not change reductions.", "quantifier": "all accumulators, all zero-weight records, all insertion positions", "why_tests_cant": "The ignored entries range over everything, including garbage used as missing-data filler.", "anchors": ["src/cmomy/_lib/_push.py:push_val", "src/cmomy/_lib/_push.py:push_data", "src/cmomy/_lib/_push_cov.py:push_data", "src/cmomy/core/missing.py"]}
{"id": "C06", "title": "Subtracting what was added restores the accumulator", "statement": "(A + B) - B equals A in every entry whenever the weights of A and of A+B are non-zero; likewise pushing with scale -1 undoes pushing.", "quantifier": "all moment arrays A, B with w(A) != 0 and w(A)+w(B) != 0, all orders", "why_tests_cant": "Jackknife, rolling windows and inverse cumulation all rely on this inverse law for arbitrary inputs.", "anchors": ["src/cmomy/_lib/_push.py:push_data_scale", "src/cmomy/_lib/_push_cov.py:push_data_scale", "src/cmomy/wrapper/wrap_abc.py:CentralMomentsABC.__sub__", "src/cmomy/wrapper/wrap_abc.py:CentralMomentsABC.__isub__"]}
{"id": "C07", "title": "A scaled push equals pushing the array with its weight multiplied, and an integer scale equals repetition", "statement": "Pushing data with scale s gives the same as pushing data whose weight entry is multiplied by s; for natural k (non-negative weights) it equals pushing the data k times; A*s multiplies only the weight.", "quantifier": "all arrays, all scales, all k", "why_tests_cant": "k and the orders are unbounded and the scaled kernel is a separate copy of the formula.", "anchors": ["src/cmomy/_lib/_push.py:push_data_scale", "src/cmomy/_lib/_push_cov.py:push_data_scale", "src/cmomy/wrapper/wrap_abc.py:CentralMomentsABC.__mul__", "src/cmomy/wrapper/wrap_abc.py:CentralMomentsABC.__imul__"]}
{"id": "C08", "title": "Lower moments do not depend on the requested maximum order", "statement": "Accumulating with maximum order m and with a larger order n gives identical entries 0..m (comoments: identical entries in the common rectangle).", "quantifier": "all streams, all pairs of orders m <= n", "why_tests_cant": "Early-return for order 1 and order-dependent loop bounds create special cases for each pair of orders.", "anchors": ["src/cmomy/_lib/_push.py", "src/cmomy/_lib/_push_cov.py"]}
{"id": "C09", "title": "Exactly when an accumulation has no finite result", "statement": "Accumulating a stream divides by zero if and only if some non-zero-weight push brings the running weight to exactly zero; with non-negative weights this never happens.", "quantifier": "all streams of signed weights; all streams of non-negative weights", "why_tests_cant": "The failing set has measure zero so sampled tests never hit it.", "anchors": ["src/cmomy/_lib/_push.py", "src/cmomy/_lib/_push_cov.py"]}
{"id": "C10", "title": "Shift, scale and weight-scale equivariance", "statement": "Replacing every value x by a*x+b maps the mean to a*mean+b and central moment n to a^n times itself; multiplying all weights by a non-zero constant multiplies only the weight entry.", "quantifier": "all streams, all a, b, all orders", "why_tests_cant": "A metamorphic law over all affine maps.", "anchors": ["src/cmomy/_lib/_push.py:push_val", "src/cmomy/_lib/push.py:reduce_vals"]}
{"id": "C11", "title": "Variance sign and covariance bound", "statement": "For non-negative weights with positive total, the reported variance and every even central moment are >= 0, the variance is 0 exactly when all positively weighted values coincide, and cov^2 <= xvar*yvar.", "quantifier": "all streams of non-negative weights over an ordered field", "why_tests_cant": "An inequality over all inputs; std takes a square root of it.", "anchors": ["src/cmomy/wrapper/wrap_abc.py:CentralMomentsABC.var", "src/cmomy/wrapper/wrap_abc.py:CentralMomentsABC.std", "src/cmomy/wrapper/wrap_abc.py:CentralMomentsABC.cov", "src/cmomy/_lib/_push_cov.py"]}
{"id": "C12", "title": "Adding an object to itself in place is safe", "statement": "When the array being pushed and the accumulator are the same memory (a += a, a.push_data(a.obj)), the in-place update still yields doubled weight and unchanged other entries.", "quantifier": "all arrays with non-zero weight, all orders", "why_tests_cant": "An aliasing hazard: reads and writes interleave in the same buffer at every order.", "anchors": ["src/cmomy/_lib/_push.py:push_data", "src/cmomy/_lib/_push_cov.py:push_data", "src/cmomy/wrapper/wrap_abc.py:CentralMomentsABC.__iadd__"]}
{"id": "C13", "title": "Kernels touch only the moment entries they own", "statement": "A push of order mom reads and writes only entries 0..mom (0..mom0 x 0..mom1) of its arrays, and never changes the pushed data.", "quantifier": "all orders >= 1, all arrays", "why_tests_cant": "An out-of-bounds read in compiled code usually returns plausible memory and passes tests.", "anchors": ["src/cmomy/_lib/_push.py", "src/cmomy/_lib/_push_cov.py"]}
{"id": "C14", "title": "Central and raw moments convert exactly and round-trip", "statement": "Converting the central moments of a sample to raw moments gives the weighted raw moments; converting back (raw then central, central then raw) is the identity, for every order and every array.", "quantifier": "all arrays, all orders >= 1", "why_tests_cant": "The closing term of the loop differs between directions and orders.", "anchors": ["src/cmomy/_lib/convert.py:central_to_raw", "src/cmomy/_lib/convert.py:raw_to_central", "src/cmomy/convert.py:moments_type", "src/cmomy/wrapper/wrap_abc.py:CentralMomentsABC.to_raw"]}
{"id": "C15", "title": "Central and raw comoments convert exactly and round-trip", "statement": "Same as C14 for comoments, both directions.", "quantifier": "all matrices, all orders (mom0, mom1)", "why_tests_cant": "The two directions treat the order-one terms differently (one skips them, the other does not); correctness needs an identity.", "anchors": ["src/cmomy/_lib/convert_cov.py:central_to_raw", "src/cmomy/_lib/convert_cov.py:raw_to_central", "src/cmomy/convert.py:moments_type"]}
{"id": "C16", "title": "Moments and comoments of the same variable convert consistently", "statement": "moments_to_comoments of the moments of x equals the comoments of (x, x); comoments_to_moments inverts it on the retained orders; the mom argument resolution yields a pair with both entries >= 1 and sum at most the original order, or an error.", "quantifier": "all arrays, all orders, all mom arguments including negative placeholders", "why_tests_cant": "Shape arithmetic over all (mom0, mom1) and a semantic identity over all samples.", "anchors": ["src/cmomy/convert.py:_validate_mom_moments_to_comoments", "src/cmomy/convert.py:moments_to_comoments", "src/cmomy/convert.py:comoments_to_moments"]}
{"id": "C17", "title": "Swapping the two variables transposes the comoments", "statement": "Accumulating (y, x) instead of (x, y) with the orders swapped gives the transposed matrix; also at the level of merging arbitrary arrays.", "quantifier": "all streams, all arrays, all orders", "why_tests_cant": "Order-dependent loop bounds (a0_min, a1_min) are asymmetric in the code.", "anchors": ["src/cmomy/_lib/_push_cov.py"]}
{"id": "C18", "title": "Marginals of comoments are the one-variable moments", "statement": "The first column of the comoment array equals the moments of x alone and the first row the moments of y alone (xmom_0/ymom_0 selectors), for accumulation of values and for merges.", "quantifier": "all streams, all orders", "why_tests_cant": "Two unrelated kernels must agree for all inputs.", "anchors": ["src/cmomy/_lib/_push_cov.py", "src/cmomy/_lib/_push.py", "src/cmomy/utils.py:moment_indexer"]}
{"id": "C19", "title": "Frequencies and indices are two views of one resample", "statement": "freq_to_indices then indices_to_freq returns the original table; indices_to_freq then freq_to_indices returns the sorted indices; each frequency row sums to the number of drawn samples and each index is < ndat; inconsistent rows are rejected.", "quantifier": "all tables of non-negative integers, all index tables within range", "why_tests_cant": "Tables of every size, including rows of zeros.", "anchors": ["src/cmomy/_lib/resample.py:freq_to_indices", "src/cmomy/_lib/resample.py:indices_to_freq", "src/cmomy/resample/sampler.py:freq_to_indices", "src/cmomy/resample/sampler.py:indices_to_freq"]}
{"id": "C20", "title": "Resampling by frequency equals reducing the drawn samples", "statement": "For moment arrays, row r of resample_data equals the reduction of the multiset containing sample k freq[r,k] times; it also equals reducing data taken at the corresponding indices.", "quantifier": "all frequency tables, all data with non-negative weights and positive drawn weight, both moment dimensionalities", "why_tests_cant": "The kernel special-cases the first non-zero frequency; interactions with zero-weight rows are easy to miss.", "anchors": ["src/cmomy/_lib/resample.py:resample_data_fromzero", "src/cmomy/_lib/resample_cov.py:resample_data_fromzero", "src/cmomy/resample/resample.py:resample_data"]}
{"id": "C21", "title": "Resampling values equals resampling their moment arrays", "statement": "resample_vals with a frequency table equals accumulating each value with weight w*freq, and equals resample_data applied to the value-by-value moment arrays (when the drawn weight is positive).", "quantifier": "all tables, values, non-negative weights", "why_tests_cant": "Two different kernels and start-up rules must agree everywhere.", "anchors": ["src/cmomy/_lib/resample.py:resample_vals", "src/cmomy/_lib/resample_cov.py:resample_vals", "src/cmomy/resample/resample.py:resample_vals", "src/cmomy/utils.py:vals_to_data"]}
{"id": "C22", "title": "Jackknife rows are the leave-one-out reductions", "statement": "Row i of jackknife_data/jackknife_vals equals reducing all samples except i, and equals resampling with jackknife_freq; the row has no finite value exactly when sample i carries the entire non-zero weight.", "quantifier": "all data of any length, every i", "why_tests_cant": "Computed by subtraction from the total; equality with direct leave-one-out is an identity over all data.", "anchors": ["src/cmomy/_lib/resample.py:jackknife_data_fromzero", "src/cmomy/_lib/resample.py:jackknife_vals_fromzero", "src/cmomy/_lib/resample_cov.py", "src/cmomy/resample/resample.py:jackknife_data", "src/cmomy/resample/sampler.py:jackknife_freq"]}
{"id": "C23", "title": "Cumulative row i is the reduction of the first i+1 samples", "statement": "Row i of cumulative equals the reduction of rows 0..i of the input; the last row is the full reduction.", "quantifier": "all data of any length with non-negative weights, every i", "why_tests_cant": "An in-place prefix scan of unbounded length.", "anchors": ["src/cmomy/_lib/push.py:cumulative", "src/cmomy/_lib/push_cov.py:cumulative", "src/cmomy/convert.py:cumulative"]}
{"id": "C24", "title": "Inverse cumulative undoes cumulative", "statement": "cumulative(inverse=True) applied to cumulative(data) returns data when every weight is positive (more generally non-zero with non-zero partial sums); a zero-weight row after the first has no finite inverse or is not restored.", "quantifier": "all data of any length", "why_tests_cant": "The excluded zero-weight case is exactly the masked-data case users have.", "anchors": ["src/cmomy/_lib/push.py:cumulative_inverse", "src/cmomy/_lib/push_cov.py:cumulative_inverse", "src/cmomy/convert.py:cumulative"]}
{"id": "C25", "title": "Rolling window of moment arrays equals reducing the window", "statement": "Row i of rolling_data is the reduction of the window rows i-window+1..i clipped at 0 when the window holds at least max(min_periods,1) non-zero-weight rows and is missing otherwise.", "quantifier": "all data of any length with non-negative weights, every window >= 1, every min_periods, every i", "why_tests_cant": "State is updated incrementally by adding and subtracting; drift or a wrong reset shows only after particular histories.", "anchors": ["src/cmomy/_lib/_rolling.py:rolling_data", "src/cmomy/_lib/_rolling_cov.py:rolling_data", "src/cmomy/_lib/rolling.py:rolling_data", "src/cmomy/rolling.py:rolling_data"]}
{"id": "C26", "title": "Rolling window of values equals reducing the window and equals rolling_data of the values", "statement": "Same as C25 for rolling_vals, and equality with rolling_data applied to the single-value moment arrays.", "quantifier": "all values, non-negative weights, windows, min_periods", "why_tests_cant": "As C25.", "anchors": ["src/cmomy/_lib/_rolling.py:rolling_vals", "src/cmomy/_lib/_rolling_cov.py:rolling_vals", "src/cmomy/_lib/rolling.py:rolling_vals", "src/cmomy/rolling.py:rolling_vals"]}
{"id": "C27", "title": "Centred rolling windows are aligned", "statement": "With center=True, row i is the reduction of rows i - window//2 .. i + (window-1)//2 clipped to the data, with the same missing rule, and the output has as many rows as the input.", "quantifier": "all windows >= 1, all lengths including shorter than the window", "why_tests_cant": "Off-by-one alignment for even/odd windows and short inputs.", "anchors": ["src/cmomy/rolling.py:_rolling_data", "src/cmomy/rolling.py:_rolling_vals", "src/cmomy/rolling.py:_pad_along_axis"]}
{"id": "C28", "title": "Adjusted exponential averaging has its closed form", "statement": "With adjust=True, row i holds the moments of samples 0..i where sample j carries weight w_j * prod_{j<k<=i}(1-alpha_k); missing until min_periods valid samples were seen.", "quantifier": "all alpha sequences with 0 < alpha < 1 (and 0 <= alpha <= 1 where weights stay positive), all data with non-negative weights, every i", "why_tests_cant": "Recursive state over unbounded histories.", "anchors": ["src/cmomy/_lib/_rolling.py:rolling_exp_data", "src/cmomy/_lib/_rolling.py:rolling_exp_vals", "src/cmomy/_lib/_rolling_cov.py", "src/cmomy/rolling.py:rolling_exp_data", "src/cmomy/rolling.py:rolling_exp_vals"]}
{"id": "C29", "title": "Unadjusted exponential averaging has its recursive form", "statement": "With adjust=False, and non-zero weights throughout, the moments about any fixed point (weight times raw moment) satisfy y_0 = x_0, y_i = (1-alpha_i) y_{i-1} + alpha_i x_i; with gaps, the weights are renormalised over the decayed remainder.", "quantifier": "all alpha sequences in (0,1], all data, every i", "why_tests_cant": "Recursive state over unbounded histories with renormalisation.", "anchors": ["src/cmomy/_lib/_rolling.py:rolling_exp_data", "src/cmomy/_lib/_rolling.py:rolling_exp_vals", "src/cmomy/rolling.py:rolling_exp_data"]}
{"id": "C30", "title": "Exponential bias-correction factor", "statement": "rolling_exp variance bias correction at step i equals V1^2/(V1^2 - V2) with V1, V2 the first and second sums of effective weights in closed form, and is missing exactly when V1^2 <= V2.", "quantifier": "all alpha sequences, all weights, every i", "why_tests_cant": "Recurrence versus closed form over unbounded histories.", "anchors": ["src/cmomy/_lib/rolling.py:rolling_exp_var_bias_correction"]}
{"id": "C31", "title": "Grouped reduction equals reducing each group", "statement": "Row g of reduce_data_grouped equals the reduction, in order, of the samples labelled g; negative labels are ignored; groups without samples are all zeros; labels beyond the output are rejected.", "quantifier": "all label sequences, all data", "why_tests_cant": "Arbitrary interleavings of groups.", "anchors": ["src/cmomy/_lib/indexed.py:reduce_data_grouped", "src/cmomy/_lib/indexed_cov.py:reduce_data_grouped", "src/cmomy/reduction.py:reduce_data_grouped"]}
{"id": "C32", "title": "Indexed reduction equals reducing each listed selection, and agrees with grouped reduction", "statement": "Row g of reduce_data_indexed equals reducing data[index[k]] with weight scale[k] for k in start[g]..end[g]; with the index/start/end produced from labels it equals the grouped reduction over the same labels.", "quantifier": "all index tables accepted by validation, all labels, all data with non-negative weights", "why_tests_cant": "Two algorithms (hash-like grouping and argsort-based indexing) must agree for every labelling.", "anchors": ["src/cmomy/_lib/indexed.py:reduce_data_indexed_fromzero", "src/cmomy/_lib/indexed_cov.py", "src/cmomy/reduction.py:factor_by_to_index", "src/cmomy/reduction.py:reduce_data_indexed"]}
{"id": "C33", "title": "Block labels partition the samples into blocks", "statement": "block_by returns a label per sample; labels are non-decreasing after the dropped ones, each block 0..n//block-1 has exactly `block` samples, and the remainder is dropped or absorbed in the first/last block according to mode; block > n and unknown modes are errors, and block <= 0 or block == n puts everything in one block.", "quantifier": "all n, all block sizes, all modes", "why_tests_cant": "Off-by-one at remainders for all n and block.", "anchors": ["src/cmomy/reduction.py:block_by"]}
{"id": "C34", "title": "Group codes and the index form of a factorisation describe the same partition", "statement": "For integer or optional labels, factor_by gives code -1 exactly to missing (negative/None) labels and otherwise the rank of the label among the sorted distinct labels; factor_by_to_index lists, for each group, exactly the positions with that label.", "quantifier": "all label sequences", "why_tests_cant": "Arbitrary labels, gaps and missing values.", "anchors": ["src/cmomy/reduction.py:factor_by", "src/cmomy/reduction.py:factor_by_to_index"]}
{"id": "C35", "title": "Index validation is sound, and where it is too strict", "statement": "If validation accepts (index, start, end) for ndat samples, the kernel never reads outside its arrays; everything it rejects is out of range except empty groups starting at the end of the index, which are rejected although harmless.", "quantifier": "all integer index/start/end arrays", "why_tests_cant": "Boundary values of four inequalities.", "anchors": ["src/cmomy/reduction.py:_validate_index", "src/cmomy/_lib/indexed.py:reduce_data_indexed_fromzero"]}
{"id": "C36", "title": "Resampling through the indexed path equals resampling through frequencies", "statement": "Converting a non-negative frequency table to (index, start, end, scale) and using the indexed reduction gives the same rows as resample_data, whenever validation accepts it.", "quantifier": "all frequency tables, all data", "why_tests_cant": "Two independent code paths for the same user request.", "anchors": ["src/cmomy/_lib/utils.py:freq_to_index_start_end_scales", "src/cmomy/reduction.py:resample_data_indexed"]}
{"id": "C37", "title": "Axis moves are permutations that put the requested axes in place", "statement": "moveaxis_order(ndim, source, destination) is a permutation of the axes with the k-th source at the k-th destination and all other axes in their original relative order.", "quantifier": "all ndim, all distinct in-range sources and destinations", "why_tests_cant": "Insertion order subtleties for every combination.", "anchors": ["src/cmomy/core/array_utils.py:moveaxis_order", "src/cmomy/utils.py:moveaxis"]}
{"id": "C38", "title": "Axis normalisation is total on valid axes and rejects the rest", "statement": "normalize_axis_index maps exactly -ndim..ndim-1 onto 0..ndim-1 by wrap-around, interprets imaginary axes relative to the value (non-moment) dimensions, and rejects everything else; tuples are normalised elementwise without duplicates.", "quantifier": "all integers, all ndim, both moment dimensionalities", "why_tests_cant": "Boundary logic for all integers.", "anchors": ["src/cmomy/core/array_utils.py:normalize_axis_index", "src/cmomy/core/array_utils.py:normalize_axis_tuple", "src/cmomy/core/array_utils.py:positive_to_negative_index"]}
{"id": "C39", "title": "Reducing over several axes equals reducing the flattened samples", "statement": "Reducing over a set of axes equals reducing all samples at once whatever order the axes are listed in, and equals reducing one axis after another.", "quantifier": "all shapes, all axis sets, non-negative weights", "why_tests_cant": "Shapes and axis orders are unbounded.", "anchors": ["src/cmomy/reduction.py:_reduce_data", "src/cmomy/core/moment_params.py:MomParamsArray.axes_data_reduction"]}
{"id": "C40", "title": "Selecting and assigning moments obey the lens laws", "statement": "select after assign of a name returns the assigned value; assigning what was selected changes nothing; later assignments win; assigning one name leaves every unrelated entry unchanged; with copy the original is unchanged; unknown names are rejected.", "quantifier": "all moment arrays, all selector names, all values", "why_tests_cant": "All pairs of names and overlapping selectors.", "anchors": ["src/cmomy/utils.py:moment_indexer", "src/cmomy/utils.py:_select_moment", "src/cmomy/utils.py:_assign_moment"]}
{"id": "C41", "title": "Options set in a context are restored on exit", "statement": "For any properly nested sequence of set_options contexts the options after leaving a context equal those before entering it, an invalid keyword or value changes nothing, and only known keys ever exist.", "quantifier": "all nestings and option values, including exceptions", "why_tests_cant": "Unbounded nesting histories.", "anchors": ["src/cmomy/options.py:set_options"]}
{"id": "C42", "title": "Shared random generator history", "statement": "default_rng(None) returns the shared generator created by the last seeded call (creating one only if none exists); a Generator argument is returned untouched and never replaces the shared one; a seed always replaces it.", "quantifier": "all call histories", "why_tests_cant": "Stateful protocol over unbounded histories.", "anchors": ["src/cmomy/random.py:default_rng", "src/cmomy/random.py:validate_rng", "src/cmomy/random.py:set_internal_rng"]}
{"id": "C43", "title": "Turning the parallel option off is honoured", "statement": "After set_options(parallel=False), operations that pass through the heuristic use serial kernels whatever was called before; the memoised factories themselves may return a stale parallel kernel for a repeated request.", "quantifier": "all histories of option changes and calls", "why_tests_cant": "Cache staleness depends on histories.", "anchors": ["src/cmomy/factory.py:parallel_heuristic", "src/cmomy/factory.py:factory_pusher", "src/cmomy/factory.py:supports_parallel"]}
{"id": "C44", "title": "Moment objects behave like multisets of weighted samples", "statement": "Any program of zeros, zeros_like, copy, views (basic indexing), push_val(s), push_data(s), +=, -=, +, -, * and *= over any number of objects, including objects sharing memory and an object added to itself, leaves every object holding the moments of the corresponding signed-weight multiset of samples. Arguments of another class raise TypeError, of another moment shape or positions ValueError, and a raising operation changes no object. Operations with a fresh result do not change any existing array, in-place ones change only the target's (and its views'). An accepted operation fails to give a number exactly when a push with non-zero weight brings some position's weight to zero.", "quantifier": "all finite programs over any number of objects and memory sharing; overlapping operands are either buffered by NumPy or aligned cell on cell", "why_tests_cant": "Histories are unbounded and involve aliasing between objects.", "anchors": ["src/cmomy/wrapper/wrap_abc.py:CentralMomentsABC", "src/cmomy/wrapper/wrap_np.py:CentralMomentsArray"]}
{"id": "C45", "title": "Bootstrap percentile and basic intervals", "statement": "The percentile interval is monotone in the level (lower <= upper), lies between the smallest and largest replicate, is unaffected by the order of replicates and commutes with increasing affine maps; the basic interval is its reflection about the estimate and is ordered too.", "quantifier": "all replicate lists, all levels in [0,1], all estimates", "why_tests_cant": "Order statistics and interpolation over all data.", "anchors": ["src/cmomy/confidence_interval.py:bootstrap_confidence_interval", "src/cmomy/confidence_interval.py:_bootstrap_confidence_interval", "src/cmomy/confidence_interval.py:_quantile_along_axis"]}
{"id": "C46", "title": "A sampler's freq and indices always describe the same draw", "statement": "Whatever order the freq/indices/ndat/nrep attributes are read in, an IndexSampler keeps returning the same values, its freq is the count table of its indices, and objects built from freq, indices or parameters satisfy this; missing both is an error. (Given both tables, they are trusted and not compared.)", "quantifier": "all samplers, all read histories", "why_tests_cant": "Lazily cached attributes over arbitrary access orders.", "anchors": ["src/cmomy/resample/sampler.py:IndexSampler", "src/cmomy/resample/sampler.py:factory_sampler"]}
{"id": "C47", "title": "Dimension order of labelled results follows the template", "statement": "After an operation, result dimensions appear as: new dimensions first, then the template's dimensions in template order with removed ones deleted and renamed ones replaced; no dimension is lost or duplicated.", "quantifier": "all dimension lists, remove sets and renames", "why_tests_cant": "All dimension orders.", "anchors": ["src/cmomy/core/xr_utils.py:transpose_like", "src/cmomy/core/xr_utils.py:_transpose_like"]}
{"id": "C48", "title": "Moment and axis argument validation", "statement": "validate_mom accepts exactly 1 or 2 positive integers; moments -> shape -> moments is the identity and shape -> moments -> shape is the identity exactly for extents of at least 2; accepted parameters have 1 or 2 moment dimensions and as many axes or names; a moment object is built exactly when its moment axes are distinct axes of the array with at least 2 entries each, so its kernels never see order 0. (The functional interface does not make that check.)", "quantifier": "all integer arguments", "why_tests_cant": "Boundary logic for all integers.", "anchors": ["src/cmomy/core/validate.py:validate_mom", "src/cmomy/core/utils.py:mom_to_mom_shape", "src/cmomy/core/utils.py:mom_shape_to_mom", "src/cmomy/core/validate.py:validate_mom_axes"]}
{"id": "C49", "title": "The binomial table is correct and large enough exactly up to nmax", "statement": "Every entry of the binomial table equals the binomial coefficient. A kernel of order mom <= nmax (the option's value at import) reads only inside the table; for any larger order (above 2 for the one-variable pushers, above 1 for the one-variable conversions, which need no table below that) every effective call reads outside it. No validation enforces mom <= nmax.", "quantifier": "all n, k, all nmax, all mom, all data", "why_tests_cant": "Table bounds versus request bounds for all orders.", "anchors": ["src/cmomy/_lib/_binomial.py:factory_binomial", "src/cmomy/_lib/_push.py", "src/cmomy/core/validate.py:validate_mom"]}
{"id": "C50", "title": "Parallel kernels equal serial kernels under every schedule", "statement": "A call with parallel=True splits the outer (value) positions over threads that share memory. If different positions' output arrays share no memory and no input lies inside an output, then for every assignment of positions to threads and every interleaving of their loads and stores: the call cannot get stuck and cannot run forever, the final memory is exactly the one the serial loop leaves (whatever the arithmetic), each output equals what the kernel computes for that position alone, and at no moment is memory outside the outputs changed. The hypothesis is needed: with an output shared between positions (an `out` broadcast over the values) an update can be lost.", "quantifier": "all numbers of positions and threads, all assignments, all interleavings, all memories", "why_tests_cant": "Schedules are unbounded and not controllable in tests; a race shows up only rarely.", "anchors": ["src/cmomy/_lib/decorators.py:myguvectorize", "src/cmomy/_lib/push_parallel.py", "src/cmomy/_lib/push_cov_parallel.py", "src/cmomy/_lib/resample_parallel.py", "src/cmomy/_lib/indexed_parallel.py", "src/cmomy/_lib/rolling_parallel.py"]}
{"id": "C51", "title": "Value arrays turned into moment arrays reduce to the same result", "statement": "vals_to_data followed by reduce_data equals reduce_vals, for one and two variables, and each produced row is the exact moment array of a single weighted value.", "quantifier": "all values, weights, orders", "why_tests_cant": "Equality of two pipelines for all data.", "anchors": ["src/cmomy/utils.py:vals_to_data", "src/cmomy/utils.py:_vals_to_data", "src/cmomy/reduction.py:reduce_data", "src/cmomy/reduction.py:reduce_vals"]}
{"id": "C52", "title": "Block-averaging and resample-then-reduce pipelines keep total weight", "statement": "Reducing by blocks and then reducing the block results gives the full reduction (for expanding modes, or dropping modes restricted to kept samples); each operation's output weight equals the sum of the input weights it is documented to use.", "quantifier": "all data, all block sizes and modes", "why_tests_cant": "Composition of several independently tested steps.", "anchors": ["src/cmomy/wrapper/wrap_abc.py:CentralMomentsABC._block_by", "src/cmomy/reduction.py:block_by", "src/cmomy/reduction.py:reduce_data_grouped"]}
{"id": "C53", "title": "Normal quantile function of the bca interval", "statement": "cmomy.core.prob.ndtri(p) is defined for every p in [0,1] (-inf at 0, +inf at 1, finite between), is strictly increasing across its three branches including the seams, antisymmetric about 1/2, and 0 at 1/2; outside [0,1] it returns uninitialised memory. ndtr is the standard normal distribution function. With these functions the bca interval has finite ends unless the estimate is beyond all replicates, the jackknife values are all equal or a level hits the pole, and its ends are in the order of their levels.", "quantifier": "all real p; all replicates, estimates, jackknife values and levels", "why_tests_cant": "Monotonicity of a piecewise rational approximation over a continuum, with a seam of width 4e-9.", "anchors": ["src/cmomy/core/prob.py:ndtri", "src/cmomy/core/prob.py:ndtr", "src/cmomy/confidence_interval.py:_bootstrap_confidence_interval"]}
{"id": "C54", "title": "Values, weights and further values of any shape are matched as documented", "statement": "reduce_vals, resample_vals, jackknife_vals, rolling_vals and rolling_exp_vals take values x with any number of axes and a sample axis, and a weight, further values and (exponential case) decay constants that are each a number, one number per sample, or an array whose samples are as far from its end as those of x. The shapes with more than one axis are broadcast. At every index of the common shape the result is that of the one-dimensional operation applied to the samples the arrays contribute at that index; in particular reduce_vals returns the weight, mean and central moments of these samples. The sample axis is removed, or keeps its place, or with axes_to_end comes after the other axes; the moment axes are last. A call succeeds exactly when the number of arrays is right, the axis is in range, every array is usable and the shapes have a common shape (and the table fits); decay constants may not widen the result.", "quantifier": "all ranks, shapes, axis numbers, memory orders, both settings of axes_to_end, one and two variables, all orders, values, weights, tables, windows and decay constants", "why_tests_cant": "The combinations of rank, sample axis, kind of weight, broadcasting and axes_to_end are unbounded; a weight broadcast along the wrong axis of equal size gives plausible numbers.", "anchors": ["src/cmomy/core/prepare.py:83-175", "src/cmomy/core/prepare.py:356-396", "src/cmomy/reduction.py:251-328", "src/cmomy/resample/resample.py:551-627", "src/cmomy/resample/resample.py:1073-1245", "src/cmomy/rolling.py:756-856", "src/cmomy/rolling.py:1316-1431"]}
{"id": "C55", "title": "An operation along one axis acts on every slice on its own, wherever the axes are", "statement": "For an array of moments with any number of axes, any position of the moment axes and any sample axis, cumulative (and its inverse), resample_data, jackknife_data, reduce_data_grouped, reduce_data_indexed, rolling_data, rolling_exp_data and moments_type give, at every index, exactly the entry of the one-dimensional operation applied to the records met along the sample axis at that index. The axes of the result stay where they were, or with axes_to_end the sample axis and the moment axes come last, in that order; only the size of the sample axis changes. A table, label array or index that does not fit the length of the axis is refused with ValueError, an axis out of range with AxisError, a sample axis that is also a moment axis with ValueError. An array of decay constants is matched with the remaining axes from the end.", "quantifier": "all numbers of axes, sizes, positive and negative axis numbers, both settings of axes_to_end, one and two variables, all data, tables, labels, windows and decay constants", "why_tests_cant": "The tests run two or three shapes with a handful of axis choices; the number of combinations of rank, axis position, moment-axis position, negative numbering and axes_to_end is unbounded, and a wrong axis of equal size gives plausible numbers.", "anchors": ["src/cmomy/core/prepare.py:53-80", "src/cmomy/core/moment_params.py:273-300", "src/cmomy/convert.py:479-544", "src/cmomy/convert.py:256-298", "src/cmomy/resample/resample.py:301-346", "src/cmomy/resample/resample.py:787-950", "src/cmomy/reduction.py:1026-1097", "src/cmomy/reduction.py:1469-1563", "src/cmomy/rolling.py:482-574", "src/cmomy/rolling.py:1047-1168"]}
{"id": "C56", "title": "Pushing onto an array object of any shape", "statement": "For a CentralMomentsArray with any number of axes, push_val, push_vals, push_data (with or without scale) and push_datas change the record at every index exactly as the one-dimensional operation does with the numbers the arguments have there, the arguments being matched with the axes of the object from the end and axes of size one repeated; the shape of the object never changes. A call succeeds exactly when every argument fits that way and has the moment orders of the object (a wrong size is refused; whether NumPy also refuses new leading axes of size one is left open), and a sequence of calls succeeds exactly when each of its calls would succeed alone. Starting from zeros, after any mixture of calls with non-negative weights every entry is that of the weight, mean and central moments of all samples pushed at its index, whatever the order of the calls; pushing values onto zeros gives the entries of reduce_vals.", "quantifier": "all shapes of the object and of the arguments, sample axes, positions of the moment axes of an argument, all sequences of calls, one and two variables, all values and non-negative weights", "why_tests_cant": "The tests push onto objects of one or two shapes; the combinations of shapes, axis positions, broadcasting and call sequences are unbounded.", "anchors": ["src/cmomy/wrapper/wrap_np.py:364-576", "src/cmomy/wrapper/wrap_np.py:936-964", "src/cmomy/core/prepare.py:53-80", "src/cmomy/core/prepare.py:83-180", "src/cmomy/_lib/push.py", "src/cmomy/_lib/push_cov.py"]}
{"id": "C57", "title": "Operations on labelled arrays depend on dimension names only", "statement": "reduce_data (over any set of dimensions), cumulative, moments_type, resample_data, jackknife_data, reduce_data_grouped, reduce_data_indexed, rolling_data and rolling_exp_data of a DataArray, whatever the order in which it stores its dimensions and wherever the moment dimensions are, give at every combination of named coordinates what the one-dimensional operation gives for the records met along the chosen dimension at these coordinates. The result has the dimensions of the input in the same order (the reduced ones dropped or kept with size one, the sample dimension renamed to rep_dim or group_dim where asked), or with the sample and moment dimensions last when axes_to_end is set. A labelled alpha is matched by name. The sample dimension may be given by name, by number or by imaginary number; giving both or neither of axis and dim, None, a moment dimension, an unknown name or a number out of range is an error, and so are tables, labels, index arrays or scales of the wrong length.", "quantifier": "all DataArrays with any number and order of dimensions, all moment dimensions, all tables, labels, windows and decay constants, one and two variables", "why_tests_cant": "The tests transpose a few example arrays; orders of dimensions, positions of the moment dimensions and shapes are unbounded, and a misplaced transpose is invisible when sizes agree.", "anchors": ["src/cmomy/core/moment_params.py:497-631", "src/cmomy/reduction.py:434-541", "src/cmomy/reduction.py:964-1024", "src/cmomy/reduction.py:1382-1467", "src/cmomy/resample/resample.py:218-271", "src/cmomy/resample/resample.py:787-869", "src/cmomy/convert.py:215-254", "src/cmomy/convert.py:422-477", "src/cmomy/rolling.py:427-480", "src/cmomy/rolling.py:978-1108"]}
{"id": "C58", "title": "Labelled values and weights are matched by dimension name", "statement": "reduce_vals, resample_vals, jackknife_vals, rolling_vals and rolling_exp_vals of a DataArray x, with weight, further values and decay constants that are DataArrays or plain arrays, give at every combination of named coordinates what the one-dimensional operation gives for the samples met along the sample dimension at these coordinates: a labelled operand contributes the entry at those names, whatever the order of its dimensions and whichever of them x lacks; a number contributes the same to all samples and one number per sample the same to all coordinates; a plain array of the shape of x contributes as if it had x's names, provided no labelled operand has a dimension that x lacks (otherwise it is matched with the last of all dimensions, by position). For non-degenerate weights the entries of reduce_vals are the weight, mean and central (co)moments of these samples. The result has all dimensions of the operands but the sample dimension and then the moment dimensions; operations that keep the samples put dimensions foreign to x first, then those of x in its order with the replicates in place of the samples, then the moments, or the samples right before the moments when axes_to_end is set. A wrong number of arrays, a labelled operand without the sample dimension or with a moment dimension, and labelled operands of different size along a shared dimension are refused with ValueError.", "quantifier": "all DataArrays x and operands with any number and order of dimensions, all plain operands, all weights, tables, windows and decay constants, one and two variables", "why_tests_cant": "The tests compare a few transposed arrays against loops; the combinations of dimension orders, missing and foreign dimensions and plain operands are unbounded, and wrong alignment is invisible when sizes agree.", "anchors": ["src/cmomy/core/prepare.py:178-256", "src/cmomy/reduction.py:210-328", "src/cmomy/resample/resample.py:478-627", "src/cmomy/resample/resample.py:1073-1245", "src/cmomy/rolling.py:694-856", "src/cmomy/rolling.py:1295-1450"]}
{"id": "C59", "title": "Statistics of an array object are those of its samples", "statement": "For a CentralMomentsArray of any value shape that holds at every index the weight, mean and central (co)moments of some samples with non-zero total weight: cmom() shows at moment index n (or n, m) the central (co)moment of that order for all orders, so one at order zero and zero at order one; rmom() shows the raw (co)moments of all orders; to_raw() shows the same but the weight at order zero, and to_raw(weight=w) the given weight repeated over the value axes; weight(), mean(), var(), cov() and std() show the weight, the mean(s), the variance(s), the covariance (the variance for one variable) and the square root of the variance(s), with or without an axis of length one as squeeze says. Value axes keep their order and sizes. An object of order one has no variance: var, cov and std raise IndexError.", "quantifier": "all value shapes, all orders, all samples and weights with non-zero total, one and two variables, all squeeze settings, all weights that can be broadcast", "why_tests_cant": "The tests compare a few random arrays; that every entry of every order is the claimed statistic of the underlying samples for every shape is a statement about infinitely many arrays.", "anchors": ["src/cmomy/wrapper/wrap_abc.py:1101-1215", "src/cmomy/utils.py:525-554", "src/cmomy/utils.py:746-780", "src/cmomy/convert.py:256-298"]}
{"id": "C60", "title": "Rearranging an array object moves whole cells", "statement": "For a CentralMomentsArray of any value shape: reshape(shape, order) gives the sizes asked for, one of which may be left open with -1, and its cells read row by row (column by column for order='F') are the old cells read the same way; sizes that do not fit, and objects without value axes, are refused with ValueError. moveaxis(axis, dest) moves the value axes named (by integers or imaginary integers, from either end) where they are told, keeps the order of the others and carries every cell along with its index; naming a moment axis as source or destination is a ValueError; with axes_to_end the axes named become the last value axes, and for the function moveaxis with moment axes anywhere the axes named and then the moment axes come last. resample(indices, axis, last) replaces the axis by the axes of indices, in place or behind the other value axes, with the cell at every new index being the old one at the position given; positions outside the axis are an IndexError. Cells moved keep standing for the same samples. The default axis of resample is the last moment axis, so that a list of as many indices as there are moments silently permutes the moments.", "quantifier": "all value shapes, one or two moment axes of any order, all requested shapes, all axis arguments, all index arrays of any dimension", "why_tests_cant": "The tests reshape, move and index a few random arrays; a wrong reading order or a wrong axis is invisible for the shapes that happen to be symmetric, and the shapes and index arrays are unbounded.", "anchors": ["src/cmomy/wrapper/wrap_np.py:260-311", "src/cmomy/wrapper/wrap_np.py:967-1080", "src/cmomy/wrapper/wrap_abc.py:596-644", "src/cmomy/utils.py:131-309"]}
{"id": "C61", "title": "Collecting the cells of an array object collects their samples", "statement": "Let every cell of a CentralMomentsArray stand for some weighted samples of non-negative weight. Then reduce(axis), over one axis, several or all (None), with or without keepdims, gives cells that stand for all samples behind the cells they replace, on the remaining value axes in the old order; reduce(axis, by=groups) gives one cell per group standing for the samples of the cells with that label, negative labels being left out; reduce(axis, block=b) one cell per whole block of b neighbours, cells after the last whole block being left out, one block of everything for b <= 0, and ValueError for b larger than the axis; by goes before block, and keepdims has no effect with either; cumulative(axis) stands at j for the samples of the cells up to j; jackknife_and_reduce(axis) at j for those of all cells but j; resample_and_reduce(axis, sampler) at r for the samples with the weights of cell j multiplied by freq[r, j], which for integer frequencies are the samples of the cells drawn. Results are objects again, two of them that stand for the same samples have equal entries, and resample(indices, last=True).reduce(axis=-1j) equals resample_and_reduce with the frequencies of the indices. Without an axis, resample_and_reduce and jackknife_and_reduce always fail with ValueError, because their default axis -1 is a moment axis.", "quantifier": "all value shapes, one or two variables, all orders, all samples behind the cells with non-negative weight per cell, all axis arguments, labels, block lengths, frequency tables and index tables", "why_tests_cant": "The tests compare methods with each other on random arrays of a few shapes; that the results mean the right samples, for every shape, axis, grouping and frequency table, is a statement about unboundedly many inputs.", "anchors": ["src/cmomy/wrapper/wrap_np.py:614-903", "src/cmomy/wrapper/wrap_abc.py:755-810", "src/cmomy/wrapper/wrap_abc.py:866-1060", "src/cmomy/reduction.py:521-647"]}
{"id": "C62", "title": "Objects made from values, raw moments, arrays or nothing stand for the right samples", "statement": "wrap_reduce_vals and wrap_resample_vals give objects whose cells hold exactly the moments of the weighted samples found along the axis (with weights multiplied by frequencies for a bootstrap row); vals_to_data holds one sample per cell after broadcasting; wrap_raw of raw moments of samples holds their central moments and to_raw() gives the raw moments back; wrap shows every entry of the array unchanged with the moment axes moved last; zeros_like, new_like() and zero() hold no samples. Missing axes, wrong numbers of variables, bad moment orders and shapes that do not fit are refused.", "quantifier": "all arrays of any shape, all axes, all moment orders >= 1, one or two variables, all non-negative weights and frequencies, all accepted parameter forms", "why_tests_cant": "Tests compare the constructors with each other on a few fixed shapes; they cannot show that broadcasting, axis placement and weights are right for every shape and order, nor that the two documented routes (vals_to_data then reduce, wrap_reduce_vals) always agree.", "anchors": ["src/cmomy/wrapper/constructors.py:106-192", "src/cmomy/wrapper/constructors.py:361-448", "src/cmomy/wrapper/constructors.py:514-614", "src/cmomy/wrapper/constructors.py:668-782", "src/cmomy/utils.py:848-1026", "src/cmomy/wrapper/wrap_np.py:260-311"]}
{"id": "C63", "title": "Indexing, iterating and concatenating array objects keep whole cells and their samples", "statement": "c[key] of a CentralMomentsArray, for a key of integers, slices, None, ... and at most one list of integers or booleans that stays on the value axes, gives an object whose cell at every index is the cell of c that the key selects, and so stands for the same samples; a key that selects nothing from the array is refused. For any key, the result is accepted exactly if its last axes have the sizes of the moment axes. Iterating yields the cells at each position of the first axis, and a ValueError for an object without value axes. concat(objects, axis) along a value axis gives an object of the same kind with the cells of the objects one behind the other; cutting an object in two and joining the parts gives it back; reducing the joined object along the axis gives cells that stand for all samples of all objects. Arrays that differ elsewhere are refused.", "quantifier": "all value shapes, moment orders, keys of the stated form (any step sign, any bounds), any number of objects, all axes in either sign, moments and comoments", "why_tests_cant": "keys combine freely with shapes and signs; that samples are neither lost nor counted twice concerns all data at once", "anchors": ["src/cmomy/wrapper/wrap_np.py:191-210", "src/cmomy/convert.py:928-1079"]}
{"id": "C64", "title": "Pushing onto a labelled object adds samples at named coordinates", "statement": "push_val, push_vals, push_data (with and without scale) and push_datas of a CentralMomentsData over a DataArray update the record at every coordinate with exactly the values, weights and moments that the arguments have at that coordinate: labelled arguments are matched by dimension name in whatever order they are stored, plain ones by position. Dimensions and sizes stay, the moment dimensions come last. After any sequence of such calls on zeros with non-negative weights no entry is missing and each is that of the moments of all samples pushed at its coordinate. A labelled argument with another size, with a moment dimension where none belongs, without a needed dimension, or with a further dimension of a size other than one is refused with a ValueError, and so is a reduction along a dimension of the object.", "quantifier": "all dimension names and orders, all sizes, moment orders, axis or dim arguments, mixtures and lengths of calls; moments and comoments", "why_tests_cant": "names, orders, broadcasts and histories combine without bound, and a mismatched axis gives numbers that look plausible", "anchors": ["src/cmomy/wrapper/wrap_xr.py:348-608", "src/cmomy/core/prepare.py:149-258"]}
{"id": "C65", "title": "Selecting from, rearranging and converting labelled objects keeps every record", "statement": "isel, indexing with [...], iteration, transpose, stack and rename of a CentralMomentsData over a DataArray give an object whose record at every named coordinate is the record of the old object at the coordinate that the arguments describe: the positions selected by integers, slices, lists or masks, the place in the iteration, the same coordinate for any order of dimensions, the coordinates met in row-major order for stack. So each record still stands for the same samples. Selections that drop or shorten a moment dimension, unknown or repeated names, positions out of range, incomplete transpositions and stacking a moment dimension are refused. to_x of an array object and to_array of a labelled object with its moment dimensions last keep every record, and are inverse to each other; zeros has the sizes and names asked for and all entries zero.", "quantifier": "all dimension names, orders and sizes, all moment orders, all selections, keys with and without an ellipsis, all lists of names; moments and comoments", "why_tests_cant": "names, orders and selections combine without bound, and a misplaced axis gives records that look plausible", "anchors": ["src/cmomy/wrapper/wrap_xr.py:189-311", "src/cmomy/wrapper/wrap_xr.py:858-910", "src/cmomy/wrapper/wrap_xr.py:1072-1163", "src/cmomy/wrapper/wrap_xr.py:1392-1486", "src/cmomy/wrapper/wrap_np.py:1181-1231"]}
{"id": "C66", "title": "Collecting and adding labelled objects counts every sample once, at the coordinates named", "statement": "reduce (over one, several or all dimensions, by labels, in blocks), cumulative, resample_and_reduce and jackknife_and_reduce of a CentralMomentsData over a DataArray, and the operators + and -, give an object whose record at every named coordinate is the record of exactly the samples collected there: all samples along the reduced dimensions; the samples of the cells that carry the group's label, with the groups in increasing order and missing or negative labels left out; those of a block; of all places up to this one; of the cells as often as the frequency or index table says; of all other places; of both operands; of the first without the second. The dimensions of the result and their order are determined by the names and the options. Results are objects again, so that steps can be chained, and reducing in steps or in another order of dimensions gives the same numbers. Labels, blocks, tables and operands that do not fit are refused.", "quantifier": "all dimension names, orders and sizes, all moment orders, all contents that stand for samples of nonnegative weight, all labels, blocks, tables and options; moments and comoments", "why_tests_cant": "a sample counted twice, left out or put at another coordinate gives plausible numbers; labels, names, options and orders combine without bound", "anchors": ["src/cmomy/wrapper/wrap_xr.py:613-859", "src/cmomy/wrapper/wrap_abc.py:487-512", "src/cmomy/wrapper/wrap_abc.py:755-1058"]}
{"id": "C67", "title": "The statistics of a labelled object are those of its samples, at the coordinates named", "statement": "For a CentralMomentsData over a DataArray, in whatever order its dimensions are stored: select_moment gives at every named coordinate the moments that the name means, and assign_moment replaces exactly those, matching labelled values by the names of their dimensions and others by position; with copy the object does not change, without it the object itself shows the result. weight, mean, var, std, cov, cmom, to_raw and rmom show the weight, mean, variance and so on of the samples the record stands for, and obj * scale stands for the samples with weights multiplied, obj *= scale changing obj itself. Unknown names and values that do not fit are refused with ValueError, missing moments with IndexError, and then nothing has changed.", "quantifier": "all dimension names, orders and sizes, all moment orders, all names of moments, all values that fit, all samples of nonzero weight; moments and comoments", "why_tests_cant": "names, orders, squeeze and copy combine without bound, and a moment or place taken for another gives plausible numbers", "anchors": ["src/cmomy/utils.py:460-524", "src/cmomy/utils.py:686-745", "src/cmomy/wrapper/wrap_abc.py:514-522", "src/cmomy/wrapper/wrap_abc.py:646-753", "src/cmomy/wrapper/wrap_abc.py:1102-1213"]}
{"id": "C68", "title": "Converting a whole object to comoments describes the same samples as pairs, and converting back returns them", "statement": "moments_to_comoments on an array with its moment axis anywhere, on a DataArray, or as the method of an object gives, at every place and in unchanged order of the other dimensions, the comoments of orders (a, b) that mom asks for, one of which may be negative and then is what is left; entry (j, k) is the moment of order j + k. If the object stood for samples x, the result stands for the pairs (x, x); this holds for central and for raw moments. comoments_to_moments takes such an object back to the moments up to order a + b of the same samples. A new moment dimension may have the name of an old one, but a name used by another dimension, orders that do not fit, and calling the method on comoments are refused with ValueError.", "quantifier": "all arrays and numbers of dimensions, all positions and orders of the moment axes, all names, all orders and all pairs mom, all contents of uninitialised memory", "why_tests_cant": "axis positions, orders and name collisions combine without bound, and a swapped pair of orders is only visible for unequal orders", "anchors": ["src/cmomy/convert.py:548-567", "src/cmomy/convert.py:608-751", "src/cmomy/convert.py:788-897", "src/cmomy/wrapper/wrap_abc.py:811-862", "src/cmomy/wrapper/wrap_np.py:636-675"]}
{"id": "C69", "title": "Moving dimensions of labelled objects and joining them keeps every record with its named coordinates", "statement": "moveaxis on a DataArray or a labelled object, the dimensions chosen by name or by number, puts the dimensions chosen at the places told, leaves the others in order, and keeps every entry at its named coordinates; axes_to_end gives the other dimensions, those chosen as listed, then the moment dimensions wherever they were. Moment dimensions, places held by them, unknown names, and lists of different length are refused with ValueError. concat joins labelled arrays with the same dimension names, in whatever order each has them, one behind the other along a dimension, or side by side along a new one which comes first. When the moment dimensions of the first object come last, concat of objects is an object with the same moment dimensions, each cell standing for the samples it stood for before. Sizes that differ along another dimension are refused.", "quantifier": "all labelled arrays and objects, any number and order of dimensions, all positions of the moment dimensions, all ways of naming dimensions, any number of arrays joined", "why_tests_cant": "orders of dimensions, positions of the moment dimensions, and numbers of parts combine without bound, and mixing up dimensions of equal size leaves the shape right", "anchors": ["src/cmomy/utils.py:73-163", "src/cmomy/utils.py:292-308", "src/cmomy/wrapper/wrap_abc.py:596-644", "src/cmomy/convert.py:928-1079", "src/cmomy/wrapper/wrap_xr.py:101-130"]}
{"id": "C70", "title": "Labelled objects made from arrays, values, raw moments and nothing stand for the right samples", "statement": "wrap of a DataArray keeps it unchanged and accepts it exactly if it has the moment dimensions asked for, each of size two or more. The moment dimensions are those named; without names, those on the axes given, else the last dimensions, else the default names. zeros_like and new_like() have the dimensions and sizes of the object and stand for no samples. wrap_reduce_vals and wrap_resample_vals give cells that stand for the (resampled) samples found at their named coordinates, in values, weights and further values whose dimensions may come in any order or be missing. wrap_raw gives an object of the samples whose weights and raw moments were given, with the dimensions in place. vals_to_data has all dimensions of its arguments and then the moment dimensions, and every cell stands for the one sample found there; reducing it over a dimension shows the same as wrap_reduce_vals when weights are labelled. Wrong numbers of arguments, sizes that disagree, and names already in use are refused.", "quantifier": "all labelled arrays, any number and order of dimensions, labelled or plain weights and further values, all ways of naming moment dimensions, all orders, all frequency tables with numbers that are not negative", "why_tests_cant": "missing and permuted dimensions of several arguments combine without bound, and matching by position instead of by name shows only for particular shapes", "anchors": ["src/cmomy/wrapper/constructors.py:106-192", "src/cmomy/wrapper/constructors.py:361-448", "src/cmomy/wrapper/constructors.py:514-614", "src/cmomy/wrapper/constructors.py:668-782", "src/cmomy/utils.py:848-1026", "src/cmomy/core/moment_params.py:365-432", "src/cmomy/wrapper/wrap_xr.py:251-311"]}
{"id": "C71", "title": "Arrays of rolling windows show the right entries, and reducing them is rolling_data", "statement": "construct_rolling_window_array puts one new dimension per rolled dimension first, as long as its window, and keeps one window for every multiple of the stride. At offset k of window i stands the entry stride*i + k - (window-1) along the rolled dimension, or stride*i + k - window//2 if centred, and the fill value where this is no place of the array. For an array of moments filled with zeros every cell stands for the samples of the cell it shows, or for none. rolling_data stands for the samples of the cells in each window and is missing where fewer than min_periods of them have weight. Making windows filled with zeros and reducing the new dimension stands for the samples of each window and gives the same moments as rolling_data wherever that is not missing. Windows that are not positive, strides of zero, empty dimensions, sequences of the wrong length, moment dimensions and unknown dimensions are refused with ValueError.", "quantifier": "all labelled arrays, any number of rolled dimensions with windows, strides, centring and names of their own, all ways of naming dimensions, all orders of moments and comoments; arrays along one axis", "why_tests_cant": "windows, strides, sizes and centring combine without bound, and the edges of each window differ by one place for odd and even windows", "anchors": ["src/cmomy/rolling.py:157-294", "src/cmomy/rolling.py:297-560", "src/cmomy/core/moment_params.py:400-432", "src/cmomy/core/moment_params.py:573-649"]}
{"id": "C72", "title": "Results written to a given array are the results returned", "statement": "Calling reduce_data, reduce_vals, cumulative, moments_type, reduce_data_grouped, reduce_data_indexed, resample_data, resample_vals, jackknife_data, jackknife_vals, rolling_data, rolling_vals, rolling_exp_data or rolling_exp_vals for a DataArray, or reduce_data for an array, with out= an array of the shape of the result gives the same result as the call without out, and out then holds exactly the numbers of the result in the order of its dimensions, whatever the place of the reduced and moment dimensions and whether or not keepdims and axes_to_end are given. This holds for functions of values if weights and further values have no dimensions of their own, or with axes_to_end; otherwise out may hold the numbers in another order. Centred rolling over three samples or more refuses such an out with ValueError. Without a dimension to reduce over, reduce_data leaves out as it was.", "quantifier": "all labelled arrays and arrays, all places of the dimensions, all orders of moments and comoments, all contents of out", "why_tests_cant": "out is rearranged before the call and the result after it, and the two have to be inverse to each other for every number and order of dimensions", "anchors": ["src/cmomy/core/prepare.py:260-353", "src/cmomy/reduction.py:592-647", "src/cmomy/reduction.py:434-541", "src/cmomy/resample/resample.py:218-271", "src/cmomy/resample/resample.py:478-548", "src/cmomy/resample/resample.py:787-869", "src/cmomy/resample/resample.py:1073-1156", "src/cmomy/rolling.py:427-571", "src/cmomy/rolling.py:694-856", "src/cmomy/convert.py:215-254", "src/cmomy/convert.py:422-477"]}
{"id": "C73", "title": "Data sets: each variable as if alone", "statement": "For an xarray Dataset of central moments, reduce_data, reduce_data_grouped, reduce_data_indexed, cumulative, moments_type, resample_data, jackknife_data, rolling_data and rolling_exp_data turn every variable that has the sample dimension and the moment dimensions into what the same call gives for that variable alone (same order of dimensions, same sizes, same entries), under the same name and in the same order; a variable without them keeps all its entries (its dimensions possibly reordered or renamed). reduce_data over several dimensions, or over all, reduces each variable over those of them it has. A call is refused when a result and a copied variable would disagree on the size of a dimension, and, for cumulative, reduce_data_grouped, reduce_data_indexed, resample_data and jackknife_data, when axis is given or dim is missing or is a moment dimension; reduce_data refuses a dim that no variable has.", "quantifier": "all numbers of variables, all names, dimensions in any order and number, all sizes, all argument values, all options axes_to_end / keepdims / group_dim / rep_dim / use_map", "why_tests_cant": "Which variables are processed and which are copied, and where their dimensions end up, depends on the combination of the dimensions of all variables; tests use one or two data sets and compare a few functions.", "anchors": ["src/cmomy/reduction.py:434-541", "src/cmomy/reduction.py:964-1024", "src/cmomy/reduction.py:1382-1467", "src/cmomy/resample/resample.py:214-271", "src/cmomy/resample/resample.py:787-869", "src/cmomy/resample/sampler.py:557-604", "src/cmomy/convert.py:215-254", "src/cmomy/convert.py:422-477", "src/cmomy/rolling.py:427-480", "src/cmomy/rolling.py:978-1045", "src/cmomy/core/xr_utils.py:36-62", "src/cmomy/core/moment_params.py:534-543", "src/cmomy/core/moment_params.py:597-608"]}
{"id": "C74", "title": "Labels of the results", "statement": "For a DataArray with coordinates: reduce_data and resample_data drop the coordinates along the sample dimension and keep all others; cumulative, moments_type, rolling_data and rolling_exp_data keep all; jackknife_data keeps all, with the sample dimension renamed to rep_dim. reduce_data_grouped with groups labels the groups by groups, and refuses another number of labels; without groups there is no coordinate along the groups. reduce_data_indexed with coords_policy 'first' or 'last' keeps every coordinate, and group j carries the labels of the sample index[group_start[j]] or index[group_end[j] - 1]. obj.reduce(by=..., coords_policy='first' or 'last') gives each group the labels of one of its own samples (the first or last of them if the sort is stable), so a coordinate used as by names its own group; with by the name of a coordinate and policy 'group' or None, the cell labelled l stands for exactly the samples labelled l. Blocks are numbered 0, 1, 2, ... or carry the labels of a sample of the block.", "quantifier": "all numbers of dimensions in any order, all sizes, all sets of coordinates (any number, along any dimensions), all labels, index tables, block sizes, options", "why_tests_cant": "Tests check the values of a few coordinates on sorted toy data, where first sample, group number and label coincide; that labels and moments go together for every grouping is a statement about all label patterns, and depends on the stability of a sort that small tests never exercise.", "anchors": ["src/cmomy/reduction.py:434-541", "src/cmomy/reduction.py:964-1024", "src/cmomy/reduction.py:1382-1467", "src/cmomy/core/xr_utils.py:83-127", "src/cmomy/wrapper/wrap_xr.py:613-859", "src/cmomy/resample/resample.py:214-271", "src/cmomy/resample/resample.py:787-869", "src/cmomy/convert.py:215-254", "src/cmomy/convert.py:422-477", "src/cmomy/rolling.py:427-480", "src/cmomy/rolling.py:978-1045"]}
{"id": "C75", "title": "Rounded arithmetic", "statement": "With every operation rounded, as in the compiled kernels (without fastmath): reduce_vals, reduce_data, cumulative, resample_data, resample_vals, reduce_data_grouped, reduce_data_indexed, rolling_exp_data and rolling_exp_vals, with weights that are not negative, never divide by zero and never return a negative weight or a negative variance, for moments and comoments. Samples that are all equal to v have exactly the average v and exactly zero for every higher moment, whatever their weights. The first record pushed into zeros is stored unchanged. If no sample is more than twice another the average lies between the smallest and the largest. Up to 2**p samples are counted exactly, and other weights are summed with a relative error of at most (1 + u)**n - 1. Multiplying samples and weights by powers of two multiplies the results of all functions exactly, also where samples are subtracted. Without rounding the model is the exact one. Not true: that variances stay non-negative when samples are subtracted (rolling averages, jackknife).", "quantifier": "all numbers of samples, all values, all weights >= 0, all orders, every rounding that is monotone, odd and leaves 0 and 1 alone, in particular any number of binary digits with rounding to nearest or towards zero", "why_tests_cant": "Tests compare with a tolerance on a few well-conditioned arrays; a variance of -1e-17 passes every such comparison and still turns into nan in std. That no rounding of any length of data can produce one is a statement about all executions.", "anchors": ["src/cmomy/_lib/_push.py:28-181", "src/cmomy/_lib/_push_cov.py:27-256", "src/cmomy/_lib/resample.py:58-111", "src/cmomy/_lib/_rolling.py:163-261", "src/cmomy/_lib/_binomial.py:15-37"]}
{"id": "C76", "title": "Errors of averages and variances", "statement": "Let every operation be rounded with relative error at most u, let n samples have non-negative weights and values between -B and B. If 16 (n + 5) u <= 1, the average returned by reduce_vals differs from the exact weighted average by at most 16 (n + 5) u B; if 400 (n + 5) u <= 1, the variance differs from the exact one by at most 400 (n + 5) u B**2. The same for reduce_data, with records whose averages are at most B and whose variances are at most B**2, compared with average and variance of all samples behind the records; and for each replicate of resample_vals and resample_data, compared with the samples counted by the frequencies. In double precision u is 2**-53, in single precision 2**-24.", "quantifier": "all numbers of samples (within the condition), all values and weights, all frequencies, all orders, every rounding with relative error at most u", "why_tests_cant": "The error grows with the number of samples and depends on their order; tests compare a few hundred samples with a tolerance. A bound for all data is what a user needs to trust a digit of the result.", "anchors": ["src/cmomy/_lib/_push.py:28-181", "src/cmomy/_lib/push.py:45-102", "src/cmomy/_lib/resample.py:58-111"]}
{"id": "C77", "title": "Data types of results and of what is computed with", "statement": "The functions on values and on moments return float32 or float64: the type of out if given, else dtype if given, else the type of the first argument if it has one, else float64; if this is another type they raise ValueError. The numbers of the arguments reach the kernels rounded once, to the type of the result, when the first argument is no ndarray, or has the type of the result, or all arguments are ndarrays, and always for labelled arrays, push_val and vals_to_data; each variable of a Dataset keeps its own type unless dtype is given. Otherwise arguments that are no ndarray are converted to the type of the first: beside an ndarray of integers, weights and alpha between -1 and 1 become 0, so that reduce_vals returns zeros and push_vals leaves the object unchanged; beside truth values, numbers other than 0 become 1. Constructor and astype accept float32 and float64 only.", "quantifier": "all arguments of real types, all kinds of arguments (ndarray, other arrays, plain numbers and lists), all shapes, all dtype and out, all roundings that keep the numbers of smaller types", "why_tests_cant": "The conversion happens or not depending on the kinds and types of all arguments together; tests pass float64 arrays, for which all rules agree. The cases where weights are lost raise no error.", "anchors": ["src/cmomy/core/array_utils.py:154-213", "src/cmomy/core/prepare.py:83-165", "src/cmomy/core/validate.py:133-150", "src/cmomy/reduction.py:200-300"]}
{"id": "C78", "title": "Converting between one array and several variables", "statement": "c.to_dataset(dim) has one variable for every label along dim, in order and under that name, whose record at any other coordinates is the record of c there; moment dimensions come last. c.to_dataset(name=n) has the one variable n with the numbers of c. For an object over a Dataset, to_dataarray(dim) holds at place k of the new dimension the records of the k-th variable, repeated along dimensions that variable does not have, with the names as labels. The two undo each other up to the order of dimensions. Reducing every variable of c.to_dataset(dim) over other dimensions gives the variables of the reduced c. Splitting a moment dimension is refused with ValueError, a name that is no dimension, or dim together with name, with TypeError; to_dataarray is refused if no variable has the moment dimensions. A variable without moment dimensions is repeated along them by to_dataarray.", "quantifier": "all arrays with any dimensions in any order, all positions of the moment dimensions, all different labels, all data sets with variables of different dimensions, all orders of moments", "why_tests_cant": "Which entry goes where depends on the order of dimensions of all variables and coordinates; tests use one or two layouts, for which a mistaken transposition can give the same array.", "anchors": ["src/cmomy/wrapper/wrap_xr.py:913-996"]}
{"id": "C79", "title": "Errors of covariances", "statement": "Let every operation be rounded with relative error at most u, let n pairs have non-negative weights, first values between -B0 and B0 and second values between -B1 and B1. If 16 (n + 5) u <= 1, the averages returned by reduce_vals with mom=(o0, o1) differ from the exact ones by at most 16 (n + 5) u B0 and 16 (n + 5) u B1; if 450 (n + 5) u <= 1, the covariance [1, 1] differs from the exact one by at most 450 (n + 5) u B0 B1, and the variances [2, 0] and [0, 2], where the orders include them, by at most 450 (n + 5) u times B0**2 and B1**2. The same for reduce_data, with records whose averages and second moments keep these bounds, compared with all samples behind the records; and for each replicate of resample_vals and resample_data, compared with the samples counted by the frequencies.", "quantifier": "all numbers of pairs (within the condition), all values and weights, all frequencies, all orders, every rounding with relative error at most u", "why_tests_cant": "Covariances may cancel to zero, so that a relative tolerance on samples says nothing; the error depends on the number and the order of the pairs. Only a bound for all data tells which digits of a covariance can be trusted.", "anchors": ["src/cmomy/_lib/_push_cov.py:27-256", "src/cmomy/_lib/push_cov.py:45-101", "src/cmomy/_lib/resample_cov.py:30-86"]}
{"id": "C80", "title": "Data sets as dictionaries", "statement": "For CentralMomentsData over a Dataset, as_dict and items give exactly the variables that have all moment dimensions, in order and unchanged; keys, values and iteration go through the same entries. c[name] is the variable if it has all moment dimensions, a ValueError if it lacks one, and a KeyError if there is no such variable, so the names that can be looked up are the keys. c[names] has the listed variables, each once, in the order of the list, and is a ValueError if a moment dimension is lost, a KeyError if a name is not there; looking up in it is looking up in c. c.assign(new) replaces variables where they are, appends others, and leaves the rest alone; it is a ValueError exactly if sizes disagree, a moment dimension is lost, or the number of moments changes. c.reduce(dim)[name] is c[name].reduce(dim), likewise for cumulative, and both keep the keys.", "quantifier": "all data sets with any variables, dimensions and sizes, all names, lists of names and assigned variables, all moment dimensions", "why_tests_cant": "A data set may mix variables with all, some or none of the moment dimensions in any order and number; tests use a few, and do not show that nothing else is dropped, reordered or let through.", "anchors": ["src/cmomy/wrapper/wrap_xr.py:139-311", "src/cmomy/wrapper/wrap_xr.py:1051-1058", "src/cmomy/core/xr_utils.py:160-162", "src/cmomy/core/moment_params.py:465-476"]}
{"id": "C81", "title": "Errors of merged records", "statement": "Let every operation be rounded with relative error at most u, and let records describe samples between -B and B with non-negative weights. Reduce chunks of records with reduce_data and merge the results with push_data (or +) in any way. If d is the greatest number of pushes that follow each other and 2800 d u <= 1, then the weight has a relative error of at most 4 d u, the average differs from that of all records by at most 80 d u B and the variance by at most 1800 d u B**2. The same for row i of cumulative with d = i, and for groups of at most n samples that are reduced with reduce_vals before they are merged, with n + d instead of d. Merging in pairs therefore gives errors that grow with the logarithm of the number of groups.", "quantifier": "all ways of chunking and merging, all numbers of records (within the condition), all values and weights, all orders, every rounding with relative error at most u", "why_tests_cant": "When results are merged, the values pushed carry errors of their own, and these could add up over the merges; tests merge a few small chunks and compare with a tolerance. The bound holds for every way of distributing the work.", "anchors": ["src/cmomy/_lib/_push.py:28-126", "src/cmomy/_lib/push.py:45-119", "src/cmomy/wrapper/wrap_np.py:364-412", "src/cmomy/reduction.py:563-647"]}
{"id": "C82", "title": "Unstacking undoes stacking", "statement": "unstack of a stacked dimension turns the levels of its index into dimensions, placed behind the other dimensions and before the moment dimensions. The record at a position is found, entry by entry, at the labels of this position; where no position has these labels, all entries are the fill value. Positions with the same labels, and a dimension that is not there, are a ValueError. unstack after stack gives back the object: every record is found at its old coordinates whatever the fill value is, and only the order of the dimensions has changed, those that were stacked being the last ones before the moment dimensions.", "quantifier": "all objects, any number of dimensions and moment dimensions in any order, any stacked dimensions, all sizes, all indexes with or without missing combinations, every fill value", "why_tests_cant": "Tests unstack small arrays of two dimensions that were stacked just before. That no record is split between two places, for any order of dimensions and any incomplete index, concerns the bookkeeping of positions for all shapes.", "anchors": ["src/cmomy/wrapper/wrap_xr.py:1165-1199", "src/cmomy/wrapper/wrap_xr.py:1082-1163", "src/cmomy/wrapper/wrap_abc.py:525-591"]}
{"id": "C83", "title": "Selecting by label", "statement": "sel with single labels, lists of labels and slices of labels, along dimensions whose labels differ from each other, returns an object in which every record is the one with the labels asked for; there is exactly one such record. A dimension from which a single label is selected is dropped; from a list there is one position for each label in the order of the list; a slice includes its last label. Two objects that hold the same records under the same labels, stored in any order, give the same records for single labels and lists. A label that is not there, and a name that is no dimension, are a KeyError.", "quantifier": "all objects, any number of dimensions and moment dimensions in any order, all labels, all combinations of selections", "why_tests_cant": "Tests select from one object with sorted labels. That the result depends on labels only, and moments are never mixed between records, is a statement about all orders of storage and all selections.", "anchors": ["src/cmomy/wrapper/wrap_xr.py:1299-1390", "src/cmomy/wrapper/wrap_abc.py:525-591"]}
{"id": "C84", "title": "Rearranging before or after reducing", "statement": "isel along some dimensions and reduce_data along others can be exchanged: both orders return objects with the same dimensions, sizes and entries. The same holds for stack along some dimensions and reduce_data along others, and unstack of the reduced object gives what reduce_data alone gives, up to the order of the dimensions and whatever the fill value is. reduce_data along a stacked dimension gives the same entries as reduce_data along all the dimensions it is made of. The entries are exactly equal in every arithmetic, rounded ones included.", "quantifier": "all objects, any number of dimensions and moment dimensions in any order, all disjoint sets of dimensions, all selections that are not empty, keepdims and axes_to_end as given, any kernel", "why_tests_cant": "It relates pairs of calls for all shapes and all orders of dimensions. Tests compare single calls with a reference for a few shapes, with a tolerance.", "anchors": ["src/cmomy/wrapper/wrap_xr.py:1082-1199", "src/cmomy/wrapper/wrap_xr.py:1392-1427", "src/cmomy/reduction.py:434-647"]}
{"id": "C85", "title": "Operations along one dimension leave the others apart", "statement": "Select from an object with isel along some dimensions and then call cumulative, resample_data, jackknife_data, reduce_data_grouped, reduce_data_indexed, rolling_data or rolling_exp_data along another dimension, given by its name. The result has the same dimensions, sizes and entries as selecting from the result of the call on the whole object. So what is found at one place of the other dimensions depends on the records at this place only, in every arithmetic, rounded ones included.", "quantifier": "all objects, any number of dimensions and moment dimensions in any order, all selections (for jackknife_data not empty), all counts, labels, indexes, windows and weights that the calls accept, any kernel", "why_tests_cant": "Leaks between places would come from wrong strides, gufunc loops that keep state, or a dimension order that differs between the calls. Tests compare a few shapes; the claim is about all shapes, all selections and all orders.", "anchors": ["src/cmomy/convert.py:422-477", "src/cmomy/resample/resample.py:218-271", "src/cmomy/resample/resample.py:787-869", "src/cmomy/reduction.py:964-1024", "src/cmomy/reduction.py:1382-1467", "src/cmomy/rolling.py:427-480", "src/cmomy/rolling.py:978-1108", "src/cmomy/wrapper/wrap_xr.py:1392-1427"]}
{"id": "C86", "title": "Confidence intervals of arrays treat every place on its own", "statement": "Call bootstrap_confidence_interval with arrays: replicates along one axis of theta_boot (given from either end), theta_hat with the other axes (the replicate axis left out, or kept with size one), theta_jack with these axes and one of its own at the same position. The result has the levels first and then the other axes in order. At every place of the other axes it holds exactly the interval of the replicates, the estimate and the leave-one-out estimates at this place: quantiles at the given levels for percentile, their reflections about this place's estimate for basic, quantiles at levels adjusted by this place's own bias and skewness for bca. Numbers at other places, and the position of the axis, have no influence, and an undefined level at one place leaves the others untouched.", "quantifier": "all array shapes and axes, all numbers, all non-empty lists of levels, all three methods", "why_tests_cant": "Mistakes here are mix-ups of axes in expand_dims, squeeze, moveaxis and broadcasting, which show only for particular shapes (sizes one, equal sizes, axes in the middle). Tests fix a few shapes.", "anchors": ["src/cmomy/confidence_interval.py:258-270", "src/cmomy/confidence_interval.py:273-314", "src/cmomy/confidence_interval.py:327-384"]}
{"id": "C87", "title": "Confidence intervals of labelled arrays match their inputs by name", "statement": "Call bootstrap_confidence_interval with DataArrays: replicates along dim (given by name or axis), theta_hat with the other dimensions, theta_jack with these and dim, each in any order; theta_jack may have another number of values along dim. The result has ci_dim first, as long as the list of levels, and then the other dimensions in the order of theta_boot. At every place it holds exactly the interval of the replicates, the estimate and the leave-one-out estimates found there by name, and the call succeeds whenever each place has an interval. The order of dimensions has no influence on the numbers by name, and other methods than basic and bca make no use of the estimates. basic and bca raise TypeError without labelled theta_hat, bca also without labelled theta_jack. Unlike for arrays, the method's case counts: \"BCa\" or \"Basic\" is refused with ValueError even when all estimates are given.", "quantifier": "all DataArrays with these dimensions in any order, all sizes and numbers, all non-empty lists of levels, all methods", "why_tests_cant": "Mixing up dimensions shows only when the inputs order them differently or have particular sizes; tests use few orders, and lower-case method names.", "anchors": ["src/cmomy/confidence_interval.py:204-256", "src/cmomy/confidence_interval.py:273-314"]}

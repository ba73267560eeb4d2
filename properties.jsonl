{"id": "C01", "title": "searchsortedl on a sorted array is the number of smaller elements", "statement": "For every array a that is sorted (non-decreasing) and every v, searchsortedl(a, v) is exactly the number of elements of a that are < v; it is an index in [0, len(a)] and inserting v there keeps the array sorted.", "quantifier": "all lengths, all sorted arrays over any total (pre)order, all v", "why_tests_cant": "The input space (array length, contents, strides) is unbounded; a test fixes one array.", "anchors": ["src/searchsorted/searchsorted_gufunc.c.src: searchsortedl_@typename@, searchsorted_@typename@_loop"]}
{"id": "C02", "title": "searchsortedr on a sorted array is the number of elements not larger", "statement": "For every sorted a and every v, searchsortedr(a, v) is exactly the number of elements <= v; hence searchsortedr(a,v) - searchsortedl(a,v) is the multiplicity of v in a.", "quantifier": "all lengths, all sorted arrays over any total (pre)order, all v", "why_tests_cant": "The input space (array length, contents, strides) is unbounded; a test fixes one array.", "anchors": ["src/searchsorted/searchsorted_gufunc.c.src: searchsortedr_@typename@"]}
{"id": "C03", "title": "searchsorted terminates and stays in bounds for every array", "statement": "For EVERY array (sorted or not, possibly with NaN) and every v, the search terminates after at most log2(n)+1 comparisons, reads only indices in [0, n), and returns an index in [0, n].", "quantifier": "all lengths, all arrays, any comparison outcome whatsoever", "why_tests_cant": "Unsorted and NaN inputs are an infinite family, and 'no out-of-bounds read' is a safety property of every execution.", "anchors": ["src/searchsorted/searchsorted_gufunc.c.src: searchsortedl_@typename@, searchsortedr_@typename@"]}
{"id": "C04", "title": "searchsorted on object arrays: comparison errors stop the call", "statement": "With object elements, if no comparison raises, the result is the same as for typed arrays; if a comparison raises, that search yields the error marker and the outer loop writes no later output.", "quantifier": "all arrays, all comparison functions that may raise at any call, all numbers of broadcast inputs", "why_tests_cant": "The point at which __lt__ raises is arbitrary.", "anchors": ["src/searchsorted/searchsorted_gufunc.c.src: searchsortedl_object, searchsortedr_object, object loop"]}
{"id": "C05", "title": "convert_to_base gives the base-b digits of k", "statement": "For every k >= 0, base >= 2 and ndigits, every output digit is in [0, base) and sum(d[i]*base**i) = k mod base**ndigits; with enough digits the value is recovered exactly and the digits are the unique base-b expansion.", "quantifier": "all non-negative k, all bases >= 2, all ndigits, all integer widths", "why_tests_cant": "The input space (array length, contents, strides) is unbounded; a test fixes one array.", "anchors": ["src/convert_to_base/convert_to_base_gufunc.h: convert_to_base_core"]}
{"id": "C06", "title": "convert_to_base on negative k", "statement": "For negative k and base >= 2 the digits lie in (-base, 0] and sum(d[i]*base**i) equals k reduced towards zero modulo base**ndigits; with enough digits k is recovered exactly.", "quantifier": "all integers k, all bases >= 2, all ndigits", "why_tests_cant": "C's truncating % on negative operands must be right for every k.", "anchors": ["src/convert_to_base/convert_to_base_gufunc.h: convert_to_base_core"]}
{"id": "C07", "title": "convert_to_base never traps", "statement": "convert_to_base completes (no hardware trap from integer division) for every k, base and ndigits. (Fails in the code for base = 0 and for k = INT_MIN, base = -1; the exact set of trapping inputs is characterised.)", "quantifier": "all fixed-width integers k and base, all ndigits", "why_tests_cant": "The trapping inputs are isolated points in a 2^128 space.", "anchors": ["src/convert_to_base/convert_to_base_gufunc.h: convert_to_base_core", "ufunclab/_wrapped.py: convert_to_base"]}
{"id": "C08", "title": "one_hot has exactly one 1, at k, or none", "statement": "one_hot(k, n) has length n; out[j] = 1 if j == k and 0 otherwise, for every k including negative and k >= n (all zeros). The contiguous (memset) and strided code paths agree, and memory outside the output view is unchanged.", "quantifier": "all k (any integer), all n, all strides, all previous buffer contents", "why_tests_cant": "The input space (array length, contents, strides) is unbounded; a test fixes one array.", "anchors": ["src/one_hot/one_hot_gufunc.h: one_hot_core", "ufunclab/_wrapped.py: one_hot"]}
{"id": "C09", "title": "bincount adds the exact number of occurrences", "statement": "After bincount(x, out=out), out[j] has increased by exactly the number of i with x[i] == j, for every 0 <= j < m; values of x that are negative or >= m have no effect. With zero-initialised out (the wrapper default) out[j] is the count.", "quantifier": "all x, all m, all previous contents of out", "why_tests_cant": "The input space (array length, contents, strides) is unbounded; a test fixes one array.", "anchors": ["src/bincount/bincount_gufunc.h: bincount_core", "ufunclab/_wrapped.py: bincount"]}
{"id": "C10", "title": "bincount never writes outside out", "statement": "For every x of every integer type the only elements modified are out[0..m-1]. (Fails in the code for uint64 values >= 2**63: the guard casts to a signed type; proved for all other values, with the exact failure set.)", "quantifier": "all 64-bit and narrower integer values, all m < 2**63", "why_tests_cant": "Memory safety over every value; the failing values are in the top half of uint64.", "anchors": ["src/bincount/bincount_gufunc.h: bincount_core, bincountw_core"]}
{"id": "C11", "title": "bincount accumulates: calls compose and input order is irrelevant", "statement": "Calling bincount on x then on y with the same out equals one call on the concatenation; permuting x does not change the result; sum(out) increases by the number of in-range elements.", "quantifier": "all x, y, out and all permutations", "why_tests_cant": "The input space (array length, contents, strides) is unbounded; a test fixes one array.", "anchors": ["src/bincount/bincount_gufunc.h: bincount_core"]}
{"id": "C12", "title": "bincount with weights accumulates each bin left to right", "statement": "bincount(x, weights=w, out=out): out[j] becomes the left-to-right sum, starting from the old out[j], of the w[i] with x[i] == j - bit-exactly, whatever the addition rounds to; other bins untouched; calls on pieces compose. With unit weights it equals bincount.", "quantifier": "all x, w, out; any (even non-associative) addition", "why_tests_cant": "Order of floating point accumulation must be fixed for every input, not a sample.", "anchors": ["src/bincount/bincount_gufunc.h: bincountw_core, bincountw_complex_core"]}
{"id": "C13", "title": "default m of bincount counts everything", "statement": "When m is omitted the output length is max(max(x)+1, 0), so every non-negative element is counted and no shorter length would do. (Fails in the code when max(x)+1 overflows the dtype of x, and when x is empty the call raises.)", "quantifier": "all integer arrays of all dtypes", "why_tests_cant": "Overflow happens only at the top value of each dtype.", "anchors": ["ufunclab/_wrapped.py: bincount"]}
{"id": "C14", "title": "min/max/argmin/argmax return the first extreme element", "statement": "For every non-empty x over a total order, argmin(x) is the first index of a minimal element and min value x[argmin]; symmetrically for argmax/max.", "quantifier": "all lengths >= 1, all arrays over any total preorder", "why_tests_cant": "The input space (array length, contents, strides) is unbounded; a test fixes one array.", "anchors": ["src/minmax/minmax_gufunc.h: argmin_core, argmax_core, min_argmin_core, max_argmax_core, minmax_core, argminmax_core"]}
{"id": "C15", "title": "the minmax family is mutually consistent", "statement": "minmax, argminmax, min_argmin, max_argmax, argmin, argmax agree with each other: argminmax = (argmin, argmax), min_argmin = (minmax[0], argmin), max_argmax = (minmax[1], argmax), and the values are the elements at the returned indices.", "quantifier": "all lengths >= 1, all arrays (for the index parts under an irreflexive, transitive comparison)", "why_tests_cant": "Four separately written loops with different update rules must agree on every input, including ties.", "anchors": ["src/minmax/minmax_gufunc.h"]}
{"id": "C16", "title": "NaN in the minmax family", "statement": "If x[0] is NaN the results are NaN / index 0 whatever follows; if x[0] is not NaN, NaNs are ignored: the result is the one for the array with all NaNs treated as absent (indices refer to the original array).", "quantifier": "all arrays with NaNs at arbitrary positions", "why_tests_cant": "NaN placement is combinatorial.", "anchors": ["src/minmax/minmax_gufunc.h"]}
{"id": "C17", "title": "object versions of the minmax family agree with the typed ones", "statement": "For object arrays whose comparisons do not raise and form a total preorder, every function of the family returns the same elements/indices as the typed version; if a comparison raises, nothing is returned (exception).", "quantifier": "all lengths >= 1, all comparison functions, any raising point", "why_tests_cant": "Arbitrary __lt__ implementations.", "anchors": ["src/minmax/minmax_gufunc.h: *_core_object"]}
{"id": "C18", "title": "peaktopeak of integers is the exact mathematical difference", "statement": "For every non-empty array of w-bit signed integers, peaktopeak returns max(x)-min(x) exactly as an unsigned w-bit integer (which always fits), even when the signed difference overflows; contiguous and strided paths agree.", "quantifier": "all widths w >= 1, all arrays of w-bit integers", "why_tests_cant": "Overflow corner cases: sign of both extremes.", "anchors": ["src/peaktopeak/peaktopeak_gufunc.c.src: max_diff_@typename@, @typename@_contig, loop"]}
{"id": "C19", "title": "argfirst finds the first element satisfying the comparison", "statement": "argfirst(x, op, target) is the least index i with x[i] op target, or -1 if there is none, for every array and each of the six operators; NaN elements satisfy only !=.", "quantifier": "all arrays, all operators, all targets", "why_tests_cant": "The input space (array length, contents, strides) is unbounded; a test fixes one array.", "anchors": ["src/first/first_gufunc.h: argfirst, argfirst_core"]}
{"id": "C20", "title": "first returns that element, or otherwise", "statement": "first(x, op, target, otherwise) equals x[argfirst(x, op, target)] when argfirst is not -1, and otherwise when it is -1; an unknown op code yields otherwise / -1.", "quantifier": "all arrays, op codes (any integer), targets, otherwise values", "why_tests_cant": "The input space (array length, contents, strides) is unbounded; a test fixes one array.", "anchors": ["src/first/first_gufunc.h: first, first_core, first_core_object, argfirst_core_object"]}
{"id": "C21", "title": "all_same is true exactly when all elements are equal", "statement": "all_same(x) is True iff every pair of elements compares equal (True for length 0 and 1); with NaN: an array of length >= 2 containing a NaN gives False.", "quantifier": "all lengths, all arrays over any type with an equivalence as ==", "why_tests_cant": "The input space (array length, contents, strides) is unbounded; a test fixes one array.", "anchors": ["src/all_same/all_same_gufunc.h: all_same_core, all_same_core_object"]}
{"id": "C22", "title": "ordered checks every adjacent pair; with a transitive op, every pair", "statement": "ordered(x, op) is True iff x[i] op x[i+1] for all i (True for length <= 1); for the transitive operators <, <=, ==, >, >= this is equivalent to x[i] op x[j] for all i<j. (With NaN elements the code deviates: only the negated comparison is tested.)", "quantifier": "all lengths, all arrays over a linear order, all six ops", "why_tests_cant": "The input space (array length, contents, strides) is unbounded; a test fixes one array.", "anchors": ["src/ordered/ordered_gufunc.h: check_ordered, ordered_core"]}
{"id": "C23", "title": "ordered on object arrays agrees with the typed version", "statement": "For object arrays whose comparisons behave like those of a linear order, ordered gives the same answer as for typed arrays. (Fails in the code: the previous element is never advanced, so everything is compared with x[0]; the exact behaviour and the agreeing cases are proved.)", "quantifier": "all lengths, all object arrays", "why_tests_cant": "The wrong answer needs at least three elements in a particular pattern.", "anchors": ["src/ordered/ordered_gufunc.h: ordered_core_object"]}
{"id": "C24", "title": "percentileofscore formulas and ordering", "statement": "For every non-empty x and score, strict/weak are 100*#(x<s)/n and 100*#(x<=s)/n, mean is their average, rank is the average percentile rank of the tied scores; all lie in [0,100], strict <= mean <= weak, and each is non-decreasing in the score and invariant under permutation of x. In floating point (up to 2^p/100 elements) the result is the exact one rounded once, so the bounds and the order survive rounding.", "quantifier": "all non-empty arrays over a linear order, all scores, all four kinds", "why_tests_cant": "The input space (array length, contents, strides) is unbounded; a test fixes one array.", "anchors": ["src/percentileofscore/percentileofscore_gufunc.h: percentileofscore_count, percentileofscore_core"]}
{"id": "C25", "title": "hysteresis_relay follows the last decisive sample", "statement": "out[k] is low_value/high_value according to the most recent sample among x[0..k] strictly outside [low, high] (low wins if both), and init if there is none; hence every output is one of low_value, high_value, init. NaN samples keep the state.", "quantifier": "all lengths, all signals, any thresholds including low > high", "why_tests_cant": "State depends on the whole history.", "anchors": ["src/hysteresis_relay/hysteresis_relay_gufunc.h: hysteresis_relay_core"]}
{"id": "C26", "title": "stateful signal functions can be run in chunks", "statement": "Splitting a signal anywhere and feeding the final state of the first call as the initial state of the second gives bit-identical output to one call: hysteresis_relay (init := last output), backlash (initial := last output), backlash_sum (initial := final), sosfilter_ic (zi := zf).", "quantifier": "all signals, all split points, any arithmetic (bit-exact, no algebraic law used)", "why_tests_cant": "All split points of all histories.", "anchors": ["src/hysteresis_relay/hysteresis_relay_gufunc.h", "src/backlash/backlash_gufunc.h", "src/sosfilter/sosfilter_gufunc.h"]}
{"id": "C27", "title": "backlash output stays within half the deadband and moves minimally", "statement": "For deadband >= 0, out[k] is within deadband/2 of x[k] for every k (inside the band once k >= 0), equals the previous output whenever that is already within the band, and otherwise is the nearest point of the band [x-h, x+h]; holds also with monotone rounding.", "quantifier": "all signals, all non-negative deadbands, all initial values", "why_tests_cant": "Inductive property of an unbounded history.", "anchors": ["src/backlash/backlash_gufunc.h: backlash_core"]}
{"id": "C28", "title": "backlash is monotone in input and initial state", "statement": "If two inputs satisfy x <= x' elementwise and initial <= initial', then backlash(x) <= backlash(x') elementwise; a constant input leads to a constant output after the first sample; a monotone input gives a monotone output after the first sample.", "quantifier": "all pairs of signals, all deadbands >= 0", "why_tests_cant": "Two-run (hyper)property over unbounded histories.", "anchors": ["src/backlash/backlash_gufunc.h: backlash_core"]}
{"id": "C29", "title": "backlash_sum is the weighted sum of independent backlashes", "statement": "out[k] is the left-to-right sum over j of w[j]*b_j[k] where b_j = backlash(x, deadband[j], initial[j]), and final[j] = b_j[n-1] (initial[j] if n = 0). Bit-exact.", "quantifier": "all signals, all numbers m of operators, any arithmetic", "why_tests_cant": "The input space (array length, contents, strides) is unbounded; a test fixes one array.", "anchors": ["src/backlash/backlash_gufunc.h: backlash_sum_core"]}
{"id": "C30", "title": "sosfilter implements the transfer-function difference equation", "statement": "Each section's output satisfies y[n] = b0 x[n] + b1 x[n-1] + b2 x[n-2] - a1 y[n-1] - a2 y[n-2] (zero initial state: samples before 0 are 0), and the cascade feeds each section's output to the next, so running all sections sample by sample equals running section by section.", "quantifier": "all signals, all coefficient sets, all numbers of sections (exact arithmetic for the difference equation; any arithmetic for the cascade)", "why_tests_cant": "Histories and section counts are unbounded.", "anchors": ["src/sosfilter/sosfilter_gufunc.h: sosfilter_ic_core, sosfilter_core"]}
{"id": "C31", "title": "sosfilter is linear, causal and time-invariant", "statement": "The filter output is linear in (input, initial state), out[k] depends only on x[0..k], and delaying the input by zeros delays the zero-state output by the same amount.", "quantifier": "all signals, coefficients, scalars, delays (exact arithmetic)", "why_tests_cant": "Two-run properties over all signals.", "anchors": ["src/sosfilter/sosfilter_gufunc.h"]}
{"id": "C32", "title": "sosfilter's contiguous and strided implementations agree; zero state equals no state", "statement": "The specialised contiguous loop and the strided loop produce bit-identical output, and sosfilter(sos, x) equals sosfilter_ic with zi = 0. Outputs are written for every sample when there is at least one section.", "quantifier": "all signals, sections, strides; any arithmetic", "why_tests_cant": "Which path runs depends on memory layout, invisible in a value test.", "anchors": ["src/sosfilter/sosfilter_gufunc.h: sosfilter_contig, sosfilter_ic_core, sosfilter_core"]}
{"id": "C33", "title": "fillnan1d keeps values and fills every NaN when any value is known", "statement": "Non-NaN elements are unchanged; if x has at least one non-NaN the output has none; NaNs before the first / after the last known value copy it; an interior NaN at i between known a<i<b gets the linear interpolation x[a] + (i-a)(x[b]-x[a])/(b-a); all-NaN input stays all NaN; for finite data the operation is idempotent. (With infinite neighbours the interpolation itself can produce NaN.)", "quantifier": "all lengths, all NaN patterns, all values (exact arithmetic for the interpolation value)", "why_tests_cant": "2^n NaN patterns for each n.", "anchors": ["src/fillnan1d/fillnan1d_gufunc.h: fillnan1d_core"]}
{"id": "C34", "title": "unwrap: consecutive differences at most half a period, values congruent", "statement": "For period > 0 and finite x, every output differs from the corresponding input by an integer multiple of period, out[0]=x[0], and consecutive outputs differ by at most period/2; from the first non-finite sample after x[0] on, all outputs are NaN; unwrapping an already unwrapped signal (consecutive differences below half a period) changes nothing. (The claim fails for negative period, and a non-finite first sample is treated like any other.)", "quantifier": "all signals, all periods > 0 (exact arithmetic, quotient within int range)", "why_tests_cant": "Cumulative effect over unbounded histories.", "anchors": ["src/unwrap/unwrap_gufunc.h: unwrap1, unwrap_core"]}
{"id": "C35", "title": "softmax is a probability vector preserving order", "statement": "For finite non-empty x, all outputs are in (0,1], sum to 1, satisfy out[i]/out[j] = exp(x[i]-x[j]), are order preserving and invariant under adding a constant; with exactly one +inf the output is one-hot there; any NaN, two or more +inf, or all -inf gives all NaN.", "quantifier": "all lengths, all extended-real inputs", "why_tests_cant": "The input space (array length, contents, strides) is unbounded; a test fixes one array.", "anchors": ["src/softmax/softmax_gufunc.h: softmax_core"]}
{"id": "C36", "title": "meanvar computes the mean and the ddof-variance", "statement": "In exact arithmetic meanvar(x, ddof) = (sum x / n, sum (x-mean)^2/(n-ddof)) for every non-empty x - the compensated Welford recurrence loses nothing; for ddof<n the variance is >= 0 and is 0 iff all equal. In floating point (round to nearest, p bits) with all |x_i| <= M the mean is off by at most 25.5 M 2^-p and the variance by at most 140 M^2 2^-p n/(n-ddof), whatever the number of elements (up to 2^p/100); for elements all equal to c the mean is exactly c and the variance exactly 0.", "quantifier": "all lengths >= 1, all values, all ddof", "why_tests_cant": "The input space (array length, contents, strides) is unbounded; a test fixes one array.", "anchors": ["src/meanvar/meanvar_gufunc.h: compensated_update, meanvar_core"]}
{"id": "C37", "title": "kbnsum equals the sum, with IEEE special values", "statement": "In exact arithmetic kbnsum(x) is the plain sum (compensation terms vanish); with non-finite inputs on contiguous arrays it is NaN iff there is a NaN or infinities of both signs, and otherwise the infinity present. (On strided inputs the code inspects the wrong elements.)", "quantifier": "all lengths, all extended values", "why_tests_cant": "The input space (array length, contents, strides) is unbounded; a test fixes one array.", "anchors": ["src/kbnsum/kbnsum_gufunc.h: KBNSummer, kbnsum_core"]}
{"id": "C38", "title": "mad/gini/rmad equal their double-sum definitions", "statement": "The sort-and-scan algorithm computes sum_{i,j}|x_i-x_j| exactly: mad = sum|xi-xj|/n^2 (or /(n(n-1)) unbiased), gini = mad/(2 mean), rmad = mad/mean (2*gini), each invariant under permutation of x; special cases 0/0 and x/0 as documented.", "quantifier": "all lengths >= 1, all values, both unbiased flags (exact arithmetic)", "why_tests_cant": "O(n^2) definition vs O(n log n) code on all inputs.", "anchors": ["src/mad/mad_gufunc.h: unnormalized_mad, mad_core, gini_core, rmad_core"]}
{"id": "C39", "title": "gini of non-negative data is between 0 and 1", "statement": "For non-negative x with positive sum: 0 <= gini <= (n-1)/n < 1 in the biased form and 0 <= gini <= 1 in the unbiased form; gini = 0 iff all equal; scaling by c>0 does not change it.", "quantifier": "all lengths, all non-negative arrays (exact arithmetic)", "why_tests_cant": "The input space (array length, contents, strides) is unbounded; a test fixes one array.", "anchors": ["src/mad/mad_gufunc.h: gini_core"]}
{"id": "C40", "title": "wjaccard is a similarity in [0,1]", "statement": "For non-negative, not all zero x,y: wjaccard(x,y) = sum min / sum max is in [0,1], symmetric, 1 iff x = y; NaN if any NaN or both all-zero.", "quantifier": "all lengths >= 1, all non-negative arrays (exact arithmetic; bound also with monotone rounding)", "why_tests_cant": "The input space (array length, contents, strides) is unbounded; a test fixes one array.", "anchors": ["src/wjaccard/wjaccard_gufunc.h: wjaccard_core"]}
{"id": "C41", "title": "vnorm is the p-norm", "statement": "For order p>0 (incl. inf) the scaled algorithm returns (sum|x|^p)^(1/p) (max|x| for p=inf), 0 for zero/empty vectors, NaN for p<=0; it is absolutely homogeneous and permutation invariant; NaN and infinite elements give NaN and inf. (The last clause is false of the code in part.)", "quantifier": "all lengths, all real vectors, all orders", "why_tests_cant": "The input space (array length, contents, strides) is unbounded; a test fixes one array.", "anchors": ["src/vnorm/vnorm_gufunc.h: vnorm_core"]}
{"id": "C42", "title": "rms and vdot", "statement": "rms(x) = sqrt(sum x^2/n) with rms^2*n = sum x^2, between 0 and max|x|, strided and contiguous paths equal; vdot is the left-to-right inner product sum x*y (bit-exact order), bilinear in exact arithmetic, with Cauchy-Schwarz.", "quantifier": "all lengths, all vectors", "why_tests_cant": "The input space (array length, contents, strides) is unbounded; a test fixes one array.", "anchors": ["src/vnorm/vnorm_gufunc.h: rms_core, vdot_core"]}
{"id": "C43", "title": "cross3/cross2 are the vector cross products", "statement": "cross3(u,v) is orthogonal to u and v, anticommutative, satisfies the Lagrange identity |u x v|^2 + (u.v)^2 = |u|^2|v|^2; cross2 is the determinant; the object versions compute the same formula.", "quantifier": "all vectors over any commutative ring", "why_tests_cant": "The input space (array length, contents, strides) is unbounded; a test fixes one array.", "anchors": ["src/cross/cross_gufunc.h: cross3_core, cross2_core, det2, object cores"]}
{"id": "C44", "title": "tri_area is half the parallelogram area", "statement": "tri_area(p)^2 * 4 equals the Gram determinant of the edge vectors, for points in any dimension n; invariant under permuting vertices and under translation; 0 iff collinear; the Kahan ordering of the sides does not change the value.", "quantifier": "all dimensions n, all triangles (exact real arithmetic)", "why_tests_cant": "The input space (array length, contents, strides) is unbounded; a test fixes one array.", "anchors": ["src/tri_area/tri_area_gufunc.h: norm_diff, tri_area_common, tri_area_core"]}
{"id": "C45", "title": "tri_area_indexed uses Python indexing and is NaN when out of range", "statement": "tri_area_indexed(p, i) = tri_area(p[i]) with negative indices counting from the end when all three are in [-m, m); NaN otherwise; never reads outside p.", "quantifier": "all m, n, all index triples", "why_tests_cant": "The input space (array length, contents, strides) is unbounded; a test fixes one array.", "anchors": ["src/tri_area/tri_area_gufunc.h: get_index, tri_area_indexed_core"]}
{"id": "C46", "title": "pearson_corr is a correlation coefficient", "statement": "For n>=2 and non-constant inputs, the result is sum dx dy/sqrt(sum dx^2 sum dy^2), is in [-1,1], symmetric, invariant under positive affine maps of either input and equals +1/-1 exactly for affine relations; the two-element special case agrees; constant input gives NaN.", "quantifier": "all lengths >= 2, all real vectors (exact arithmetic)", "why_tests_cant": "The input space (array length, contents, strides) is unbounded; a test fixes one array.", "anchors": ["src/corr/corr_gufunc.h: pearson_corr_core, pearson_corr_int_core"]}
{"id": "C47", "title": "linear_interp1d interpolates the table", "statement": "For strictly increasing xp: result at xp[i] is fp[i]; between xp[i] and xp[i+1] it is the linear interpolant, NaN outside the table; the bracket search reads only in range for every x and every xp, and the vectorised path with one table equals the general path.", "quantifier": "all table lengths, all x (exact arithmetic)", "why_tests_cant": "The input space (array length, contents, strides) is unbounded; a test fixes one array.", "anchors": ["src/linear_interp1d/linear_interp1d_gufunc.*: search, loop"]}
{"id": "C48", "title": "deadzone", "statement": "deadzone(x,low,high) is 0 exactly on [low,high] (low<=high), x-low below and x-high above; monotone and 1-Lipschitz in x; sign agrees with the side; x - deadzone(x) = clip(x, low, high). (NaN input gives 0, not NaN.)", "quantifier": "all reals (monotone rounding for sign and monotonicity, exact for the rest)", "why_tests_cant": "The input space (array length, contents, strides) is unbounded; a test fixes one array.", "anchors": ["src/deadzone/deadzone.h: deadzone"]}
{"id": "C49", "title": "trapezoid_pulse", "statement": "For a<=b<=c<=d: 0 outside (a,d), amp on [b,c] (if strictly inside), linear ramps between; values between 0 and amp; never divides by zero; NaN when the parameters are not ordered.", "quantifier": "all reals x, all parameters", "why_tests_cant": "The input space (array length, contents, strides) is unbounded; a test fixes one array.", "anchors": ["src/trapezoid_pulse/trapezoid_pulse.h"]}
{"id": "C50", "title": "step functions: end values, range and monotonicity", "statement": "linearstep, smoothstep3 and smoothstep5 with a<b give fa for x<=a, fb for x>=b, are monotone between fa and fb, continuous, symmetric about the midpoint, and smoothstep derivatives vanish at the ends; a>b gives NaN; a==b gives the documented jump; NaN x gives NaN. (The last clause is false of some of the functions.) (The (fa+fb)/2 value at x==a==b is unreachable in the code.)", "quantifier": "all reals x,a,b,fa,fb", "why_tests_cant": "The input space (array length, contents, strides) is unbounded; a test fixes one array.", "anchors": ["src/step/step.h: step, linearstep, smoothstep3, smoothstep5"]}
{"id": "C51", "title": "invsmoothstep3 inverts smoothstep3", "statement": "For a<b, fa != fb and y between fa and fb: smoothstep3(invsmoothstep3(y)) = y, and for x in [a,b] invsmoothstep3(smoothstep3(x)) = x; y outside the range gives NaN.", "quantifier": "all reals in range (exact real arithmetic)", "why_tests_cant": "A trigonometric closed form must solve the cubic for every y.", "anchors": ["src/step/step.h: invsmoothstep3, smoothstep3"]}
{"id": "C52", "title": "yeo_johnson and inv_yeo_johnson are inverse bijections", "statement": "inv_yeo_johnson(yeo_johnson(x, l), l) = x for all real x, l; yeo_johnson is strictly increasing in x with value 0 at 0 and sign-preserving; yeo_johnson(inv(y)) = y wherever inv is finite; outside the range inv is NaN, at the boundary +-inf.", "quantifier": "all real x and lambda (exact real arithmetic)", "why_tests_cant": "The input space (array length, contents, strides) is unbounded; a test fixes one array.", "anchors": ["src/yeo_johnson/yeo_johnson.h: yeo_johnson, inv_yeo_johnson"]}
{"id": "C53", "title": "logistic, log_logistic, logistic_deriv, swish", "statement": "logistic is in (0,1), strictly increasing, logistic(-x) = 1-logistic(x); log_logistic(x) = log(logistic(x)) in both branches and <= 0; logistic_deriv is the derivative of logistic; swish(x,0)=x/2 and swish(x,b)=x*logistic(bx).", "quantifier": "all reals", "why_tests_cant": "The input space (array length, contents, strides) is unbounded; a test fixes one array.", "anchors": ["src/logistic/logistic.h"]}
{"id": "C54", "title": "hyperbolic_ramp and exponential_ramp", "statement": "All branch formulas agree: hyperbolic_ramp(x,a) = (x+sqrt(x^2+4a^2))/2 and exponential_ramp(x,a) = a*log2(1+2^(x/a)) for a>0; both exceed max(x,0), are strictly increasing, and equal max(x,0) at a=0; a<0 gives NaN.", "quantifier": "all reals", "why_tests_cant": "The input space (array length, contents, strides) is unbounded; a test fixes one array.", "anchors": ["src/ramp/ramp.h"]}
{"id": "C55", "title": "semivariogram models", "statement": "Each model is nugget at h=0, non-decreasing for sill>=nugget, stays in [nugget, sill], equals sill for h>range (spherical, linear, parabolic: continuous at range).", "quantifier": "all reals h>=0, range>0", "why_tests_cant": "The input space (array length, contents, strides) is unbounded; a test fixes one array.", "anchors": ["src/semivar/semivar.h"]}
{"id": "C56", "title": "issnan recognises exactly the signaling NaNs", "statement": "For every 16/32/64-bit pattern issnan is true iff exponent bits are all ones, the quiet bit is 0 and the mantissa is non-zero; sign bit irrelevant; inf, finite and quiet NaN give False.", "quantifier": "all 2^16, 2^32, 2^64 bit patterns", "why_tests_cant": "2^64 patterns cannot be enumerated.", "anchors": ["src/issnan/issnan_ufunc.c.src"]}
{"id": "C57", "title": "nextn_greater / nextn_less list consecutive floats", "statement": "For every float x and n, the output is the n successive floating point values after (before) x: strictly increasing (decreasing) while finite, no representable value is skipped, the second call on the last output continues the sequence, infinity is absorbing, NaN propagates.", "quantifier": "all bit patterns of an IEEE format, all n", "why_tests_cant": "2^64 starting points and unbounded n.", "anchors": ["src/nextn/nextn_gufunc.h", "src/next/next.h", "ufunclab/_wrapped.py: nextn_greater, nextn_less"]}
{"id": "C58", "title": "generated gufunc loops visit every item once at the right address", "statement": "The generated outer loop calls the core function exactly nloops times; the j-th call gets pointers base + j*step for every argument and the correct core dimensions and core strides from the steps array; results are written only in the output views and do not interfere for disjoint outputs. (A core dimension named j is hidden by the loop counter: the core function gets the iteration number as its size.)", "quantifier": "all argument counts, all dimensions, all strides incl. 0 and negative; nloops < 2^31", "why_tests_cant": "Any layout NumPy may hand over.", "anchors": ["tools/cxxgen/gufuncgen.py: generate_concrete_loop, gen", "src/util/strided.hpp"]}
{"id": "C59", "title": "zero-length core dimensions declared non-zero are rejected", "statement": "For every gufunc generated with nonzero_coredims, if any listed core dimension is 0 the loop raises ValueError and writes no output; otherwise the core function is called only with all listed dimensions >= 1. Functions with a process_core_dims hook reject bad or missing output dimensions before any loop runs.", "quantifier": "all generated gufuncs, all dimension vectors", "why_tests_cant": "The input space (array length, contents, strides) is unbounded; a test fixes one array.", "anchors": ["tools/cxxgen/gufuncgen.py: gen, generate_concrete_loop"]}
{"id": "C60", "title": "gufunc signature parsing", "statement": "parse_gufunc_signature accepts a signature string printed from any list of input/output core shapes and returns exactly these shapes; core dimension names get consistent numbers in order of first appearance; get_nin_nout counts the arguments.", "quantifier": "all lists of shapes of identifiers/integers", "why_tests_cant": "Strings of unbounded length.", "anchors": ["tools/cxxgen/gufuncgen.py: parse_gufunc_signature, get_varnames", "src/util/ufunc_tools.h: get_nin_nout"]}
{"id": "C61", "title": "template type classification is faithful", "statement": "classify_typenames: from the classification one can recover every listed type signature; a column is shared iff all its types are equal; two columns get the same template parameter iff they are equal in every signature. (False when a signature is listed twice.)", "quantifier": "all lists of type signatures of equal length", "why_tests_cant": "The input space (array length, contents, strides) is unbounded; a test fixes one array.", "anchors": ["tools/cxxgen/gufuncgen.py: classify_typenames"]}
{"id": "C62", "title": "gendot equals reduce(sumfunc, map(prodfunc))", "statement": "For element sizes where the product output and the sum output types coincide, gendot(prod,sum)(x,y) is sum.reduce(prod(x,y)) left to right; for empty core dimension it is the identity or ValueError; only matching loops are composed. (When the sum's output item is smaller than the product's, the temporary buffer is too small: proved as a violation.)", "quantifier": "all lengths, all elementwise functions (any laws), all type tables", "why_tests_cant": "The input space (array length, contents, strides) is unbounded; a test fixes one array.", "anchors": ["src/gendot/gendotmodule.c: reduce, gendot_loop, gendot", "ufunclab/_gendot_wrap.py: gendot"]}
{"id": "C63", "title": "axis handling of the Python wrappers", "statement": "convert_to_base, nextn_*, one_hot: the output shape is the broadcast input shape with n inserted at the (normalised) axis; bincount: with m replacing/inserted at axis; axis and its non-negative equivalent give the same shape; invalid axes raise AxisError. (The upper check in three wrappers is off by one.)", "quantifier": "all shapes, all axes", "why_tests_cant": "The input space (array length, contents, strides) is unbounded; a test fixes one array.", "anchors": ["ufunclab/_wrapped.py"]}
{"id": "C64", "title": "conv_template expands every combination exactly once", "statement": "A begin repeat block with variables of k values each expands to k copies with @name@ replaced consistently by the i-th values; nested loops expand to the product; value lists with (..)*n repeat exactly n times; mismatched lengths raise. (Several inputs break this: see the violated theorems.)", "quantifier": "all templates", "why_tests_cant": "The input space (array length, contents, strides) is unbounded; a test fixes one array.", "anchors": ["tools/conv_template.py: parse_values, paren_repl, parse_loop_header, parse_string"]}
{"id": "C65", "title": "power, geometric and harmonic means", "statement": "gmean/hmean/pmean of positive data equal exp(mean log), n/sum(1/x), (mean x^p)^(1/p) in real arithmetic (all shortcut branches agree with the definition), lie between min and max, are homogeneous, and unit weights reduce the weighted versions to the unweighted; special cases for 0, inf, NaN, negative as documented. (Some of the special cases are false of the code: violated theorems.)", "quantifier": "all lengths >= 1, all positive vectors, all real p (|p|>=2e-6 or p=0)", "why_tests_cant": "The input space (array length, contents, strides) is unbounded; a test fixes one array.", "anchors": ["src/means/means_gufunc.c.src"]}
{"id": "C66", "title": "multivariate_logbeta and logfactorial domain behaviour", "statement": "multivariate_logbeta(x) = sum lgamma(x_i) - lgamma(sum x_i) for positive x (permutation invariant), NaN for an empty x; logfactorial(k) is log(k!) to 3.4e-14 for every k >= 0 (table below 126, Stirling series above), NaN for negative k, and never reads outside the table. (Non-positive x is not rejected by multivariate_logbeta.)", "quantifier": "all lengths, all integers", "why_tests_cant": "The input space (array length, contents, strides) is unbounded; a test fixes one array.", "anchors": ["src/multivariate_logbeta/multivariate_logbeta_gufunc.h", "src/logfactorial/logfactorial.c", "src/logfactorial/logfactorial_ufunc.c"]}
{"id": "C67", "title": "elementwise helpers: abs_squared, hypot3, nan_to_num, pow1pm1", "statement": "abs_squared(z)=|z|^2 >= 0, the strided real and complex loops write exactly that for each element; hypot3 is sqrt(x^2+y^2+z^2), inf if any input is inf even with NaN; nan_to_num replaces exactly NaN; pow1pm1(x,y) = (1+x)^y-1 for x>-1 with the documented value at (-1,0) and the limits at infinite arguments. (pow1pm1(inf,0) and abs_squared(inf+nan j) are NaN in the code.)", "quantifier": "all reals/extended reals", "why_tests_cant": "The input space (array length, contents, strides) is unbounded; a test fixes one array.", "anchors": ["src/abs_squared/abs_squared.h", "src/hypot3/hypot3.h", "src/nan_to_num/nan_to_num.h", "src/pow1pm1/pow1pm1.h"]}
{"id": "C68", "title": "normal distribution functions", "statement": "normal_cdf(x)+normal_sf(x)=1, both branches of cdf agree, cdf in [0,1] and non-decreasing, logcdf = log(cdf) in both branches, sf(x)=cdf(-x): all relative to the standard normal measure, cdf(x) = N(0,1)((-inf,x]), with exact library erfc.", "quantifier": "all reals", "why_tests_cant": "The input space (array length, contents, strides) is unbounded; a test fixes one array.", "anchors": ["src/normal/normal.h"]}
{"id": "C69", "title": "expint1 and logexpint1 approximate the exponential integral", "statement": "For every x>0 expint1(x) is the integral of exp(-t)/t from x to infinity to a relative 2^-52 (series with the given constant up to 1, continued fraction with 20+floor(80/x) terms above), logexpint1(x) is its logarithm to 2.3e-16 relative or absolute, without underflow, and exactly log(expint1(x)) up to 500; x<0 and NaN give NaN, 0 gives inf, +inf gives 0 / -inf. (For long double, which is registered too, the accuracy is not that of the type.)", "quantifier": "all real x>0 (exact arithmetic in the rest), all special values", "why_tests_cant": "The number of terms depends on x, and the reference is an improper integral; samples cannot bound the error between them.", "anchors": ["src/expint1/expint1.h"]}
{"id": "C70", "title": "uwrap line breaking and lazy import table", "statement": "to_lines returns lines whose concatenation is the input parts in order, none lost, each line within the limit whenever every part fits; (it loops forever for an overlong part). The call signatures it writes list every parameter once. The lazy import table maps each public name to exactly one module, every listed name resolves, unknown names raise AttributeError, and dir() lists exactly the importable names. (The last clause is false: three names are missing.)", "quantifier": "all part lists, all names", "why_tests_cant": "The input space (array length, contents, strides) is unbounded; a test fixes one array.", "anchors": ["tools/uwrap/uwrap.py: to_lines", "ufunclab/__init__.py"]}
{"id": "C71", "title": "complex log1p is accurate everywhere, also where its real part vanishes", "statement": "log1p_doubledouble(x+iy) has, for every finite double z other than -1, an imaginary part within 2 ulp-units of arg(1+z) and a real part within 8*2^-53 relative plus 2^-95*min(1,x^2+2|x|+y^2) of log|1+z|, hence accurate also near |1+z|=1; likewise in single precision. The double-double steps are error-free transformations. Infinite parts give +inf and the limiting angle, z=-1 gives -inf, a NaN part gives nan+nan j, and the loops are elementwise. log1p_theorem4 has an error of modulus at most 25*2^-53*|log(1+z)|, and is exact whenever 1+x is. (log1p_theorem4 gives NaN for tiny x + inf j.)", "quantifier": "all pairs of doubles (no bound on exponents from above), any nearest rounding, with and without FMA; all strides and lengths", "why_tests_cant": "The inputs form a two-dimensional set of 2^128 pairs and the cancellation happens along a curve; sampling cannot bound the error on it.", "anchors": ["src/log1p/log1p_ufunc.c: log1p_theorem4, log1p_doubledouble, log1pf_doubledouble, two_sum, split, square, double_sum", "src/log1p/log1p_ufunc.c: loops"]}
{"id": "C72", "title": "debye1 is the Debye function of order 1 on the whole real line", "statement": "For every real x debye1(x) is D1(x) = (1/x) times the integral of t/(e^t-1) from 0 to x, with relative error below 2e-14 for |x|<2.9 and |x|>18.1 and below 2.8e-13 everywhere in double precision (below 1e-14 in exact arithmetic, 6e-8 in the single-precision loop), negative x included; debye1(0)=1 exactly, +inf gives 0, -inf gives +inf, NaN gives NaN. Whatever rounding does to the table index, a polynomial that is valid at x is used. The loops are elementwise for all strides.", "quantifier": "all real x, any nearest rounding; all strides and lengths", "why_tests_cant": "The function is defined by an integral and evaluated by 120 fitted polynomials; samples cannot bound the error of each on its whole interval, nor at the breakpoints where the rounded index may pick the neighbour.", "anchors": ["src/debye1/debye1_generated.c", "src/debye1/debye1_ufunc.c"]}
{"id": "C73", "title": "loggamma1p is log Gamma(1+x) for every real x > -1", "statement": "For every double x > -1 loggamma1p(x) is log(Gamma(1+x)) within 1.5e-14 + 2.4e-15*(1+x)(1+|log(1+x)|) in double precision (5.2e-16 in exact arithmetic), and for -1/4 < x < 1/2 within a relative 2e-14 (2.5e-15 for |x| < 1/1000), so no accuracy is lost to the sum 1+x; the result at 0 and 1 is exactly 0; NaN exactly for NaN, -inf and x <= -1; +inf gives +inf. The loops are elementwise for all strides. (Next to x = 1, the other zero of the function, the relative accuracy is lost: violated theorem.)", "quantifier": "all doubles x > -1, any nearest rounding, any library log with relative error below 2^-52; all strides and lengths", "why_tests_cant": "The reference is the gamma function, approximated by a fitted rational sum and a Pade approximant; samples cannot bound the error on an interval.", "anchors": ["src/loggamma1p/loggamma1p.c: lanczos_sum, m_lgamma, loggamma1p_small_x, loggamma1p", "src/loggamma1p/loggamma1p_ufunc.c"]}
{"id": "C74", "title": "erfcx is exp(x^2) erfc(x), accurate on the whole line and infinite exactly where it must be", "statement": "For every x > 0 erfcx(x) is exp(x^2)*(2/sqrt(pi))*integral of exp(-t^2) from x to infinity within a relative 17*2^-p plus half of the least subnormal, in float (p=24), double (53) and long double (64); for x <= 0 within (2.01*x^2 + 20)*2^-p relative plus 2.01 times the error of the library's exp, and without overflow in between. The result is infinite exactly where the true value exceeds the largest finite number of the type; NaN gives NaN, -inf gives +inf, +inf gives 0. (For float and double one argument too many gives infinity: violated theorems.)", "quantifier": "all real x, in particular all floats; any nearest rounding; any exp of the given accuracy", "why_tests_cant": "The function is defined by an improper integral and evaluated by 300 fitted polynomials and a truncated continued fraction; samples cannot bound the error of each on its whole interval.", "anchors": ["src/normal/erfcx_funcs.cxx: erfcx, erfcx_y100", "src/normal/generate_erfcx_code.py"]}
{"id": "C75", "title": "generated elementwise ufuncs dispatch to the right C++ function", "statement": "For every configuration of the ufunc code generator (entries with distinct names, each with at least one signature over the real and complex floating point types and the same number of inputs in all of them) the generated module registers each ufunc under its name with the right number of inputs and loops; NumPy reads for loop k the types of signature k; running loop k on n elements with any strides stores at each output position the entry's C++ function, instantiated at the signature's types, of the input elements in order, and nothing else is written. Other signatures are refused. The docstring of the ufunc is the configured one. Each header gets its own generated files. (False for 2^31 elements or more, for signatures of different lengths, for docstrings with quotes or backslashes, for names differing in case only, and for headers differing in extension only.) All shipped configurations are of the good kind.", "quantifier": "all configurations, all element counts, strides and memories", "why_tests_cant": "The generated code is not itself under test for configurations other than the shipped ones, and the type tables, loop tables and function names must match for every entry.", "anchors": ["tools/cxxgen/generate_ufunc_extmod.py", "tools/cxxgen/generate_concrete_cfuncs.py", "tools/cxxgen/generate_utils.py", "tools/cxxgen/generate_ufuncs.py", "src/*/define_cxxgen_extmods.py"]}
{"id": "C76", "title": "tri_area in floating point is accurate away from degenerate triangles", "statement": "With every operation rounded to nearest: each side is within (0.52n+4)u of the distance of the points; from rounded sides that satisfy the triangle inequality the area is never NaN and within a relative 6.001u of Heron's formula, however thin the triangle; hence tri_area is finite and within a relative 2.2d+8u of the true area whenever the error of the sides is at most d <= 1/8 of the smallest of b+c-a, c+a-b, a+b-c. Without rounding the result is Heron's formula and never NaN. (False without the condition: three collinear points can give NaN, and a triangle whose area is representable can give 0.)", "quantifier": "all dimensions n with (n+3)u <= 1/100, all floats as coordinates, any nearest rounding", "why_tests_cant": "Cancellation happens for triangles close to degenerate, a set that samples miss; the bound must hold for every shape.", "anchors": ["src/tri_area/tri_area_gufunc.h: norm_diff, tri_area_common_calc, tri_area_core_calc"]}
{"id": "C77", "title": "interpolating functions in floating point: accuracy, range, agreement of the two paths", "statement": "With every operation rounded to nearest: linearstep, smoothstep3 and smoothstep5 return the end values exactly outside (a,b) and, inside, are within 11u, 21u and 116u times max(|fa|,|fb|) (plus a few least subnormals) of the exact polynomial; linearstep and smoothstep3 from 0 to 1 stay in [0,1] and linearstep from 0 to 1 is monotone; trapezoid_pulse stays between 0 and amp and is within 4.2u*|amp| of the exact pulse; linear_interp1d returns the function value exactly at a knot and is within 12u*max(|f|) of the interpolant between knots, on the path for one point and table shared by a batch as on the general path. The results stay between the end values and do not depend on the path. (The last sentence is false: all three step functions and linear_interp1d can exceed the larger end value, smoothstep5 even from 0 to 1, and the two paths of linear_interp1d give different results.)", "quantifier": "all floats x, a, b, fa, fb, amp, all increasing tables, any nearest rounding, any format with at least 11 bits", "why_tests_cant": "The excess is one unit in the last place and appears for a thin set of arguments; samples neither find it nor bound it.", "anchors": ["src/step/step.h: linearstep, smoothstep3, smoothstep5", "src/trapezoid_pulse/trapezoid_pulse.h", "src/linear_interp1d/linear_interp1d_gufunc.c.src"]}
{"id": "C78", "title": "generated gufunc modules register and run the right loops", "statement": "For every reasonable configuration of the gufunc code generator (identifiers as names, a shape signature, the variables on the first line of the docstring, core functions with distinct type signatures of the right length, core function names that are not each other followed by a type) the generator succeeds and the generated module compiles as far as names and declarations go; it registers each gufunc with its signature; loop k is the k-th listed type signature (those with long double left out where long double is double), NumPy reads exactly its types from the type table, and running it calls the right core function, with the right template arguments, pointer types, addresses, core dimensions and strides, once per item; nonzero core dimensions are checked first. The prototype shown to the author of the core function fits the calls. The docstring of each gufunc is registered. All 24 shipped configurations are reasonable. (Not refused, with wrong or uncompilable output: signatures of the wrong length, objects mixed with other types, core functions shared by two sources, sources with long double only, a core dimension j, quotes in docstrings, names that differ in case only, an argument of shape (1).)", "quantifier": "all configurations, all operands, strides and sizes below 2^31", "why_tests_cant": "The generated modules other than the shipped ones are not under test, and tables, loop names, casts and prototypes must agree for every type signature of every source.", "anchors": ["tools/cxxgen/gufuncgen.py: gen, generate_concrete_loop, generate_declaration, concrete_loop_function_name, create_c_docstring_def, get_varnames_from_docstring_and_sig", "tools/cxxgen/ufunc_config_types.py", "tools/cxxgen/generate_utils.py: typechar_to_npy_ctype", "src/util/ufunc_tools.h: ul_define_gufunc", "src/mad/define_cxx_gufunc_extmod.py"]}
{"id": "C79", "title": "mad, rmad and gini in floating point", "statement": "With every operation rounded to nearest, the mean absolute difference and the Gini coefficient of n numbers are within a few n*u of the exact ones, relative to the sum of the magnitudes (mad) or absolutely (gini, positive data); for integers of moderate size mad has a single rounding. Without rounding the results are those of the exact property. The results are never negative. (The last sentence is false: eight copies of 0.9 give a negative mad, rmad and gini, whatever the tie rule.)", "quantifier": "all lengths with n*u <= 1/100, all floats, any nearest rounding", "why_tests_cant": "The sign error appears for special values of equal elements, and the error bound must hold for all data.", "anchors": ["src/mad/mad_gufunc.h: unnormalized_mad, mad_core, gini_core, rmad_core"]}
{"id": "C80", "title": "softmax in floating point", "statement": "With every operation rounded to nearest and a library exp that is monotone, not negative and exact at 0: the outputs of softmax are numbers in [0,1] in the order of the inputs, -inf gives exactly 0, they add up to 1 within 1.04(n+1)u and half a least subnormal each, and each is within 1.5(n+1)u + 2.1*eps of exp(x_i)/sum exp(x_j) where eps is the relative error of exp, however large or far apart the inputs are. NaN, +inf and all -inf are treated exactly as without rounding.", "quantifier": "all lengths with n*u <= 1/100, all floats and infinities, any nearest rounding, any exp of the stated kind", "why_tests_cant": "The bound must hold for every spread of the data, including differences rounded before the exponential.", "anchors": ["src/softmax/softmax_gufunc.h"]}
{"id": "C81", "title": "pearson_corr in floating point", "statement": "With every operation rounded to nearest: for finite floats of any size pearson_corr is NaN exactly when one of the inputs is constant; with two pairs the result is exact; otherwise, unless the spread of an input is at the bottom of the exponent range, it is within (1.04n+18)u + 55.2u*(Mx/sd(x) + My/sd(y)) of Pearson's coefficient, where Mx, My bound the magnitudes and sd is the standard deviation, and exceeds 1 in absolute value by at most (1.04n+18)u; for integers of at most p bits the same without conditions. The result is never outside [-1,1]. (The last sentence is false: 0, 0, 3 with itself gives 1+2^-52, and subnormal data can give 2.)", "quantifier": "all lengths with n*u <= 1/100, all finite floats and all p-bit integers, any nearest rounding, all strides", "why_tests_cant": "The excess over 1 appears for a thin set of data; the test for constant data goes through a rounded mean and must be right for every float; the bound must hold for all data.", "anchors": ["src/corr/corr_gufunc.h: strided_mean, strided_delta_maxabs, strided_delta_norm, pearson_corr_core, pearson_corr_int_core"]}
{"id": "C82", "title": "vdot, rms, cross2 and cross3 in floating point", "statement": "With every operation rounded to nearest: vdot is within 1.02(n+1)u * sum |x_i y_i| (plus half a least subnormal per product) of the exact dot product and exact for integers with sum |x_i y_i| <= 2^p; vdot(x,y) equals vdot(y,x) and vdot(x,x) >= 0; rms has relative error at most (0.53n+2.2)u for real and (0.53n+2.8)u for complex data whose squares are well inside the range of normal numbers, and is never negative; cross2 and each component of cross3 are within 2.002u(|ad|+|bc|) of ad-bc plus a least subnormal, never have the wrong sign, are 0 for a vector with itself and exact for small integers. The rms never exceeds the largest magnitude and is not 0 for nonzero data; cross2 is 0 only for parallel vectors. (The last sentence is false: five copies of 1.9 have an rms above 1.9, the rms of 2^-540 is 0, and (1+2^-52, 1) x (1, 1-2^-53) is 0.)", "quantifier": "all lengths with n*u <= 1/100, all floats, any nearest rounding, all strides", "why_tests_cant": "Error bounds, exactness and signs must hold for every vector; the excess over the maximum appears only for special values.", "anchors": ["src/vnorm/vnorm_gufunc.h: rms_core_calc, crms_core_calc, vdot_core_calc", "src/cross/cross_gufunc.h: cross2_core_calc, cross3_core_calc"]}
{"id": "C83", "title": "vnorm and wjaccard in floating point", "statement": "With every operation rounded to nearest and a library pow of relative error eps (pow(1,e)=1, values not below 0, nor below 1 for bases from 1 on): for every order q in [1, 2^p/100] and finite data of any magnitude vnorm is within ((1.2n+1.1 ln n)/q + 2.3)u + 2.3eps of the exact norm, relatively, plus half a least subnormal; order 1 within 1.02nu, order infinity exactly. For every positive order of at least 120nu+60eps whose quotients with the largest magnitude do not underflow it is within ((1.2n+1.1 ln n+1.2)/q + 2.4)u + (1.2/q+1.1)eps; without that condition it need not be near (vnorm([2^100, 2^-1074], 2^-8) is 2^100, less than a ninth of the exact value). For every positive finite order the result is at least the largest magnitude, so it is 0 only for zero data however small, and a single number gives exactly its magnitude. wjaccard of data that are not negative is within (2.1n+1.1)u of the exact index.", "quantifier": "all lengths with n*u <= 1/100, all finite floats, orders as stated, any nearest rounding, any pow of the stated kind", "why_tests_cant": "The bounds must hold for every vector, order and magnitude; scaling by the maximum is what keeps tiny and huge data accurate.", "anchors": ["src/vnorm/vnorm_gufunc.h: vnorm_core_calc", "src/wjaccard/wjaccard_gufunc.h: wjaccard_core"]}
{"id": "C84", "title": "hmean, gmean and pmean in floating point", "statement": "With every operation rounded to nearest (long double where the code writes 1.0L): hmean of positive numbers whose reciprocals are normal has relative error at most 1.1(n+1)(u+ux), ux the unit of long double; gmean of equal numbers is that number exactly, and of positive numbers has relative error at most 1.1((n+1)u+eps)L + 1.1eps, L the mean of |ln x_i| and eps the relative error of the library functions; pmean of order q in [1, 2^p/100] has relative error at most ((1.2n+1.1 ln n+1.2)/q + 2.3)u + 2.3eps, for other orders of size at least 2e-6 (not -1) at most ((1.2n+1.1 ln n+1.2)/|q| + 2.4)u + (1.2/|q|+1.1)eps plus, for positive orders, a least subnormal times the largest element, and for smaller orders at most ((2m+21)((n+1)u+eps)+2eps+q^2 R^3(1+R)) times the geometric mean, m a bound of |ln x_i| and R of the deviations of ln x_i; for every positive order of size at least 2e-6 it does not exceed the largest element, for negative orders other than -1 it is not below the smallest. A mean of equal numbers is that number, and every mean lies between the smallest and the largest element. (The last sentence is false: hmean([1.9]), hence pmean([1.9], -1), is above 1.9, hmean([0.9]) is below 0.9, and pmean([3.3, 3.3000000000000003], -2) is above both. A purely relative bound fails for small positive orders: pmean([2^1023, 0, 0], 2^-10) is 0 although the mean is above 2^-617.)", "quantifier": "all lengths with n*u <= 1/200, all floats as stated, any nearest rounding, any long double format, any log, exp, pow of the stated kind", "why_tests_cant": "The bounds must hold for all data; the excess over the range appears only for special values.", "anchors": ["src/means/means_gufunc.c.src: gmean_1d, hmean_loop, pmean_loop"]}
{"id": "C85", "title": "overflow in vdot, rms, cross2, kbnsum and wjaccard", "statement": "In a format whose largest number is Omega, where a rounded result beyond Omega becomes an infinity: when the sum of the magnitudes of the terms (sum |x_i y_i|, sum x_i^2, |ad|+|bc|, sum |x_i|, sum max(x_i,y_i)) with a small margin is at most Omega, these functions give the finite result of the format without overflow, with its error bounds; rms is infinite as soon as one square is beyond the range. Data whose exact result is in the range give a finite result. (The last sentence is false in double precision: rms([2^512]) is inf; vdot([2^512,2^512],[2^512,-2^512]), cross2 of (2^512,2^512) with itself, kbnsum([2^1023,2^1023,-2^1023]) and wjaccard of [2^1023,2^1023] with itself are NaN.)", "quantifier": "all lengths with n*u <= 1/100, all finite floats, any nearest rounding, any largest number, all strides", "why_tests_cant": "The range of data for which no partial sum overflows has no finite test; the failures need magnitudes near the end of the range.", "anchors": ["src/vnorm/vnorm_gufunc.h: rms_core_calc, vdot_core_calc", "src/cross/cross_gufunc.h: cross2_core_calc", "src/kbnsum/kbnsum_gufunc.h: kbnsum_core_calc", "src/wjaccard/wjaccard_gufunc.h: wjaccard_core"]}
{"id": "C86", "title": "no needless overflow in softmax and vnorm", "statement": "In a format whose largest number is Omega, where a rounded result beyond Omega becomes an infinity: softmax of data without NaN and +inf, however large and however far apart, equals the softmax of the format without overflow, so its range, order and accuracy hold for all finite data; vnorm of finite data of order q in [1, 2^p/100] equals the norm of the format without overflow, or is inf if that norm is beyond Omega, so it is finite and accurate whenever the exact norm is in the range with the margin of the error bound, even if the powers of the elements are not; order infinity never overflows. The same holds for every positive order. (The last sentence is false: vnorm([a,a], 2^-11) is inf for every a > 0, although it is a*2^2048.)", "quantifier": "all lengths with 100 n <= 2^p, all finite floats, any nearest rounding, any largest number of at least 2^p, any exp and pow of the kind in C80 and C83", "why_tests_cant": "The results must be finite for all data up to the end of the range; overflow of an intermediate result shows only for particular magnitudes.", "anchors": ["src/softmax/softmax_gufunc.h", "src/vnorm/vnorm_gufunc.h: vnorm_core_calc"]}
{"id": "C87", "title": "overflow in hmean, gmean and pmean", "statement": "In a format whose largest number is Omega, where a rounded result beyond Omega becomes an infinity: pmean of finite data that are not negative never overflows for orders from 2e-6 on (1/q at most Omega): the result is the one of the format without overflow; gmean of positive data overflows only at the end (in double precision for all data): the result is the one without overflow, or inf if that one is beyond Omega; hmean is the one without overflow when the sum of the reciprocals and the mean, with a margin of 10%, are in the range. Every mean of finite positive data is finite and not 0. (The last sentence is false: in double precision hmean of the largest double is inf, hmean of the smallest positive double is 0, and pmean([2^-1074, 2^1000], -2^-11) is inf.)", "quantifier": "all lengths with 200(n+1) <= 2^p, all finite floats, any nearest rounding, any largest number of at least 2^p, any long double format, any log, exp, pow of the kind in C84", "why_tests_cant": "The results must be right for all magnitudes up to both ends of the range.", "anchors": ["src/means/means_gufunc.c.src: gmean_1d, hmean_loop, pmean_loop"]}
{"id": "C88", "title": "overflow in linearstep, smoothstep, trapezoid_pulse and linear_interp1d", "statement": "In a format whose largest number is Omega: linearstep of finite doubles never overflows if b - a does not exceed the largest double, for any end values; trapezoid_pulse does not overflow if the widths of both ramps are in the range; smoothstep3 and smoothstep5 do not overflow if all arguments are at most 2^m in magnitude and 2^(m+7) is in the range; linear_interp1d does not overflow for a shared table of numbers of at most 2^m with 2^(m+2) in the range, and on the general path if also the slopes are in the range. The result is then that of C77. Every interpolated value of finite data is finite and lies near the exact one. (The last sentence is false: in double precision linearstep(0, -2^1023, 2^1023, 0, 1) = 0, not 1/2, and the widest step gives NaN in its upper half; smoothstep3(0, -1, 1, -2^1023, 2^1023) is inf, not 0; linear_interp1d for the table 0 -> 0, 2^-1073 -> 1 at 2^-1074 is inf on the general path, and 1/2 for a shared table.)", "quantifier": "all finite floats, all tables, any nearest rounding, any tie rule", "why_tests_cant": "The results must be right for all magnitudes; tests use numbers near 1.", "anchors": ["src/step/step.h: linearstep, smoothstep3, smoothstep5", "src/trapezoid_pulse/trapezoid_pulse.h: trapezoid_pulse", "src/linear_interp1d/linear_interp1d_gufunc.c.src: linear_interp1d loops"]}
{"id": "C89", "title": "overflow in mad, rmad, gini and tri_area", "statement": "In a format whose largest number is Omega, where a rounded result beyond Omega becomes an infinity: for n <= 2^j numbers of magnitude at most 2^m with 2^(2j+m+2) <= Omega, mad is the one of the format without overflow, and rmad and gini are that one or an infinity from the last division only; tri_area does not overflow for vertices in n <= 4^i dimensions with coordinates of at most 2^m and 2^(4(i+m+2)) <= Omega. Data whose exact result is in the range give a finite result. (The last sentence is false in double precision: mad([0,2^1023,2^1023]) is inf, gini of it is NaN, mad of three equal numbers 2^1023 is NaN, and the triangle with legs 2^256 has the area inf.)", "quantifier": "all lengths and dimensions, all finite floats, any nearest rounding, any largest number", "why_tests_cant": "The range of safe magnitudes depends on the length and has no finite test.", "anchors": ["src/mad/mad_gufunc.h: mad_core, rmad_core, gini_core", "src/tri_area/tri_area_gufunc.h: tri_area_core_calc"]}
{"id": "C90", "title": "overflow in meanvar and pearson_corr", "statement": "In a format whose largest number is Omega, where a rounded result beyond Omega becomes an infinity: meanvar of n numbers of magnitude at most M (100 n <= 2^p) is the one of the format without overflow, with its error bounds, if 4M, (1.3n+4)M^2, n and |n-ddof| are at most Omega; pearson_corr of n pairs of magnitude at most M is the one without overflow, with its error bounds and its test for constant data, if 4M, 3M sqrt(n) and 5n are at most Omega; with two pairs it is exact for all finite data. Data whose exact result is in the range give a finite, accurate result. (The last sentence is false in double precision: meanvar([-2^1023,2^1023]) is (inf,-inf), meanvar([-L,L]) with L=3*2^510 is (0,inf), and the correlation of [-t,0,t,-t,t], t=2^1023, with [-1,0,1,-1,1] is 0 instead of 1.)", "quantifier": "all lengths with 100 n <= 2^p, all finite floats, any nearest rounding, any largest number, all strides", "why_tests_cant": "The range of safe magnitudes depends on the length; a wrong finite correlation shows only near the end of the range.", "anchors": ["src/meanvar/meanvar_gufunc.h: meanvar_core", "src/corr/corr_gufunc.h: pearson_corr_core"]}
{"id": "C91", "title": "ufunc_inspector reports every loop of a ufunc", "statement": "For every ufunc object whose type numbers have descriptors, ufunc_inspector prints: for a gufunc the six lists of its signature, each closed and with one entry per core dimension or argument, the flags by name and the dimension indices of each argument; for one to four inputs and one output, one line per inner loop in order, with the type numbers and characters of exactly that loop and the name of the generic loop whose address it has (for one or two inputs); and for every registered user type the argument types of its loops, inputs and outputs apart. It reads no array outside its bounds and leaves an exception set exactly if a type number it looks up has no descriptor. Inspecting a ufunc never raises. (The last sentence is false: a type number without descriptor is printed as ! but the exception of NumPy stays set.)", "quantifier": "all ufunc objects, any number of loops, arguments, core dimensions and user loops", "why_tests_cant": "The report must be right for every ufunc of every package; tests print a few.", "anchors": ["src/ufunc-inspector/ufunc_inspector.c: ufunc_inspector, print_core_dim_flags, get_typechar_from_typenum, get_typename_from_typenum"]}
{"id": "C92", "title": "conv_template: include files, unique keys and output names", "statement": "resolve_includes returns the lines of a file with every include of an existing file replaced by the expansion of that file, in order; it succeeds with some recursion depth exactly if no chain of includes goes on forever, and fails for every cycle; unique_key returns a string that is not a key, and terminates exactly if the dictionary is empty or its keys have together at least two characters; main writes the template dir/stem.ext to destdir/stem, so templates with one extension do not overwrite each other. unique_key finds a key for every dictionary, and the template is never overwritten. (The last sentence is false: with the single key a the loop never ends, and a template without extension in the destination directory is overwritten.)", "quantifier": "all file systems, all include graphs, all dictionaries, all file names", "why_tests_cant": "Termination ranges over all graphs and dictionaries.", "anchors": ["tools/conv_template.py: resolve_includes, unique_key, main"]}
{"id": "C93", "title": "weighted means in floating point", "statement": "For n positive floats with nonnegative weights (n small against 2^p), in a format of precision p with least subnormal 2^emin and libm functions of relative error epsilon: hmeanw has a relative error of at most 2.2(n+1)2^-p plus half the least subnormal, provided each weight is 0 or its quotient with the element is normal; gmeanw of equal elements is that element, and in general its relative error is at most 1.1(2.1(n+2)2^-p+1.1 epsilon)L+1.21 epsilon, L the largest |log x|, provided each weight is 0 or at least 2^(emin+2p+2); pmeanw of equal elements is that element, and for orders q with 2e-6 <= |q| not -1 its relative error is at most (2.4(n+1)/|q|+2.3+1.1|log(mean/c)|)2^-p+(1.2/|q|+1.1)epsilon plus terms of the size of the least subnormal, c the largest (q>0) or least (q<0) element, provided the quotients, powers and products do not underflow; for 0 < |q| < 2e-6 its error is at most ((2 Lambda+21)K + 3 epsilon + q^2 R^3 (1+R)) times the geometric mean, K = 2.1(n+2)2^-p+1.1 epsilon, Lambda and R the largest magnitude of the logarithms and of their deviations from the mean; orders 0 and -1 are gmeanw and hmeanw. The mean of a single number is that number, an element of weight 0 has no influence, and scaling the weights does not matter. (The last sentence is false in double precision: hmeanw([7],[9]) is 7-2^-50; the geometric mean of 2 and 9/4 with both weights 2^-1074 is more than 1.15*9/4; pmeanw([2^1000,1],[0,1],2) is 0 and pmeanw([2^-1000,1],[0,1],-2) is inf, while both means are 1.)", "quantifier": "all lengths, all positive floats and nonnegative weights under the stated conditions, all orders, any nearest rounding, any libm of the stated accuracy", "why_tests_cant": "An error bound ranges over all data, weights and orders.", "anchors": ["src/means/means_gufunc.c.src: gmeanw, hmeanw, pmeanw loops"]}
{"id": "C94", "title": "backlash, backlash_sum and deadzone in floating point", "statement": "In any binary format with rounding to nearest: every output of backlash is the exact next output (the projection of the previous output on [x - h, x + h], h the rounded half deadband) correctly rounded; while the input stays within h of the initial value the output does not move at all; every output is within half the deadband of its input up to one rounding; the error of the k-th output is at most 2^-p(M + d/2) plus underflow, M the largest input magnitude, whatever k; backlash is monotone in input and initial state; it is exact if the ends of the bands are numbers of the format; the error of backlash_sum with m channels is at most 1.02(m+1)2^-p times the sum of the magnitudes of its terms plus the weighted errors of the single backlashes, whatever the length. deadzone has relative error 2^-p and is zero, negative or positive exactly where it should be. The distance between input and output of backlash never exceeds half the deadband. (The last sentence is false by a rounding error.)", "quantifier": "all lengths, all floats, any nearest rounding, all precisions and exponent ranges", "why_tests_cant": "Recursive rounding errors must be bounded for every history.", "anchors": ["src/backlash/backlash_gufunc.h: backlash_core, backlash_sum_core", "src/deadzone/deadzone.h: deadzone"]}
{"id": "C95", "title": "fillnan1d and unwrap in floating point", "statement": "fillnan1d (computing in long double of precision P and rounding to the element type of precision p): a NaN between two finite values is replaced by the value of the straight line up to one rounding to the element type and a few roundings of long double relative to the difference of the neighbours; for double and float data the filled values lie between the neighbours in order, and between equal neighbours are equal to them. unwrap: if no conversion to int overflows, every output is its input less a multiple of the period up to rounding, and consecutive outputs differ by at most half a period up to rounding, errors do not add up; a signal whose consecutive differences stay clearly below half a period is returned unchanged; and such a signal, known only up to multiples of the period, is recovered to within 6*2^-p B, B the largest magnitude, whatever the length. The filled values lie between the neighbours for long double too, and unwrap leaves every difference below half a period alone. (The last sentence is false: among long double subnormals, and for the largest float below half a period.)", "quantifier": "all lengths, all floats, all periods, any nearest rounding, all precisions and exponent ranges", "why_tests_cant": "Error bounds independent of the length range over all signals.", "anchors": ["src/fillnan1d/fillnan1d_gufunc.h: fillnan1d_core", "src/unwrap/unwrap_gufunc.h: unwrap1, unwrap_core"]}
{"id": "C96", "title": "sosfilter in floating point", "statement": "In any binary format with rounding to nearest: output i of a filter with m sections differs from the exact output by at most ((1+2^-p)^((2m+2)(i+1)) - 1) times the output of the same filter run on magnitudes (absolute values of input, coefficients and states, subtractions turned into additions, an underflow term added to each product); the computed outputs of a section satisfy its difference equation at every sample with a residual of at most five roundings of its terms, however long the input.", "quantifier": "all numbers of sections, all lengths, all real coefficients given as floats, all inputs and initial states, any nearest rounding", "why_tests_cant": "The errors of a recursive filter accumulate over the whole history.", "anchors": ["src/sosfilter/sosfilter_gufunc.h: sosfilter_core, sosfilter_ic_core"]}
{"id": "C97", "title": "logistic, logistic_deriv, log_logistic and swish in floating point", "statement": "In any binary format of precision p >= 8 with rounding to nearest, least subnormal 2^emin, an exp of relative error epsilon and a log1p of relative error epsilon': logistic(x) has a relative error of at most 1.05(epsilon + 2*2^-p + 2^emin) plus half the least subnormal, for every x of either sign; it lies in [0,1], is nondecreasing if exp is, and is 1/2 at 0; logistic_deriv is even bit for bit, lies in [0,1] and has a relative error of at most 2.2(epsilon + 3*2^-p + 2^emin) up to underflow; log_logistic is never positive and has a relative error of at most 1.1(2^-p + epsilon + epsilon') up to underflow, also where it is close to 0; swish(x, beta) lies between 0 and x and has a relative error of at most 1.1(2^-p |beta x| + epsilon + 3*2^-p) up to underflow. With a largest number Omega the bound for logistic stays while exp(-x) is in the range. The relative accuracy of logistic stays for every x. (The last sentence is false in double precision: logistic(-720) is 0, because exp(720) overflows, although the value is more than 1000 times the least positive number.)", "quantifier": "all real x and beta, any nearest rounding, all precisions p >= 8, any libm of the stated accuracy", "why_tests_cant": "An error bound ranges over all arguments.", "anchors": ["src/logistic/logistic.h: logistic, logistic_deriv, log_logistic, swish"]}
{"id": "C98", "title": "hyperbolic_ramp and exponential_ramp in floating point", "statement": "With elements of precision p >= 10 and the intermediate type of precision P >= p, both rounded to nearest, for all x and all a > 0: hyperbolic_ramp(x, a) is nonnegative and differs from (x + sqrt(x^2 + 4a^2))/2 by at most (10*2^-p + 4*2^emin) times this value plus (3a+1) least subnormals, also for large negative x where the two terms cancel; exponential_ramp(x, a) is nonnegative and differs from a log2(1 + 2^(x/a)) by at most 1.1(epsilon + epsilon') + 7*2^-p + 0.8*2^-p max(0,-x/a) times this value plus (7a+1) least subnormals. For a = 0 both are max(x, 0) exactly; for a < 0 both are NaN.", "quantifier": "all real x, all a, any nearest rounding of both types, any libm of the stated accuracy", "why_tests_cant": "An error bound ranges over all arguments; cancellation shows only in some.", "anchors": ["src/ramp/ramp.h: std_hyperbolic_ramp, hyperbolic_ramp, std_exponential_ramp, exponential_ramp"]}
{"id": "C99", "title": "yeo_johnson, inv_yeo_johnson and pow1pm1 in floating point", "statement": "In any binary format of precision p >= 10 with rounding to nearest, u = 2^-p, log1p and expm1 of relative errors epsilon' and epsilon: for x > 0 and lambda not 0, yeo_johnson(x, lambda) differs from ((1+x)^lambda - 1)/lambda by at most 1.1((epsilon'+3u)(1+|w|) + epsilon + 3u) times this value plus half the least subnormal, w = lambda log(1+x), provided log(1+x) and w are not subnormal and (epsilon'+3u)|w| <= 1/100; for x < 0 and lambda not 2 the same with 2-lambda and |x|; lambda = 0 (x >= 0) and lambda = 2 (x < 0) have the error of log1p; yeo_johnson(0, lambda) = 0. inv_yeo_johnson inside its domain, x > 0, differs from (1+lambda x)^(1/lambda) - 1 by at most 1.1((epsilon'+(5+2.1 kappa)u)(1+w) + epsilon + u) times this value, w = log(1+lambda x)/lambda, kappa = max(0,-lambda x)/(1+lambda x), and is then neither NaN nor infinite; for x < 0 the same with 2-lambda. pow1pm1(x, y) differs from (1+x)^y - 1 by at most 1.1((epsilon'+3u)(1+|w|)+epsilon+u) times this value, w = y log(1+x); it is 0 if x or y is 0. The accuracy holds for every lambda and up to the end of the domain. (The last sentence is false in double precision: yeo_johnson(3, 2^-1074) is 1 instead of 1.386, and inv_yeo_johnson(x, -3) is infinite for the number x just below 1/3, where the value is 2^18 - 1.)", "quantifier": "all x, lambda and y under the stated conditions, any nearest rounding, all precisions p >= 10, any libm of the stated accuracy", "why_tests_cant": "An error bound ranges over all arguments and parameters.", "anchors": ["src/yeo_johnson/yeo_johnson.h: yeo_johnson, inv_yeo_johnson", "src/pow1pm1/pow1pm1.h: pow1pm1"]}
{"id": "C100", "title": "semivar functions in floating point", "statement": "With elements of precision p >= 8 (u = 2^-p), double literals handled in a type at least as precise, all roundings to nearest, 0 <= h <= range, f the exact value and D = |sill - nugget|: the error of semivar_linear is at most u|f| + 3.2u|f - nugget| + 0.7(h+1) least subnormals, of semivar_parabolic 2.01u|f| + 6.3u|f - nugget| plus (2.5D+2.5) least subnormals, of semivar_spherical 2.01u|f| + 8.2u|f - nugget| plus (4.5D+3) least subnormals; of semivar_exponential, for every h >= 0, u|f| + (4.1u+1.1 epsilon)D plus underflow. The value at 0 is the nugget, beyond the range exactly the sill (exponential excepted), at the range it is the sill for parabolic and spherical if sill - nugget is exact; with nugget <= sill no value is below the nugget, linear is nondecreasing up to the range and exponential everywhere. All models are nondecreasing, stay below the sill, reach it at the range and have small relative errors of the increment. (The last sentence is false in double precision: semivar_linear(25,0,7,25) is 7+2^-50; semivar_parabolic decreases between 1-2^-52 and 1-2^-53 for range 1; semivar_linear with range 2^1000 is 20 percent below the sill at the range because the slope underflows; semivar_exponential(2^-60,0,1,1) is 0.)", "quantifier": "all h, nugget, sill and range > 0 in the format, any nearest rounding, any exp of the stated accuracy", "why_tests_cant": "An error bound ranges over all arguments; order is broken only between neighbouring numbers.", "anchors": ["src/semivar/semivar.h: semivar_exponential, semivar_linear, semivar_spherical, semivar_parabolic"]}
{"id": "C101", "title": "normal distribution functions in floating point", "statement": "T has precision p >= 16 (u = 2^-p), long double precision P >= p, both rounded to nearest; sigma = 1.01u + 2.1*2^-P; Phi is the exact normal distribution function. For x <= 0 with sigma x^2 <= 1/200, normal_cdf(x) differs from Phi(x) by at most 1.1(sigma(x^2 + 1.5|x|) + epsilon + u + 3*2^emin) Phi(x) plus two least subnormals; for x > 0 by at most 0.6 epsilon + 0.3 sigma + 1.6u + 3*2^emin; normal_sf likewise mirrored. normal_cdf is nondecreasing if the library's erfc is nonincreasing, lies in [0,1], is 1/2 at 0; for symmetric roundings normal_cdf(x) is exactly the rounded 1 - normal_sf(x) for x > 0. normal_logcdf has, for every x < -1 (|x| up to 2^1000 in double), a relative error of at most 1.1 epsilon_log + 43*2^-53 in double with ufunclab's own erfcx; for x >= -1 a relative error of at most 1.1((sigma(x^2+3|x|) + epsilon + 2u + underflow)(1 + odds) + epsilon_log1p + u), odds = P(X>x)/P(X<=x) <= 7, where the upper tail is not subnormal; normal_logsf likewise. normal_cdf has an error of a few units in the last place in the left tail too. (The last sentence is false: in double, normal_cdf(-37) is more than 780*2^-53 too small, relatively, however accurate the library's erfc is.)", "quantifier": "all real x under the stated conditions, any nearest rounding, all precisions 16 <= p <= P <= 113, any libm of the stated accuracy", "why_tests_cant": "An error bound ranges over all arguments; the tails amplify roundings of the argument.", "anchors": ["src/normal/normal.h: normal_cdf, normal_sf, normal_logcdf, normal_logsf", "src/normal/erfcx_funcs.cxx: erfcx"]}
{"id": "C102", "title": "expint1 and logexpint1 in floating point", "statement": "In a binary format with p bits and unit roundoff u = 2^-p (p >= 16, subnormals, no overflow), with the constant and its two sums in long double and library functions of given relative errors: for x > 1 (and 1000 x below the reciprocal of the smallest normal number) expint1(x) has relative error at most 1.1 times that of exp plus 8 u plus 1.5e-16, up to underflow - the roundings in the 20 to 100 steps of the continued fraction do not accumulate; in double with a correctly rounded exp that is 11 * 2^-53. On (0, 1], wherever the series loop stops, the error is at most 1.01 times that of log plus (3.1 E1 + 31 x + 0.7) u + 1.1e-19 E1, hence 4.4 times that of log plus 180 u relative, and the result is positive. logexpint1 has relative error at most 1.1 times that of log plus 8 u plus 1.5e-16 for 1 < x <= 500, and 3 u plus 1e-16 instead for x > 500, and the corresponding absolute error on (0, 1]. Without rounding the code is the one of C69, and arguments that are not positive give NaN and +inf.", "quantifier": "every rounding to nearest of every format (p >= 16, emin + p <= -50) with any tie rule, every long double format at least as fine, every library log, exp, log1p within the given errors, every positive argument of the format (below the bound on x that keeps k/x normal)", "why_tests_cant": "tests compare a handful of values with a tolerance; the bound must hold for every argument, every number of terms and every exit of the loop", "anchors": ["src/expint1/expint1.h: expint1_01, expint1_t, expint1, logexpint1"]}
{"id": "C103", "title": "invsmoothstep3 in floating point", "statement": "For every y between fa and fb (in either order), invsmoothstep3(y, a, b, fa, fb) with a < b is a number, never NaN, and the exact smoothstep at that number is within |fb - fa| * (12 u + 0.8 eps + 0.9 eps' + 1.6 (u |a| + tiny)/(b - a)) of y, where u is the unit roundoff and eps, eps' are the relative errors of the library's asin and sin; its distance from the exact inverse is at most (b - a) times the square root of that bound; the ends are exact; and the result has a small relative error (the last part is false near the ends).", "quantifier": "every format with at least 16 bits, every rounding to nearest, every double/long double rounding for the subtraction from 0.5, every accuracy of sin and asin, all finite floats y, a, b, fa, fb", "why_tests_cant": "the rounding errors pass through asin, which is not Lipschitz at the ends; tests sample a few y", "anchors": ["src/step/step.h: invsmoothstep3"]}
{"id": "C104", "title": "logfactorial is accurate to a few units in the last place in double arithmetic", "statement": "logfactorial(k), computed in IEEE double arithmetic with round-to-nearest and with a log whose relative error is at most eps, differs from log(k!) by at most (6u + 1.3 eps) log(k!) for every integer k >= 0, where u = 2^-53 (by at most 2.3u log(k!) for the tabulated k < 126, and by at most 7.3u log(k!) if log is correctly rounded). The results for 0 and 1 are exactly 0, the result is NaN exactly for negative k, and the results are strictly increasing for 1 <= k <= 2^49. (They cannot be for all int64 k: 2^54 and 2^54 + 1 become the same double.)", "quantifier": "every integer k, every round-to-nearest rounding (any tie rule), every log within the error bound", "why_tests_cant": "Tests compare some values with a table; the bound is about every k, including the 2^63 - 126 values that use the asymptotic series and all rounding errors of it.", "anchors": ["src/logfactorial/logfactorial.c: logfactorial", "src/logfactorial/logfactorial_ufunc.c: logfactorial_int32_loop, logfactorial_int64_loop"]}
{"id": "C105", "title": "The error of multivariate_logbeta is proportional to the terms it subtracts, not to its result", "statement": "multivariate_logbeta(x), computed with rounded additions and a subtraction and with an lgamma of relative error at most eps, differs from log B(x) by at most (eps + 1.1(n+1)u)(sum |log Gamma(x_i)| + |log Gamma(S)|) + 1.1 n u (S (2 + log(1 + 1.02 S)) + 1), S = sum x_i, for every vector of n positive finite numbers with n u <= 1/100; the contiguous and the strided implementation give the same bits. A relative bound does not hold: for x = [2**60, 1] the result is 0, while log B(x) is -41.6.", "quantifier": "every n >= 1, every vector of positive numbers of the format, every stride and layout, every round-to-nearest rounding, every lgamma within the error bound", "why_tests_cant": "The bound is about every vector and every admissible lgamma; tests compare a few vectors with tabulated values.", "anchors": ["src/multivariate_logbeta/multivariate_logbeta_gufunc.h: multivariate_logbeta_core"]}
{"id": "C106", "title": "The mean of meanvar lies between the elements and its variance is never negative, in floating point", "statement": "For every non-empty array of finite floating-point numbers and every ddof less than its length, meanvar computed with round-to-nearest operations returns a mean that is not below the smallest and not above the largest element, and a variance that is not negative (so its square root is never NaN) - for any number of elements, and with subnormal intermediate results too. (The variance can be 0 for elements that differ, and depends on their order: of [1, 1+2^-52] and [1+2^-52, 1] one gives 0 and the other twice the true value.)", "quantifier": "all non-empty arrays of any length, all floating-point values without overflow, all ddof < n, every precision of at least 20 bits, every round-to-nearest rounding (any tie rule)", "why_tests_cant": "The Kahan-compensated mean may overshoot by rounding, and then delta*(x - mean) would be negative; whether this can make the result negative depends on all roundings of all earlier elements, which no finite set of arrays covers.", "anchors": ["src/meanvar/meanvar_gufunc.h: compensated_update, meanvar_core"]}
{"id": "C107", "title": "Statistics change exactly with sign and scale of the data, bit for bit", "statement": "With every operation rounded, and s = -1 or a power of two (no underflow or overflow): kbnsum(s*x) = s*kbnsum(x), NaN and infinities included; meanvar(s*x) = (s*mean, s^2*var); pearson_corr(x,y) = pearson_corr(y,x), pearson_corr(s*x,y) = sign(s)*pearson_corr(x,y); mad(s*x) = s*mad(x) and gini, rmad unchanged for s > 0, and all three independent of the order of the data; tri_area independent of the order of the vertices and multiplied by s^2. All equalities are bit for bit, not up to rounding errors.", "quantifier": "all arrays of any length and stride, every rounding that commutes with s (the IEEE roundings to nearest do for s = -1; for powers of two as long as nothing underflows)", "why_tests_cant": "Equality of every bit has to hold for all data; tests compare with a tolerance.", "anchors": ["src/kbnsum/kbnsum_gufunc.h: kbnsum_core_calc", "src/meanvar/meanvar_gufunc.h: meanvar_core", "src/corr/corr_gufunc.h: pearson_corr_core, pearson_corr_int_core", "src/mad/mad_gufunc.h: mad_core, gini_core, rmad_core", "src/tri_area/tri_area_gufunc.h: tri_area_common_calc"]}
{"id": "C108", "title": "Vector, filter and shape functions change exactly with sign, scale and argument order, bit for bit", "statement": "With every operation rounded, and s = -1 or a power of two (no underflow or overflow): vdot(x,y) = vdot(y,x) and vdot(s*x,y) = s*vdot(x,y); rms(s*x) = |s|*rms(x), real and complex; vnorm(s*x,order) = s*vnorm(x,order) for s > 0; cross2 and cross3 are antisymmetric and vanish for equal arguments; sosfilter, backlash and unwrap commute with a change of unit, and backlash with a change of sign; wjaccard is symmetric and does not depend on the unit, nor do linearstep, smoothstep3, smoothstep5, trapezoid_pulse and linear_interp1d on the unit of x, and they scale with their values; hmean(s*x) = s*hmean(x) for s > 0. All equalities are bit for bit.", "quantifier": "all arrays of any length and stride, every rounding that commutes with s, every library pow", "why_tests_cant": "Equality of every bit has to hold for all data; tests compare with a tolerance.", "anchors": ["src/vnorm/vnorm_gufunc.h: vdot_core_calc, rms_core_calc, crms_core_calc, vnorm_core_calc", "src/cross/cross_gufunc.h: cross2_core_calc, cross3_core_calc", "src/sosfilter/sosfilter_gufunc.h: sosfilter_ic_core", "src/backlash/backlash_gufunc.h: backlash_core", "src/wjaccard/wjaccard_gufunc.h: wjaccard_core", "src/step/step.h: linearstep, smoothstep3, smoothstep5", "src/trapezoid_pulse/trapezoid_pulse.h: trapezoid_pulse", "src/linear_interp1d/linear_interp1d_gufunc.c.src", "src/unwrap/unwrap_gufunc.h: unwrap_core", "src/means/means_gufunc.c.src: hmean_loop"]}
{"id": "C109", "title": "abs_squared and abssq: accuracy, symmetry, exactness and overflow in floating point", "statement": "With rounded arithmetic abs_squared of a complex z is within (2u+u^2)|z|^2 plus about one subnormal spacing of |z|^2; it is never negative, positive unless both squares underflow, bit-for-bit the same for z, -z, conj z and i z, equal to the real version for a real argument, nondecreasing in |Re z| and |Im z|, and exact for Gaussian integers with |z|^2 <= 2^p. With overflow it is finite whenever |z|^2 (with the rounding margin) fits, +inf when a component's square does not, and NaN exactly when a part is NaN. abssq gives the same bits. The result 0 does not imply z = 0 (underflow).", "quantifier": "all rounding functions to nearest (any precision, any least exponent), all real and complex arguments including infinities and NaN", "why_tests_cant": "Tests compare a few values with a tolerance; the claim is about every pair of floats and every tie-breaking rule.", "anchors": ["src/abs_squared/abs_squared.h: abs_squared", "src/abssq/abssq_ufunc.cpp: abssq loops"]}
{"id": "C110", "title": "The loop that runs is the narrowest one that can take the arguments", "statement": "For every function of the library, every platform and every combination of array types, NumPy's rule (exact match, else first loop whose input types all arguments can be cast to safely) applied to the function's table of loops picks a loop that can take the arguments, and no other loop that can take them is strictly narrower. Arguments that have the types of a loop are not converted. Symmetric functions pick the same loop for exchanged arguments. The floating point functions accept every mix of boolean, integer and float types, compute in and return the smallest sufficient float type, and raise for complex or object arguments. The type of the result follows a rule for every call: magnitudes are real with the precision of the argument, peaktopeak of integers returns a type that holds the difference of any two values of the argument's type, positions and counts are 64-bit signed integers, tests are Boolean, statistics of integers are doubles, and the functions that return elements keep their type.", "quantifier": "all functions of the library, all tuples of built-in numeric types (any number of arguments), all widths of long and long double", "why_tests_cant": "The result type depends on the order of the loops in each table (a comment in peaktopeak warns of it); tests call each function with a few types.", "anchors": ["src/*/define_cxx_gufunc_extmod.py: typesignatures", "src/*/define_cxxgen_extmods.py: types", "src/peaktopeak/peaktopeak_gufunc.c.src: peaktopeak_typecodes", "src/searchsorted/searchsorted_gufunc.c.src: searchsorted_typecodes"]}
{"id": "C111", "title": "Integer arrays reach the loop unchanged", "statement": "Called with integer (or boolean) arrays of one type, the functions that count, compare, select or order (bincount, convert_to_base, the minmax family, peaktopeak, searchsorted, percentileofscore, meanvar; all_same, ordered, first, argfirst, pearson_corr, wjaccard) find a loop whose type holds every integer of the arrays' type.", "quantifier": "all integer types, all platforms, all integer values", "why_tests_cant": "Values above 2^53 are not in the tests, and the tables differ between platforms.", "anchors": ["src/all_same/define_cxx_gufunc_extmod.py: typesignatures", "src/first/define_cxx_gufunc_extmod.py: typesignatures", "src/ordered/define_cxx_gufunc_extmod.py: typesignatures", "src/cross/define_cxx_gufunc_extmod.py: typesignatures"]}
{"id": "C112", "title": "Integer and fixed-point data in float arrays give exact sums, dot and cross products", "statement": "When the elements of float arrays are integers (more generally multiples of one power of two 2^e that is not below the least number of the format) and the absolute values involved add up to at most 2^p*2^e, p the precision, no operation rounds: kbnsum returns the exact sum, vdot the exact inner product, cross the exact cross product, bincount with weights the exact sum of the weights of each bin, backlash the outputs of exact arithmetic; wjaccard rounds exactly once (in its quotient) and rms only in the quotient and the square root. The bound cannot be dropped.", "quantifier": "all data of any length, strides and layout within the bound; all formats with precision at least 1 and all roundings to nearest", "why_tests_cant": "Tests with small integers compare with == and pass; whether intermediate results could round for other integers, lengths or orders cannot be enumerated.", "anchors": ["src/kbnsum/kbnsum_gufunc.h: kbnsum_core_calc, KBNSummer", "src/vnorm/vnorm_gufunc.h: vdot_core_calc, rms_core_calc", "src/cross/cross_gufunc.h: cross2_core_calc, cross3_core_calc", "src/wjaccard/wjaccard_gufunc.h: wjaccard_core", "src/backlash/backlash_gufunc.h: backlash_core", "src/bincount/bincount_gufunc.h: bincountw_core_calc"]}
{"id": "C113", "title": "Object loops keep reference counts right", "statement": "When minmax, min_argmin, max_argmax, first, cross2, cross3 or peaktopeak is applied to object arrays, every object's reference count stays equal to the number of its owners, no freed object is used, inputs are unchanged and, when a comparison or arithmetic operation raises an exception at any point, everything acquired so far is released. The claim holds with freshly allocated outputs and operations that do not write to the arrays. It fails in three ways: an object already in an `out=` array is overwritten without being released; after an error the generated loops go on with the next items while the exception is set; and a comparison that replaces an array element can make the loop return a freed object.", "quantifier": "all object arrays of any length, strides and layout, all sequences of comparison and arithmetic results, all points at which an operation raises an exception, all side effects that keep counts right, all initial reference counts and aliasing between elements", "why_tests_cant": "A leak or a use of a freed object is invisible in results; it depends on where an exception occurs and on what user code does in __lt__, __mul__ or __sub__.", "anchors": ["src/minmax/minmax_gufunc.h: minmax_object_core, min_argmin_object_core, max_argmax_object_core", "src/first/first_gufunc.h: first_core_calc_object", "src/cross/cross_gufunc.h: det2, cross2_core_calc_object, cross3_core_calc_object", "src/peaktopeak/peaktopeak_gufunc.c.src: peaktopeak_object_loop", "tools/cxxgen/gufuncgen.py: generate_concrete_loop"]}
{"id": "C114", "title": "Importing an extension module gives a complete module or leaves nothing behind", "statement": "Whichever step of a module's initialisation fails (importing NumPy, creating the module, creating a function, adding it to the module), the import either returns a module with exactly the declared functions and constants, each owned by the module alone, or fails with everything created so far released. It returns the module exactly when no step fails. The generated modules have the property; the modules written by hand have it only if NumPy's C API can be imported, otherwise they leak the module object.", "quantifier": "all lists of functions and constants with distinct names, all sets of failing steps (every crash point of the initialisation)", "why_tests_cant": "Failures of single C API calls during import cannot be provoked in tests, and leaks are not visible in results.", "anchors": ["tools/cxxgen/gufuncgen.py: generated PyInit function", "tools/cxxgen/generate_ufunc_extmod.py: print_ufunc_create", "src/util/ufunc_tools.h: ul_define_gufunc", "src/first/first_gufunc.h: add_comparison_constants", "src/percentileofscore/percentileofscore_gufunc.h: add_percentileofscore_kind_constants", "src/means/means_gufunc.c.src, src/debye1/debye1_ufunc.c, src/log1p/log1p_ufunc.c, src/searchsorted/searchsorted_gufunc.c.src, src/peaktopeak/peaktopeak_gufunc.c.src, src/gendot/gendotmodule.c: PyInit functions"]}
{"id": "C115", "title": "A gendot function owns its memory, and can be called as long as the program keeps it", "statement": "The tables of a gendot function are in one block that is large enough for them, aligned and without overlaps, for every number of loops, name and docstring. In every history of creating, copying, calling and dropping ufuncs and gendot functions, with allocation failures anywhere, the block of a gendot function is freed exactly once, when the last reference goes. No call uses freed memory as long as the two ufuncs of the gendot function are static (as in NumPy, SciPy and C extensions) or alive; with ufuncs that own their loop data the result can outlive them and a call then uses freed memory.", "quantifier": "all numbers of loops, pointer sizes 1 to 32 dividing 32, lengths of name and docstring; all finite histories of operations on any number of ufuncs", "why_tests_cant": "Lifetime errors need particular histories and often give plausible results.", "anchors": ["src/gendot/gendotmodule.c: gendot, gendot_loop, gendot_data_t", "ufunclab/_gendot_wrap.py: gendot"]}
{"id": "C116", "title": "The package gives the same objects in every history of imports and attribute accesses", "statement": "After `import ufunclab`, every public attribute gives the same object or the same AttributeError whatever was accessed before and in whatever order; a lazy import that fails once gives ImportError and leaves no trace: the next access succeeds if the submodule can then be loaded. The claim fails for the package itself: importlib.reload(ufunclab) always raises ImportError, and when the first `import ufunclab` fails after `del normal.erfcx`, every later import in the process fails.", "quantifier": "all histories of attribute accesses of any length with any names, any set of loadable submodules at each access; all failing submodules in the first import", "why_tests_cant": "The state of sys.modules depends on the whole history of a process; tests start from a fresh import and see one order.", "anchors": ["ufunclab/__init__.py: _name_to_module, __getattr__, del normal.erfcx", "ufunclab/_wrapped.py", "ufunclab/_gendot_wrap.py"]}
{"id": "C117", "title": "The generated approximation code computes the fitted functions", "statement": "For every table of intervals and every result of the polynomial fits, the C text written by the scripts for debye1 and erfcx has exactly one reading in the C grammar; it picks the piece that contains the argument, for every argument, and returns in exact arithmetic a value that differs from the fitted function by at most the error of that fit. With the shipped tables the scripts generate the shipped functions, in any arithmetic. The search for the lower bound of erfcx ends, and finds the lowest number of the format whose value does not overflow. The shipped bounds of float and double are not that number.", "quantifier": "all interval tables that join, all results of the fits, all arguments, all roundings; all binary formats with at least 8 bits", "why_tests_cant": "The scripts are run by hand before a release; no test runs them, and tests of the functions sample few of the pieces.", "anchors": ["src/debye1/generate_debye1_c.py: make_poly_function, main", "src/normal/generate_erfcx_code.py: generate_erfcx_y100, find_lower_bound", "src/debye1/debye1_generated.c: debye1", "src/normal/erfcx_funcs.cxx: erfcx_y100"]}
{"id": "C118", "title": "Floating-point warnings: which operations are reported", "statement": "A generated elementwise function never reports a floating-point error of its computation, for every array, every function value and every division of the array into chunks, and its results do not depend on the clearing of the flags. A gufunc reports exactly the exceptions that some item, or a conversion, raised. gini and rmad report an exception exactly if some item raised it; for data without NaN that is an invalid operation, exactly when an element is infinite and it is not the only one or the unbiased form is asked for. The claim fails in two places: a generated function also drops an overflow or invalid of the conversion of its arguments, and with clang gini and rmad drop the invalid flag of earlier items when a later item is 0/0.", "quantifier": "all operations and the flags they raise, all arrays, all chunkings, all flags set before; all items of gini and rmad over an ordered field with NaN and infinities", "why_tests_cant": "Flags depend on the compiler, on chunk boundaries and on what ran before; tests compare values.", "anchors": ["tools/cxxgen/generate_ufunc_extmod.py: clear_floatstatus, the generated loop", "tools/cxxgen/gufuncgen.py: the generated loop", "src/mad/mad_gufunc.h: gini_core, rmad_core, unnormalized_mad_core"]}
{"id": "C119", "title": "Calls from several threads give the results of the same calls one after the other", "statement": "Any number of calls run at the same time in several threads. If no call writes to an array that another call reads or writes (they may share inputs, and a call may write in place), then for every order of the memory accesses each output has the values that its call computes alone, nothing else changes, and the memory is that of the calls made one after the other in any order. No call waits for another. Calls that accumulate into one shared `out` (bincount) can lose counts.", "quantifier": "all finite lists of calls (elementwise functions of any number of arguments, gufuncs with any core function of the values of their inputs, bincount, hysteresis_relay), all shapes and strides, all memories, all schedules", "why_tests_cant": "The schedules of even two short loops are too many to run, and the operating system shows only a few of them.", "anchors": ["tools/cxxgen/generate_ufunc_extmod.py: the generated loop", "tools/cxxgen/gufuncgen.py: the generated loop", "src/bincount/bincount_gufunc.h: bincount_core_calc", "src/hysteresis_relay/hysteresis_relay_gufunc.h: hysteresis_relay_core"]}
{"id": "C120", "title": "Elementwise functions: out=, views, pieces and direction do not matter", "statement": "An elementwise function writes to each element of `out` the function of the elements that the arguments had before the call, and nothing else, whatever views of the same memory the arguments and `out` are: in place without a copy if an argument is `out` itself, with the copies that NumPy makes otherwise. The result does not depend on the pieces in which NumPy passes the arrays to the loop, nor on the direction in which it runs through them.", "quantifier": "all functions of any number of arguments, all lengths, addresses and strides (also 0 and negative) of the arguments, all outputs with nonzero stride, all memories, all divisions into pieces", "why_tests_cant": "Tests use few layouts; overlaps, buffer sizes and strides give unboundedly many.", "anchors": ["tools/cxxgen/generate_ufunc_extmod.py: the generated loop", "src/debye1/debye1_ufunc.c: debye1_double_loop"]}
{"id": "C121", "title": "Building the package", "statement": "A build writes the declared files; in a new build tree every parallel schedule of the code generators gives every generated file its text, with no race between targets; every module that the package imports is built or installed; after any history of builds, killed builds and source changes, the next build ends well and leaves the texts of the present sources; and the version in pyproject.toml is the value of __version__ in _version.py.", "quantifier": "all schedules of the targets, all build directories, all histories of builds, killed builds (at any step, with a half-written file), deletions and source changes, all generated texts, all PEP 440 versions", "why_tests_cant": "Race conditions of a parallel build and the points at which a build is killed cannot be enumerated by tests; the test suite only runs after one fresh build.", "anchors": ["ufunclab/meson.build", "meson.build", "tools/cxxgen/generate_gufunc.py: generate_gufunc", "tools/cxxgen/generate_ufuncs.py: generate", "tools/cxxgen/generate_ufunc_extmod.py: generate_ufunc_extmod", "tools/conv_template.py: main", "_build_utils/make_version_file.py"]}
{"id": "C122", "title": "Functions of the library agree with one another", "statement": "Where two functions of the library describe the same quantity their results agree. On sorted data percentileofscore is searchsortedl/searchsortedr in percent and these are argfirst with >= and >; all_same, ordered(EQ), argfirst(NE), equal results of minmax and a peaktopeak of 0 are the same condition; argmin and argmax are argfirst of the minimum and maximum; one_hot(k, n) is bincount([k], n), and a count of bincount is the difference of the two insertion points. In exact arithmetic vnorm(x, 2), vdot(x, x), rms and hypot3 agree; tri_area is half of cross2 or of the norm of cross3; meanvar, kbnsum, pmean and rms agree; pearson_corr of an affine image is +1 or -1; linear_interp1d with two knots, fillnan1d, the flanks of trapezoid_pulse (if c < d), semivar.linear (for h >= 0) and step (away from its threshold) are linearstep; backlash is deadzone of the distance; backlash_sum with one unit weight is backlash; softmax([x, 0]) is logistic; exponential_ramp is a scaled log_logistic; yeo_johnson is a scaled pow1pm1; logbeta and loggamma1p at integers are logfactorial; gendot(multiply, add) is vdot.", "quantifier": "every array length, stride, element and parameter of the two functions compared", "why_tests_cant": "Each test file checks one function against hand-written numbers; that two implementations agree on every input is not checked anywhere, and samples cannot establish it.", "anchors": ["src/searchsorted/searchsorted_gufunc.c.src", "src/percentileofscore/percentileofscore_gufunc.h", "src/first/first_gufunc.h", "src/all_same/all_same_gufunc.h", "src/minmax/minmax_gufunc.h", "src/vnorm/vnorm_gufunc.h", "src/cross/cross_gufunc.h", "src/tri_area/tri_area_gufunc.h", "src/means/means_gufunc.c.src", "src/step/step.h", "src/trapezoid_pulse/trapezoid_pulse.h", "src/softmax/softmax_gufunc.h", "src/logistic/logistic.h", "src/gendot/gendotmodule.c"]}
{"id": "C123", "title": "A result depends on the elements of the arrays, not on their memory layout", "statement": "Two calls of searchsortedl/searchsortedr, bincount, one_hot, convert_to_base, peaktopeak, vdot, rms, cross2/cross3, multivariate_logbeta, kbnsum, pearson_corr, sosfilter, hysteresis_relay or abs_squared whose input arrays have the same elements give the same output elements, however the arrays are laid out: contiguous or not, reversed, broadcast with stride zero, with any values in the gaps, and with any previous contents of the output. For linear_interp1d a table shared by all the elements gives the same values as separate copies of it.", "quantifier": "every pair of memories, addresses and strides with equal elements; every length, content and (where stated) arithmetic", "why_tests_cant": "The contiguous and strided code paths are different loops; a test compares them for a few layouts, and a read outside the elements shows only for particular values in the gaps.", "anchors": ["src/searchsorted/searchsorted_gufunc.c.src", "src/bincount/bincount_gufunc.h", "src/one_hot/one_hot_gufunc.h", "src/convert_to_base/convert_to_base_gufunc.h", "src/peaktopeak/peaktopeak_gufunc.c.src", "src/vnorm/vnorm_gufunc.h", "src/cross/cross_gufunc.h", "src/multivariate_logbeta/multivariate_logbeta_gufunc.h", "src/kbnsum/kbnsum_gufunc.h", "src/corr/corr_gufunc.h", "src/sosfilter/sosfilter_gufunc.h", "src/hysteresis_relay/hysteresis_relay_gufunc.h", "src/abs_squared/abs_squared.h", "src/linear_interp1d/linear_interp1d_gufunc.c.src"]}
{"id": "C124", "title": "The result for an array made of two pieces follows from the results for the pieces", "statement": "For an array that is the concatenation of two non-empty pieces: min_argmin, max_argmax, argmin, argmax, minmax, argfirst, first and all_same are decided from the results of the pieces (on ties the first piece wins); ordered holds iff it holds on both pieces, the second one starting with the last element of the first; percentileofscore is the mean of the pieces' percentiles weighted with the lengths; the insertion points of searchsorted in the merged array are the sums; fillnan1d does not look beyond a known value; unwrap continues from the last unwrapped value. In exact arithmetic kbnsum and vdot add up, rms, meanvar (with the term for the difference of the means), gmean, hmean and pmean combine by their weighted formulas, the p-th powers of vnorm add up (the larger one for p = inf), softmax of the whole is softmax of the pieces times their shares, and multivariate_logbeta of the whole is the sum of the pieces' values and of the value for the two sums.", "quantifier": "every pair of pieces of every length and content; every strict weak order and every comparison, NaN included where stated; every p, memory and stride", "why_tests_cant": "Tests compare a few arrays with reference values; that processing in pieces gives the same result concerns every split of every array.", "anchors": ["src/minmax/minmax_gufunc.h", "src/first/first_gufunc.h", "src/all_same/all_same_gufunc.h", "src/ordered/ordered_gufunc.h", "src/percentileofscore/percentileofscore_gufunc.h", "src/searchsorted/searchsorted_gufunc.c.src", "src/fillnan1d/fillnan1d_gufunc.h", "src/unwrap/unwrap_gufunc.h", "src/vnorm/vnorm_gufunc.h", "src/meanvar/meanvar_gufunc.h", "src/means/means_gufunc.c.src", "src/kbnsum/kbnsum_gufunc.h", "src/softmax/softmax_gufunc.h", "src/multivariate_logbeta/multivariate_logbeta_gufunc.h"]}
{"id": "C125", "title": "The order of the elements", "statement": "Rearranging the elements of an array does not change the values given by minmax, min_argmin, max_argmax, peaktopeak and all_same, whether argfirst finds anything, and, in exact arithmetic, the results of rms, meanvar, kbnsum, gmean, hmean and pmean; rearranging two arrays in the same way does not change vdot, pearson_corr, wjaccard and gendot with a commutative and associative sum function. argmin and argmax of the rearranged array point to equal elements and count from the other end for the reversed array; softmax moves its values with the elements; backlash_sum with rearranged channels gives the same output; ordered of the reversed array is ordered with < and >, <= and >= exchanged.", "quantifier": "every array of every length and every rearrangement of it; every strict weak order (linear order for equality of values); infinities and NaN for ordered, kbnsum, pearson_corr and softmax; every memory layout", "why_tests_cant": "A test tries a few rearrangements of a few arrays; there are n! of each array.", "anchors": ["src/minmax/minmax_gufunc.h", "src/peaktopeak/peaktopeak_gufunc.c.src", "src/all_same/all_same_gufunc.h", "src/first/first_gufunc.h", "src/ordered/ordered_gufunc.h", "src/vnorm/vnorm_gufunc.h", "src/meanvar/meanvar_gufunc.h", "src/means/means_gufunc.c.src", "src/kbnsum/kbnsum_gufunc.h", "src/softmax/softmax_gufunc.h", "src/corr/corr_gufunc.h", "src/wjaccard/wjaccard_gufunc.h", "src/gendot/gendotmodule.c", "src/backlash/backlash_gufunc.h"]}
{"id": "C126", "title": "Infinities, NaN and signed zeros in the scalar functions", "statement": "logistic, logistic_deriv, log_logistic, swish, yeo_johnson, inv_yeo_johnson, pow1pm1, hyperbolic_ramp, exponential_ramp and the semivar functions give, for infinite arguments, the limit of the function, and NaN for NaN. inv_yeo_johnson takes the finite bound of the transform back to infinity and gives NaN beyond it. A zero keeps its sign through yeo_johnson, and pow1pm1 of a zero has the sign of x times that of y. A zero parameter counts as zero whatever its sign.", "quantifier": "every finite parameter (lambda, beta, a, nugget, sill, range); every rounding that keeps the order and the numbers 0, 1/2, 1, 2, -1, such as every rounding to nearest; limits over all real arguments", "why_tests_cant": "A limit is a statement about infinitely many arguments; tests with infinities pick a few parameters and compare with values written by hand.", "anchors": ["src/logistic/logistic.h: logistic, logistic_deriv, log_logistic, swish", "src/yeo_johnson/yeo_johnson.h: yeo_johnson, inv_yeo_johnson", "src/pow1pm1/pow1pm1.h: pow1pm1", "src/ramp/ramp.h: hyperbolic_ramp, exponential_ramp", "src/semivar/semivar.h: semivar_exponential, semivar_linear, semivar_spherical, semivar_parabolic"]}
{"id": "C127", "title": "The sign of a zero", "statement": "vdot, kbnsum, abs_squared, hmean with and without weights, cross2, cross3, sosfilter, backlash, backlash_sum, rms, hysteresis_relay, meanvar, wjaccard, softmax, deadzone and unwrap do not depend on the signs of zeros in their arguments except in the sign of zeros of the result; the results of argmin, argmax, argminmax, searchsortedl, searchsortedr, all_same, ordered, argfirst and percentileofscore do not depend on them at all, and min, max and first return elements with their own sign. vdot, kbnsum, deadzone, rms, abs_squared and backlash_sum never return a negative zero, nor is the mean of meanvar one, and rms, abs_squared and softmax return nothing with the sign bit set. The complex log1p of the conjugate is the conjugate of the log1p, negative zeros included: on the branch cut the sign of the zero imaginary part chooses between pi and -pi, and right of it a zero imaginary part keeps its sign.", "quantifier": "every array of every length with zeros of either sign, NaN and infinities; every memory layout; every rounding to nearest (hmean, abs_squared against one zero, and unwrap in exact arithmetic)", "why_tests_cant": "Comparison with == does not see the sign of a zero, so tests cannot notice where it enters the computation.", "anchors": ["src/vnorm/vnorm_gufunc.h: vdot_core_calc", "src/means/means_gufunc.c.src: hmean_loop, hmeanw_1d", "src/searchsorted/searchsorted_gufunc.c.src", "src/all_same/all_same_gufunc.h: all_same_core", "src/ordered/ordered_gufunc.h: ordered_core", "src/first/first_gufunc.h: first_core_calc, argfirst_core_calc", "src/meanvar/meanvar_gufunc.h: meanvar_core", "src/wjaccard/wjaccard_gufunc.h: wjaccard_core", "src/softmax/softmax_gufunc.h: softmax_core", "src/hysteresis_relay/hysteresis_relay_gufunc.h: hysteresis_relay_core", "src/kbnsum/kbnsum_gufunc.h: kbnsum_core_calc", "src/minmax/minmax_gufunc.h: minmax_core, argmin_core, argmax_core, argminmax_core", "src/abs_squared/abs_squared.h: abs_squared", "src/backlash/backlash_gufunc.h: backlash_core, backlash_sum_core", "src/cross/cross_gufunc.h: cross2_core_calc, cross3_core_calc", "src/sosfilter/sosfilter_gufunc.h", "src/deadzone/deadzone.h: deadzone", "src/unwrap/unwrap_gufunc.h: unwrap_core", "src/log1p/log1p_ufunc.c: log1p_doubledouble"]}

# DESIGN: a machine-checked model of ufunclab in Lean 4

## 1. Layout

* `lean/Verif/Model/*.lean` – the model: one Lean definition per C/C++/Python
  function, each with a comment citing the file and lines of /repo it models
  and every simplification made.
* `lean/Verif/Spec/*.lean` – small specifications, written without looking at
  the model's helpers (counting, "first index such that", difference
  equation, ...).  They never import `Model` files, except for shared plain
  data types (op codes, extended floats).
* `lean/Verif/Proof/*.lean` – helper lemmas.
* `lean/Verif/Props/*.lean` – the property theorems, named `Cnn_...`, each
  followed by an `example` showing that a concrete non-trivial case satisfies
  its hypotheses (or evaluating the model on it).  A theorem proving only part
  of a property has the suffix `_partial`; a theorem proving that the code
  *violates* the property has `_violated` in its name.

## 2. Modelling conventions

* **Arrays.**  A gufunc core function receives `(pointer, stride, length)` and
  reads element `i` at `p + i*stride` bytes (src/util/strided.hpp).  Read-only
  inputs are modelled as the `List` of their `n` logical elements; loops are
  structural recursions over that list in the order of the C loop.  Where the
  memory layout itself matters (contiguous versus strided branches, writes
  through strides, wrong indexing, out-of-bounds access, pointer advance of
  the generated loops) a separate model with an explicit memory
  (`Model/Mem.lean`: addresses are `Int`, one typed cell per address) is used.
* **Errors** are values (`Except`/`Option`), never Lean exceptions.
* **Arithmetic**, five tiers, and each theorem says which one it uses:
  1. *law-free*: the model is polymorphic over bare operations (`[Add α]`,
     `[Mul α]`, a Boolean `lt`) without any law; theorems of this tier hold
     bit-for-bit for floats, whatever rounding, overflow or NaN does.
  2. *monotone rounding*: operations are exact operations followed by a
     rounding function that is monotone and fixes representable numbers
     (IEEE round-to-nearest without overflow/NaN).
  3. *exact*: an arbitrary linearly ordered field or `ℝ` (for sqrt, exp, log,
     pow, sin).  Such a theorem is about the algorithm, not about its rounding
     error.
  4. *fixed width*: `BitVec w`/bounded `Int` for integer overflow and casts.
  5. *nearest-rounded floats* (`Spec/Float.lean`): values `m * 2^e` with a
     bounded significand and a least exponent; every operation is the exact
     one followed by any function that rounds to a nearest such value.
     Subnormals and ties are included, overflow is not.  Used for rounding
     error bounds and error-free transformations.
* **Special values.**  `XF K = nan | ninf | pinf | fin k` (`Model/XF.lean`)
  models IEEE comparison and branch behaviour of NaN and infinities over an
  exact field; it has no signed zero, no overflow and no rounding.  `SF K`
  (`Model/SignedZero.lean`) adds `-0` and a rounding; forgetting the sign of
  zeros maps its operations to those of `XF K` (division by `-0` apart).
* **Comparisons** for generic element types are Boolean functions; theorems
  state the order laws they need as hypotheses (strict weak order etc.).

## 3. Trusted base

* Lean 4.33.0's kernel, and the Mathlib that is installed.
* Axioms: every theorem depends on at most `propext`, `Classical.choice`,
  `Quot.sound` (checked with `#print axioms` over all theorems in the
  manifest; see section 6).  No axiom is added, there is no `sorry`, no
  `native_decide`, no `bv_decide`.
* That the model corresponds to the C/C++/Python text (by reading; citations
  in each definition).  NumPy itself (broadcasting, casting, overlap copies,
  allocation), the compiler, the C library's transcendental functions and
  CPython are trusted or outside the model.

## 4. Plan per property

| id | property | model and proof |
|---|---|---|
| C01 | searchsortedl on a sorted array is the number of smaller elements | List model of the bisection with generic `lt`; prove by the loop invariant (all left of lo are < v, all from hi on are not) that the result is `countP`. |
| C02 | searchsortedr on a sorted array is the number of elements not larger | Same with the r-variant; difference is the count of equivalent elements. |
| C03 | searchsorted terminates and stays in bounds for every array | Fuel-free well-founded loop over an arbitrary oracle `Nat -> Bool`; invariant lo<=hi<=n; the trace of read indices is returned and proved < n, its length bounded by log2. |
| C04 | searchsorted on object arrays: comparison errors stop the call | Monadic version with `Except`; refinement to the pure version and prefix property of the outer loop. |
| C05 | convert_to_base gives the base-b digits of k | Recursion with Int.tdiv/Int.tmod; induction on ndigits; uniqueness by a separate digits specification. |
| C06 | convert_to_base on negative k | Same model, negative case. |
| C07 | convert_to_base never traps | BitVec/`Option` model of trapping division; characterise the trapping inputs; violation theorem with witnesses. |
| C08 | one_hot has exactly one 1, at k, or none | Memory model: memset branch and strided loop, then the conditional store; pointwise specification and frame condition. |
| C09 | bincount adds the exact number of occurrences | List and memory models of the three branches; pointwise induction. |
| C10 | bincount never writes outside out | Fixed-width model of the guard `k >= 0 && (npy_intp)k < m`; frame theorem for representable values; violation witness for uint64. |
| C11 | bincount accumulates: calls compose and input order is irrelevant | From C09 (counts add, permutation invariance). |
| C12 | bincount with weights accumulates each bin left to right | Law-free model; each bin is the fold over the filtered sublist. |
| C13 | default m of bincount counts everything | Model of the dtype addition as wrap-around; theorem without overflow, violation at the top value. |
| C14 | min/max/argmin/argmax return the first extreme element | Law-free loops with `lt`; first-extreme specification; induction. |
| C15 | the minmax family is mutually consistent | Agreement of the separately modelled loops, element by element. |
| C16 | NaN in the minmax family | `lt` with incomparable NaN; theorem on filtered arrays. |
| C17 | object versions of the minmax family agree with the typed ones | Option-valued comparisons (raise); refinement to the typed versions. |
| C18 | peaktopeak of integers is the exact mathematical difference | BitVec w model of max_diff and both loops; toNat of the result equals the Int difference. |
| C19 | argfirst finds the first element satisfying the comparison | List recursion over six operators; least-index specification. |
| C20 | first returns that element, or otherwise | Corollary through argfirst. |
| C21 | all_same is true exactly when all elements are equal | Induction with an equivalence relation; NaN case. |
| C22 | ordered checks every adjacent pair; with a transitive op, every pair | Loop with negated comparison; Chain / Pairwise specification. |
| C23 | ordered on object arrays agrees with the typed version | Faithful model of the un-advanced x1; violation witness; agreement cases (<=2 elements; == always). |
| C24 | percentileofscore formulas and ordering | Rational arithmetic; counting specification. |
| C25 | hysteresis_relay follows the last decisive sample | Law-free recursion; specification by last decisive sample. |
| C26 | stateful signal functions can be run in chunks | Law-free; induction on the first chunk. |
| C27 | backlash output stays within half the deadband and moves minimally | Exact and monotone-rounding tier; invariant. |
| C28 | backlash is monotone in input and initial state | Two-run induction. |
| C29 | backlash_sum is the weighted sum of independent backlashes | Law-free; exchange of the sample loop with the operator loop. |
| C30 | sosfilter implements the transfer-function difference equation | Law-free cascade theorem; commutative-ring difference equation. |
| C31 | sosfilter is linear, causal and time-invariant | Commutative ring; induction with generalised state. |
| C32 | sosfilter's contiguous and strided implementations agree; zero state equals no state | Memory model for both loops; law-free. |
| C33 | fillnan1d keeps values and fills every NaN when any value is known | Over Option K (none = NaN); index loop as in the code; specification by nearest known neighbours. |
| C34 | unwrap: consecutive differences at most half a period, values congruent | Exact ordered field with floor; XF for non-finite branch; violation for negative period. |
| C35 | softmax is a probability vector preserving order | Reals with Real.exp; XF for the special branches. |
| C36 | meanvar computes the mean and the ddof-variance | Field with a rounding parameter; Welford invariant with zero compensation for exact arithmetic, and an error induction over the loop for round-to-nearest. |
| C37 | kbnsum equals the sum, with IEEE special values | Field for the sum; XF for specials; memory model for the wrong stride; nearest-rounded floats for the error bound. |
| C38 | mad/gini/rmad equal their double-sum definitions | Ordered field; permutation to the sorted list; double sum. |
| C39 | gini of non-negative data is between 0 and 1 | Consequences of C38. |
| C40 | wjaccard is a similarity in [0,1] | Ordered field and monotone rounding; XF for NaN. |
| C41 | vnorm is the p-norm | Reals, rpow. |
| C42 | rms and vdot | Reals / law-free. |
| C43 | cross3/cross2 are the vector cross products | Commutative ring, `ring`. |
| C44 | tri_area is half the parallelogram area | Reals; Kahan-Heron product equals 16 area^2 = 4 Gram determinant; symmetric under permutations. |
| C45 | tri_area_indexed uses Python indexing and is NaN when out of range | Int index model; case analysis. |
| C46 | pearson_corr is a correlation coefficient | Reals; Cauchy-Schwarz. |
| C47 | linear_interp1d interpolates the table | List model with the binary search; interpolation formula. |
| C48 | deadzone | Ordered field and rounding tier. |
| C49 | trapezoid_pulse | Ordered field / XF. |
| C50 | step functions: end values, range and monotonicity | Ordered field for values, Real derivatives for smoothness. |
| C51 | invsmoothstep3 inverts smoothstep3 | Real.sin/arcsin triple angle identity. |
| C52 | yeo_johnson and inv_yeo_johnson are inverse bijections | Real.log/exp case analysis. |
| C53 | logistic, log_logistic, logistic_deriv, swish | Real.exp/log. |
| C54 | hyperbolic_ramp and exponential_ramp | Real.sqrt, rpow, log. |
| C55 | semivariogram models | Ordered field / Real.exp. |
| C56 | issnan recognises exactly the signaling NaNs | BitVec 16/32/64 masks, proved by bit extensionality for the generic layout. |
| C57 | nextn_greater / nextn_less list consecutive floats | Sign-magnitude BitVec model of an IEEE format of arbitrary width; order isomorphism with Int. |
| C58 | generated gufunc loops visit every item once at the right address | Memory model of the generated loop with its scopes; induction on nloops. |
| C59 | zero-length core dimensions declared non-zero are rejected | Guard model in the generated loop. |
| C60 | gufunc signature parsing | Lists of characters; printer/parser round trip. |
| C61 | template type classification is faithful | Column/unique list model; reconstruction theorem. |
| C62 | gendot equals reduce(sumfunc, map(prodfunc)) | Memory model of reduce and gendot_loop; type table matching. |
| C63 | axis handling of the Python wrappers | Shapes as List Nat, axis Int. |
| C64 | conv_template expands every combination exactly once | Character-list model of value parsing and substitution; counting theorem. |
| C65 | power, geometric and harmonic means | Reals, log/exp/rpow; XF special cases. |
| C66 | multivariate_logbeta and logfactorial domain behaviour | Exact log-gamma on the reals; the Stirling branch against Mathlib's Stirling limit with explicit remainder bounds, the table by kernel-checked rational certificates; index bounds. |
| C67 | elementwise helpers: abs_squared, hypot3, nan_to_num, pow1pm1 | Reals and XF; memory loops by induction on the length. |
| C68 | normal distribution functions | erfc defined as an integral; Gaussian measure of half lines; XF for the special values. |
| C69 | expint1 and logexpint1 approximate the exponential integral | E1 defined as an improper integral; series with explicit remainder and bounds on the Euler constant; continued fraction by induction on the depth with a monotone recurrence; XF for the special values. |
| C70 | uwrap line breaking and lazy import table | List-of-strings model; greedy line breaking. |
| C71 | complex log1p is accurate everywhere, also where its real part vanishes | Nearest-rounded floats: error-free transformations (TwoSum, Fast2Sum, Veltkamp split, Dekker square) proved from the rounding property alone; error propagation to the complex logarithm; exact arithmetic; special values; loop induction. |
| C72 | debye1 is the Debye function of order 1 on the whole real line | Certificates: Taylor coefficients of t/(e^t-1) and partial integrals on 200 cells, residuals evaluated by the kernel on integers; mean value inequality from cell to cell; running error of the nested evaluation; case analysis of the rounded index. Reflection formula for negative x. |
| C73 | loggamma1p is log Gamma(1+x) for every real x > -1 | Lanczos: the one-step defect of the formula under Gamma(y+1) = y Gamma(y) bounded through its second derivative (a rational function, sign certificates checked by the kernel), summed and compared with the Bohr-Mollerup limit. Pade: second derivative of the difference to Lanczos's formula, integrated twice. Running error of the evaluations; conditioning by convexity of log Gamma. |
| C74 | erfcx is exp(x^2) erfc(x), accurate on the whole line and infinite exactly where it must be | erfcx satisfies y' = 2xy - 2/sqrt(pi): comparison of polynomials with the solution through the sign of the residual, certificates for a rational reference table checked by the kernel on integers; each of the 300 polynomials compared with the reference by Chebyshev reduction; continued fraction by the same comparison; running error of the nested evaluation; bounds on log 2 for the overflow threshold. |
| C75 | generated elementwise ufuncs dispatch to the right C++ function | Generator as a function from configurations to abstract programs and tables; their execution on a memory of typed cells; names shown injective, table slices by induction, loop by invariant; C preprocessing of the docstring macro as a small text specification. |
| C76 | tri_area in floating point is accurate away from degenerate triangles | Rounded model beside the exact one; relative intervals (1-u)^k..(1+u)^k closed under the operations, exact subtraction of close floats, induction over the coordinates; witnesses by pinning the rounded roots. |
| C77 | interpolating functions in floating point: accuracy, range, agreement of the two paths | Rounded models beside the exact ones; the rounded ratio is within 3.1u of the exact one and in [0,1]; error propagation through the polynomials with their Lipschitz constants; failures by pinning each rounded operation to a float closer than half a step. |
| C78 | generated gufunc modules register and run the right loops | The generator as a function from configurations to modules (loop functions, type tables, registrations), their compile-time name checks and the execution of their loops (C58); loop names shown injective, type tables by slices, template arguments by the classification of columns (C61); shipped configurations by a kernel-evaluated check that is proved to imply the hypotheses. |
| C79 | mad, rmad and gini in floating point | The loops of mad_gufunc.h with a rounding after every operation; error of the rounded weighted sum by induction over the sorted data; the violation with a witness evaluated for any tie rule. |
| C80 | softmax in floating point | The loops of softmax_gufunc.h with a rounding after every operation; the rounded sum of nonnegative terms by induction (monotone and with relative error), the rounding of x - xmax before exp by |d| exp(d) <= 1/e. |
| C81 | pearson_corr in floating point | The three passes of corr_gufunc.h with a rounding after every operation; compensated sums by induction, Cauchy-Schwarz for the coefficient of the computed deviations, normalised vectors in Euclidean space for the effect of the mean; witnesses by pinning each rounding to its grid. |
| C82 | vdot, rms, cross2 and cross3 in floating point | The models of rms, vdot, cross2 and cross3 are generic in the arithmetic, so they are used at a type whose operations round; induction over the sum for the error, monotone rounding for signs, pinned roundings for the witnesses. |
| C83 | vnorm and wjaccard in floating point | vnorm with a rounding after every operation and an abstract pow whose assumptions are a separate specification (GoodPow, met by the rounded power); errors of the powers by Bernoulli and exp, of the root through logarithms, underflow absorbed by the largest term being 1. wjaccard by the sum bound and a quotient estimate. |
| C84 | hmean, gmean and pmean in floating point | hmean with two roundings (long double inside the loop, double for the stored sum), gmean and pmean with abstract log, exp and pow whose assumptions are separate specifications met by the rounded functions. Invariants of the sums with powers of (1-u), (1+u); the exponent error goes through exp. Counterexamples in double for every tie rule and every long double format. |
| C85 | overflow in vdot, rms, cross2, kbnsum and wjaccard | `ov rd Omega` (Spec/Overflow): rounding followed by the replacement of results beyond Omega by infinities. The models that are generic in the arithmetic are used at the type `Fo rd Omega` (vdot, rms, cross2) or with `ov rd Omega` as the rounding (kbnsum, wjaccard). Partial sums are bounded by the sum of the magnitudes times (1+u)^n; counterexamples in double for every tie rule. |
| C86 | no needless overflow in softmax and vnorm | The models of softmax and vnorm take the rounding as a function on XF; with `ov rd Omega` no intermediate result overflows: scaled elements are at most 1, their powers about 1, their sum at most 1.04 n, so that only the last multiplication (order 1: the sum) can. The result is `ov id Omega` of the one without overflow. |
| C87 | overflow in hmean, gmean and pmean | The models of C84 take the rounding, exp and pow as functions on XF; with `ov rd Omega`: pmean: scaled elements, powers, mean and root are at most 1; gmean: n numbers of magnitude at most 2^j have partial sums of at most n 2^j, which are floats; hmean: partial sums are monotone. Counterexamples in double for every tie rule and long double format. |
| C88 | overflow in linearstep, smoothstep, trapezoid_pulse and linear_interp1d | Models of the step functions, the pulse and the two interpolation paths on XF with a rounding after every operation (Model/StepOverflow). With `ov rd Omega` every intermediate result is bounded by a power of two, or by Omega times a ratio in [0, 1]; for linearstep in double the two rounded products of the largest double have a sum less than half a step beyond it. Counterexamples in double for every tie rule. |
| C89 | overflow in mad, rmad, gini and tri_area | Models with a rounding on XF after every operation (Model/MadOverflow). The partial sums of mad are bounded by multiples of 2^m that are floats; the sides and the factors of Kahan's formula by powers of two. Counterexamples in double for every tie rule. |
| C90 | overflow in meanvar and pearson_corr | Models with a rounding on XF after every operation (Model/MeanvarOverflow). The invariants of the error analyses of C36 and C81 bound every intermediate result: the mean, both compensated sums, the scaled squares, the norm and the final sum. Counterexamples in double for every tie rule, with all other operations exact. |
| C91 | ufunc_inspector reports every loop of a ufunc | Model/Inspector renders the text printed, with every array access checked and the pending exception as a flag; Spec/Inspector gives the report as lists joined by separators and slices of the arrays. Induction over the loops of the printing code. |
| C92 | conv_template: include files, unique keys and output names | Model/ConvFiles: a file system as two functions, recursion depth as a parameter; Spec/ConvFiles gives the expansion as an inductive relation. Mutual induction; termination is accessibility of the include relation. unique_key by bounding the candidates; names by lemmas on takeWhile. |
| C93 | weighted means in floating point | Model/MeansWRound: the weighted loops with every operation rounded (parameters rd, log, exp, pow). The accumulated errors are bounded by induction over the data (rsum_terms_list), then the quotient, the logarithm or the power by the lemmas of C83 and C84. The exceptions are computed with Nearest.pin. |
| C94 | backlash, backlash_sum and deadzone in floating point | Model/Signal and Model/Deadzone used at Fl rd (Spec/FloatOrder: every operation rounded, order of the values). A step is the rounded projection because rounding is monotone; the projection is nonexpansive, so the errors do not add up (induction with the invariant |y - z| <= E). The exception is a witness. |
| C95 | fillnan1d and unwrap in floating point | Model/FillnanRound and Model/UnwrapRound: the interpolation in long double and the loop of unwrap with every operation rounded. fillnan1d: error propagation through five roundings, monotonicity of rounding for the order, the mirror rounding for decreasing data. unwrap: the rounded quotient is within a few roundings of the exact one, so floor gives the right multiple away from ties; induction over the samples. The exceptions are computed. |
| C96 | sosfilter in floating point | Model/Sosfilter used at three types: Fl rd, the reals and Mag c (Spec/Magnitude: magnitudes). A relation between the three runs with a count of roundings is preserved by each operation and carried through sections and samples by induction; for the residual the state is related to the two past samples, inputs and computed outputs taken as exact. |
| C97 | logistic, logistic_deriv, log_logistic and swish in floating point | Model/ScalarRound: the functions of logistic.h with a rounding after each operation and the library functions as parameters with an error bound; overflow separately. Relative errors are carried as differences of logarithms (Proof/Close), which sums of positive numbers, products, quotients, roots and log1p do not increase. |
| C98 | hyperbolic_ramp and exponential_ramp in floating point | Model/ScalarRound: ramp.h with two roundings (element and intermediate type). Proof as for C97; the rewriting that avoids cancellation for negative x is what makes the relative bound provable. |
| C99 | yeo_johnson, inv_yeo_johnson and pow1pm1 in floating point | Model/ScalarRound: yeo_johnson.h and pow1pm1.h with rounding; log1p and expm1 are parameters. Proof/Close extended to numbers of either sign: expm1 increases a relative error by at most the absolute error of its argument, log1p near -1 by the factor 1+kappa. |
| C100 | semivar functions in floating point | Model/ScalarRound: semivar.h with two roundings. Relative and absolute parts of the errors are carried through each operation (Ap); order by monotony of rounding; the failures by exact evaluation of the roundings at the witnesses. |
| C101 | normal distribution functions in floating point | Model/NormalRound: normal.h with the long double constant and the conversion to T. Proof/NormalRound: erfc passes on errors of its argument with a factor bounded by monotony of erfc(z)exp(z^2+kz), erfcx with factor 6 (from C74). logcdf: both terms negative, so relative errors do not grow. The witness -37 by exact evaluation of the three roundings. |
| C102 | expint1 and logexpint1 in floating point | Model/ExpintRound.lean: the code with every operation rounded, the early exit of the series and the truncated conversion to int of the rounded quotient. Props/ExpintRound.lean: adding a constant damps a relative error by the weight of the summand (`close_const_add`), so an error 4(k+2) of a rounding entering step k leaves as 4(k+1), whatever the number of terms; one more term, when the quotient 80/x rounds up to an integer, only improves the fraction (`cf_more`); the loop of the series by induction with geometric bounds on the terms, alternating bounds on the partial sums, and at the exit the remaining terms bounded by the one that did not change the sum; the truncation errors are those of C69. |
| C103 | invsmoothstep3 in floating point | Model/InvStepRound.lean rounds every operation (the subtraction from the double literal 0.5 in its own format); the computed argument of asin is shown to stay in [-1, 1], the exact root for that argument solves a nearby cubic, and the cubic is Lipschitz; the inverse of the cubic is 1/2-Hoelder, which gives the forward bound. Relative accuracy near the ends is refuted with y = 2^-56 in double. |
| C104 | logfactorial is accurate to a few units in the last place in double arithmetic | Model/LogfactRound: the table lookup and the asymptotic series with every operation rounded to the double format (conversion of the integer to double included). Proof: the table is checked by the kernel against fixed-point logarithms with a rigorous remainder; the series by the relative-error calculus on top of C66's bound on its truncation. |
| C105 | The error of multivariate_logbeta is proportional to the terms it subtracts, not to its result | Model/LogbetaRound: the generic core of C66's model instantiated with rounded operations over the reals. Proof: running sums by the standard summation bound; the error of the argument S is carried through log Gamma by a Lipschitz bound that follows from the convexity of log Gamma; goodLgamma_round shows that a correctly rounded lgamma meets the hypothesis (log Gamma crosses zero at 1 and 2 with a slope, and numbers of the format other than 1 and 2 stay 2^-p away from them). |
| C106 | The mean of meanvar lies between the elements and its variance is never negative, in floating point | Invariant of the loop: either the compensation is the exact rounding error of the last update (then rd(mean - c) = mean, and by monotonicity and Sterbenz's lemma the new mean is between the old one and the element), or the last increment was larger than the mean (then the mean is far from both bounds and the second moment is at least 0.3 mean^2, so a product of wrong sign cannot make it negative). Negative direction by reflecting the rounding function. |
| C107 | Statistics change exactly with sign and scale of the data, bit for bit | The rounded models of these functions are reused. Spec/Scale: Commutes rd s says rd(s z) = s rd(z). Each loop is shown to commute with the multiplication by induction; the data include NaN and infinities where the model does. Proof/ScaleExists constructs roundings that satisfy the hypotheses. |
| C108 | Vector, filter and shape functions change exactly with sign, scale and argument order, bit for bit | As C107. The generic models (vdot, rms, cross, sosfilter, backlash) are used at Fl rd, numbers with rounded operations. |
| C109 | abs_squared and abssq: accuracy, symmetry, exactness and overflow in floating point | Model/AbsSqRound.lean: the two overloads over any type with + and *; instantiated at rounded and at overflowing arithmetic.  Error from two products and one exact-grid sum; sign, symmetry and monotonicity from monotone rounding; `C109_zero_violated` is the underflow witness.  Contraction to FMA is not modelled. |
| C110 | The loop that runs is the narrowest one that can take the arguments | Spec/Dtype.lean: the types, their values and NumPy's safe casts for a platform. Model/Dispatch.lean: every table of loops in order, and `resolve`. A table whose order follows the casts always yields a minimal loop (proved for any table and any argument types); that each table is so ordered is a finite fact about the table, checked by the kernel. Result types (Props/DispatchResults): by cases over all tables, and for peaktopeak from the ranges of the types. |
| C111 | Integer arrays reach the loop unchanged | Spec/Dtype.lean gives the set of integers of each type; `C111_keeps` proves which casts preserve it, `C111_same_type` that the loops picked by `resolve` do. False for the functions whose widest integer loop is for C `long` where that has 32 bits (Windows): `C111_windows_violated`, and with the models of all_same and ordered the wrong answers `C111_windows_result_violated`. False for uint64 in cross2/cross3 and for int64 mixed with uint64 everywhere. |
| C112 | Integer and fixed-point data in float arrays give exact sums, dot and cross products | Spec/Fixed (multiples of 2^e). Props/ExactInt: loop invariants (accumulator is a multiple of 2^e bounded by the sum of absolute values, compensation stays 0) show that each rounding acts on a number of the format. C112_bound_violated: 2^p + 1. |
| C113 | Object loops keep reference counts right | Spec/Refs: states with reference counts, owners and array cells; `Owned` (every count is the number of owners); what Python code called by a loop may do. Model/Refs: INCREF, DECREF, plain stores, the core functions with their error paths. Loop invariants give C113_minmax, _extreme, _first, _cross2, _cross3, _peaktopeak; C113_peaktopeak_holds (no freed object even if the subtraction changes the arrays); C113_peaktopeak_stops (the loop ends at the first error); C113_items and C113_fresh (any number of items). C113_out_leak_violated, C113_pending_violated and C113_borrowed_violated are the three failures. |
| C114 | Importing an extension module gives a complete module or leaves nothing behind | Spec/ModInit: heap with the module, its dictionary and reference counts; steps that may fail. Model/ModInit: both forms of the PyInit functions. Invariant over the list of definitions (C114_generated, C114_hand_partial); C114_hand_violated for the order of the hand-written ones; C114_modules: their names are distinct and those that the package looks up. |
| C115 | A gendot function owns its memory, and can be called as long as the program keeps it | Model/GendotLife: layout and writes of the block; a world of ufuncs with references and blocks and a step function. C115_layout, C115_writes by arithmetic; C115_lifetime_partial by an invariant over histories; C115_static without the condition when no ufunc owns its loop data; C115_lifetime_violated: create, gendot, del, call. |
| C116 | The package gives the same objects in every history of imports and attribute accesses | Model/ImportState: loaded submodules, names bound in the package, the attribute `normal.erfcx`; import, reload, access. C116_history compares with the stateless table of C70 by an invariant on the bound names; C116_first_import; C116_reload_violated and C116_retry_violated hold for every environment. |
| C117 | The generated approximation code computes the fitted functions | Spec/CExpr: tokens, a C expression grammar as an inductive relation, evaluation with a rounding after each operation, polyval. Model/CodeGen: the printed token lists, the branches, the bisection. The grammar is proved unambiguous; induction over coefficients and intervals. |
| C118 | Floating-point warnings: which operations are reported | Model/Flags: flags as a set that operations add to; loops and NumPy's chunks as state passing. Induction over items and chunks. C118_cast_violated and C118_gini_clang_violated for the two places. |
| C119 | Calls from several threads give the results of the same calls one after the other | Spec/Threads: programs that read and write one cell at a time, schedules. Model/Threads: the loops as such programs. Invariant of every step: what the rest of each thread would compute alone does not change. C119_unary, C119_bincount, C119_relay and C119_reduction connect the results with the other models; C119_shared_out_loses is the lost count. |
| C120 | Elementwise functions: out=, views, pieces and direction do not matter | Spec/Overlap: shared cells and NumPy's rule for copies. The loop of Model/Threads (ufuncLoop), by induction over the elements; C120_copy_needed shows that NumPy's copies are needed. |
| C121 | Building the package | Model/Build: the targets with their inputs, outputs and the steps of their scripts; ninja's parallel execution as an interleaving, its reruns by comparing the inputs. Proof by an invariant over schedules (each job seen alone) and over histories (the files are those of the last run that ended well). The templates satisfy the full statement; for gufuncs it holds while the undeclared tool modules are unchanged; for ufuncs a rebuild always fails. |
| C122 | Functions of the library agree with one another | No new model: the theorems relate the existing models of different source files, each side a model function, through the characterisations proved for the single functions. The discrete functions (Props/AgreeOrder) are compared over any linear order and integer type, the numerical ones (Props/AgreeReal) in exact arithmetic; the accuracy of logfactorial enters the comparison with logbeta and loggamma1p. |
| C123 | A result depends on the elements of the arrays, not on their memory layout | No new model: the theorems in Props/Layout compare two runs of the same model function on two memories whose `elems` are equal. The loops are compared by induction, or through the characterisations of the single functions by element lists. kbnsum (with infinities) and linear_interp1d (empty table) violate the property: witnesses. |
| C124 | The result for an array made of two pieces follows from the results for the pieces | No new model: Props/Pieces compares the model function on `xs ++ ys` with its values on `xs` and `ys` by induction over the loops; Props/PiecesReal uses the characterisations of the single functions. minmax with NaN violates the property (witness): the NaN decides only when it comes first. |
| C125 | The order of the elements | No new model: the characterisations of the single functions are invariant under `List.Perm`, or under a bijection of the indices when two arrays are rearranged together. minmax with NaN violates the property (witness). |
| C126 | Infinities, NaN and signed zeros in the scalar functions | Model/SignedZero: numbers with NaN, infinities and two zeros, rounded arithmetic with the signs of IEEE 754, library functions with the special values of annex F, and the functions again on these numbers. On finite arguments in exact arithmetic they are the functions of Model/Scalar. Limits with Mathlib's filters. |
| C127 | The sign of a zero | Model/SignedZero. Forgetting the sign of zeros maps addition, subtraction, multiplication and division by anything but -0 to the operations of the model with one zero; this is carried through the loops by induction. A sum of floats rounds to zero only if it is zero, so that a sum that starts at +0 never becomes -0. Antisymmetry of cross2 fails in the sign of zero (witness). |

## 5. Defects found while modelling

All are modelled faithfully.  Where a property is false of the code the
negation is proved (`_violated`, with a concrete witness), and what remains
true is proved beside it.

1. `ordered` on object arrays never advances `x1` (ordered_gufunc.h 125-148): every element is compared with `x[0]` (C23).
2. `check_ordered` tests the negated comparison, so pairs with NaN pass; an unknown op code falls through to `>=` (C22).
3. `kbnsum` inspects `p_x[j]` (unstrided) when looking for a cancelling infinity (C37).
4. `bincount` casts uint64 to `npy_intp` before comparing with `m`: values >= 2^63 pass the guard (C10).
5. `bincount` wrapper: `np.max(x) + 1` overflows in the dtype of x (C13).
6. `convert_to_base`: division by zero / INT_MIN by -1 not guarded (C07).
7. `gendot`: the temporary buffer is sized with the item size of the sum's output; one path reads it uninitialised (C62).
8. `linearstep`/`smoothstep*`: NaN arguments do not propagate; the `(fa+fb)/2` branch is unreachable for non-NaN x (C50).
9. `unwrap`: wrong for negative period and for a non-finite first sample (C34).
10. wrappers: `adjusted_axis > 1 + len(shape)` is off by one, masked by NumPy's own check (C63).
11. `uwrap.to_lines` does not terminate for an overlong part (C70).
12. `percentileofscore`: unknown kind leaves the output unwritten; n = 0 divides 0 by 0 (C24).
13. `linear_interp1d`: the fast path lacks the empty-table check; a single-point table or a NaN query reads out of bounds (C47).
14. `sosfilter` with zero sections leaves the output unwritten (C32).
15. generated loops use `int` counters for `npy_intp` bounds (C58).
16. `peaktopeak` of signed integers overflows in the intermediate subtraction (C18).
17. `minmax` of a NaN-first float array keeps the NaN (C16).
18. `fillnan1d`: infinite neighbours interpolate to NaN (C33).
19. `vnorm`: NaN and infinities (C41).
20. `mad`: `n*n` is computed in the index type; `std::sort` on NaN (C38).
21. `deadzone(nan) = 0` (C48).
22. `classify_typenames` with duplicates (C61).
23. means: gmean with -inf, tiny data with a zero, hmean special cases, gmean with zero weights; `pmean` for long double calls the double `pow` (C65).
24. `multivariate_logbeta` accepts non-positive arguments (C66).
25. `pow1pm1(inf, 0)`, `pow1pm1(0, inf)` and `abs_squared(inf + nan j)` are NaN (C67).
26. `dir(ufunclab)` and `__all__` omit `erfcx`, `normal` and `semivar` names (C70).
27. `expint1` for long double has the truncation error of the double version; `(int)(80/NaN)` is undefined (C69).
28. `conv_template`: excluded combinations, `*0`, a missing end marker and a missing final newline (C64).
29. `log1p_theorem4(x + inf j)` is NaN for tiny non-zero x (C71).
30. `log1p_doubledouble`: when compiled with FMA the splitting can leave 27 bits in the lower part, so `square` is not always error-free (proved error 2^-103; harmless; C71).
31. `debye1`: when the rounded index equals the number of cases the `switch` falls through to the next range; harmless, because the index there is 0 (C72).
32. `loggamma1p`: the test for the second zero compares x with 1 only; at the neighbouring doubles Lanczos's formula cancels and the relative error reaches 100% (C73). The test `x == 0 || x == 1` in `m_lgamma` and the branch for arguments below 1e-20 are unreachable from `loggamma1p` in double precision.
33. `erfcx`: the generated overflow bounds of `float` and `double` are one unit in the last place too high: at one float of each type the result is infinite although the true value is representable (C74). The polynomials for the smallest indices (below 28, 7 and 3) are unreachable; `(int) NaN` in the `switch` is undefined behaviour.
34. tools/cxxgen (C75): the loop counter of the generated loops is an `int` (undefined for 2^31 elements or more); signatures with different numbers of inputs are accepted and give a type table NumPy misreads; a docstring with a double quote or a backslash gives a macro that does not compile or another text; names differing in case share a docstring macro; `foo.h` and `foo.hpp` write the same files. No shipped configuration meets these, except that long arrays reach the counter.
35. tri_area (C76): in double precision the collinear points (0,0), (1,1), (4,4) give NaN, not 0 (the rounded sides violate the triangle inequality and the product under the root is negative); sides near 2^-300 give area 0 although the area is near 2^-600 (the product of four factors underflows, and for sides near 2^256 it overflows).
36. linearstep, smoothstep3, smoothstep5 (C77): in double precision linearstep(1, 0, 6, 11, 11) = 11.000000000000002, smoothstep3(1-5*2^-53, 0, 1, 0, 7) > 7 and smoothstep5(1-2^-50, 0, 1, 0, 1) = 1+2^-50, so the results leave [min(fa,fb), max(fa,fb)] and are not monotone.
37. linear_interp1d (C77): the path for a shared point and table computes f0 + r*(f1-f0), the general path f0 + slope*(x-x0); for the table (0,3) -> (0,5) at 1 they differ in the last bit, and both can exceed the larger neighbouring function value.
38. tools/cxxgen/gufuncgen.py (C58, C78): a core dimension named `j` is accepted, and the loop counter `j` hides it in the call: the core function gets the number of the iteration as the size of that dimension.
39. tools/cxxgen/gufuncgen.py (C78): type signatures with too many types are accepted and shift the type table, so NumPy calls a loop for types it does not work on; signatures for objects beside others give a loop name with `*`; a core function used in two sources, or named like another followed by `_` and a type, gives two loops of one name; where `long double` is `double`, a source with `long double` signatures only gives a loop without declarations; an empty docstring stops the generator with an unrelated error; double quotes in a docstring break the macro; a gufunc named `module`, or two whose names differ in case, define a docstring macro twice.
40. tools/cxxgen/gufuncgen.py (C78): for an argument of shape `(1)` the prototype shown to the author of the core function has no stride parameter, but the generated call passes the stride.
41. src/mad/mad_gufunc.h (C79): mad, rmad and gini can be negative: for eight copies of 0.9 the rounded partial sums of the equal terms do not cancel.
42. src/corr/corr_gufunc.h (C81): pearson_corr can exceed 1: for 0, 0, 3 with itself it is 1.0000000000000002.
43. src/corr/corr_gufunc.h (C81): for data with a spread of a few subnormal numbers the norm is rounded to the grid of the subnormals and the result can be 2.
44. src/vnorm/vnorm_gufunc.h, rms_core_calc (C82): no scaling. The rms of five copies of 1.9 is larger than 1.9, and the rms of 2^-540 is 0 because the square underflows (the file's own comment mentions overflow only).
45. src/cross/cross_gufunc.h, cross2_core_calc (C82): cancellation; (1+2^-52, 1) and (1, 1-2^-53) are not parallel and have cross product 0. The sign is never wrong.
46. src/means/means_gufunc.c.src, hmean_loop (C84): the harmonic mean of one number need not be that number (1.9 gives a larger, 0.9 a smaller number), and pmean with order -1 inherits this although every other order returns equal data unchanged. gmean and pmean test for equal data, hmean does not.
47. src/means/means_gufunc.c.src, pmean_loop (C84): pmean([3.3, 3.3000000000000003], -2) is above both elements, even with a correctly rounded pow.
48. src/vnorm/vnorm_gufunc.h, rms_core_calc (C85): rms([2^512]) is inf in double precision although the result is 2^512; vdot([2^512,2^512],[2^512,-2^512]) is NaN, not 0.
49. src/cross/cross_gufunc.h, cross2_core_calc (C85): the cross product of (2^512, 2^512) with itself is NaN, not 0.
50. src/kbnsum (C85): kbnsum([2^1023, 2^1023, -2^1023]) is NaN; a plain sum is inf, and the exact sum is 2^1023.
51. src/wjaccard (C85): the similarity of [2^1023, 2^1023] with itself is NaN, not 1.
52. src/vnorm/vnorm_gufunc.h, vnorm_core_calc (C86): for orders far below 1 the power of the scaled sum overflows: vnorm([a, a], 2^-11) is inf for every a > 0; for a = 2^-1074 the exact value is 2^974.
53. src/means/means_gufunc.c.src, hmean_loop (C87): hmean of the largest double is inf (its reciprocal is rounded to 2^-1024), and hmean of the smallest positive double is 0 (the reciprocal overflows when stored in double).
54. src/means/means_gufunc.c.src, pmean_loop (C87): for negative orders the quotient by the smallest element overflows and its power becomes 0: pmean([2^-1074, 2^1000], -2^-11) is inf.
55. src/step/step.h (C88): the width b - a overflows for wide steps: linearstep(0, -2^1023, 2^1023, 0, 1) is 0, not 1/2, and for the widest step the result is NaN in the upper half; fb - fa overflows in smoothstep3 and smoothstep5: smoothstep3(0, -1, 1, -2^1023, 2^1023) is inf, not 0.
56. src/linear_interp1d (C88): the slope of the general path overflows for steep tables: for 0 -> 0, 2^-1073 -> 1 the value at 2^-1074 is inf; the path for a shared table gives 1/2.
57. src/mad/mad_gufunc.h (C89): the running sum of the differences is a sum over all pairs and overflows early: mad([0, 2^1023, 2^1023]) is inf, not 4/9*2^1023, its gini is NaN, not 1/3, and mad of three equal numbers 2^1023 is NaN, not 0.
58. src/tri_area (C89): the product of Kahan's formula overflows for sides beyond 2^255: the right triangle with legs 2^256 has the area inf, not 2^511.
59. src/meanvar (C90): meanvar([-2^1023, 2^1023], 0) is (inf, -inf); meanvar([-L, L], 0), L = 3*2^510, is (0, inf) though the variance 9*2^1020 is a double.
60. src/corr/corr_gufunc.h (C90): the norm of the deviations overflows and all scaled deviations become 0: the correlation of [-t, 0, t, -t, t], t = 2^1023, with [-1, 0, 1, -1, 1] is 0, not 1, without any NaN or infinity in the result.
61. src/means/means_gufunc.c.src, pmean_loop (C84): for small positive orders the final power underflows before the multiplication by the scale: pmean([2^1023, 0, 0], 2^-10) is 0, the power mean is above 2^-617.
62. `ufunc_inspector` does not clear the exception of a failed `PyArray_DescrFromType`: for a ufunc with such a type number the report is complete, but the call ends with a `SystemError` (`C91_never_raises_violated`).
63. `unique_key` of tools/conv_template.py does not terminate for a dictionary whose keys have together fewer than two characters; `resolve_includes` ends with a `RecursionError` for a cycle; `main` overwrites a template without extension in the destination directory (`C92_unique_key_violated`, `C92_include_cycle_fails`, `C92_source_overwritten_violated`). None of this is reached in the build of the package.
64. vnorm of an order far below 1 loses elements whose quotient with the largest one underflows, although their powers count: `vnorm([2**100, 2**-1074], 2**-8)` is `2**100`, the exact value is above `9*2**100` (`C83_vnorm_small_violated`).
65. hmeanw of a single number is not that number: `hmeanw([7], [9])` is `7 - 2**-50`; the weight cancels only in exact arithmetic (`C93_hmeanw_equal_violated`).
66. gmeanw with very small weights rounds the products of weight and logarithm to multiples of the least subnormal: for 2 and 9/4 with both weights `2**-1074` the result is outside the range of the data, above 1.15 times the larger one (`C93_gmeanw_tiny_weights_violated`).
67. pmeanw divides the data by the largest (least) element even if its weight is 0: `pmeanw([2**1000, 1], [0, 1], 2)` is 0 and `pmeanw([2**-1000, 1], [0, 1], -2)` is inf; both means are 1 (`C93_pmeanw_zero_weight_violated`).
68. In floating point the distance between input and output of backlash can exceed half the deadband by a rounding error (`C94_backlash_band_violated`).
69. fillnan1d of long double data among the smallest subnormal numbers can leave the interval of the neighbours: between 0 and 5 least subnormals, 9 places apart, the eighth value is 8 least subnormals (`C95_fillnan_between_violated`).
70. unwrap with period 1 maps the samples 0 and the largest float below 1/2 to 0 and -1/2: `x/period + 0.5` rounds to 1 (`C95_unwrap_half_violated`).
71. logistic(-720) is 0 in double precision although exp(-720) is a (subnormal) number more than 1000 times the least one: exp(720) overflows (`C97_logistic_overflow_violated`).
72. yeo_johnson(3, 2^-1074) is 1 in double precision with correctly rounded log1p and expm1; the value is 1.386.  Subnormal products lambda*log1p(x) lose their digits (`C99_tiny_lambda_violated`).
73. inv_yeo_johnson(x, -3) is infinite for the double x just below 1/3; the value is 2^18 - 1: the test compares with the rounded -1/lambda (`C99_inv_end_violated`).
74. semivar_linear(25, 0, 7, 25) is 7 + 2^-50, above the sill (`C100_linear_exceeds_violated`); with range 2^1000 and sill 5*2^-76 it is 20 percent below the sill at the range (`C100_linear_underflow_violated`).
75. semivar_parabolic is not monotone: it is 1 at 1-2^-52 and 1-2^-53 at 1-2^-53 (nugget 0, sill 1, range 1; ties to even) (`C100_parabolic_monotone_violated`).
76. semivar_exponential(2^-60, 0, 1, 1) is 0; `1 - exp(-3h/range)` instead of expm1 loses all digits for small h (`C100_exponential_small_violated`).
77. normal_cdf(-37) (and normal_sf(37)) in double is relatively too small by more than 780 * 2^-53: the rounding of x/sqrt(2) to double is magnified by x^2 (`C101_tail_violated`).
78. `invsmoothstep3` near the ends (src/step/step.h line 98): `1 - 2*t` discards `t` when `t` is below the unit roundoff, so for the step from 0 to 1 on [0, 1] and `y = 2**-56` the result is below `1e-14` while the inverse is about `2.2e-9`: no digit is correct, and half of the digits are lost in general near `fa` (`C103_relative_violated`). A form using `sqrt(t)` would not lose them.
79. `multivariate_logbeta` (src/multivariate_logbeta/multivariate_logbeta_gufunc.h lines 24-30, 52-58) subtracts log-gamma values that nearly cancel: `multivariate_logbeta([2**60, 1])` returns `0` instead of `-60 log 2 = -41.6` (`C105_relative_violated`).
80. `meanvar` (src/meanvar/meanvar_gufunc.h lines 39-46): for the two orders of `1` and the next double one variance is `0` and the other is twice the true value (`C106_zero_violated`); the compensation does not help there.
81. abs_squared/abssq underflow silently: abs_squared(2**-540) is 0.0 for a nonzero argument (`C109_zero_violated`); the docstrings do not restrict the range.
82. On Windows (C `long` of 32 bits, a supported platform) all_same, ordered, first, argfirst, pearson_corr, wjaccard, cross2 and cross3 have no loop for int64/uint64: NumPy converts the arrays to double. all_same([2**54, 2**54+1]) is True and ordered([2**54, 2**54+1], op.LT) is False there (`C111_windows_violated`, `C111_windows_result_violated`).
83. cross2 and cross3 of uint64 vectors are computed in double on every platform (`C111_cross_violated`).
84. The object loops of minmax, min_argmin, max_argmax, first, cross2, cross3 and peaktopeak overwrite output cells without Py_XDECREF: with `out=` (an array that holds objects) every call leaks the old objects (`C113_out_leak_violated`). NumPy's own object loops release them.
85. The generated loops (tools/cxxgen/gufuncgen.py) do not check for an error between items: after an exception the remaining items call the C API with the exception set (`C113_pending_violated`). peaktopeak stops (`C113_peaktopeak_stops`).
86. minmax, min_argmin, max_argmax, first, peaktopeak (during its comparisons), cross2 and cross3 use borrowed references while they call Python code; a `__lt__` that assigns to the array can free the object that is returned (`C113_borrowed_violated`).
87. The 11 modules written by hand (means, debye1, linear_interp1d, searchsorted, loggamma1p, logfactorial, issnan, abssq, log1p, peaktopeak, gendot) create the module before they import NumPy's C API and return NULL without releasing it if that fails (`C114_hand_violated`).
88. `pmeanw` is registered with the docstring of `pmean` (src/means/means_gufunc.c.src line 795: PMEAN_DOCSTRING; PMEANW_DOCSTRING is defined and not used).
89. `gendot` copies pointers to the loop data of its two ufuncs but keeps no reference to them (src/gendot/gendotmodule.c lines 318-345; `gufunc->obj` is not set): when a ufunc that owns its loop data (numba, for instance) is deleted, calling the gendot function uses freed memory (`C115_lifetime_violated`).
90. `importlib.reload(ufunclab)` always fails: `from .normal import erfcx` after `del normal.erfcx` (ufunclab/__init__.py lines 8-10; `C116_reload_violated`).
91. If `import ufunclab` fails in `_first` or `_percentileofscore`, it can never succeed later in the same process, because `ufunclab.normal` stays in sys.modules without `erfcx` (`C116_retry_violated`).
92. src/normal/generate_erfcx_code.py, find_lower_bound: the shipped bounds of float and double are one number above what the docstring promises (`C117_bound_float_violated`, `C117_bound_double_violated`), because `mpf(str(xmid))` takes the shortest decimal of `xmid` and the working precision was lowered before; consequence as in C74.
93. The generated ufunc loops (tools/cxxgen/generate_ufunc_extmod.py line 238) clear all floating-point flags, including those of the conversion of the arguments: the overflow of converting a double array to float for a float loop is not reported (`C118_cast_violated`).
94. With clang, gini and rmad call feclearexcept(FE_INVALID) for a 0/0 item (src/mad/mad_gufunc.h lines 103-154): an invalid operation of an earlier item of the same call is not reported (`C118_gini_clang_violated`).
95. **Rebuilding a ufunc fails** (tools/cxxgen/generate_ufunc_extmod.py lines 162-163): the script raises `RuntimeError` if its output file exists, and ninja does not delete it before a rerun. So after a source of a ufunc module is changed, every incremental build fails until the build tree is deleted, and the module keeps its old text (`C121_ufunc_rebuild_violated`, `C121_ufunc_stuck_violated`).
96. **Stale generated code** (ufunclab/meson.build lines 84-86, 141-143, 169-173): gufuncgen.py, generate_utils.py, ufunc_config_types.py, generate_concrete_cfuncs.py and generate_ufunc_extmod.py are not in `input`, so that a change of them does not regenerate anything (`C121_stale_violated`).
97. `swish(-inf, beta)` with beta > 0 is NaN (-inf * 0); the limit is 0 (`C126_swish_violated`).
98. `semivar_exponential(h, nugget, sill, -0.0)` is -inf for h > 0 and nugget < sill; with a range of +0.0 it is the sill, and so are the other three functions for both zeros (`C126_semivar_negzero_violated`).

## 6. Axiom audit

`#print axioms` was run over every theorem named in MANIFEST.json: each
depends on a subset of `propext`, `Classical.choice`, `Quot.sound`.  The
sources contain no `axiom`, `sorry`, `admit`, `native_decide`, `bv_decide`,
`unsafe`, `implemented_by` or `extern`.  `decide` and `decide +kernel` are
used for closed finite facts (rational certificates, table entries); both are
evaluated by the kernel.

## 7. What is modelled and what is not

Modelled, function by function: all of src/abs_squared, abssq, all_same,
backlash, bincount, convert_to_base, corr, cross, deadzone, debye1, expint1,
fillnan1d, first, gendot (reduce, loop, type matching, Python wrapper),
hypot3, hysteresis_relay, issnan, kbnsum, linear_interp1d, log1p,
logfactorial, loggamma1p, logistic, mad, means, meanvar, minmax, multivariate_logbeta,
nan_to_num, next, nextn, normal, one_hot, ordered, peaktopeak,
percentileofscore, pow1pm1, ramp, searchsorted, semivar, softmax, sosfilter,
step, trapezoid_pulse, tri_area, unwrap, vnorm, wjaccard, yeo_johnson;
util/strided.hpp; ufunclab/_wrapped.py, _gendot_wrap.py, the lazy import table
of __init__.py; tools/conv_template.py (value parsing, headers, expansion),
tools/cxxgen/gufuncgen.py (whole; not the include lines and the copying of headers),
tools/cxxgen/generate_ufuncs.py with its helpers (generated functions, loops,
tables, docstring macros, file names),
tools/uwrap/uwrap.py (signature text, line breaking), the ufunc inspector and
the file functions of conv_template.py; reference counts of the object loops, module initialisation, the memory
of gendot functions and the state of the package over imports; the scripts that generate the
code of debye1 and erfcx (what they print; not the fits by mpmath); floating-point status flags of the loops;
the loops as memory accesses of concurrent threads (sequentially consistent, whole elements); the build targets of ufunclab/meson.build
and the version file (which files are written, in which order, and when again; not the compiler).

Simplified, and said so at the definition: library functions (`exp`, `log`,
`lgamma`, `erfc`, `pow`, `hypot`, `atan2`, ...) are the exact mathematical
functions with the special values of the C standard; floats have no largest
exponent in the rounding tier (but overflow is modelled in C85 to C90), no
rounding in the exact tier and, outside C126 and C127, a single zero; object arrays are polymorphic values with partial operations.

Not modelled: the inside of the NumPy C API (ufunc creation, iterators,
docstrings), type resolution inside NumPy for scalars, strings and datetimes (its rule for numeric arrays is a specification in Spec/Dtype.lean and Model/Dispatch.lean), long double and half beyond the
generic statements, the compilation and installation steps of meson.

## The log of wrong programs

`seeded/LOG.jsonl` has one record per edit. `theorems_failed` is what was observed: the declarations at which the rebuild reported an error. A module
that imports a failed module is not rebuilt, so `claim_broken` and `theorems_depending_on_these` (at most 12 names) are not observed but derived: the
`Cnn_` theorems that failed themselves or whose proofs, in the current sources, use a failed declaration; if none is found, those that use the edited definition.
A claim listed there rests on the declaration that failed; it need not be false of the edited program. Up to commit 029845f the derivation left out all claims from C100 on and
confused declarations of the same name in different namespaces, so that `claim_broken` was wrong or incomplete in 874 of 1650 records; it was recomputed with
full names. Records with the verdict `equivalent program` or `survived; tightened` were judged by hand.

{
 "claims": [
  {
   "property": "C01",
   "status": "proved",
   "theorems": [
    "Ufunclab.Searchsorted.C01_searchsortedl_partitioned",
    "Ufunclab.Searchsorted.C01_searchsortedl_count",
    "Ufunclab.Searchsorted.C01_searchsortedl_insert",
    "Ufunclab.Searchsorted.C01_C02_loop"
   ],
   "note": ""
  },
  {
   "property": "C02",
   "status": "proved",
   "theorems": [
    "Ufunclab.Searchsorted.C02_searchsortedr_partitioned",
    "Ufunclab.Searchsorted.C02_searchsortedr_count",
    "Ufunclab.Searchsorted.C02_multiplicity",
    "Ufunclab.Searchsorted.C01_C02_loop"
   ],
   "note": ""
  },
  {
   "property": "C03",
   "status": "proved",
   "theorems": [
    "Ufunclab.Searchsorted.C03_in_bounds_l",
    "Ufunclab.Searchsorted.C03_in_bounds_r"
   ],
   "note": ""
  },
  {
   "property": "C04",
   "status": "proved",
   "theorems": [
    "Ufunclab.Searchsorted.C04_object_agrees",
    "Ufunclab.Searchsorted.C04_object_error_iff",
    "Ufunclab.Searchsorted.C04_object_loop"
   ],
   "note": ""
  },
  {
   "property": "C05",
   "status": "proved",
   "theorems": [
    "Ufunclab.ConvertToBase.C05_digits",
    "Ufunclab.ConvertToBase.C05_roundtrip_unique"
   ],
   "note": ""
  },
  {
   "property": "C06",
   "status": "proved",
   "theorems": [
    "Ufunclab.ConvertToBase.C06_negative"
   ],
   "note": ""
  },
  {
   "property": "C07",
   "status": "partial",
   "theorems": [
    "Ufunclab.ConvertToBase.C07_traps_iff",
    "Ufunclab.ConvertToBase.C07_never_traps_violated",
    "Ufunclab.ConvertToBase.C07_completes_partial"
   ],
   "note": "The property as stated is false of the code (C07_never_traps_violated); C07_traps_iff gives exactly the trapping inputs, and C07_completes_partial proves the rest."
  },
  {
   "property": "C08",
   "status": "proved",
   "theorems": [
    "Ufunclab.OneHot.C08_one_hot",
    "Ufunclab.OneHot.C08_one_hot_list",
    "Ufunclab.OneHot.C08_frame",
    "Ufunclab.OneHot.C08_sum"
   ],
   "note": ""
  },
  {
   "property": "C09",
   "status": "proved",
   "theorems": [
    "Ufunclab.Bincount.C09_counts",
    "Ufunclab.Bincount.C09_counts_zero"
   ],
   "note": ""
  },
  {
   "property": "C10",
   "status": "partial",
   "theorems": [
    "Ufunclab.Bincount.C10_frame_partial",
    "Ufunclab.Bincount.C10_violated_uint64"
   ],
   "note": "False of the code for uint64 values >= 2^63 (C10_violated_uint64); C10_frame_partial proves it for all other values."
  },
  {
   "property": "C11",
   "status": "proved",
   "theorems": [
    "Ufunclab.Bincount.C11_append",
    "Ufunclab.Bincount.C11_perm",
    "Ufunclab.Bincount.C11_total"
   ],
   "note": ""
  },
  {
   "property": "C12",
   "status": "proved",
   "theorems": [
    "Ufunclab.Bincount.C12_weighted",
    "Ufunclab.Bincount.C12_append",
    "Ufunclab.Bincount.C12_unit_weights"
   ],
   "note": ""
  },
  {
   "property": "C13",
   "status": "partial",
   "theorems": [
    "Ufunclab.Bincount.C13_default_m_partial",
    "Ufunclab.Bincount.C13_violated",
    "Ufunclab.Bincount.C13_empty_raises"
   ],
   "note": "False of the code when max(x) is the top value of the dtype (C13_violated) or x is empty; C13_default_m_partial proves it otherwise."
  },
  {
   "property": "C14",
   "status": "proved",
   "theorems": [
    "Ufunclab.MinMax.C14_argmin",
    "Ufunclab.MinMax.C14_argmax",
    "Ufunclab.MinMax.C14_minmax"
   ],
   "note": ""
  },
  {
   "property": "C15",
   "status": "proved",
   "theorems": [
    "Ufunclab.MinMax.C15_consistent",
    "Ufunclab.MinMax.C15_value_at_index"
   ],
   "note": ""
  },
  {
   "property": "C16",
   "status": "proved",
   "theorems": [
    "Ufunclab.MinMax.C16_nan_first",
    "Ufunclab.MinMax.C16_nan_ignored",
    "Ufunclab.MinMax.C16_nan_filtered"
   ],
   "note": ""
  },
  {
   "property": "C17",
   "status": "proved",
   "theorems": [
    "Ufunclab.MinMax.C17_object_agrees",
    "Ufunclab.MinMax.C17_object_raises_iff"
   ],
   "note": ""
  },
  {
   "property": "C18",
   "status": "partial",
   "theorems": [
    "Ufunclab.PeakToPeak.C18_signed",
    "Ufunclab.PeakToPeak.C18_unsigned",
    "Ufunclab.PeakToPeak.C18_any_type",
    "Ufunclab.PeakToPeak.C18_empty",
    "Ufunclab.PeakToPeak.C18_signed_overflow",
    "Ufunclab.PeakToPeak.C18_ub_violated",
    "Ufunclab.PeakToPeak.C18_object"
   ],
   "note": "The unsigned results are proved for all inputs; the signed loops' intermediate subtraction may overflow (undefined in C): C18_ub_violated."
  },
  {
   "property": "C19",
   "status": "proved",
   "theorems": [
    "Ufunclab.First.C19_argfirst",
    "Ufunclab.First.C19_argfirst_linear",
    "Ufunclab.First.C19_argfirst_none",
    "Ufunclab.First.C19_nan",
    "Ufunclab.First.C19_C20_object",
    "Ufunclab.First.C19_object_error"
   ],
   "note": ""
  },
  {
   "property": "C20",
   "status": "proved",
   "theorems": [
    "Ufunclab.First.C20_first",
    "Ufunclab.First.C20_unknown_op",
    "Ufunclab.First.C19_C20_object"
   ],
   "note": ""
  },
  {
   "property": "C21",
   "status": "proved",
   "theorems": [
    "Ufunclab.AllSame.C21_all_same",
    "Ufunclab.AllSame.C21_all_same_eq",
    "Ufunclab.AllSame.C21_nan",
    "Ufunclab.AllSame.C21_object",
    "Ufunclab.AllSame.C21_object_raises"
   ],
   "note": ""
  },
  {
   "property": "C22",
   "status": "partial",
   "theorems": [
    "Ufunclab.Ordered.C22_ordered_general",
    "Ufunclab.Ordered.C22_ordered_partial",
    "Ufunclab.Ordered.C22_no_nan",
    "Ufunclab.Ordered.C22_all_pairs",
    "Ufunclab.Ordered.C22_short",
    "Ufunclab.Ordered.C22_nan_violated",
    "Ufunclab.Ordered.C22_unknown_op"
   ],
   "note": "Pairs with NaN pass the negated comparison: C22_nan_violated. C22_ordered_partial proves the property for total comparisons."
  },
  {
   "property": "C23",
   "status": "partial",
   "theorems": [
    "Ufunclab.Ordered.C23_object_exact",
    "Ufunclab.Ordered.C23_object_raises",
    "Ufunclab.Ordered.C23_object_violated",
    "Ufunclab.Ordered.C23_object_partial"
   ],
   "note": "The object loop compares every element with x[0]: C23_object_violated; C23_object_partial lists the cases in which it agrees."
  },
  {
   "property": "C24",
   "status": "proved",
   "theorems": [
    "Ufunclab.Percentile.C24_strict_weak_mean",
    "Ufunclab.Percentile.C24_rank",
    "Ufunclab.Percentile.C24_bounds",
    "Ufunclab.Percentile.C24_mono",
    "Ufunclab.Percentile.C24_perm",
    "Ufunclab.Percentile.C24_nan",
    "Ufunclab.Percentile.C24_unknown_kind",
    "Ufunclab.Percentile.C24_rounding",
    "Ufunclab.Percentile.C24_rounded_bounds"
   ],
   "note": ""
  },
  {
   "property": "C25",
   "status": "proved",
   "theorems": [
    "Ufunclab.Signal.C25_relay",
    "Ufunclab.Signal.C25_relay_frame",
    "Ufunclab.Signal.C25_relay_list",
    "Ufunclab.Signal.C25_relay_values",
    "Ufunclab.Signal.C25_relay_keep"
   ],
   "note": ""
  },
  {
   "property": "C26",
   "status": "proved",
   "theorems": [
    "Ufunclab.Signal.C26_relay_chunks",
    "Ufunclab.Signal.C26_backlash_chunks",
    "Ufunclab.Signal.C26_backlash_sum_chunks",
    "Ufunclab.Sosfilter.C26_sosfilter_chunks"
   ],
   "note": ""
  },
  {
   "property": "C27",
   "status": "proved",
   "theorems": [
    "Ufunclab.Signal.C27_band",
    "Ufunclab.Signal.C27_exact"
   ],
   "note": ""
  },
  {
   "property": "C28",
   "status": "proved",
   "theorems": [
    "Ufunclab.Signal.C28_monotone",
    "Ufunclab.Signal.C28_constant",
    "Ufunclab.Signal.C28_nondecreasing"
   ],
   "note": ""
  },
  {
   "property": "C29",
   "status": "proved",
   "theorems": [
    "Ufunclab.Signal.C29_final",
    "Ufunclab.Signal.C29_out"
   ],
   "note": ""
  },
  {
   "property": "C30",
   "status": "proved",
   "theorems": [
    "Ufunclab.Sosfilter.C30_C32_ic_core",
    "Ufunclab.Sosfilter.C30_cascade",
    "Ufunclab.Sosfilter.C30_difference_equation_history",
    "Ufunclab.Sosfilter.C30_difference_equation"
   ],
   "note": ""
  },
  {
   "property": "C31",
   "status": "proved",
   "theorems": [
    "Ufunclab.Sosfilter.C31_causal",
    "Ufunclab.Sosfilter.C31_linear",
    "Ufunclab.Sosfilter.C31_time_invariant"
   ],
   "note": ""
  },
  {
   "property": "C32",
   "status": "partial",
   "theorems": [
    "Ufunclab.Sosfilter.C30_C32_ic_core",
    "Ufunclab.Sosfilter.C32_contig_eq_strided",
    "Ufunclab.Sosfilter.C32_zero_state",
    "Ufunclab.Sosfilter.C32_no_sections_violated"
   ],
   "note": "With zero sections the output is never written: C32_no_sections_violated. Everything else is proved."
  },
  {
   "property": "C33",
   "status": "partial",
   "theorems": [
    "Ufunclab.Fillnan.C33_values",
    "Ufunclab.Fillnan.C33_all_nan",
    "Ufunclab.Fillnan.C33_interpolation",
    "Ufunclab.Fillnan.C33_no_nan_left_partial",
    "Ufunclab.Fillnan.C33_inf_violated",
    "Ufunclab.Fillnan.C33_idempotent_partial"
   ],
   "note": "Infinite neighbours can interpolate to NaN: C33_inf_violated. The _partial theorems prove the property for finite known values."
  },
  {
   "property": "C34",
   "status": "partial",
   "theorems": [
    "Ufunclab.Unwrap.C34_unwrap",
    "Ufunclab.Unwrap.C34_defined",
    "Ufunclab.Unwrap.C34_recovers",
    "Ufunclab.Unwrap.C34_idempotent_partial",
    "Ufunclab.Unwrap.C34_nonfinite",
    "Ufunclab.Unwrap.C34_first_sample_violated",
    "Ufunclab.Unwrap.C34_idempotent_violated",
    "Ufunclab.Unwrap.C34_negative_period_violated"
   ],
   "note": "False for negative periods, for a non-finite first sample and for idempotence at half-period ties (the _violated theorems). The rest is proved."
  },
  {
   "property": "C35",
   "status": "proved",
   "theorems": [
    "Ufunclab.Softmax.C35_formula",
    "Ufunclab.Softmax.C35_probability",
    "Ufunclab.Softmax.C35_probability_ninf",
    "Ufunclab.Softmax.C35_order",
    "Ufunclab.Softmax.C35_shift",
    "Ufunclab.Softmax.C35_exponents",
    "Ufunclab.Softmax.C35_one_inf",
    "Ufunclab.Softmax.C35_nan"
   ],
   "note": ""
  },
  {
   "property": "C36",
   "status": "proved",
   "theorems": [
    "Ufunclab.Meanvar.C36_meanvar",
    "Ufunclab.Meanvar.C36_variance",
    "Ufunclab.Meanvar.C36_ddof_eq_n",
    "Ufunclab.Meanvar.C36_rounding_error",
    "Ufunclab.Meanvar.C36_constant"
   ],
   "note": ""
  },
  {
   "property": "C37",
   "status": "partial",
   "theorems": [
    "Ufunclab.Kbnsum.C37_finite_sum",
    "Ufunclab.Kbnsum.C37_contiguous_nan",
    "Ufunclab.Kbnsum.C37_contiguous_inf",
    "Ufunclab.Kbnsum.C37_strided_violated",
    "Ufunclab.Kbnsum.C37_compensated",
    "Ufunclab.Kbnsum.C37_pair"
   ],
   "note": "The infinity branch reads x unstrided: C37_strided_violated. Proved for unit stride, exactly and with a rounding error bound."
  },
  {
   "property": "C38",
   "status": "proved",
   "theorems": [
    "Ufunclab.Mad.C38_mad",
    "Ufunclab.Mad.C38_mad_unbiased",
    "Ufunclab.Mad.C38_mad_unbiased_one",
    "Ufunclab.Mad.C38_gini",
    "Ufunclab.Mad.C38_rmad",
    "Ufunclab.Mad.C38_zero_sum",
    "Ufunclab.Mad.C38_permutation"
   ],
   "note": ""
  },
  {
   "property": "C39",
   "status": "proved",
   "theorems": [
    "Ufunclab.Mad.C39_range",
    "Ufunclab.Mad.C39_range_unbiased",
    "Ufunclab.Mad.C39_zero_iff",
    "Ufunclab.Mad.C39_scale"
   ],
   "note": ""
  },
  {
   "property": "C40",
   "status": "proved",
   "theorems": [
    "Ufunclab.Wjaccard.C40_formula",
    "Ufunclab.Wjaccard.C40_range",
    "Ufunclab.Wjaccard.C40_symmetric",
    "Ufunclab.Wjaccard.C40_one_iff",
    "Ufunclab.Wjaccard.C40_nan"
   ],
   "note": ""
  },
  {
   "property": "C41",
   "status": "partial",
   "theorems": [
    "Ufunclab.Vnorm.C41_pnorm",
    "Ufunclab.Vnorm.C41_maxnorm",
    "Ufunclab.Vnorm.C41_order_nonpos",
    "Ufunclab.Vnorm.C41_permutation",
    "Ufunclab.Vnorm.C41_homogeneous",
    "Ufunclab.Vnorm.C41_zero_iff",
    "Ufunclab.Vnorm.C41_triangle",
    "Ufunclab.Vnorm.C41_nonfinite_violated",
    "Ufunclab.Vnorm.C41_order_nan_violated"
   ],
   "note": "NaN and infinities are not handled as documented (the _violated theorems); proved for finite data."
  },
  {
   "property": "C42",
   "status": "proved",
   "theorems": [
    "Ufunclab.Vnorm.C42_rms_store",
    "Ufunclab.Vnorm.C42_rms",
    "Ufunclab.Vnorm.C42_crms",
    "Ufunclab.Vnorm.C42_crms_value",
    "Ufunclab.Vnorm.C42_vdot_fold",
    "Ufunclab.Vnorm.C42_vdot_sum",
    "Ufunclab.Vnorm.C42_cauchy_schwarz",
    "Ufunclab.Vnorm.C42_bilinear"
   ],
   "note": ""
  },
  {
   "property": "C43",
   "status": "proved",
   "theorems": [
    "Ufunclab.Cross.C43_cross3_formula",
    "Ufunclab.Cross.C43_cross3_geometry",
    "Ufunclab.Cross.C43_cross3_anticomm",
    "Ufunclab.Cross.C43_object_agrees",
    "Ufunclab.Cross.C43_object_error",
    "Ufunclab.Cross.C43_object_error_iff",
    "Ufunclab.Cross.C43_cross2"
   ],
   "note": ""
  },
  {
   "property": "C44",
   "status": "proved",
   "theorems": [
    "Ufunclab.TriArea.C44_area",
    "Ufunclab.TriArea.C44_plane",
    "Ufunclab.TriArea.C44_permutation",
    "Ufunclab.TriArea.C44_translate_scale",
    "Ufunclab.TriArea.C44_zero_iff",
    "Ufunclab.TriArea.C44_sides_sorted"
   ],
   "note": ""
  },
  {
   "property": "C45",
   "status": "proved",
   "theorems": [
    "Ufunclab.TriArea.C45_get_index",
    "Ufunclab.TriArea.C45_indexed",
    "Ufunclab.TriArea.C45_in_bounds"
   ],
   "note": ""
  },
  {
   "property": "C46",
   "status": "proved",
   "theorems": [
    "Ufunclab.Corr.C46_value",
    "Ufunclab.Corr.C46_value_int",
    "Ufunclab.Corr.C46_nonfinite",
    "Ufunclab.Corr.C46_length",
    "Ufunclab.Corr.C46_range",
    "Ufunclab.Corr.C46_symmetric",
    "Ufunclab.Corr.C46_affine_invariant",
    "Ufunclab.Corr.C46_extreme_iff"
   ],
   "note": ""
  },
  {
   "property": "C47",
   "status": "partial",
   "theorems": [
    "Ufunclab.LinearInterp.C47_knot",
    "Ufunclab.LinearInterp.C47_between",
    "Ufunclab.LinearInterp.C47_range",
    "Ufunclab.LinearInterp.C47_outside",
    "Ufunclab.LinearInterp.C47_in_bounds_partial",
    "Ufunclab.LinearInterp.C47_in_bounds_violated",
    "Ufunclab.LinearInterp.C47_nan",
    "Ufunclab.LinearInterp.C47_fast_agrees",
    "Ufunclab.LinearInterp.C47_fast_empty_violated",
    "Ufunclab.LinearInterp.C47_fast_single_violated"
   ],
   "note": "Out-of-bounds reads exist (NaN query, empty and single-point tables): _violated; C47_in_bounds_partial proves the rest."
  },
  {
   "property": "C48",
   "status": "partial",
   "theorems": [
    "Ufunclab.Deadzone.C48_value",
    "Ufunclab.Deadzone.C48_sign",
    "Ufunclab.Deadzone.C48_monotone_lipschitz",
    "Ufunclab.Deadzone.C48_rounded",
    "Ufunclab.Deadzone.C48_nan_violated"
   ],
   "note": "deadzone(nan) is 0: C48_nan_violated. Proved for all ordered values."
  },
  {
   "property": "C49",
   "status": "proved",
   "theorems": [
    "Ufunclab.Deadzone.C49_value",
    "Ufunclab.Deadzone.C49_range",
    "Ufunclab.Deadzone.C49_invalid",
    "Ufunclab.Deadzone.C49_nan"
   ],
   "note": ""
  },
  {
   "property": "C50",
   "status": "partial",
   "theorems": [
    "Ufunclab.Step.C50_step",
    "Ufunclab.Step.C50_step_nan_violated",
    "Ufunclab.Step.C50_linearstep",
    "Ufunclab.Step.C50_smoothstep3",
    "Ufunclab.Step.C50_smoothstep5",
    "Ufunclab.Step.C50_smoothstep3_smooth",
    "Ufunclab.Step.C50_smoothstep5_smooth",
    "Ufunclab.Step.C50_invalid",
    "Ufunclab.Step.C50_jump",
    "Ufunclab.Step.C50_nan_partial",
    "Ufunclab.Step.C50_nan_violated"
   ],
   "note": "NaN arguments do not propagate in step/linearstep/smoothstep: _violated; proved for finite arguments."
  },
  {
   "property": "C51",
   "status": "proved",
   "theorems": [
    "Ufunclab.Step.C51_right_inverse",
    "Ufunclab.Step.C51_left_inverse",
    "Ufunclab.Step.C51_outside"
   ],
   "note": ""
  },
  {
   "property": "C52",
   "status": "proved",
   "theorems": [
    "Ufunclab.Scalar.C52_left_inverse",
    "Ufunclab.Scalar.C52_right_inverse",
    "Ufunclab.Scalar.C52_strictMono",
    "Ufunclab.Scalar.C52_sign",
    "Ufunclab.Scalar.C52_identity",
    "Ufunclab.Scalar.C52_inverse_domain"
   ],
   "note": ""
  },
  {
   "property": "C53",
   "status": "proved",
   "theorems": [
    "Ufunclab.Scalar.C53_logistic",
    "Ufunclab.Scalar.C53_log_logistic",
    "Ufunclab.Scalar.C53_deriv",
    "Ufunclab.Scalar.C53_swish"
   ],
   "note": ""
  },
  {
   "property": "C54",
   "status": "proved",
   "theorems": [
    "Ufunclab.Scalar.C54_hyperbolic",
    "Ufunclab.Scalar.C54_hyperbolic_shape",
    "Ufunclab.Scalar.C54_exponential",
    "Ufunclab.Scalar.C54_exponential_shape"
   ],
   "note": ""
  },
  {
   "property": "C55",
   "status": "proved",
   "theorems": [
    "Ufunclab.Scalar.C55_exponential",
    "Ufunclab.Scalar.C55_linear",
    "Ufunclab.Scalar.C55_spherical",
    "Ufunclab.Scalar.C55_parabolic",
    "Ufunclab.Scalar.C55_formula"
   ],
   "note": ""
  },
  {
   "property": "C56",
   "status": "proved",
   "theorems": [
    "Ufunclab.Issnan.C56_half",
    "Ufunclab.Issnan.C56_float",
    "Ufunclab.Issnan.C56_double",
    "Ufunclab.Issnan.C56_exclusive",
    "Ufunclab.Issnan.C56_sign",
    "Ufunclab.Issnan.C56_loop"
   ],
   "note": ""
  },
  {
   "property": "C57",
   "status": "proved",
   "theorems": [
    "Ufunclab.Nextn.C57_next_greater",
    "Ufunclab.Nextn.C57_next_less",
    "Ufunclab.Nextn.C57_special",
    "Ufunclab.Nextn.C57_round_trip",
    "Ufunclab.Nextn.C57_nextn_greater",
    "Ufunclab.Nextn.C57_nextn_less",
    "Ufunclab.Nextn.C57_none_skipped",
    "Ufunclab.Nextn.C57_continuation"
   ],
   "note": ""
  },
  {
   "property": "C58",
   "status": "partial",
   "theorems": [
    "Ufunclab.CxxGen.C58_calls",
    "Ufunclab.CxxGen.C58_loop_variable_violated",
    "Ufunclab.CxxGen.C58_int_counter_violated",
    "Ufunclab.CxxGen.C58_from_signature"
   ],
   "note": "The loop driver is proved for all names but j. Violated: C58_loop_variable_violated (a core dimension named j is hidden by the loop counter), C58_int_counter_violated (int counter for npy_intp bounds)."
  },
  {
   "property": "C59",
   "status": "proved",
   "theorems": [
    "Ufunclab.CxxGen.C59_check",
    "Ufunclab.CxxGen.C59_call"
   ],
   "note": ""
  },
  {
   "property": "C60",
   "status": "proved",
   "theorems": [
    "Ufunclab.CxxGen.C60_parse",
    "Ufunclab.CxxGen.C60_malformed",
    "Ufunclab.CxxGen.C60_rank",
    "Ufunclab.CxxGen.C60_nin_nout",
    "Ufunclab.CxxGen.C60_docstring"
   ],
   "note": ""
  },
  {
   "property": "C61",
   "status": "partial",
   "theorems": [
    "Ufunclab.CxxGen.C61_classify",
    "Ufunclab.CxxGen.C61_same_param",
    "Ufunclab.CxxGen.C61_loops",
    "Ufunclab.CxxGen.C61_arrow",
    "Ufunclab.CxxGen.C61_duplicates_violated"
   ],
   "note": "Duplicate type names break the reconstruction: C61_duplicates_violated. Proved for lists without duplicates."
  },
  {
   "property": "C62",
   "status": "partial",
   "theorems": [
    "Ufunclab.Gendot.C62_elementwise",
    "Ufunclab.Gendot.C62_gufunc",
    "Ufunclab.Gendot.C62_empty",
    "Ufunclab.Gendot.C62_buffer_overflow_violated",
    "Ufunclab.Gendot.C62_uninitialised_violated",
    "Ufunclab.Gendot.C62_selection",
    "Ufunclab.Gendot.C62_index_range"
   ],
   "note": "The temporary buffer is too small when the sum's item is smaller than the product's, and one path reads uninitialised memory: _violated. The value theorem is proved for all lengths."
  },
  {
   "property": "C63",
   "status": "proved",
   "theorems": [
    "Ufunclab.Wrapped.C63_normalize",
    "Ufunclab.Wrapped.C63_insert",
    "Ufunclab.Wrapped.C63_insert_shape",
    "Ufunclab.Wrapped.C63_out",
    "Ufunclab.Wrapped.C63_negative",
    "Ufunclab.Wrapped.C63_bincount",
    "Ufunclab.Wrapped.C63_bincountw_same",
    "Ufunclab.Wrapped.C63_bincountw_comm",
    "Ufunclab.Wrapped.C63_bincountw",
    "Ufunclab.Wrapped.C63_bincount_out"
   ],
   "note": ""
  },
  {
   "property": "C64",
   "status": "partial",
   "theorems": [
    "Ufunclab.ConvTemplate.C64_expand",
    "Ufunclab.ConvTemplate.C64_values",
    "Ufunclab.ConvTemplate.C64_header",
    "Ufunclab.ConvTemplate.C64_mismatch",
    "Ufunclab.ConvTemplate.C64_outer_wins",
    "Ufunclab.ConvTemplate.C64_exclude_violated",
    "Ufunclab.ConvTemplate.C64_zero_violated",
    "Ufunclab.ConvTemplate.C64_missing_end_violated",
    "Ufunclab.ConvTemplate.C64_final_newline_violated"
   ],
   "note": "Four inputs break the tool (the _violated theorems); the expansion theorems are proved for all other templates."
  },
  {
   "property": "C65",
   "status": "partial",
   "theorems": [
    "Ufunclab.Means.C65_gmeanw",
    "Ufunclab.Means.C65_gmean",
    "Ufunclab.Means.C65_hmeanw",
    "Ufunclab.Means.C65_hmean",
    "Ufunclab.Means.C65_pmeanw",
    "Ufunclab.Means.C65_pmean",
    "Ufunclab.Means.C65_order",
    "Ufunclab.Means.C65_pmean_inf",
    "Ufunclab.Means.C65_unit_weights",
    "Ufunclab.Means.C65_value",
    "Ufunclab.Means.C65_bounds",
    "Ufunclab.Means.C65_homogeneous",
    "Ufunclab.Means.C65_monotone",
    "Ufunclab.Means.C65_perm",
    "Ufunclab.Means.C65_small_p",
    "Ufunclab.Means.C65_small_p_error",
    "Ufunclab.Means.C65_empty",
    "Ufunclab.Means.C65_gmean_special",
    "Ufunclab.Means.C65_pmean_nan",
    "Ufunclab.Means.C65_pmean_special",
    "Ufunclab.Means.C65_pmean_infinite_elements",
    "Ufunclab.Means.C65_gmean_neginf_violated",
    "Ufunclab.Means.C65_tiny_zero_violated",
    "Ufunclab.Means.C65_hmean_violated",
    "Ufunclab.Means.C65_gmeanw_zero_weights_violated"
   ],
   "note": "Four special cases are false of the code (the _violated theorems); the mean formulas, bounds, homogeneity and weights are proved."
  },
  {
   "property": "C66",
   "status": "proved",
   "theorems": [
    "Ufunclab.Logfact.C66_stirling",
    "Ufunclab.Logfact.C66_logfactorial",
    "Ufunclab.Logfact.C66_negative",
    "Ufunclab.Logfact.C66_increasing",
    "Ufunclab.Logfact.C66_table",
    "Ufunclab.Logfact.C66_zero_one",
    "Ufunclab.Logbeta.C66_logbeta_paths",
    "Ufunclab.Logbeta.C66_logbeta",
    "Ufunclab.Logbeta.C66_logbeta_perm",
    "Ufunclab.Logbeta.C66_logbeta_nan",
    "Ufunclab.Logbeta.C66_logbeta_pole",
    "Ufunclab.Logbeta.C66_logbeta_sum_pole",
    "Ufunclab.Logbeta.C66_logbeta_empty",
    "Ufunclab.Logbeta.C66_logbeta_one",
    "Ufunclab.Logbeta.C66_logbeta_integral",
    "Ufunclab.Logbeta.C66_logbeta_nonpositive"
   ],
   "note": ""
  },
  {
   "property": "C67",
   "status": "partial",
   "theorems": [
    "Ufunclab.Elementary.C67_abs_squared",
    "Ufunclab.Elementary.C67_abs_squared_real",
    "Ufunclab.Elementary.C67_abs_squared_special",
    "Ufunclab.Elementary.C67_abs_squared_inf_nan_violated",
    "Ufunclab.Elementary.C67_abssq_real",
    "Ufunclab.Elementary.C67_abssq_complex",
    "Ufunclab.Elementary.C67_hypot3",
    "Ufunclab.Elementary.C67_hypot3_special",
    "Ufunclab.Elementary.C67_hypot3_symm",
    "Ufunclab.Elementary.C67_hypot3_norm",
    "Ufunclab.Elementary.C67_nan_to_num",
    "Ufunclab.Elementary.C67_nan_to_num_idem",
    "Ufunclab.Elementary.C67_pow1pm1",
    "Ufunclab.Elementary.C67_pow1pm1_boundary",
    "Ufunclab.Elementary.C67_pow1pm1_inf_exponent",
    "Ufunclab.Elementary.C67_pow1pm1_inverse",
    "Ufunclab.Elementary.C67_pow1pm1_monotone",
    "Ufunclab.Elementary.C67_pow1pm1_inf_violated"
   ],
   "note": "Two special values are NaN in the code (the _violated theorems); everything else is proved."
  },
  {
   "property": "C68",
   "status": "proved",
   "theorems": [
    "Ufunclab.Normal.C68_cdf",
    "Ufunclab.Normal.C68_sf",
    "Ufunclab.Normal.C68_complement",
    "Ufunclab.Normal.C68_cdf_monotone",
    "Ufunclab.Normal.C68_cdf_zero",
    "Ufunclab.Normal.C68_logcdf",
    "Ufunclab.Normal.C68_logsf",
    "Ufunclab.Normal.C68_exp_log",
    "Ufunclab.Normal.C68_special"
   ],
   "note": ""
  },
  {
   "property": "C69",
   "status": "partial",
   "theorems": [
    "Ufunclab.Expint.C69_expint1_series",
    "Ufunclab.Expint.C69_expint1_fraction",
    "Ufunclab.Expint.C69_expint1",
    "Ufunclab.Expint.C69_long_double_violated",
    "Ufunclab.Expint.C69_log_exact",
    "Ufunclab.Expint.C69_logexpint1",
    "Ufunclab.Expint.C69_special"
   ],
   "note": "The long double instantiation has the truncation error of the double one: C69_long_double_violated. Proved for all real x in exact arithmetic and for the special values."
  },
  {
   "property": "C70",
   "status": "partial",
   "theorems": [
    "Ufunclab.LazyImport.C70_names_unique",
    "Ufunclab.LazyImport.C70_all_resolve",
    "Ufunclab.LazyImport.C70_unknown",
    "Ufunclab.LazyImport.C70_no_import_error",
    "Ufunclab.LazyImport.C70_dir_violated",
    "Ufunclab.Uwrap.C70_to_lines",
    "Ufunclab.Uwrap.C70_to_lines_returns",
    "Ufunclab.Uwrap.C70_to_lines_returns_iff",
    "Ufunclab.Uwrap.C70_to_lines_diverges_violated",
    "Ufunclab.Uwrap.C70_input_sig_strings",
    "Ufunclab.Uwrap.C70_check_params",
    "Ufunclab.Uwrap.C70_signatures",
    "Ufunclab.Uwrap.C70_axis_tuple"
   ],
   "note": "dir() misses three names and to_lines diverges on an overlong part (the _violated theorems); the rest is proved."
  },
  {
   "property": "C71",
   "status": "partial",
   "theorems": [
    "Ufunclab.Log1p.C71_doubledouble",
    "Ufunclab.Log1p.C71_theorem4",
    "Ufunclab.Log1p.C71_doubledouble_single",
    "Ufunclab.Log1p.C71_two_sum",
    "Ufunclab.Log1p.C71_two_sum_quick",
    "Ufunclab.Log1p.C71_square",
    "Ufunclab.Log1p.C71_doubledouble_exact",
    "Ufunclab.Log1p.C71_doubledouble_single_exact",
    "Ufunclab.Log1p.C71_theorem4_exact",
    "Ufunclab.Log1p.C71_minus_one",
    "Ufunclab.Log1p.C71_doubledouble_infinite",
    "Ufunclab.Log1p.C71_doubledouble_single_infinite",
    "Ufunclab.Log1p.C71_theorem4_infinite_real",
    "Ufunclab.Log1p.C71_theorem4_infinite_imag_violated",
    "Ufunclab.Log1p.C71_nan",
    "Ufunclab.Log1p.C71_loop"
   ],
   "note": "log1p_theorem4(tiny x + inf j) is NaN (C71_theorem4_infinite_imag_violated); the error of log1p_theorem4 is bounded in modulus for all finite z, leaving out tiny y with 1+x rounding to 1, where the model's textbook quotient underflows."
  },
  {
   "property": "C72",
   "status": "proved",
   "theorems": [
    "Ufunclab.Debye1.C72_accuracy",
    "Ufunclab.Debye1.C72_exact",
    "Ufunclab.Debye1.C72_single",
    "Ufunclab.Debye1.C72_zero",
    "Ufunclab.Debye1.C72_limits",
    "Ufunclab.Debye1.C72_limit_value",
    "Ufunclab.Debye1.C72_loop"
   ],
   "note": ""
  },
  {
   "property": "C73",
   "status": "partial",
   "theorems": [
    "Ufunclab.Loggamma1p.C73_exact",
    "Ufunclab.Loggamma1p.C73_accuracy",
    "Ufunclab.Loggamma1p.C73_small",
    "Ufunclab.Loggamma1p.C73_relative",
    "Ufunclab.Loggamma1p.C73_zeros",
    "Ufunclab.Loggamma1p.C73_domain",
    "Ufunclab.Loggamma1p.C73_near_one_violated",
    "Ufunclab.Loggamma1p.C73_single",
    "Ufunclab.Loggamma1p.C73_loop"
   ],
   "note": "Relative accuracy near x = 1 fails (C73_near_one_violated); the absolute bound holds there, and everything else is proved."
  },
  {
   "property": "C74",
   "status": "partial",
   "theorems": [
    "Ufunclab.Erfcx.C74_positive_float",
    "Ufunclab.Erfcx.C74_positive_double",
    "Ufunclab.Erfcx.C74_positive_longDouble",
    "Ufunclab.Erfcx.C74_negative_float",
    "Ufunclab.Erfcx.C74_negative_double",
    "Ufunclab.Erfcx.C74_negative_longDouble",
    "Ufunclab.Erfcx.C74_overflow_longDouble",
    "Ufunclab.Erfcx.C74_overflow_double_violated",
    "Ufunclab.Erfcx.C74_overflow_float_violated",
    "Ufunclab.Erfcx.C74_overflow_double_partial",
    "Ufunclab.Erfcx.C74_overflow_float_partial",
    "Ufunclab.Erfcx.C74_no_overflow_float",
    "Ufunclab.Erfcx.C74_no_overflow_double",
    "Ufunclab.Erfcx.C74_no_overflow_longDouble",
    "Ufunclab.Erfcx.C74_special"
   ],
   "note": "Overflow threshold is one float too early in float and double (violated theorems, with the single exception named in the _partial theorems); everything else is proved."
  },
  {
   "property": "C75",
   "status": "partial",
   "theorems": [
    "Ufunclab.UfuncGen.C75_dispatch",
    "Ufunclab.UfuncGen.C75_rejects",
    "Ufunclab.UfuncGen.C75_long_loop_violated",
    "Ufunclab.UfuncGen.C75_mixed_arity_violated",
    "Ufunclab.UfuncGen.C75_docstring_partial",
    "Ufunclab.UfuncGen.C75_docstring_violated",
    "Ufunclab.UfuncGen.C75_docstring_name_violated",
    "Ufunclab.UfuncGen.C75_header",
    "Ufunclab.UfuncGen.C75_header_dir",
    "Ufunclab.UfuncGen.C75_header_hidden",
    "Ufunclab.UfuncGen.C75_header_rejects",
    "Ufunclab.UfuncGen.C75_header_collision_violated",
    "Ufunclab.UfuncGen.C75_shipped"
   ],
   "note": "Dispatch, refusal and shipped configurations proved; the five exceptions in the statement are violated theorems."
  },
  {
   "property": "C76",
   "status": "partial",
   "theorems": [
    "Ufunclab.TriArea.C76_exact_arithmetic",
    "Ufunclab.TriArea.C76_side",
    "Ufunclab.TriArea.C76_kahan",
    "Ufunclab.TriArea.C76_accuracy_partial",
    "Ufunclab.TriArea.C76_collinear_violated",
    "Ufunclab.TriArea.C76_underflow_violated"
   ],
   "note": "Accuracy holds under the condition on the shape; without it collinear points can give NaN and tiny triangles 0 (violated theorems)."
  },
  {
   "property": "C77",
   "status": "partial",
   "theorems": [
    "Ufunclab.Step.C77_exact_arithmetic",
    "Ufunclab.Step.C77_step_ends",
    "Ufunclab.Step.C77_step_accuracy",
    "Ufunclab.Step.C77_linearstep01",
    "Ufunclab.Step.C77_smoothstep3_01",
    "Ufunclab.Step.C77_linearstep_range_violated",
    "Ufunclab.Step.C77_smoothstep3_range_violated",
    "Ufunclab.Step.C77_smoothstep5_range_violated",
    "Ufunclab.Deadzone.C77_trapezoid_exact",
    "Ufunclab.Deadzone.C77_trapezoid",
    "Ufunclab.LinearInterp.C77_interp_knot",
    "Ufunclab.LinearInterp.C77_interp_accuracy",
    "Ufunclab.LinearInterp.C77_interp_exact",
    "Ufunclab.LinearInterp.C77_interp_paths_violated",
    "Ufunclab.LinearInterp.C77_interp_range_violated"
   ],
   "note": "Accuracy, exact end values, range from 0 to 1 (linearstep, smoothstep3), range of trapezoid_pulse, knots: proved. Range for general end values, monotonicity and agreement of the two paths of linear_interp1d are false (violated theorems). Overflow is C88."
  },
  {
   "property": "C78",
   "status": "partial",
   "theorems": [
    "Ufunclab.GufuncGen.C78_dispatch",
    "Ufunclab.GufuncGen.C78_core_dims",
    "Ufunclab.GufuncGen.C78_prototype_partial",
    "Ufunclab.GufuncGen.C78_prototype_violated",
    "Ufunclab.GufuncGen.C78_docstring_partial",
    "Ufunclab.GufuncGen.C78_docstring_violated",
    "Ufunclab.GufuncGen.C78_rejects",
    "Ufunclab.GufuncGen.C78_signature_length_violated",
    "Ufunclab.GufuncGen.C78_object_violated",
    "Ufunclab.GufuncGen.C78_longdouble_violated",
    "Ufunclab.GufuncGen.C78_shared_core_violated",
    "Ufunclab.GufuncGen.C78_loop_variable_violated",
    "Ufunclab.GufuncGen.C78_name_violated",
    "Ufunclab.GufuncGen.C78_shipped",
    "Ufunclab.GufuncGen.C78_shipped_prototype",
    "Ufunclab.GufuncGen.C78_long_double"
   ],
   "note": "Dispatch, core dimension checks, refusals and the shipped configurations are proved; prototype and docstrings with the exceptions named in the statement, which are violated theorems."
  },
  {
   "property": "C79",
   "status": "partial",
   "theorems": [
    "Ufunclab.Mad.C79_exact_arithmetic",
    "Ufunclab.Mad.C79_mad_accuracy_partial",
    "Ufunclab.Mad.C79_gini_accuracy_partial",
    "Ufunclab.Mad.C79_integers_partial",
    "Ufunclab.Mad.C79_nonneg_violated"
   ],
   "note": "Accuracy for floats away from underflow, single rounding for integers; nonnegativity is false (C79_nonneg_violated)."
  },
  {
   "property": "C80",
   "status": "proved",
   "theorems": [
    "Ufunclab.Softmax.C80_exact_arithmetic",
    "Ufunclab.Softmax.C80_range",
    "Ufunclab.Softmax.C80_sum",
    "Ufunclab.Softmax.C80_accuracy",
    "Ufunclab.Softmax.C80_special"
   ],
   "note": ""
  },
  {
   "property": "C81",
   "status": "partial",
   "theorems": [
    "Ufunclab.Corr.C81_exact_arithmetic",
    "Ufunclab.Corr.C81_two",
    "Ufunclab.Corr.C81_nan",
    "Ufunclab.Corr.C81_range_partial",
    "Ufunclab.Corr.C81_accuracy_partial",
    "Ufunclab.Corr.C81_int",
    "Ufunclab.Corr.C81_range_violated",
    "Ufunclab.Corr.C81_underflow_violated"
   ],
   "note": "The bounds need a spread of at least 2^(emin+p+1) and, for the accuracy, magnitudes of at least 2^(emin+2p); the result can exceed 1 by rounding and reach 2 in the subnormal range (violated theorems). Overflow is C90."
  },
  {
   "property": "C82",
   "status": "partial",
   "theorems": [
    "Ufunclab.Vnorm.C82_vdot_accuracy",
    "Ufunclab.Vnorm.C82_vdot_int",
    "Ufunclab.Vnorm.C82_vdot_symm",
    "Ufunclab.Vnorm.C82_rms_accuracy",
    "Ufunclab.Vnorm.C82_crms_accuracy",
    "Ufunclab.Vnorm.C82_rms_nonneg",
    "Ufunclab.Vnorm.C82_rms_range_violated",
    "Ufunclab.Vnorm.C82_rms_underflow_violated",
    "Ufunclab.Vnorm.C82_cross_accuracy",
    "Ufunclab.Vnorm.C82_cross_sign",
    "Ufunclab.Vnorm.C82_cross_self",
    "Ufunclab.Vnorm.C82_cross_int",
    "Ufunclab.Vnorm.C82_cross_cancel_violated"
   ],
   "note": "The upper bound rms <= max|x|, the nonzero rms of nonzero data and a nonzero cross2 of non-parallel vectors fail (violated theorems); the bounds on rms need squares inside the normal range. No overflow and no fused multiply-add."
  },
  {
   "property": "C83",
   "status": "partial",
   "theorems": [
    "Ufunclab.Vnorm.C83_exact_arithmetic",
    "Ufunclab.Vnorm.C83_maxnorm",
    "Ufunclab.Vnorm.C83_one_norm",
    "Ufunclab.Vnorm.C83_ge_max",
    "Ufunclab.Vnorm.C83_single",
    "Ufunclab.Vnorm.C83_vnorm_accuracy",
    "Ufunclab.Wjaccard.C83_wjaccard_accuracy",
    "Ufunclab.Vnorm.C83_vnorm_accuracy_small_partial",
    "Ufunclab.Vnorm.C83_vnorm_small_violated"
   ],
   "note": "Overflow is C86; the absolute values of complex elements (hypot) are taken as given floats. The error bound needs quotients that do not underflow for orders below 1 (violated theorem) and orders of at least 120nu+60eps."
  },
  {
   "property": "C84",
   "status": "partial",
   "theorems": [
    "Ufunclab.Means.C84_exact_arithmetic",
    "Ufunclab.Means.C84_hmean_accuracy",
    "Ufunclab.Means.C84_hmean_range_violated",
    "Ufunclab.Means.C84_gmean_equal",
    "Ufunclab.Means.C84_gmean_accuracy",
    "Ufunclab.Means.C84_pmean_exact_arithmetic",
    "Ufunclab.Means.C84_pmean_equal_partial",
    "Ufunclab.Means.C84_pmean_equal_violated",
    "Ufunclab.Means.C84_pmean_range_partial",
    "Ufunclab.Means.C84_pmean_accuracy_partial",
    "Ufunclab.Means.C84_pmean_range_violated",
    "Ufunclab.Means.C84_pmean_accuracy_small_partial",
    "Ufunclab.Means.C84_pmean_accuracy_negative_partial",
    "Ufunclab.Means.C84_pmean_underflow_violated",
    "Ufunclab.Means.C84_pmean_tiny_formula",
    "Ufunclab.Means.C84_pmean_accuracy_tiny_partial"
   ],
   "note": "Equal data and the range fail for hmean and for pmean at -1 and other negative orders (violated theorems). pmean has error bounds for all orders (double data only; sizes up to 2^p/100): q >= 1, 2e-6 <= |q| (small positive orders: elements other than 0 must have normal quotients with the largest; the extra absolute term is necessary, see the underflow theorem), and |q| < 2e-6. The weighted means are C93; overflow is C87."
  },
  {
   "property": "C85",
   "status": "partial",
   "theorems": [
    "Ufunclab.Vnorm.C85_vdot_in_range",
    "Ufunclab.Vnorm.C85_vdot_violated",
    "Ufunclab.Vnorm.C85_rms_in_range",
    "Ufunclab.Vnorm.C85_rms_overflow",
    "Ufunclab.Vnorm.C85_rms_violated",
    "Ufunclab.Vnorm.C85_cross2_in_range",
    "Ufunclab.Vnorm.C85_cross2_violated",
    "Ufunclab.Kbnsum.C85_kbnsum_in_range",
    "Ufunclab.Kbnsum.C85_kbnsum_violated",
    "Ufunclab.Wjaccard.C85_wjaccard_in_range",
    "Ufunclab.Wjaccard.C85_wjaccard_violated"
   ],
   "note": "Data whose sums of magnitudes are in the range; the statement for all data whose exact result is in the range is false (violated theorems)."
  },
  {
   "property": "C86",
   "status": "partial",
   "theorems": [
    "Ufunclab.Softmax.C86_softmax",
    "Ufunclab.Vnorm.C86_vnorm_partial",
    "Ufunclab.Vnorm.C86_vnorm_in_range_partial",
    "Ufunclab.Vnorm.C86_maxnorm",
    "Ufunclab.Vnorm.C86_vnorm_violated"
   ],
   "note": "Proved for softmax and for vnorm of order in [1, 2^p/100] and infinity; false for orders far below 1 (C86_vnorm_violated)."
  },
  {
   "property": "C87",
   "status": "partial",
   "theorems": [
    "Ufunclab.Means.C87_pmean_partial",
    "Ufunclab.Means.C87_gmean",
    "Ufunclab.Means.C87_hmean_partial",
    "Ufunclab.Means.C87_hmean_violated",
    "Ufunclab.Means.C87_pmean_violated",
    "Ufunclab.Means.C87_gmean_double"
   ],
   "note": "pmean for orders from 2e-6 on, gmean (all doubles), hmean in range; false for hmean at the ends of the range and for negative orders of pmean (violated theorems)."
  },
  {
   "property": "C88",
   "status": "partial",
   "theorems": [
    "Ufunclab.Step.C88_exact_arithmetic",
    "Ufunclab.Step.C88_linearstep",
    "Ufunclab.Step.C88_linearstep_double",
    "Ufunclab.Step.C88_smoothstep",
    "Ufunclab.Deadzone.C88_trapezoid_exact_arithmetic",
    "Ufunclab.Deadzone.C88_trapezoid",
    "Ufunclab.LinearInterp.C88_interp_exact_arithmetic",
    "Ufunclab.LinearInterp.C88_interp_shared",
    "Ufunclab.LinearInterp.C88_interp_partial",
    "Ufunclab.Step.C88_linearstep_violated",
    "Ufunclab.Step.C88_smoothstep3_violated",
    "Ufunclab.LinearInterp.C88_interp_violated"
   ],
   "note": "Proved under the range conditions; without them false for linearstep, smoothstep3 and the general path of linear_interp1d (violated theorems)."
  },
  {
   "property": "C89",
   "status": "partial",
   "theorems": [
    "Ufunclab.Mad.C89_exact_arithmetic",
    "Ufunclab.Mad.C89_mad",
    "Ufunclab.Mad.C89_mad_double",
    "Ufunclab.Mad.C89_mad_violated",
    "Ufunclab.TriArea.C89_tri_area_exact_arithmetic",
    "Ufunclab.TriArea.C89_tri_area",
    "Ufunclab.TriArea.C89_tri_area_violated",
    "Ufunclab.TriArea.C89_tri_area_double"
   ],
   "note": "Proved under the range conditions; without them false (violated theorems)."
  },
  {
   "property": "C90",
   "status": "partial",
   "theorems": [
    "Ufunclab.Corr.C90_pearson_without_overflow",
    "Ufunclab.Corr.C90_pearson",
    "Ufunclab.Corr.C90_pearson_double",
    "Ufunclab.Corr.C90_pearson_violated",
    "Ufunclab.Meanvar.C90_meanvar_without_overflow",
    "Ufunclab.Meanvar.C90_meanvar",
    "Ufunclab.Meanvar.C90_meanvar_double",
    "Ufunclab.Meanvar.C90_meanvar_violated"
   ],
   "note": "Proved under the range conditions; without them false (violated theorems)."
  },
  {
   "property": "C91",
   "status": "partial",
   "theorems": [
    "Ufunclab.InspectorProps.C91_report",
    "Ufunclab.InspectorProps.C91_raises_iff",
    "Ufunclab.InspectorProps.C91_name_determined",
    "Ufunclab.InspectorProps.C91_never_raises_violated"
   ],
   "note": "The report and the condition for an exception are proved for all ufuncs; that no exception is raised is false (violated theorem)."
  },
  {
   "property": "C92",
   "status": "partial",
   "theorems": [
    "Ufunclab.ConvFilesProps.C92_includes_inlined",
    "Ufunclab.ConvFilesProps.C92_includes_unique",
    "Ufunclab.ConvFilesProps.C92_includes_terminate_iff",
    "Ufunclab.ConvFilesProps.C92_include_cycle_fails",
    "Ufunclab.ConvFilesProps.C92_unique_key_new",
    "Ufunclab.ConvFilesProps.C92_unique_key_terminates_iff",
    "Ufunclab.ConvFilesProps.C92_unique_key_violated",
    "Ufunclab.ConvFilesProps.C92_output_name",
    "Ufunclab.ConvFilesProps.C92_outputs_distinct",
    "Ufunclab.ConvFilesProps.C92_source_overwritten_violated"
   ],
   "note": "Proved except the last sentence, which is false (violated theorems)."
  },
  {
   "property": "C93",
   "status": "partial",
   "theorems": [
    "Ufunclab.Means.C93_exact_arithmetic",
    "Ufunclab.Means.C93_hmeanw_accuracy",
    "Ufunclab.Means.C93_gmeanw_equal",
    "Ufunclab.Means.C93_gmeanw_accuracy",
    "Ufunclab.Means.C93_hmeanw_equal_violated",
    "Ufunclab.Means.C93_gmeanw_tiny_weights_violated",
    "Ufunclab.Means.C93_pmeanw_equal_partial",
    "Ufunclab.Means.C93_pmeanw_accuracy_partial",
    "Ufunclab.Means.C93_pmeanw_zero_weight_violated",
    "Ufunclab.Means.C93_pmeanw_tiny_formula",
    "Ufunclab.Means.C93_pmeanw_accuracy_tiny",
    "Ufunclab.Means.C93_pmeanw_zero_minus_one"
   ],
   "note": "Error bounds proved for all orders under the stated conditions (no underflow of weighted terms, |q| < 2^p/200); the last sentence is false (violated theorems)."
  },
  {
   "property": "C94",
   "status": "partial",
   "theorems": [
    "Ufunclab.Signal.C94_backlash_step",
    "Ufunclab.Signal.C94_backlash_inside",
    "Ufunclab.Signal.C94_backlash_band",
    "Ufunclab.Signal.C94_backlash_band_violated",
    "Ufunclab.Signal.C94_backlash_accuracy",
    "Ufunclab.Signal.C94_backlash_exact",
    "Ufunclab.Signal.C94_backlash_monotone",
    "Ufunclab.Signal.C94_backlash_sum_accuracy",
    "Ufunclab.Signal.C94_deadzone"
   ],
   "note": "Proved except the last sentence, which is false by a rounding error (C94_backlash_band_violated)."
  },
  {
   "property": "C95",
   "status": "partial",
   "theorems": [
    "Ufunclab.Fillnan.C95_fillnan_accuracy",
    "Ufunclab.Fillnan.C95_fillnan_between",
    "Ufunclab.Fillnan.C95_fillnan_constant",
    "Ufunclab.Fillnan.C95_fillnan_between_violated",
    "Ufunclab.Unwrap.C95_unwrap",
    "Ufunclab.Unwrap.C95_unwrap_unchanged",
    "Ufunclab.Unwrap.C95_unwrap_recovers",
    "Ufunclab.Unwrap.C95_unwrap_half_violated"
   ],
   "note": "Proved except the last sentence, which is false (violated theorems)."
  },
  {
   "property": "C96",
   "status": "proved",
   "theorems": [
    "Ufunclab.Sosfilter.C96_sosfilter_accuracy",
    "Ufunclab.Sosfilter.C96_sosfilter_accuracy_linear",
    "Ufunclab.Sosfilter.C96_residual"
   ],
   "note": "The bound is relative to the filter of magnitudes, which can grow although the filter is stable; the residual bound does not grow."
  },
  {
   "property": "C97",
   "status": "partial",
   "theorems": [
    "Ufunclab.Scalar.C97_logistic_accuracy",
    "Ufunclab.Scalar.C97_logistic_range",
    "Ufunclab.Scalar.C97_logistic_monotone",
    "Ufunclab.Scalar.C97_logistic_zero",
    "Ufunclab.Scalar.C97_logistic_deriv_even",
    "Ufunclab.Scalar.C97_logistic_deriv_accuracy",
    "Ufunclab.Scalar.C97_log_logistic_accuracy",
    "Ufunclab.Scalar.C97_swish_accuracy",
    "Ufunclab.Scalar.C97_swish_range",
    "Ufunclab.Scalar.C97_swish_half",
    "Ufunclab.Scalar.C97_logistic_in_range",
    "Ufunclab.Scalar.C97_logistic_overflow_violated"
   ],
   "note": "The last sentence is false near the end of the range of double (C97_logistic_overflow_violated); the rest is proved. The library functions are parameters with a stated accuracy; overflow is treated for logistic only."
  },
  {
   "property": "C98",
   "status": "proved",
   "theorems": [
    "Ufunclab.Scalar.C98_hyperbolic_accuracy",
    "Ufunclab.Scalar.C98_hyperbolic_special",
    "Ufunclab.Scalar.C98_exponential_accuracy",
    "Ufunclab.Scalar.C98_exponential_special"
   ],
   "note": "Overflow is not modelled here; the library functions are parameters with a stated accuracy."
  },
  {
   "property": "C99",
   "status": "partial",
   "theorems": [
    "Ufunclab.Scalar.C99_pow1pm1_accuracy",
    "Ufunclab.Scalar.C99_pow1pm1_zero",
    "Ufunclab.Scalar.C99_yeo_johnson_pos_accuracy",
    "Ufunclab.Scalar.C99_yeo_johnson_neg_accuracy",
    "Ufunclab.Scalar.C99_yeo_johnson_special",
    "Ufunclab.Scalar.C99_inv_pos_accuracy",
    "Ufunclab.Scalar.C99_inv_neg_accuracy",
    "Ufunclab.Scalar.C99_inv_special",
    "Ufunclab.Scalar.C99_tiny_lambda_violated",
    "Ufunclab.Scalar.C99_inv_end_violated"
   ],
   "note": "The last sentence is false for subnormal parameters and next to the end of the domain; the rest is proved. Overflow is not modelled; the library functions are parameters with a stated accuracy."
  },
  {
   "property": "C100",
   "status": "partial",
   "theorems": [
    "Ufunclab.Scalar.C100_linear_accuracy",
    "Ufunclab.Scalar.C100_parabolic_accuracy",
    "Ufunclab.Scalar.C100_spherical_accuracy",
    "Ufunclab.Scalar.C100_exponential_accuracy",
    "Ufunclab.Scalar.C100_ends",
    "Ufunclab.Scalar.C100_at_range",
    "Ufunclab.Scalar.C100_lower",
    "Ufunclab.Scalar.C100_monotone",
    "Ufunclab.Scalar.C100_linear_exceeds_violated",
    "Ufunclab.Scalar.C100_linear_underflow_violated",
    "Ufunclab.Scalar.C100_parabolic_monotone_violated",
    "Ufunclab.Scalar.C100_exponential_small_violated"
   ],
   "note": "The last sentence is false (four witnesses in double precision); the rest is proved. Overflow is not modelled."
  },
  {
   "property": "C101",
   "status": "partial",
   "theorems": [
    "Ufunclab.Normal.C101_cdf_left",
    "Ufunclab.Normal.C101_cdf_right",
    "Ufunclab.Normal.C101_cdf_monotone",
    "Ufunclab.Normal.C101_cdf_range",
    "Ufunclab.Normal.C101_complement",
    "Ufunclab.Normal.C101_sf_right",
    "Ufunclab.Normal.C101_sf_left",
    "Ufunclab.Normal.C101_sf_antitone",
    "Ufunclab.Normal.C101_tail_violated",
    "Ufunclab.Normal.C101_logcdf_left",
    "Ufunclab.Normal.C101_logcdf_left_double",
    "Ufunclab.Normal.C101_odds",
    "Ufunclab.Normal.C101_logcdf_right",
    "Ufunclab.Normal.C101_logsf_right_double"
   ],
   "note": "The relative error in the tail is bounded, but grows with x^2; the claim of a few ulps is refuted at -37."
  },
  {
   "property": "C102",
   "status": "proved",
   "theorems": [
    "Ufunclab.Expint.C102_expint1_large",
    "Ufunclab.Expint.C102_expint1_small",
    "Ufunclab.Expint.C102_logexpint1_small",
    "Ufunclab.Expint.C102_logexpint1_mid",
    "Ufunclab.Expint.C102_logexpint1_large",
    "Ufunclab.Expint.C102_exact_arithmetic",
    "Ufunclab.Expint.C102_special",
    "Ufunclab.Expint.C102_expint1_double"
   ],
   "note": "Finite positive arguments; overflow is not modelled, nor excess precision."
  },
  {
   "property": "C103",
   "status": "partial",
   "theorems": [
    "Ufunclab.Step.C103_exact_arithmetic",
    "Ufunclab.Step.C103_ends",
    "Ufunclab.Step.C103_residual",
    "Ufunclab.Step.C103_forward",
    "Ufunclab.Step.C103_relative_violated",
    "Ufunclab.Step.C103_float"
   ],
   "note": "The residual and forward bounds and exactness at the ends are proved; small relative error is false near the ends (C103_relative_violated)."
  },
  {
   "property": "C104",
   "status": "proved",
   "theorems": [
    "Ufunclab.Logfact.C104_exact_arithmetic",
    "Ufunclab.Logfact.C104_accuracy",
    "Ufunclab.Logfact.C104_accuracy_double",
    "Ufunclab.Logfact.C104_negative",
    "Ufunclab.Logfact.C104_zero_one",
    "Ufunclab.Logfact.C104_increasing",
    "Ufunclab.Logfact.C104_increasing_violated"
   ],
   "note": "The _violated theorem only shows that the range of the monotonicity clause has to be limited."
  },
  {
   "property": "C105",
   "status": "partial",
   "theorems": [
    "Ufunclab.Logbeta.C105_paths",
    "Ufunclab.Logbeta.C105_accuracy",
    "Ufunclab.Logbeta.C105_relative_violated"
   ],
   "note": "Full statement (relative accuracy of the result) is false; proved: the absolute bound in terms of the cancelling terms, and the counterexample."
  },
  {
   "property": "C106",
   "status": "proved",
   "theorems": [
    "Ufunclab.Meanvar.C106_range",
    "Ufunclab.Meanvar.C106_zero_violated"
   ],
   "note": "The _violated theorem is about the converse (variance 0 only for equal elements), which is not part of the claim."
  },
  {
   "property": "C107",
   "status": "proved",
   "theorems": [
    "Ufunclab.Kbnsum.C107_kbnsum_scale",
    "Ufunclab.Meanvar.C107_meanvar_scale",
    "Ufunclab.Corr.C107_pearson_symm",
    "Ufunclab.Corr.C107_pearson_int_symm",
    "Ufunclab.Corr.C107_pearson_scale",
    "Ufunclab.Mad.C107_mad_scale",
    "Ufunclab.Mad.C107_gini_scale",
    "Ufunclab.Mad.C107_mad_perm",
    "Ufunclab.TriArea.C107_tri_area_perm",
    "Ufunclab.TriArea.C107_tri_area_scale"
   ],
   "note": "Rounding is any function that commutes with s; exponent range unbounded for s a power of two, IEEE with subnormals for s = -1."
  },
  {
   "property": "C108",
   "status": "proved",
   "theorems": [
    "Ufunclab.Vnorm.C108_vdot_symm",
    "Ufunclab.Vnorm.C108_vdot_scale",
    "Ufunclab.Vnorm.C108_rms_scale",
    "Ufunclab.Vnorm.C108_crms_scale",
    "Ufunclab.Cross.C108_cross2_antisymm",
    "Ufunclab.Cross.C108_cross3_antisymm",
    "Ufunclab.Cross.C108_cross3_self",
    "Ufunclab.Sosfilter.C108_sosfilter_scale",
    "Ufunclab.Signal.C108_backlash_scale",
    "Ufunclab.Signal.C108_backlash_neg",
    "Ufunclab.Wjaccard.C108_wjaccard_symm",
    "Ufunclab.Wjaccard.C108_wjaccard_scale",
    "Ufunclab.Step.C108_step_scale_x",
    "Ufunclab.Step.C108_step_scale_f",
    "Ufunclab.Deadzone.C108_trapezoid_scale",
    "Ufunclab.Unwrap.C108_unwrap_scale",
    "Ufunclab.Means.C108_hmean_scale",
    "Ufunclab.LinearInterp.C108_interp_scale",
    "Ufunclab.Vnorm.C108_vnorm_scale"
   ],
   "note": "Rounding is any function that commutes with s; exponent range unbounded for s a power of two, IEEE with subnormals for s = -1."
  },
  {
   "property": "C109",
   "status": "proved",
   "theorems": [
    "Ufunclab.Elementary.C109_real",
    "Ufunclab.Elementary.C109_error",
    "Ufunclab.Elementary.C109_sign",
    "Ufunclab.Elementary.C109_symmetry",
    "Ufunclab.Elementary.C109_monotone",
    "Ufunclab.Elementary.C109_integers",
    "Ufunclab.Elementary.C109_in_range",
    "Ufunclab.Elementary.C109_overflow",
    "Ufunclab.Elementary.C109_nan",
    "Ufunclab.Elementary.C109_zero_violated",
    "Ufunclab.Elementary.C109_abssq_same"
   ],
   "note": "Accuracy, sign, symmetry, monotonicity, exactness and overflow proved; 'zero only for zero' is false (underflow witness)."
  },
  {
   "property": "C110",
   "status": "proved",
   "theorems": [
    "Ufunclab.Dispatch.C110_minimal",
    "Ufunclab.Dispatch.C110_exact",
    "Ufunclab.Dispatch.C110_arity",
    "Ufunclab.Dispatch.C110_swap",
    "Ufunclab.Dispatch.C110_float",
    "Ufunclab.Dispatch.C110_result_magnitude",
    "Ufunclab.Dispatch.C110_result_peaktopeak",
    "Ufunclab.Dispatch.C110_result_index",
    "Ufunclab.Dispatch.C110_result_bool",
    "Ufunclab.Dispatch.C110_result_same",
    "Ufunclab.Dispatch.C110_result_statistic"
   ],
   "note": "All functions, all argument types; Python scalars, datetimes and strings are not modelled."
  },
  {
   "property": "C111",
   "status": "partial",
   "theorems": [
    "Ufunclab.Dispatch.C111_keeps",
    "Ufunclab.Dispatch.C111_same_type",
    "Ufunclab.Dispatch.C111_windows_violated",
    "Ufunclab.Dispatch.C111_windows_result_violated",
    "Ufunclab.Dispatch.C111_cross_violated",
    "Ufunclab.Dispatch.C111_mixed_violated"
   ],
   "note": "Proved where long has 64 bits and, for the functions with fixed-width tables, everywhere; false on Windows for the tables written with 'l' and 'L' (witnesses)."
  },
  {
   "property": "C112",
   "status": "proved",
   "theorems": [
    "Ufunclab.Kbnsum.C112_kbnsum",
    "Ufunclab.Kbnsum.C112_bound_violated",
    "Ufunclab.Vnorm.C112_vdot",
    "Ufunclab.Vnorm.C112_rms",
    "Ufunclab.Cross.C112_cross2",
    "Ufunclab.Cross.C112_cross3",
    "Ufunclab.Wjaccard.C112_wjaccard",
    "Ufunclab.Signal.C112_backlash",
    "Ufunclab.Bincount.C112_bincount"
   ],
   "note": "Proved with rounded operations to nearest; the data and results are in range, so overflow does not occur."
  },
  {
   "property": "C113",
   "status": "partial",
   "theorems": [
    "Ufunclab.Refs.C113_minmax",
    "Ufunclab.Refs.C113_extreme",
    "Ufunclab.Refs.C113_first",
    "Ufunclab.Refs.C113_cross2",
    "Ufunclab.Refs.C113_cross3",
    "Ufunclab.Refs.C113_peaktopeak",
    "Ufunclab.Refs.C113_peaktopeak_holds",
    "Ufunclab.Refs.C113_peaktopeak_stops",
    "Ufunclab.Refs.C113_items",
    "Ufunclab.Refs.C113_fresh",
    "Ufunclab.Refs.C113_out_leak_violated",
    "Ufunclab.Refs.C113_pending_violated",
    "Ufunclab.Refs.C113_borrowed_violated"
   ],
   "note": "Proved for outputs that are NULL (fresh) and operations that do not write to the arrays (Keeps); outside these conditions the claim fails, see the _violated theorems. Destructors that run when a count reaches 0 are not modelled."
  },
  {
   "property": "C114",
   "status": "partial",
   "theorems": [
    "Ufunclab.ModInit.C114_generated",
    "Ufunclab.ModInit.C114_hand_partial",
    "Ufunclab.ModInit.C114_hand_violated",
    "Ufunclab.ModInit.C114_modules"
   ],
   "note": "C114_generated is complete for the generated modules; the hand-written ones fail the claim when NumPy cannot be imported."
  },
  {
   "property": "C115",
   "status": "partial",
   "theorems": [
    "Ufunclab.GendotLife.C115_layout",
    "Ufunclab.GendotLife.C115_writes",
    "Ufunclab.GendotLife.C115_lifetime_partial",
    "Ufunclab.GendotLife.C115_static",
    "Ufunclab.GendotLife.C115_lifetime_violated"
   ],
   "note": "The lifetime theorem has the condition that dynamic ufuncs outlive the gendot functions made of them; without it the claim fails."
  },
  {
   "property": "C116",
   "status": "partial",
   "theorems": [
    "Ufunclab.ImportState.C116_first_import",
    "Ufunclab.ImportState.C116_history",
    "Ufunclab.ImportState.C116_reload_violated",
    "Ufunclab.ImportState.C116_retry_violated"
   ],
   "note": "Proved for attribute access; repeated execution of the package body violates the claim."
  },
  {
   "property": "C117",
   "status": "partial",
   "theorems": [
    "Ufunclab.CodeGen.C117_polynomial",
    "Ufunclab.CodeGen.C117_case",
    "Ufunclab.CodeGen.C117_debye1",
    "Ufunclab.CodeGen.C117_debye1_beyond",
    "Ufunclab.CodeGen.C117_shipped",
    "Ufunclab.CodeGen.C117_y100",
    "Ufunclab.CodeGen.C117_y100_shipped",
    "Ufunclab.CodeGen.C117_lower_bound",
    "Ufunclab.CodeGen.C117_lower_bound_lowest",
    "Ufunclab.CodeGen.C117_bound_longDouble",
    "Ufunclab.CodeGen.C117_bound_double_violated",
    "Ufunclab.CodeGen.C117_bound_float_violated"
   ],
   "note": "Everything is proved for the generators; the shipped bounds of float and double violate the last part."
  },
  {
   "property": "C118",
   "status": "partial",
   "theorems": [
    "Ufunclab.Flags.C118_results",
    "Ufunclab.Flags.C118_silent",
    "Ufunclab.Flags.C118_no_warning",
    "Ufunclab.Flags.C118_cast_violated",
    "Ufunclab.Flags.C118_gufunc",
    "Ufunclab.Flags.C118_gini",
    "Ufunclab.Flags.C118_gini_results",
    "Ufunclab.Flags.C118_gini_clang_partial",
    "Ufunclab.Flags.C118_gini_clang_violated",
    "Ufunclab.Flags.C118_gini_finite",
    "Ufunclab.Flags.C118_gini_values",
    "Ufunclab.Flags.C118_gini_invalid",
    "Ufunclab.Flags.C118_rmad",
    "Ufunclab.Flags.C118_items",
    "Ufunclab.Flags.C118_inexact",
    "Ufunclab.Flags.C118_gini_nan"
   ],
   "note": "Holds with gcc for gufuncs and for the computation in ufuncs; the two violations are proved."
  },
  {
   "property": "C119",
   "status": "proved",
   "theorems": [
    "Ufunclab.Threads.C119_threads",
    "Ufunclab.Threads.C119_progress",
    "Ufunclab.Threads.C119_one_after_another",
    "Ufunclab.Threads.C119_unary",
    "Ufunclab.Threads.C119_bincount",
    "Ufunclab.Threads.C119_relay",
    "Ufunclab.Threads.C119_reduction",
    "Ufunclab.Threads.C119_shared_out_loses"
   ],
   "note": "Assumes that the access to one array element is atomic and that memory is sequentially consistent; there is no writable static data in the sources. C119_shared_out_loses shows that the condition on outputs is needed; the property has it as a condition."
  },
  {
   "property": "C120",
   "status": "proved",
   "theorems": [
    "Ufunclab.Overlap.C120_values",
    "Ufunclab.Overlap.C120_out",
    "Ufunclab.Overlap.C120_inplace",
    "Ufunclab.Overlap.C120_split",
    "Ufunclab.Overlap.C120_pieces",
    "Ufunclab.Overlap.C120_reversed",
    "Ufunclab.Overlap.C120_copy_needed"
   ],
   "note": "NumPy's rule for overlapping arguments is a specification, not a model of NumPy's code."
  },
  {
   "property": "C121",
   "status": "partial",
   "theorems": [
    "Ufunclab.Build.C121_outputs",
    "Ufunclab.Build.C121_disjoint",
    "Ufunclab.Build.C121_modules",
    "Ufunclab.Build.C121_parallel",
    "Ufunclab.Build.C121_progress",
    "Ufunclab.Build.C121_fresh",
    "Ufunclab.Build.C121_templates",
    "Ufunclab.Build.C121_gufuncs_partial",
    "Ufunclab.Build.C121_stale_violated",
    "Ufunclab.Build.C121_ufuncs_partial",
    "Ufunclab.Build.C121_ufunc_rebuild_violated",
    "Ufunclab.Build.C121_ufunc_stuck_violated",
    "Ufunclab.Build.C121_version"
   ],
   "note": "partial because the code violates the statement for rebuilds of ufuncs and for changes of tool modules that are not in `input`. Meson and ninja are modelled by their documented behaviour; the compiler is not modelled."
  },
  {
   "property": "C122",
   "status": "proved",
   "theorems": [
    "Ufunclab.Agree.C122_percentile_searchsorted",
    "Ufunclab.Agree.C122_argfirst_searchsorted",
    "Ufunclab.Agree.C122_all_same",
    "Ufunclab.Agree.C122_all_same_minmax",
    "Ufunclab.Agree.C122_argmin_argfirst",
    "Ufunclab.Agree.C122_peaktopeak",
    "Ufunclab.Agree.C122_one_hot_bincount",
    "Ufunclab.Agree.C122_bincount_searchsorted",
    "Ufunclab.Agree.C122_vnorm_vdot_rms",
    "Ufunclab.Agree.C122_hypot3",
    "Ufunclab.Agree.C122_tri_area_cross",
    "Ufunclab.Agree.C122_means",
    "Ufunclab.Agree.C122_variance_rms",
    "Ufunclab.Agree.C122_pearson_self",
    "Ufunclab.Agree.C122_interp_linearstep",
    "Ufunclab.Agree.C122_fillnan_interp",
    "Ufunclab.Agree.C122_trapezoid_linearstep",
    "Ufunclab.Agree.C122_semivar_linearstep",
    "Ufunclab.Agree.C122_step",
    "Ufunclab.Agree.C122_backlash_deadzone",
    "Ufunclab.Agree.C122_backlash_sum",
    "Ufunclab.Agree.C122_softmax_logistic",
    "Ufunclab.Agree.C122_ramp_log_logistic",
    "Ufunclab.Agree.C122_yeo_johnson_pow1pm1",
    "Ufunclab.Agree.C122_logbeta_logfactorial",
    "Ufunclab.Agree.C122_loggamma1p_logfactorial",
    "Ufunclab.Agree.C122_gendot_vdot"
   ],
   "note": "Exact arithmetic for the numerical functions: the results of two calls on floats agree up to the rounding errors bounded in the claims on the single functions."
  },
  {
   "property": "C123",
   "status": "partial",
   "theorems": [
    "Ufunclab.Layout.C123_searchsorted",
    "Ufunclab.Layout.C123_bincount",
    "Ufunclab.Layout.C123_one_hot",
    "Ufunclab.Layout.C123_convert_to_base",
    "Ufunclab.Layout.C123_peaktopeak",
    "Ufunclab.Layout.C123_vdot_rms",
    "Ufunclab.Layout.C123_cross",
    "Ufunclab.Layout.C123_logbeta",
    "Ufunclab.Layout.C123_kbnsum_partial",
    "Ufunclab.Layout.C123_kbnsum_violated",
    "Ufunclab.Layout.C123_pearson",
    "Ufunclab.Layout.C123_sosfilter",
    "Ufunclab.Layout.C123_relay",
    "Ufunclab.Layout.C123_abssq",
    "Ufunclab.Layout.C123_linear_interp1d_partial",
    "Ufunclab.Layout.C123_linear_interp1d_violated"
   ],
   "note": "kbnsum is proved for data without infinities and linear_interp1d for increasing non-empty tables; both fail otherwise (theorems ending in _violated)."
  },
  {
   "property": "C124",
   "status": "partial",
   "theorems": [
    "Ufunclab.Pieces.C124_min_argmin",
    "Ufunclab.Pieces.C124_max_argmax",
    "Ufunclab.Pieces.C124_argmin_argmax",
    "Ufunclab.Pieces.C124_minmax",
    "Ufunclab.Pieces.C124_minmax_nan_violated",
    "Ufunclab.Pieces.C124_first",
    "Ufunclab.Pieces.C124_all_same",
    "Ufunclab.Pieces.C124_ordered",
    "Ufunclab.Pieces.C124_percentileofscore",
    "Ufunclab.Pieces.C124_searchsorted",
    "Ufunclab.Pieces.C124_fillnan1d",
    "Ufunclab.Pieces.C124_unwrap",
    "Ufunclab.Pieces.C124_vdot",
    "Ufunclab.Pieces.C124_rms",
    "Ufunclab.Pieces.C124_vnorm",
    "Ufunclab.Pieces.C124_kbnsum",
    "Ufunclab.Pieces.C124_meanvar",
    "Ufunclab.Pieces.C124_means",
    "Ufunclab.Pieces.C124_softmax",
    "Ufunclab.Pieces.C124_logbeta"
   ],
   "note": "minmax is proved for strict weak orders; with NaN it fails (C124_minmax_nan_violated). The numerical functions are in exact arithmetic."
  },
  {
   "property": "C125",
   "status": "partial",
   "theorems": [
    "Ufunclab.Reorder.C125_minmax",
    "Ufunclab.Reorder.C125_argmin_argmax",
    "Ufunclab.Reorder.C125_arg_reverse",
    "Ufunclab.Reorder.C125_minmax_nan_violated",
    "Ufunclab.Reorder.C125_all_same",
    "Ufunclab.Reorder.C125_ordered_reverse",
    "Ufunclab.Reorder.C125_argfirst",
    "Ufunclab.Reorder.C125_peaktopeak",
    "Ufunclab.Reorder.C125_vdot",
    "Ufunclab.Reorder.C125_rms",
    "Ufunclab.Reorder.C125_meanvar",
    "Ufunclab.Reorder.C125_kbnsum",
    "Ufunclab.Reorder.C125_means",
    "Ufunclab.Reorder.C125_wjaccard",
    "Ufunclab.Reorder.C125_pearson",
    "Ufunclab.Reorder.C125_softmax",
    "Ufunclab.Reorder.C125_gendot",
    "Ufunclab.Reorder.C125_backlash_sum"
   ],
   "note": "minmax is proved for strict weak orders; with NaN it fails (C125_minmax_nan_violated). Sums are in exact arithmetic; kbnsum for contiguous arrays."
  },
  {
   "property": "C126",
   "status": "partial",
   "theorems": [
    "Ufunclab.SZ.C126_rounding",
    "Ufunclab.SZ.C126_finite_yeo",
    "Ufunclab.SZ.C126_finite_ramp",
    "Ufunclab.SZ.C126_finite_semivar",
    "Ufunclab.SZ.C126_ramp",
    "Ufunclab.SZ.C126_ramp_limits",
    "Ufunclab.SZ.C126_ramp_zero",
    "Ufunclab.SZ.C126_semivar_inf",
    "Ufunclab.SZ.C126_semivar_negzero_violated",
    "Ufunclab.SZ.C126_finite_logistic",
    "Ufunclab.SZ.C126_logistic",
    "Ufunclab.SZ.C126_logistic_limits",
    "Ufunclab.SZ.C126_swish",
    "Ufunclab.SZ.C126_swish_violated",
    "Ufunclab.SZ.C126_yeo_johnson_zero",
    "Ufunclab.SZ.C126_yeo_johnson_inf",
    "Ufunclab.SZ.C126_yeo_johnson_limits",
    "Ufunclab.SZ.C126_inv_yeo_johnson",
    "Ufunclab.SZ.C126_pow1pm1_zero",
    "Ufunclab.SZ.C126_pow1pm1",
    "Ufunclab.SZ.C126_inv_yeo_johnson_neg",
    "Ufunclab.SZ.C126_inv_yeo_johnson_zero",
    "Ufunclab.SZ.C126_swish_zero"
   ],
   "note": "partial because swish at an infinity and semivar_exponential with a range of -0 violate the statement. Library functions are exact at the arguments used; no overflow."
  },
  {
   "property": "C127",
   "status": "proved",
   "theorems": [
    "Ufunclab.SZ.C127_vdot",
    "Ufunclab.SZ.C127_cross",
    "Ufunclab.SZ.C127_cross_antisymmetry_violated",
    "Ufunclab.SZ.C127_sosfilter",
    "Ufunclab.SZ.C127_deadzone",
    "Ufunclab.SZ.C127_hmean",
    "Ufunclab.SZ.C127_unwrap",
    "Ufunclab.SZ.C127_log1p_im",
    "Ufunclab.SZ.C127_log1p_re",
    "Ufunclab.SZ.C127_abs_squared",
    "Ufunclab.SZ.C127_rms",
    "Ufunclab.SZ.C127_rms_value",
    "Ufunclab.SZ.C127_hmeanw",
    "Ufunclab.SZ.C127_backlash",
    "Ufunclab.SZ.C127_backlash_sum",
    "Ufunclab.SZ.C127_backlash_sum_value",
    "Ufunclab.SZ.C127_meanvar",
    "Ufunclab.SZ.C127_wjaccard",
    "Ufunclab.SZ.C127_softmax",
    "Ufunclab.SZ.C127_hysteresis_relay",
    "Ufunclab.SZ.C127_step",
    "Ufunclab.SZ.C127_step_ends",
    "Ufunclab.SZ.C127_step_values",
    "Ufunclab.SZ.C127_trapezoid",
    "Ufunclab.SZ.C127_kbnsum",
    "Ufunclab.SZ.C127_minmax",
    "Ufunclab.SZ.C127_comparisons"
   ],
   "note": "The real part of log1p is that of Model/Log1p, where zeros have no sign; hmean, hmean with weights, unwrap and the comparison of abs_squared with one zero in exact arithmetic. C127_cross_antisymmetry_violated: exchanging parallel vectors gives +0 both times."
  }
 ]
}
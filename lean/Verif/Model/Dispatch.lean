import Verif.Spec.Dtype
/-!
# The loops of the ufuncs and how NumPy picks one

The tables of this file are the `types`/`typesignatures` arguments of the `define_cxx*.py` files and the `typecodes` arrays of the C
sources, in their order.  The output types are kept because they are what the user sees.

`resolve` is NumPy 2's choice for array arguments without `dtype=`/`signature=`: a loop whose input types are exactly those of the
arguments, otherwise the first loop to whose input types all arguments can be cast safely, skipping the object loops if no
argument is an object array and there is more than one loop.  Python scalars (which NumPy treats as weakly typed), datetime and
string types are not modelled.
-/
namespace Ufunclab.Dispatch

structure Loop where
  ins : List DT
  outs : List DT
  deriving DecidableEq, Repr

/-- The types of a signature are castable one by one. -/
def castable (P : Platform) : List DT → List DT → Bool
  | [], [] => true
  | s :: ss, t :: ts => canCast P s t && castable P ss ts
  | _, _ => false

def matches_ (P : Platform) (single : Bool) (args : List DT) (s : Loop) : Bool :=
  castable P args s.ins && (single || args.contains .O || !s.ins.contains .O)

/-- NumPy: the exact loop or the first that fits; `none` is the TypeError "ufunc not supported for the input types". -/
def resolve (P : Platform) (loops : List Loop) (args : List DT) : Option Loop :=
  match loops.find? (fun s => s.ins == args) with
  | some s => some s
  | none => loops.find? (matches_ P (loops.length == 1) args)

/-- `NPY_INT64`, `np.dtype('int64').char` and `NPY_INTP`, `p`, on a 64 bit platform. -/
def int64 (P : Platform) : DT := if P.long64 then .l else .q
/-- `NPY_UINT64`, `np.dtype('uint64').char`. -/
def uint64 (P : Platform) : DT := if P.long64 then .L else .Q

/-- `int_types` of bincount/define_cxx_gufunc_extmod.py lines 22-25, convert_to_base lines 11-14, meanvar lines 62-65. -/
def intTypes (P : Platform) : List DT := [.b, .B, .h, .H, .i, .I, int64 P, uint64 P]

/-- The list of integer types up to `l`, `L` written out in all_same, corr, first, ordered and wjaccard. -/
def longTypes : List DT := [.b, .B, .h, .H, .i, .I, .l, .L]

/-- `n` equal arguments. -/
def homog (n : ℕ) (t r : DT) : Loop := ⟨List.replicate n t, [r]⟩

structure UFunc where
  name : String
  nin : ℕ
  loops : Platform → List Loop

/-- The functions with the loops `f…f->f`, `d…d->d`, `g…g->g`. -/
def fdg (name : String) (n : ℕ) : UFunc := ⟨name, n, fun _ => [DT.f, .d, .g].map fun t => homog n t t⟩

/-- The functions with the loops `f…f->f`, `d…d->d` only. -/
def fd (name : String) (n : ℕ) : UFunc := ⟨name, n, fun _ => [DT.f, .d].map fun t => homog n t t⟩

/-- abs_squared/define_cxxgen_extmods.py line 15; abssq/abssq_ufunc.cpp lines 98-105. -/
def absSquaredU (name : String) : UFunc :=
  ⟨name, 1, fun _ => [⟨[.f], [.f]⟩, ⟨[.d], [.d]⟩, ⟨[.g], [.g]⟩, ⟨[.F], [.f]⟩, ⟨[.D], [.d]⟩, ⟨[.G], [.g]⟩]⟩

/-- all_same/define_cxx_gufunc_extmod.py lines 9-18, 25. -/
def allSameU : UFunc :=
  ⟨"all_same", 1, fun _ => ((longTypes ++ [DT.f, .d, .g]).map fun t => ⟨[t], [.bool_]⟩) ++ [⟨[.O], [.bool_]⟩]⟩

/-- ordered/define_cxx_gufunc_extmod.py lines 53-62, 69. -/
def orderedU : UFunc :=
  ⟨"ordered", 2, fun _ => ((longTypes ++ [DT.f, .d, .g]).map fun t => ⟨[t, .b], [.bool_]⟩) ++ [⟨[.O, .b], [.bool_]⟩]⟩

/-- first/define_cxx_gufunc_extmod.py lines 89-116. -/
def firstU : UFunc :=
  ⟨"first", 4, fun _ => ((longTypes ++ [DT.f, .d, .g]).map fun t => ⟨[t, .b, t, t], [t]⟩) ++ [⟨[.O, .b, .O, .O], [.O]⟩]⟩

/-- first/define_cxx_gufunc_extmod.py lines 119-146. -/
def argfirstU : UFunc :=
  ⟨"argfirst", 3, fun P => ((longTypes ++ [DT.f, .d, .g]).map fun t => ⟨[t, .b, t], [int64 P]⟩) ++ [⟨[.O, .b, .O], [int64 P]⟩]⟩

/-- backlash/define_cxx_gufunc_extmod.py line 92 (`backlash` itself, line 78, is `fdg`). -/
def backlashSumU : UFunc := ⟨"backlash_sum", 4, fun _ => [DT.f, .d, .g].map fun t => ⟨[t, t, t, t], [t, t]⟩⟩

/-- bincount/define_cxx_gufunc_extmod.py line 27. -/
def bincountU : UFunc := ⟨"bincount", 1, fun P => (intTypes P).map fun t => ⟨[t], [int64 P]⟩⟩

/-- bincount/define_cxx_gufunc_extmod.py lines 29-36, 66: the weights' type is the result's. -/
def bincountwU : UFunc :=
  ⟨"bincountw", 2, fun P =>
    ((intTypes P).flatMap fun s => (intTypes P ++ [DT.f, .d]).map fun t => ⟨[s, t], [t]⟩) ++
    ((intTypes P).flatMap fun s => [DT.F, .D].map fun t => ⟨[s, t], [t]⟩)⟩

/-- convert_to_base/define_cxx_gufunc_extmod.py line 15. -/
def convertToBaseU : UFunc := ⟨"convert_to_base", 2, fun P => (intTypes P).map fun t => ⟨[t, t], [t]⟩⟩

/-- corr/define_cxx_gufunc_extmod.py lines 53-69: the integer loops come first. -/
def pearsonU : UFunc :=
  ⟨"pearson_corr", 2, fun _ => (longTypes.map fun t => ⟨[t, t], [.d]⟩) ++ [DT.f, .d, .g].map fun t => ⟨[t, t], [t]⟩⟩

/-- cross/define_cxx_gufunc_extmod.py lines 70-103. -/
def crossU (name : String) : UFunc := ⟨name, 2, fun _ => [DT.i, .l, .f, .d, .g, .O].map fun t => ⟨[t, t], [t]⟩⟩

/-- mad/define_cxx_gufunc_extmod.py lines 27, 42, 57. -/
def madU (name : String) : UFunc := ⟨name, 2, fun _ => [DT.f, .d, .g].map fun t => ⟨[t, .bool_], [t]⟩⟩

/-- meanvar/define_cxx_gufunc_extmod.py lines 62-75. -/
def meanvarU : UFunc :=
  ⟨"meanvar", 2, fun P => ((intTypes P).map fun t => ⟨[t, int64 P], [.d]⟩) ++
    ([DT.f, .d] ++ if P.wideLD then [DT.g] else []).map fun t => ⟨[t, int64 P], [t]⟩⟩

/-- The types of minmax/define_cxx_gufunc_extmod.py lines 43-128. -/
def minmaxTypes : List DT := [.b, .B, .h, .H, .i, .I, .l, .L, .q, .Q, .f, .d, .g, .O]

/-- argmin, argmax, argminmax: lines 41-69, 86-99. -/
def argminU (name : String) : UFunc := ⟨name, 1, fun P => minmaxTypes.map fun t => ⟨[t], [int64 P]⟩⟩
/-- minmax: lines 71-84. -/
def minmaxU : UFunc := ⟨"minmax", 1, fun _ => minmaxTypes.map fun t => ⟨[t], [t]⟩⟩
/-- min_argmin, max_argmax: lines 101-129. -/
def minArgminU (name : String) : UFunc := ⟨name, 1, fun P => minmaxTypes.map fun t => ⟨[t], [t, int64 P]⟩⟩

/-- one_hot/define_cxx_gufunc_extmod.py line 17. -/
def oneHotU : UFunc := ⟨"one_hot", 1, fun P => [⟨[int64 P], [int64 P]⟩]⟩

/-- percentileofscore/define_cxx_gufunc_extmod.py lines 11-22. -/
def percentileU : UFunc :=
  ⟨"percentileofscore", 3, fun P => (intTypes P ++ [DT.f, .d]).map fun t => ⟨[t, t, int64 P], [.d]⟩⟩

/-- peaktopeak/peaktopeak_gufunc.c.src lines 248-263. -/
def peaktopeakU : UFunc :=
  ⟨"peaktopeak", 1, fun P => [⟨[.b], [.B]⟩, ⟨[.B], [.B]⟩, ⟨[.h], [.H]⟩, ⟨[.H], [.H]⟩, ⟨[.i], [.I]⟩, ⟨[.I], [.I]⟩,
    ⟨[int64 P], [uint64 P]⟩, ⟨[uint64 P], [uint64 P]⟩, ⟨[.f], [.f]⟩, ⟨[.d], [.d]⟩, ⟨[.g], [.g]⟩, ⟨[.O], [.O]⟩]⟩

/-- searchsorted/searchsorted_gufunc.c.src lines 441-457. -/
def searchsortedU (name : String) : UFunc :=
  ⟨name, 2, fun P => (intTypes P ++ [DT.e, .f, .d, .g, .O]).map fun t => ⟨[t, t], [int64 P]⟩⟩

/-- issnan/issnan_ufunc.c.src lines 104-108. -/
def issnanU : UFunc := ⟨"issnan", 1, fun _ => [DT.e, .f, .d].map fun t => ⟨[t], [.bool_]⟩⟩

/-- log1p/log1p_ufunc.c lines 457-460. -/
def log1pU (name : String) : UFunc := ⟨name, 1, fun _ => [DT.F, .D].map fun t => ⟨[t], [t]⟩⟩

/-- logfactorial/logfactorial_ufunc.c lines 87-90. -/
def logfactorialU : UFunc := ⟨"logfactorial", 1, fun P => [⟨[.i], [.d]⟩, ⟨[int64 P], [.d]⟩]⟩

/-- sosfilter/define_cxx_gufunc_extmod.py lines 93, 106. -/
def sosfilterIcU (name : String) : UFunc := ⟨name, 3, fun _ => [DT.f, .d, .g].map fun t => ⟨[t, t, t], [t, t]⟩⟩

/-- tri_area/define_cxx_gufunc_extmod.py line 99. -/
def triAreaIndexedU : UFunc := ⟨"tri_area_indexed", 2, fun P => [DT.f, .d, .g].map fun t => ⟨[t, int64 P], [t]⟩⟩

/-- vnorm/define_cxx_gufunc_extmod.py lines 49-50. -/
def vnormU : UFunc :=
  ⟨"vnorm", 2, fun _ => [⟨[.f, .f], [.f]⟩, ⟨[.d, .d], [.d]⟩, ⟨[.g, .g], [.g]⟩, ⟨[.F, .f], [.f]⟩, ⟨[.D, .d], [.d]⟩, ⟨[.G, .g], [.g]⟩]⟩

/-- vnorm/define_cxx_gufunc_extmod.py lines 61-76. -/
def rmsU : UFunc :=
  ⟨"rms", 1, fun _ => [⟨[.f], [.f]⟩, ⟨[.d], [.d]⟩, ⟨[.g], [.g]⟩, ⟨[.F], [.f]⟩, ⟨[.D], [.d]⟩, ⟨[.G], [.g]⟩]⟩

/-- wjaccard/define_cxx_gufunc_extmod.py lines 43-53. -/
def wjaccardU : UFunc :=
  ⟨"wjaccard", 2, fun _ => (longTypes.map fun t => ⟨[t, t], [.d]⟩) ++ [DT.f, .d].map fun t => ⟨[t, t], [t]⟩⟩

/-- The functions whose loops are only floating point, all arguments of one type: backlash line 78, deadzone line 41, expint1 lines 67
and 71, fillnan1d line 34, hypot3 line 17, hysteresis_relay line 57, kbnsum line 41, logistic lines 127-139, multivariate_logbeta
line 13, nan_to_num line 55, next lines 22 and 26, nextn lines 28 and 45, normal lines 42-61, pow1pm1 line 49, ramp lines 104
and 108, semivar lines 127-139, softmax line 36, sosfilter line 80, step lines 52-68, trapezoid_pulse line 50, tri_area line 86,
unwrap line 39, vnorm line 82, yeo_johnson lines 65 and 69 of the `define_cxx*.py` files, means_gufunc.c.src lines 580-611. -/
def floatU : List UFunc := [
  fdg "backlash" 3, fdg "deadzone" 3, fdg "expint1" 1, fdg "logexpint1" 1, fdg "fillnan1d" 1, fdg "hypot3" 3,
  fdg "hysteresis_relay" 6, fdg "kbnsum" 1, fdg "logistic" 1, fdg "logistic_deriv" 1, fdg "log_logistic" 1, fdg "swish" 2,
  fdg "multivariate_logbeta" 1, fdg "nan_to_num" 2, fdg "next_greater" 1, fdg "next_less" 1, fdg "nextn_greater" 1,
  fdg "nextn_less" 1, fdg "normal.cdf" 1, fdg "normal.logcdf" 1, fdg "normal.sf" 1, fdg "normal.logsf" 1, fdg "erfcx" 1,
  fdg "pow1pm1" 2, fdg "hyperbolic_ramp" 2, fdg "exponential_ramp" 2, fdg "semivar.exponential" 4,
  fdg "semivar.linear" 4, fdg "semivar.spherical" 4, fdg "semivar.parabolic" 4, fdg "softmax" 1, fdg "sosfilter" 2,
  fdg "step" 5, fdg "linearstep" 5, fdg "smoothstep3" 5, fdg "invsmoothstep3" 5, fdg "smoothstep5" 5,
  fdg "trapezoid_pulse" 6, fdg "tri_area" 1, fdg "unwrap" 2, fdg "vdot" 2, fdg "yeo_johnson" 2, fdg "inv_yeo_johnson" 2,
  fdg "gmean" 1, fdg "hmean" 1, fdg "gmeanw" 2, fdg "hmeanw" 2, fdg "pmean" 2, fdg "pmeanw" 3]

/-- All ufuncs and gufuncs of the library.  `fd`: debye1_ufunc.c lines 64-67, loggamma1p_ufunc.c lines 64-67,
linear_interp1d_gufunc.c.src lines 166-169. -/
def library : List UFunc := floatU ++ [
  fd "debye1" 1, fd "loggamma1p" 1, fd "linear_interp1d" 3, absSquaredU "abs_squared", absSquaredU "abssq", allSameU, orderedU,
  firstU, argfirstU, backlashSumU, bincountU, bincountwU, convertToBaseU, pearsonU, crossU "cross3", crossU "cross2", madU "mad",
  madU "rmad", madU "gini", meanvarU, argminU "argmin", argminU "argmax", argminU "argminmax", minmaxU,
  minArgminU "min_argmin", minArgminU "max_argmax", oneHotU, percentileU, peaktopeakU, searchsortedU "searchsortedl",
  searchsortedU "searchsortedr", issnanU, log1pU "log1p_theorem4", log1pU "log1p_doubledouble", logfactorialU,
  sosfilterIcU "sosfilter_ic", sosfilterIcU "sosfilter_ic_contig", triAreaIndexedU, vnormU, rmsU, wjaccardU]

end Ufunclab.Dispatch

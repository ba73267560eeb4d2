/-!
# Model of ufunclab/__init__.py: lazy attribute lookup

Importing a module is modelled as finding its table of public definitions; an import error is
`none`.
-/
namespace Ufunclab.LazyImport

/-- `_name_to_module`, ufunclab/__init__.py lines 25-106, in order. -/
def nameToModule : List (String × String) := [
  ("bincount", "._wrapped"),
  ("convert_to_base", "._wrapped"),
  ("nextn_greater", "._wrapped"),
  ("nextn_less", "._wrapped"),
  ("one_hot", "._wrapped"),
  ("hypot3", "._hypot3"),
  ("logfactorial", "._logfact"),
  ("loggamma1p", "._loggamma1p"),
  ("issnan", "._issnan"),
  ("abs_squared", "._abs_squared"),
  ("abssq", "._abssq"),
  ("log1p_theorem4", "._log1p"),
  ("log1p_doubledouble", "._log1p"),
  ("debye1", "._debye1"),
  ("expint1", "._expint1"),
  ("logexpint1", "._expint1"),
  ("pow1pm1", "._pow1pm1"),
  ("logistic", "._logistic"),
  ("logistic_deriv", "._logistic"),
  ("log_logistic", "._logistic"),
  ("swish", "._logistic"),
  ("nan_to_num", "._nan_to_num"),
  ("hyperbolic_ramp", "._ramp"),
  ("exponential_ramp", "._ramp"),
  ("yeo_johnson", "._yeo_johnson"),
  ("inv_yeo_johnson", "._yeo_johnson"),
  ("cross3", "._cross"),
  ("cross2", "._cross"),
  ("ordered", "._ordered"),
  ("searchsortedl", "._searchsorted"),
  ("searchsortedr", "._searchsorted"),
  ("peaktopeak", "._peaktopeak"),
  ("argmin", "._minmax"),
  ("argmax", "._minmax"),
  ("minmax", "._minmax"),
  ("argminmax", "._minmax"),
  ("min_argmin", "._minmax"),
  ("max_argmax", "._minmax"),
  ("multivariate_logbeta", "._multivariate_logbeta"),
  ("gmean", "._means"),
  ("gmeanw", "._means"),
  ("hmean", "._means"),
  ("hmeanw", "._means"),
  ("pmean", "._means"),
  ("pmeanw", "._means"),
  ("meanvar", "._meanvar"),
  ("kbnsum", "._kbnsum"),
  ("pearson_corr", "._corr"),
  ("wjaccard", "._wjaccard"),
  ("mad", "._mad"),
  ("rmad", "._mad"),
  ("gini", "._mad"),
  ("vnorm", "._vnorm"),
  ("rms", "._vnorm"),
  ("vdot", "._vnorm"),
  ("tri_area", "._tri_area"),
  ("tri_area_indexed", "._tri_area"),
  ("softmax", "._softmax"),
  ("unwrap", "._unwrap"),
  ("backlash", "._backlash"),
  ("backlash_sum", "._backlash"),
  ("fillnan1d", "._fillnan1d"),
  ("linear_interp1d", "._linear_interp1d"),
  ("deadzone", "._deadzone"),
  ("trapezoid_pulse", "._trapezoid_pulse"),
  ("hysteresis_relay", "._hysteresis_relay"),
  ("all_same", "._all_same"),
  ("sosfilter", "._sosfilter"),
  ("sosfilter_ic", "._sosfilter"),
  ("sosfilter_ic_contig", "._sosfilter"),
  ("step", "._step"),
  ("linearstep", "._step"),
  ("smoothstep3", "._step"),
  ("invsmoothstep3", "._step"),
  ("smoothstep5", "._step"),
  ("next_greater", "._next"),
  ("next_less", "._next"),
  ("gendot", "._gendot_wrap"),
  ("ufunc_inspector", "._ufunc_inspector"),
  ("__version__", "._version")]

/-- The names that the modules define, by module.  Sources: the `UFunc`/`Func` names in
src/*/define_cxx_gufunc_extmod.py and src/*/define_cxxgen_extmods.py, the `PyModule_AddObject`
and `ul_define_gufunc` calls of the hand-written modules, the `def` statements of
ufunclab/_wrapped.py and ufunclab/_gendot_wrap.py, and meson.build lines 20-28 for `_version`. -/
def moduleDefs : List (String × List String) := [
  ("._all_same", ["all_same"]),
  ("._backlash", ["backlash", "backlash_sum"]),
  ("._bincount", ["bincount", "bincountw"]),
  ("._convert_to_base", ["convert_to_base"]),
  ("._corr", ["pearson_corr"]),
  ("._cross", ["cross3", "cross2"]),
  ("._fillnan1d", ["fillnan1d"]),
  ("._first", ["first", "argfirst"]),
  ("._hysteresis_relay", ["hysteresis_relay"]),
  ("._kbnsum", ["kbnsum"]),
  ("._mad", ["mad", "rmad", "gini"]),
  ("._meanvar", ["meanvar"]),
  ("._minmax", ["argmin", "argmax", "minmax", "argminmax", "min_argmin", "max_argmax"]),
  ("._multivariate_logbeta", ["multivariate_logbeta"]),
  ("._nextn", ["nextn_greater", "nextn_less"]),
  ("._one_hot", ["one_hot"]),
  ("._ordered", ["ordered"]),
  ("._percentileofscore", ["percentileofscore"]),
  ("._softmax", ["softmax"]),
  ("._sosfilter", ["sosfilter", "sosfilter_ic", "sosfilter_ic_contig"]),
  ("._tri_area", ["tri_area", "tri_area_indexed"]),
  ("._unwrap", ["unwrap"]),
  ("._vnorm", ["vnorm", "rms", "vdot"]),
  ("._wjaccard", ["wjaccard"]),
  ("._abs_squared", ["abs_squared"]),
  ("._deadzone", ["deadzone"]),
  ("._expint1", ["expint1", "logexpint1"]),
  ("._hypot3", ["hypot3"]),
  ("._logistic", ["logistic", "logistic_deriv", "log_logistic", "swish"]),
  ("._nan_to_num", ["nan_to_num"]),
  ("._next", ["next_greater", "next_less"]),
  (".normal", ["cdf", "logcdf", "sf", "logsf", "erfcx"]),
  ("._pow1pm1", ["pow1pm1"]),
  ("._ramp", ["hyperbolic_ramp", "exponential_ramp"]),
  (".semivar", ["exponential", "linear", "spherical", "parabolic"]),
  ("._step", ["step", "linearstep", "smoothstep3", "invsmoothstep3", "smoothstep5"]),
  ("._trapezoid_pulse", ["trapezoid_pulse"]),
  ("._yeo_johnson", ["yeo_johnson", "inv_yeo_johnson"]),
  ("._means", ["gmean", "gmeanw", "hmean", "hmeanw", "pmean", "pmeanw"]),
  ("._debye1", ["debye1"]),
  ("._linear_interp1d", ["linear_interp1d"]),
  ("._searchsorted", ["searchsortedl", "searchsortedr"]),
  ("._loggamma1p", ["loggamma1p"]),
  ("._logfact", ["logfactorial"]),
  ("._issnan", ["issnan"]),
  ("._abssq", ["abssq"]),
  ("._ufunc_inspector", ["ufunc_inspector"]),
  ("._log1p", ["log1p_theorem4", "log1p_doubledouble"]),
  ("._peaktopeak", ["peaktopeak"]),
  ("._gendot", ["_gendot"]),
  ("._gendot_wrap", ["gendot"]),
  ("._wrapped", ["bincount", "convert_to_base", "nextn_greater", "nextn_less", "one_hot"]),
  ("._version", ["__version__"])]

/-- What evaluating `ufunclab.name` gives. -/
inductive Attr where
  /-- the submodule -/
  | module (m : String)
  /-- the object `name` of module `m` -/
  | object (m name : String)
  | attributeError
  | importError
  deriving DecidableEq

/-- Names bound at import time, which never reach `__getattr__`: lines 8-19, 123-136 (the private
ones left out); `normal.erfcx` is moved to the top level. -/
def eager : List (String × Attr) := [
  ("normal", .module ".normal"), ("erfcx", .object ".normal" "erfcx"),
  ("first", .object "._first" "first"), ("argfirst", .object "._first" "argfirst"),
  ("percentileofscore", .object "._percentileofscore" "percentileofscore"),
  ("op", .object "." "op")]

/-- `getattr(import_module(m), name)`. -/
def importFrom (m name : String) : Attr :=
  match moduleDefs.lookup m with
  | none => .importError
  | some defs => if name ∈ defs then .object m name else .attributeError

/-- `__getattr__`, lines 109-120. -/
def getattr (name : String) : Attr :=
  if name = "semivar" then
    match moduleDefs.lookup ("." ++ name) with | none => .importError | some _ => .module ("." ++ name)
  else
    match nameToModule.lookup name with
    | none => .attributeError
    | some m => importFrom m name

/-- Attribute access on the module `ufunclab`. -/
def resolve (name : String) : Attr :=
  match eager.lookup name with
  | some a => a
  | none => getattr name

/-- `__all__` (= `__dir__()`) before sorting, lines 142-147. -/
def all : List String := nameToModule.map Prod.fst ++ ["first", "argfirst", "op", "percentileofscore"]

end Ufunclab.LazyImport

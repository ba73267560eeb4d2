import Verif.Spec.ModInit
/-!
# Model of the initialisation functions of the extension modules
-/
namespace Ufunclab.ModInit

/-- `Py_DECREF(module)`: a module that is freed releases the objects in its dictionary. -/
def decMod (h : Heap) : Heap :=
  if h.modRc = 1 then { h with modRc := 0, dict := [], rc := fun o => h.rc o - ((h.dict.map Prod.snd).count (some o) : Nat) }
  else { h with modRc := h.modRc - 1 }

/-- `Py_DECREF(ufunc)`. -/
def decUfunc (o : Nat) (h : Heap) : Heap := { h with rc := fun q => if q = o then h.rc q - 1 else h.rc q }

/-- `PyUFunc_FromFuncAndData...`: a new object with one reference. -/
def newUfunc (h : Heap) : Heap := { h with rc := fun q => if q = h.next then 1 else h.rc q, next := h.next + 1 }

/-- `PyModule_AddObject`, `PyModule_AddIntConstant`, when they succeed: the dictionary takes over the reference; an object already
there under the name is released. -/
def bind (name : String) (v : Option Nat) (h : Heap) : Heap :=
  { h with dict := h.dict.filter (fun e => e.1 != name) ++ [(name, v)],
           rc := fun o => h.rc o - (((h.dict.filter fun e => e.1 == name).map Prod.snd).count (some o) : Nat) }

/-- Define item `i`: `ul_define_gufunc` (src/util/ufunc_tools.h lines 49-72), the code written out in the other modules (for example
src/peaktopeak/peaktopeak_gufunc.c.src lines 469-488) and in tools/cxxgen/generate_ufunc_extmod.py lines 70-90; for a constant one round of
`add_comparison_constants` (src/first/first_gufunc.h lines 285-299) or `add_percentileofscore_kind_constants`
(src/percentileofscore/percentileofscore_gufunc.h lines 95-108).  `false` = error. -/
def define (env : Env) (i : Nat) (it : Item) (h : Heap) : Heap × Bool :=
  match it with
  | .ufunc name =>
    if env (.make i) then
      let o := h.next
      let h := newUfunc h
      if env (.add i) then (bind name (some o) h, true) else (decUfunc o h, false)
    else (h, false)
  | .const name => if env (.add i) then (bind name none h, true) else (h, false)

/-- The definitions one after the other; after an error `Py_DECREF(module); return NULL;`. -/
def defineAll (env : Env) : (i : Nat) → List Item → Heap → Heap × Bool
  | _, [], h => (h, true)
  | i, it :: its, h =>
    match define env i it h with
    | (h, false) => (decMod h, false)
    | (h, true) => defineAll env (i + 1) its h

/-- `PyModule_Create`. -/
def newMod (h : Heap) : Heap := { h with modRc := 1 }

/-- `PyInit_...` as written by tools/cxxgen/gufuncgen.py lines 542-594 and tools/cxxgen/generate_ufunc_extmod.py lines 40-90, and
`PyInit__ufunc_inspector` (src/ufunc-inspector/ufunc_inspector.c lines 338-352, no items): NumPy is imported before the module is created. -/
def initGenerated (env : Env) (items : List Item) (h : Heap) : Heap × Bool :=
  if env .numpy then
    if env .umath then
      if env .create then defineAll env 0 items (newMod h) else (h, false)
    else (h, false)
  else (h, false)

/-- `PyInit_...` of the modules written by hand (for example src/means/means_gufunc.c.src lines 740-803): the module is created first. -/
def initHand (env : Env) (items : List Item) (h : Heap) : Heap × Bool :=
  if env .create then
    let h := newMod h
    if env .numpy then
      if env .umath then defineAll env 0 items h else (h, false)
    else (h, false)
  else (h, false)

/-- The modules written by hand, with what they define, in order: src/means/means_gufunc.c.src 740-803, src/debye1/debye1_ufunc.c 99-139,
src/linear_interp1d/linear_interp1d_gufunc.c.src 226-249, src/searchsorted/searchsorted_gufunc.c.src 517-565, src/loggamma1p/loggamma1p_ufunc.c
99-141, src/logfactorial/logfactorial_ufunc.c 119-161, src/issnan/issnan_ufunc.c.src 144-183, src/abssq/abssq_ufunc.cpp 148-188,
src/log1p/log1p_ufunc.c 505-570, src/peaktopeak/peaktopeak_gufunc.c.src 448-490, src/gendot/gendotmodule.c 388-404 (a method table only). -/
def handModules : List (String × List Item) := [
  ("._means", [.ufunc "gmean", .ufunc "gmeanw", .ufunc "hmean", .ufunc "hmeanw", .ufunc "pmean", .ufunc "pmeanw"]),
  ("._debye1", [.ufunc "debye1"]),
  ("._linear_interp1d", [.ufunc "linear_interp1d"]),
  ("._searchsorted", [.ufunc "searchsortedl", .ufunc "searchsortedr"]),
  ("._loggamma1p", [.ufunc "loggamma1p"]),
  ("._logfact", [.ufunc "logfactorial"]),
  ("._issnan", [.ufunc "issnan"]),
  ("._abssq", [.ufunc "abssq"]),
  ("._log1p", [.ufunc "log1p_theorem4", .ufunc "log1p_doubledouble"]),
  ("._peaktopeak", [.ufunc "peaktopeak"]),
  ("._gendot", [])]

/-- Two of the generated modules, those with `extra_module_funcs`: src/first/define_cxx_gufunc_extmod.py lines 110-157 with
src/first/first_gufunc.h lines 289-290; src/percentileofscore/define_cxx_gufunc_extmod.py lines 24-41 with
percentileofscore_gufunc.h lines 99-100. -/
def extraModules : List (String × List Item) := [
  ("._first", [.ufunc "first", .ufunc "argfirst", .const "_LT", .const "_LE", .const "_EQ", .const "_NE", .const "_GT", .const "_GE"]),
  ("._percentileofscore", [.ufunc "percentileofscore", .const "_RANK", .const "_WEAK", .const "_STRICT", .const "_MEAN"])]

end Ufunclab.ModInit

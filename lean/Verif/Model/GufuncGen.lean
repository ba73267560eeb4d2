import Verif.Model.CxxGen
import Verif.Model.UfuncGen
/-!
# Model of `gen` in tools/cxxgen/gufuncgen.py: whole extension modules

The functions `gen` calls for one source are in Verif/Model/CxxGen.lean.  The text of the module is
modelled as a value (`Module`) holding the functions, arrays and registrations in it, with a semantics for
calling them.  Not modelled: the copying of the headers (lines 596-597), the include lines, the
functions that add constants to the module (`extra_module_funcs`, lines 585-592), and error handling in
the module initialisation function.
-/
namespace Ufunclab.GufuncGen
open PyStr CxxGen
open UfuncGen (npyType upper theOnly)

/-! ## ufunc_config_types.py -/

/-- `UFuncSource`, lines 6-14. -/
structure Source where
  funcname : List Char
  types : List (List Char)
  deriving DecidableEq

/-- `UFunc`, lines 17-56; the header name is left out. -/
structure UFunc where
  name : List Char
  docstring : List Char
  signature : List Char
  sources : List Source
  nonzero : Option (List (List Char)) := none
  process : Option (List Char) := none

/-- `UFuncExtMod`, lines 59-72; `extra_module_funcs` is left out. -/
structure ExtMod where
  modname : List Char
  docstring : List Char
  ufuncs : List UFunc

/-! ## generate_utils.py -/

/-- `typechar_to_npy_ctype`, lines 43-48; `none` is KeyError. -/
def npyCtype (c : Char) : Option (List Char) :=
  if c ≠ 'O' then (npyType c).map fun t => t.map Char.toLower else some "PyObject *".toList

/-! ## gufuncgen.py -/

/-- `get_varnames_from_docstring_and_sig`, lines 165-176; `nout` is the number of outputs. -/
def varnames (docstring : List Char) (nout : Nat) : List (List Char) :=
  docVars (docstring.takeWhile (· ≠ '\n')) ++
    if nout > 1 then (List.range nout).map fun k => "out".toList ++ (toString (k + 1)).toList else ["out".toList]

/-- `concrete_loop_function_name`, lines 266-271. -/
def loopName (corename : List Char) (ctypes : List (List Char)) : List Char :=
  "loop_".toList ++ corename ++
    (ctypes.map fun r => '_' :: (split "npy_".toList (dropSpaces r)).flatten).flatten

/-- `generate_concrete_loop`, lines 274-363: the function `name` declares pointers for the types in
`casts`, and calls `callee<templ...>` with pointers cast to these types. -/
structure LoopFn where
  name : List Char
  callee : List Char
  templ : List (List Char)
  casts : List (List Char)
  code : LoopCode

/-- One call of `generate_concrete_loop`. -/
def genFn (coreDims : List Dim) (shapes : List Shape) (vars : List (List Char)) (corename : List Char)
    (codes : List Char) (vts : List VT) : Option LoopFn :=
  (codes.mapM npyCtype).bind fun ctypes =>
  ((concrete codes vts).mapM npyCtype).bind fun vct =>
  some ⟨loopName corename ctypes, corename, ctypes, vct, genLoop coreDims shapes vars⟩

/-- `[t for t in coretypes if 'g' not in t.lower()]` where `long double` is `double` (`ld`),
lines 425-428. -/
def keep (ld : Bool) (types : List (List Char)) : List (List Char) :=
  if ld then types.filter fun t => 'g' ∉ t.map Char.toLower else types

/-- Lines 422-463 for one source.  Signatures of different lengths are a ragged array, which NumPy
refuses. -/
def genSource (ld : Bool) (coreDims : List Dim) (shapes : List Shape) (vars : List (List Char)) (s : Source) :
    Option (List LoopFn) :=
  let coretypes := keep ld s.types
  if ¬ ∀ t ∈ coretypes, (dropArrow t).length = (dropArrow (coretypes.headD [])).length then none
  else
    let cl := classify coretypes
    if cl.1.length = 0 then (genFn coreDims shapes vars s.funcname [] cl.2).map fun f => [f]
    else (zipStar cl.1).mapM fun codes => genFn coreDims shapes vars s.funcname codes cl.2

/-- `str.splitlines`. -/
def splitlines : (acc : List Char) → List Char → List (List Char)
  | acc, [] => if acc = [] then [] else [acc.reverse]
  | acc, '\r' :: '\n' :: s => acc.reverse :: splitlines [] s
  | acc, c :: s =>
    if c ∈ ['\n', '\r', '\x0b', '\x0c', '\x1c', '\x1d', '\x1e', '\u0085', '\u2028', '\u2029'] then
      acc.reverse :: splitlines [] s
    else splitlines (c :: acc) s

/-- `create_c_docstring_def`, lines 366-376; `max([])` raises ValueError. -/
def docDef (name docstring : List Char) : Option (List Char) :=
  let lines := splitlines [] docstring
  (lines.map List.length).max?.map fun llen =>
    "#define ".toList ++ upper name ++ "_DOCSTRING \\\n".toList ++
    lines.flatMap (fun l => '"' :: l ++ "\\n\"".toList ++ List.replicate (llen - l.length + 2) ' ' ++ "\\\n".toList) ++
    "\"\"".toList

/-- One gufunc of the generated module: the arguments of `ul_define_gufunc` (lines 565-571) with the
contents of the arrays, and what is assigned to `process_core_dims_func` (lines 576-583). -/
structure Gufunc where
  name : List Char
  /-- the macro passed as docstring -/
  docMacro : List Char
  signature : List Char
  nloops : Nat
  funcs : List (List Char)
  typecodes : List (List Char)
  /-- the checks in the generated `{name}_process_core_dims`, lines 503-522 -/
  checks : Option (List (List Char × Nat))
  process : Option (List Char)

/-- The generated module. -/
structure Module where
  name : List Char
  loops : List LoopFn
  /-- the definitions of the docstring macros, in order -/
  docs : List (List Char)
  ufuncs : List Gufunc

/-- Lines 503-522: the checks in the generated function, if there is one. -/
def genProcess (coreDims : List Dim) : Option (List (List Char)) → Option (Option (List (List Char × Nat)))
  | none => some none
  | some l => (genChecks coreDims l).map some

/-- The body of the loop of lines 393-522 and lines 560-583 for one gufunc. -/
def genUfunc (ld : Bool) (u : UFunc) : Option (List LoopFn × List Char × Gufunc) :=
  if u.nonzero.isSome ∧ u.process.isSome then none
  else
    (docDef u.name u.docstring).bind fun doc =>
    (parse u.signature).bind fun (coreDims, sin, sout) =>
    let vars := varnames u.docstring sout.length
    if sin.length + sout.length ≠ vars.length then none
    else
      (u.sources.mapM (genSource ld coreDims (sin ++ sout) vars)).bind fun fns =>
      ((u.sources.flatMap fun s : Source => typecodeRows (keep ld s.types)).mapM fun r : List Char => r.mapM npyType).bind fun rows =>
      (genProcess coreDims u.nonzero).bind fun checks =>
      some (fns.flatten, doc,
        { name := u.name
          docMacro := upper u.name ++ "_DOCSTRING".toList
          signature := u.signature
          nloops := fns.flatten.length
          funcs := fns.flatten.map LoopFn.name
          typecodes := rows.flatten
          checks := checks
          process := if u.nonzero.isSome then some (u.name ++ "_process_core_dims".toList) else u.process })

/-- `gen`, lines 379-599. -/
def gen (ld : Bool) (e : ExtMod) : Option Module :=
  (e.ufuncs.mapM (genUfunc ld)).bind fun us =>
  (docDef "MODULE".toList e.docstring).bind fun doc =>
  some { name := e.modname
         loops := us.flatMap fun x => x.1
         docs := us.map (fun x => x.2.1) ++ [doc]
         ufuncs := us.map fun x => x.2.2 }

/-! ## The prototype shown to the author of the core function -/

/-- An item of a parameter list: a core dimension, a pointer, a stride, an array of strides. -/
inductive Item (T : Type) where
  | dim (name : List Char)
  | ptr (t : T)
  | stride
  | strides (len : Nat)
  deriving DecidableEq

/-- `generate_declaration`, lines 207-254: the parameters in the prototype, a comment that tells how the
core function must be declared.  Pointers are to a template parameter or to a fixed type. -/
def prototype (coreDims : List Dim) (shapes : List Shape) (vts : List VT) : List (Item VT) :=
  (symbols coreDims).map Item.dim ++
  (shapes.zip vts).flatMap fun x => match x.1 with
    | .one (.str s) => if s = [] then [.ptr x.2] else [.ptr x.2, .stride]
    | .one (.int k) => if k ≠ 1 then [.ptr x.2, .stride] else [.ptr x.2]
    | .many ds => [.ptr x.2, .strides ds.length]

/-- The arguments of the call in the generated loop (lines 330-357). -/
def callItems (f : LoopFn) : List (Item (List Char)) :=
  f.code.callDims.map Item.dim ++
  (f.code.strides.zip f.casts).flatMap fun x => match x.1 with
    | .none => [.ptr x.2]
    | .step _ => [.ptr x.2, .stride]
    | .ptr _ len => [.ptr x.2, .strides len]

/-! ## Compiling and running the generated module -/

/-- A C identifier. -/
def isIdent (s : List Char) : Bool :=
  s.all (fun c => c.isAlphanum || c == '_') && (match s with | [] => false | c :: _ => !c.isDigit)

/-- The names the generated file declares at file scope, apart from those in the headers. -/
def Module.globals (M : Module) : List (List Char) :=
  M.loops.map LoopFn.name ++
  M.ufuncs.flatMap (fun U =>
    [U.name ++ "_typecodes".toList, U.name ++ "_funcs".toList, U.name ++ "_data".toList] ++
      if U.checks.isSome then [U.name ++ "_process_core_dims".toList] else []) ++
  [M.name ++ "_methods".toList, "moduledef".toList, "PyInit_".toList ++ M.name]

/-- The checks a compiler makes that can fail for the names and types in a configuration: the names at
file scope are identifiers and declared once, every loop declares a pointer for every variable (lines
294-295 pair variables and types), and the names in a generated `process_core_dims` function are declared once. -/
def Module.compiles (M : Module) : Bool :=
  M.globals.all isIdent && decide M.globals.Nodup &&
  M.loops.all (fun l => decide (l.code.vars.length ≤ l.casts.length)) &&
  M.ufuncs.all fun U => match U.checks with
    | none => true
    | some cs => decide (["ufunc".toList, "core_dim_sizes".toList] ++ cs.map Prod.fst).Nodup

/-- A call of the core function `callee<templ...>` with pointers of the given types. -/
structure TypedCall where
  callee : List Char
  templ : List (List Char)
  casts : List (List Char)
  call : CoreCall
  deriving DecidableEq

/-- NumPy calls the loop function `name` of the module. -/
def run (M : Module) (name : List Char) (args dimensions steps : List Int) : Option (List TypedCall) :=
  if M.compiles = false then none
  else
    (theOnly (fun l => l.name == name) M.loops).bind fun l =>
    (exec l.code args dimensions steps).map fun cs => cs.map fun c =>
      ⟨l.callee, l.templ, l.casts.take l.code.vars.length, c⟩

end Ufunclab.GufuncGen

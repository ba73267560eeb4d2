import Verif.Model.PyStr
import Verif.Model.Mem
/-!
# Model of tools/cxxgen/generate_ufunc_extmod.py, generate_concrete_cfuncs.py, generate_utils.py

The generator of the elementwise ufunc modules.  The generated C++ functions are modelled as
abstract programs with an execution semantics; names, type tables and docstrings are text.  In
these programs the generated variables `x0, x1, ...` and `px0, px1, ...` are represented by their
numbers.  A Python exception is `none`.
-/
namespace Ufunclab.UfuncGen
open PyStr

/-- `Func`, ufunc_config_types.py lines 74-79. -/
structure Func where
  cxxname : List Char
  ufuncname : List Char
  types : List (List Char)
  docstring : List Char

/-- `ExtMod`, ufunc_config_types.py lines 82-86: `funcs` is a dictionary from header names to lists
of functions. -/
structure ExtMod where
  modulename : List Char
  funcs : List (List Char × List Func)

/-! ## generate_utils.py -/

/-- `typechar_to_ctype[c]`, lines 6-13. -/
def ctype : Char → Option (List Char)
  | 'f' => some "float".toList
  | 'd' => some "double".toList
  | 'g' => some "long double".toList
  | 'F' => some "std::complex<float>".toList
  | 'D' => some "std::complex<double>".toList
  | 'G' => some "std::complex<long double>".toList
  | _ => none

/-- `typechar_to_npy_type[c]`, lines 16-40. -/
def npyType : Char → Option (List Char)
  | '?' => some "NPY_BOOL".toList
  | 'b' => some "NPY_BYTE".toList
  | 'h' => some "NPY_SHORT".toList
  | 'i' => some "NPY_INT".toList
  | 'l' => some "NPY_LONG".toList
  | 'q' => some "NPY_LONGLONG".toList
  | 'p' => some "NPY_INTP".toList
  | 'B' => some "NPY_UBYTE".toList
  | 'H' => some "NPY_USHORT".toList
  | 'I' => some "NPY_UINT".toList
  | 'L' => some "NPY_ULONG".toList
  | 'Q' => some "NPY_ULONGLONG".toList
  | 'f' => some "NPY_FLOAT".toList
  | 'd' => some "NPY_DOUBLE".toList
  | 'g' => some "NPY_LONGDOUBLE".toList
  | 'F' => some "NPY_CFLOAT".toList
  | 'D' => some "NPY_CDOUBLE".toList
  | 'G' => some "NPY_CLONGDOUBLE".toList
  | 'M' => some "NPY_DATETIME".toList
  | 'm' => some "NPY_TIMEDELTA".toList
  | 'O' => some "NPY_OBJECT".toList
  | 'P' => some "NPY_UINTP".toList
  | _ => none

/-- `typesig_to_ext`, lines 51-57: `typesig.replace('->', '_')`. -/
def ext : List Char → List Char
  | '-' :: '>' :: s => '_' :: ext s
  | c :: s => c :: ext s
  | [] => []

/-- `s.rfind(c)`. -/
def rfind (c : Char) (s : List Char) : Option Nat :=
  (find [c] s.reverse).map fun k => s.length - 1 - k

/-- `os.path.splitext` (posix): the last component is split at its last dot, leading dots do not
count. -/
def splitext (p : List Char) : List Char × List Char :=
  let start := match rfind '/' p with | some k => k + 1 | none => 0
  match rfind '.' p with
  | none => (p, [])
  | some dot =>
    if start ≤ dot ∧ ((p.take dot).drop start).any (· != '.') then (p.take dot, p.drop dot) else (p, [])

/-- `header_to_concrete_filenames`, lines 60-80. -/
def headerToConcrete (header : List Char) : Option (List Char × List Char) :=
  let (root, e) := splitext header
  if lstrip '.' e ∈ ["h".toList, "hh".toList, "hpp".toList, "h++".toList] then
    some (root ++ "_concrete".toList ++ ".h".toList, root ++ "_concrete".toList ++ ".cxx".toList)
  else none

/-! ## generate_concrete_cfuncs.py -/

/-- `in_types, out_type = typesig.split('->')` and `assert len(out_type) == 1`
(generate_concrete_cfuncs.py lines 56-57, generate_ufunc_extmod.py lines 206-207). -/
def parseSig (sig : List Char) : Option (List Char × Char) :=
  match split "->".toList sig with
  | [ins, [out]] => some (ins, out)
  | _ => none

/-- A generated function
`ret name(params[0] x0, params[1] x1, ...) { return callee(x_{args[0]}, ...); }`. -/
structure Concrete where
  name : List Char
  ret : List Char
  params : List (List Char)
  callee : List Char
  args : List Nat
  deriving DecidableEq

/-- `f'{func.ufuncname}_{funcname_ext}'`, line 63. -/
def concreteName (uname sig : List Char) : List Char := uname ++ '_' :: ext sig

/-- Lines 56-77: the function generated for one type signature. -/
def genConcrete (f : Func) (sig : List Char) : Option Concrete :=
  (parseSig sig).bind fun (ins, out) =>
  (ins.mapM ctype).bind fun params =>
  (ctype out).bind fun ret =>
  some ⟨concreteName f.ufuncname sig, ret, params, f.cxxname, List.range ins.length⟩

/-! ## generate_ufunc_extmod.py -/

/-- A generated loop function:
`px_k = args[ptrs[k]]; pout = args[outArg];`
`for (int j = 0; j < dimensions[0]; ++j, px_k += steps[incs[k]], pout += steps[outStep])`
`{ x_k = *((reads[k].1 *) px_{reads[k].2}); *((outType *) pout) = callee(x_{args[0]}, ...); }`. -/
structure Loop where
  name : List Char
  ptrs : List Nat
  outArg : Nat
  incs : List Nat
  outStep : Nat
  reads : List (List Char × Nat)
  outType : List Char
  callee : List Char
  args : List Nat
  deriving DecidableEq

/-- Line 215. -/
def loopName (uname sig : List Char) : List Char := uname ++ '_' :: ext sig ++ "_loop".toList

/-- Lines 206-239: the loop generated for one type signature.  `k` in lines 223 and 228 is the last
value of the preceding `for k in range(nin)`; simplified: with no inputs, where `k` is stale or
undefined, the model fails. -/
def genLoop (f : Func) (sig : List Char) : Option Loop :=
  (parseSig sig).bind fun (ins, out) =>
  (ins.mapM ctype).bind fun ts =>
  (ctype out).bind fun ret =>
  let nin := ins.length
  if nin = 0 then none
  else
    let k := nin - 1
    some { name := loopName f.ufuncname sig
           ptrs := List.range nin
           outArg := k + 1
           incs := List.range nin
           outStep := k + 1
           reads := ts.zip (List.range nin)
           outType := ret
           callee := f.ufuncname ++ '_' :: ext sig
           args := List.range nin }

/-- One row of the type array, lines 249-252. -/
def typeRow (sig : List Char) : Option (List (List Char)) :=
  (parseSig sig).bind fun (ins, out) =>
  (ins.mapM npyType).bind fun ts => (npyType out).bind fun t => some (ts ++ [t])

/-- What is passed to `PyUFunc_FromFuncAndData` (`nout` is 1), lines 66-78. -/
structure UfuncDef where
  name : List Char
  ntypes : Nat
  nin : Nat
  /-- the array `{name}_types` -/
  types : List (List Char)
  /-- the array `{name}_funcs`: names of loop functions -/
  funcs : List (List Char)
  deriving DecidableEq

/-- Lines 67-78 and 247-267. -/
def genUfunc (f : Func) : Option UfuncDef :=
  (f.types.mapM typeRow).bind fun rows =>
  match f.types with
  | [] => none
  | sig :: _ =>
    some { name := f.ufuncname
           ntypes := f.types.length
           nin := ((split "->".toList sig).headD []).length
           types := rows.flatten
           funcs := f.types.map (loopName f.ufuncname) }

/-- The generated code of one extension module, `generate_concrete_cfuncs` for each header and
`generate_ufunc_extmod` together. -/
structure Module where
  concretes : List Concrete
  loops : List Loop
  ufuncs : List UfuncDef

/-- The functions of the module in order. -/
def ExtMod.allFuncs (e : ExtMod) : List Func := e.funcs.flatMap Prod.snd

/-- generate_ufuncs.py lines 15-20, for one extension module.  Not modelled: the names of the files
written, the copying of headers. -/
def generate (e : ExtMod) : Option Module :=
  ((e.allFuncs.flatMap fun f => f.types.map fun s => (f, s)).mapM fun x => genConcrete x.1 x.2).bind fun cs =>
  ((e.allFuncs.flatMap fun f => f.types.map fun s => (f, s)).mapM fun x => genLoop x.1 x.2).bind fun ls =>
  (e.allFuncs.mapM genUfunc).bind fun us => some ⟨cs, ls, us⟩

/-! ## Execution of the generated functions -/

section Exec
variable {V : Type _}

/-- The only element with a property; `none` also when there are several (a redefinition does not
compile). -/
def theOnly {α : Type _} (p : α → Bool) (l : List α) : Option α :=
  match l.filter p with
  | [x] => some x
  | _ => none

/-- Memory cells carry the C type they hold. -/
abbrev Cell (V : Type _) := List Char × V

/-- Calling the generated function `name` on arguments of types `ts`.
`lib callee ret types args` is the templated C++ function of the header, instantiated at the argument
types, its value converted to `ret`.  The result comes with its type.  An implicit conversion of an
argument is not modelled (`none`). -/
def call (cs : List Concrete) (lib : List Char → List Char → List (List Char) → List V → V) (name : List Char)
    (ts : List (List Char)) (vals : List V) : Option (Cell V) :=
  (theOnly (fun c => c.name == name) cs).bind fun c =>
  if c.params ≠ ts ∨ vals.length ≠ ts.length then none
  else
    (c.args.mapM fun k => c.params[k]?).bind fun ts' =>
    (c.args.mapM fun k => vals[k]?).bind fun vs => some (c.ret, lib c.callee c.ret ts' vs)

/-- `x = *((t *) p)`; `none` if the cell holds another type. -/
def load (m : Mem (Cell V)) (t : List Char) (p : Int) : Option V := if (m p).1 = t then some (m p).2 else none

/-- The body of a generated loop.  A result converted by the store is not modelled (`none`). -/
def body (cs : List Concrete) (lib : List Char → List Char → List (List Char) → List V → V) (l : Loop)
    (ptrs : List Int) (pout : Int) (m : Mem (Cell V)) : Option (Mem (Cell V)) :=
  (l.reads.mapM fun r => (ptrs[r.2]?).bind (load m r.1)).bind fun xs =>
  (l.args.mapM fun k => xs[k]?).bind fun vals =>
  (l.args.mapM fun k => (l.reads[k]?).map Prod.fst).bind fun ts =>
  (call cs lib l.callee ts vals).bind fun v => if v.1 = l.outType then some (m.store pout v) else none

/-- The `for` statement; `j` is a C `int`. -/
def iterate (cs : List Concrete) (lib : List Char → List Char → List (List Char) → List V → V) (l : Loop) (steps : List Int) (n : Int) :
    (fuel : Nat) → (j : Int) → (ptrs : List Int) → (pout : Int) → Mem (Cell V) → Option (Mem (Cell V))
  | 0, _, _, _, _ => none
  | fuel + 1, j, ptrs, pout, m =>
    if ¬ j < n then some m
    else
      (body cs lib l ptrs pout m).bind fun m =>
      if j + 1 ≥ 2 ^ 31 then none
      else
        (l.incs.mapM fun k => steps[k]?).bind fun ds =>
        (steps[l.outStep]?).bind fun d =>
        iterate cs lib l steps n fuel (j + 1) (ptrs.zipWith (· + ·) ds) (pout + d) m

/-- A generated loop function, called by NumPy. -/
def run (M : Module) (lib : List Char → List Char → List (List Char) → List V → V) (name : List Char) (args : List Int) (n : Nat)
    (steps : List Int) (m : Mem (Cell V)) : Option (Mem (Cell V)) :=
  (theOnly (fun l => l.name == name) M.loops).bind fun l =>
  (l.ptrs.mapM fun k => args[k]?).bind fun ptrs =>
  (args[l.outArg]?).bind fun pout => iterate M.concretes lib l steps n (n + 1) 0 ptrs pout m

end Exec

/-! ## Docstrings -/

/-- `s.upper()`; simplified: ASCII. -/
def upper (s : List Char) : List Char := s.map Char.toUpper

/-- `docstring.replace('\n', '\\n"\\\n"')`, line 10. -/
def breakLines : List Char → List Char
  | [] => []
  | '\n' :: s => '\\' :: 'n' :: '"' :: '\\' :: '\n' :: '"' :: breakLines s
  | c :: s => c :: breakLines s

/-- `cdef_docstring`, lines 8-11. -/
def cdefDocstring (funcname docstring : List Char) : List Char :=
  "#define ".toList ++ upper funcname ++ "_DOCSTRING \\\n\"".toList ++ breakLines docstring ++ ['"']

end Ufunclab.UfuncGen

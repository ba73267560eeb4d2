import Verif.Model.GufuncGen
import Verif.Spec.Gufunc
import Verif.Spec.UfuncGen
/-!
# What the gufunc generator should produce

NumPy's type characters, which configurations are reasonable, and how NumPy reads the registered arrays.
-/
namespace Ufunclab.GufuncGen.Spec
open PyStr CxxGen
open UfuncGen (upper)

/-- NumPy's type characters, type numbers and C types. -/
def typeTable : List (Char × String × String) :=
  [('?', "NPY_BOOL", "npy_bool"), ('b', "NPY_BYTE", "npy_byte"), ('h', "NPY_SHORT", "npy_short"), ('i', "NPY_INT", "npy_int"),
   ('l', "NPY_LONG", "npy_long"), ('q', "NPY_LONGLONG", "npy_longlong"), ('p', "NPY_INTP", "npy_intp"),
   ('B', "NPY_UBYTE", "npy_ubyte"), ('H', "NPY_USHORT", "npy_ushort"), ('I', "NPY_UINT", "npy_uint"),
   ('L', "NPY_ULONG", "npy_ulong"), ('Q', "NPY_ULONGLONG", "npy_ulonglong"), ('P', "NPY_UINTP", "npy_uintp"),
   ('f', "NPY_FLOAT", "npy_float"), ('d', "NPY_DOUBLE", "npy_double"), ('g', "NPY_LONGDOUBLE", "npy_longdouble"),
   ('F', "NPY_CFLOAT", "npy_cfloat"), ('D', "NPY_CDOUBLE", "npy_cdouble"), ('G', "NPY_CLONGDOUBLE", "npy_clongdouble"),
   ('M', "NPY_DATETIME", "npy_datetime"), ('m', "NPY_TIMEDELTA", "npy_timedelta"), ('O', "NPY_OBJECT", "PyObject *")]

/-- The type number of a type character. -/
def npyOf (c : Char) : List Char := match typeTable.find? (·.1 == c) with | some (_, t, _) => t.toList | none => []

/-- The C type of a type character. -/
def cTypeOf (c : Char) : List Char := match typeTable.find? (·.1 == c) with | some (_, _, t) => t.toList | none => []

/-- The text of a type signature such as `dd->d`. -/
def typeSig (ins outs : List Char) : List Char := ins ++ "->".toList ++ outs

/-- A C identifier. -/
def Ident (s : List Char) : Prop :=
  (∃ c r, s = c :: r ∧ c.isDigit = false) ∧ ∀ c ∈ s, c ∈ UfuncGen.Spec.identChars

/-- The names of the output variables. -/
def outNames (n : Nat) : List (List Char) :=
  if n = 1 then ["out".toList] else (List.range n).map fun k => "out".toList ++ (toString (k + 1)).toList

/-- A list without repetitions, in the order of the first occurrences. -/
def firsts {α : Type _} [DecidableEq α] : List α → List α
  | [] => []
  | a :: l => a :: (firsts l).filter (· ≠ a)

/-- The core dimensions of a signature, as NumPy numbers them. -/
def coreOf (ins outs : List (List (List Char))) : List Dim := firsts ((ins ++ outs).flatten.map dimOf)

/-- A reasonable source for `nin` inputs and `nout` outputs: a C++ function name, and distinct type
signatures of the right length over NumPy's type characters.  An argument is an object for all the signatures or for
none. -/
structure SourceOK (ld : Bool) (nin nout : Nat) (s : Source) : Prop where
  ident : Ident s.funcname
  types_ne : keep ld s.types ≠ []
  nodup : (keep ld s.types).Nodup
  sigs : ∀ t ∈ keep ld s.types, ∃ ins outs, t = typeSig ins outs ∧ ins.length = nin ∧ outs.length = nout ∧
    ∀ c ∈ ins ++ outs, c ∈ typeTable.map Prod.fst
  objects : ∀ t ∈ keep ld s.types, ∀ t' ∈ keep ld s.types, ∀ i : Nat, t[i]? = some 'O' → t'[i]? = some 'O'

/-- A reasonable gufunc, with shape signature written from `ins` and `outs` and variables `vars` on the
first line of the docstring. -/
structure UFuncOK (ld : Bool) (u : UFunc) (ins outs : List (List (List Char))) (vars : List (List Char)) : Prop where
  ident : Ident u.name
  prefixes : ¬ "loop_".toList <+: u.name ++ ['_'] ∧ ¬ "PyInit_".toList <+: u.name ++ ['_']
  ins_ne : ins ≠ []
  outs_ne : outs ≠ []
  signature : u.signature.filter (· ≠ ' ') = sigText ins outs
  tokens : ∀ t ∈ (ins ++ outs).flatten, Ident t ∨ t ≠ [] ∧ ∀ c ∈ t, c.isDigit
  own : ∀ t ∈ (ins ++ outs).flatten,
    t ∉ ["args".toList, "dimensions".toList, "steps".toList, "data".toList, "nloops".toList, "j".toList]
  pointers : ∀ v ∈ vars ++ outNames outs.length, "p_".toList ++ v ∉ (ins ++ outs).flatten
  doc : ∃ fname rest more, u.docstring = fname ++ ['('] ++ join [',', ' '] vars ++ [',', ' ', '/'] ++ rest ++ more ∧
    '(' ∉ fname ∧ ',' ∉ fname ∧ '\n' ∉ fname ∧ '\n' ∉ rest ∧ (more = [] ∨ ∃ m, more = '\n' :: m)
  vars_ident : ∀ v ∈ vars, Ident v
  vars_length : vars.length = ins.length
  vars_nodup : (vars ++ outNames outs.length).Nodup
  sources : ∀ s ∈ u.sources, SourceOK ld ins.length outs.length s
  process : u.nonzero = none ∨ u.process = none
  nonzero : ∀ l, u.nonzero = some l → l.Nodup ∧
    ∀ s ∈ l, s ∈ (ins ++ outs).flatten ∧ Ident s ∧ s ∉ ["ufunc".toList, "core_dim_sizes".toList]

/-- Two names of core functions whose loops cannot be confused: the names differ, and neither is the
other followed by `_` and the name of a type. -/
def Apart (a b : List Char) : Prop :=
  a ≠ b ∧ ∀ x ∈ typeTable, x.1 ≠ 'O' → ¬ (a ++ '_' :: (x.2.2.toList.drop 4)) <+: b ∧ ¬ (b ++ '_' :: (x.2.2.toList.drop 4)) <+: a

/-- A reasonable extension module. -/
structure Config (ld : Bool) (e : ExtMod) : Prop where
  ident : Ident e.modname
  prefixes : ¬ "loop_".toList <+: e.modname ++ ['_']
  docstring : e.docstring ≠ []
  ufuncs : ∀ u ∈ e.ufuncs, ∃ ins outs vars, UFuncOK ld u ins outs vars
  names : (e.ufuncs.map UFunc.name).Nodup
  cores : (e.ufuncs.flatMap UFunc.sources).Pairwise fun a b => Apart a.funcname b.funcname

/-- The loops a gufunc should have: signature number `r` of source `s`, for all sources in order. -/
def loopsOf (ld : Bool) (u : UFunc) : List (Source × Nat) :=
  u.sources.flatMap fun s => (List.range (keep ld s.types).length).map fun r => (s, r)

/-- The type characters of a signature. -/
def chars (t : List Char) : List Char := t.filter fun c => c ≠ '-' ∧ c ≠ '>'

/-- The template arguments for signature `r`: for every column of the table of signatures that is not
constant, in order and each distinct column once, its entry in row `r`. -/
def templateTypes (types : List (List Char)) (r : Nat) : List (List Char) :=
  let rows := types.map chars
  let cols := (List.range (rows.headD []).length).map fun i => rows.map fun row => row.getD i ' '
  (firsts (cols.filter fun c => decide (∃ x ∈ c, ∃ y ∈ c, x ≠ y))).map fun c => cTypeOf (c.getD r ' ')

/-- The types of loop `k`, as `PyUFunc_FromFuncAndDataAndSignature` reads them from the flat array; the
number of arguments is what `ul_define_gufunc` finds in the signature. -/
def loopTypes (U : Gufunc) (k : Nat) : List (List Char) :=
  let nargs := (ninNout U.signature).1 + (ninNout U.signature).2
  (U.typecodes.drop (k * nargs)).take nargs

/-- The type a parameter of the prototype has when the template is used with `templ`. -/
def instType (templ : List (List Char)) : VT → List Char
  | .idx k => templ.getD k []
  | .code c => cTypeOf c

/-- A parameter of the prototype when the template is used with `templ`. -/
def instItem (templ : List (List Char)) : Item VT → Item (List Char)
  | .dim n => .dim n
  | .ptr t => .ptr (instType templ t)
  | .stride => .stride
  | .strides k => .strides k

/-- A text whose last line is terminated. -/
def endLine (s : List Char) : List Char := if s.getLast? = some '\n' then s else s ++ ['\n']

/-- What the preprocessor replaces `name` by: the string in its definition, if there is exactly one. -/
def expand (docs : List (List Char)) (name : List Char) : Option (List Char) :=
  match docs.filterMap fun t => UfuncGen.Spec.macroString t name with
  | [v] => some v
  | _ => none

/-- The text can be pasted into a C string line by line. -/
def PlainText (s : List Char) : Prop :=
  s ≠ [] ∧ ∀ c ∈ s, c ∉ ['"', '\\', '\r', '\x0b', '\x0c', '\x1c', '\x1d', '\x1e', '\u0085', '\u2028', '\u2029']

end Ufunclab.GufuncGen.Spec

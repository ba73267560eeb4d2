import Verif.Model.UfuncGen
/-!
# What the ufunc generator should produce

NumPy's type characters and their C types and type numbers, how NumPy reads the arrays it is given,
and how a C compiler reads the macro that holds a docstring.
-/
namespace Ufunclab.UfuncGen.Spec

/-- The real and complex floating point types, with NumPy's type character, the C++ type and the type
number. -/
def floatTypes : List (Char × String × String) :=
  [('f', "float", "NPY_FLOAT"), ('d', "double", "NPY_DOUBLE"), ('g', "long double", "NPY_LONGDOUBLE"),
   ('F', "std::complex<float>", "NPY_CFLOAT"), ('D', "std::complex<double>", "NPY_CDOUBLE"),
   ('G', "std::complex<long double>", "NPY_CLONGDOUBLE")]

/-- The C++ type of a type character. -/
def cTypeOf (c : Char) : List Char :=
  match floatTypes.find? (·.1 == c) with
  | some (_, t, _) => t.toList
  | none => []

/-- The type number of a type character. -/
def npyOf (c : Char) : List Char :=
  match floatTypes.find? (·.1 == c) with
  | some (_, _, t) => t.toList
  | none => []

/-- The text of the type signature with inputs `ins` and output `out`, such as `dd->d`. -/
def sig (ins : List Char) (out : Char) : List Char := ins ++ "->".toList ++ [out]

/-- A signature over the floating point types. -/
def FloatSig (n : Nat) (s : List Char) : Prop :=
  ∃ ins out, s = sig ins out ∧ ins.length = n ∧ (∀ c ∈ ins, c ∈ floatTypes.map Prod.fst) ∧ out ∈ floatTypes.map Prod.fst

/-- A reasonable entry: at least one signature, none twice, all with the same positive number of
inputs. -/
structure Entry (f : Func) : Prop where
  types_ne : f.types ≠ []
  nodup : f.types.Nodup
  sigs : ∃ n, 0 < n ∧ ∀ s ∈ f.types, FloatSig n s

/-- A reasonable configuration: reasonable entries with distinct names. -/
structure Config (e : ExtMod) : Prop where
  entries : ∀ f ∈ e.allFuncs, Entry f
  names : (e.allFuncs.map Func.ufuncname).Nodup

/-- The types of loop `k`, as `PyUFunc_FromFuncAndData` reads them from the flat array: `nin + nout`
consecutive entries (`nout` is 1). -/
def loopTypes (U : UfuncDef) (k : Nat) : List (List Char) := (U.types.drop (k * (U.nin + 1))).take (U.nin + 1)

/-- C: a backslash and a newline are deleted (translation phase 2). -/
def splice : List Char → List Char
  | '\\' :: '\n' :: s => splice s
  | c :: s => c :: splice s
  | [] => []

/-- C: the value of a sequence of adjacent string literals, separated by blanks.  `inside` tells
whether the text starts within a literal.  Only simple escapes are read. -/
def literals : (inside : Bool) → List Char → Option (List Char)
  | false, [] => some []
  | false, ' ' :: s => literals false s
  | false, '"' :: s => literals true s
  | false, _ => none
  | true, '"' :: s => literals false s
  | true, '\\' :: 'n' :: s => (literals true s).map ('\n' :: ·)
  | true, '\\' :: 't' :: s => (literals true s).map ('\t' :: ·)
  | true, '\\' :: '\\' :: s => (literals true s).map ('\\' :: ·)
  | true, '\\' :: '"' :: s => (literals true s).map ('"' :: ·)
  | true, '\\' :: _ => none
  | true, '\n' :: _ => none
  | true, c :: s => (literals true s).map (c :: ·)
  | true, [] => none

/-- The string a macro `name` is replaced by, if the text defines it as a string (and nothing else is
in the text). -/
def macroString (text name : List Char) : Option (List Char) :=
  let line := splice text
  if '\n' ∈ line then none
  else
    let head := "#define ".toList ++ name ++ [' ']
    if head.isPrefixOf line then literals false (line.drop head.length) else none

/-- The characters of an identifier. -/
def identChars : List Char := "abcdefghijklmnopqrstuvwxyzABCDEFGHIJKLMNOPQRSTUVWXYZ0123456789_".toList

end Ufunclab.UfuncGen.Spec

import Verif.Model.PyStr
/-!
# Model of tools/cxxgen/gufuncgen.py and src/util/ufunc_tools.h

The generator's decisions are modelled as functions; the emitted C++ loop is modelled as an
abstract program (`LoopCode`) with an execution semantics, instead of as text.
-/
namespace Ufunclab.CxxGen
open PyStr

/-! ### classify_typenames, lines 8-70 -/

/-- Entries of the second return value: an index into the first, or a type code. -/
inductive VT where
  | idx (k : Nat)
  | code (c : Char)
  deriving DecidableEq, Repr

/-- `t.replace('->', '')`, line 56. -/
def dropArrow : List Char → List Char
  | '-' :: '>' :: s => dropArrow s
  | c :: s => c :: dropArrow s
  | [] => []

/-- `w = [''.join(c) for c in types.T]`, line 57.  Rows of unequal length make numpy raise;
the caller must not pass them (a shorter row would be padded here). -/
def columns (rows : List (List Char)) : List (List Char) :=
  (List.range (rows.headD []).length).map fun i => rows.map fun r => r.getD i ' '

/-- One iteration of the loop of lines 60-69 on column `w`. -/
def classifyStep (st : List (List Char) × List VT) (w : List Char) : List (List Char) × List VT :=
  if w.filter (· ≠ w.headD ' ') = [] then (st.1, st.2 ++ [.code (w.headD ' ')])
  else if w ∈ st.1 then (st.1, st.2 ++ [.idx (st.1.idxOf w)])
  else (st.1 ++ [w], st.2 ++ [.idx st.1.length])

/-- `classify_typenames` on signatures already stripped of the arrow. -/
def classifyRows (rows : List (List Char)) : List (List Char) × List VT :=
  (columns rows).foldl classifyStep ([], [])

/-- `classify_typenames`, lines 56-70. -/
def classify (types : List (List Char)) : List (List Char) × List VT :=
  classifyRows (types.map dropArrow)

/-- `zip(*template_types)`, line 452. -/
def zipStar (uts : List (List Char)) : List (List Char) :=
  (List.range ((uts.map List.length).min?.getD 0)).map fun r => uts.map fun u => u.getD r ' '

/-- `var_ctypes` of `generate_concrete_loop`, lines 286-292, as type codes. -/
def concrete (codes : List Char) (vts : List VT) : List Char :=
  vts.map fun | .idx k => codes.getD k ' ' | .code c => c

/-- The concrete loops produced for one source, lines 442-461: their argument type codes. -/
def loops (types : List (List Char)) : List (List Char) :=
  let cl := classify types
  if cl.1.length = 0 then [concrete [] cl.2] else (zipStar cl.1).map fun codes => concrete codes cl.2

/-- The rows of the typecodes table for one source, lines 470-480. -/
def typecodeRows (types : List (List Char)) : List (List Char) := types.map dropArrow

/-! ### parse_gufunc_signature, lines 73-134 -/

/-- An item of `toseq`. -/
inductive Dim where
  | str (s : List Char)
  | int (k : Nat)
  deriving DecidableEq, Repr

/-- A shape: a single item or a list. -/
inductive Shape where
  | one (d : Dim)
  | many (ds : List Dim)
  deriving DecidableEq, Repr

def toDim (s : List Char) : Dim :=
  match pyInt s with
  | some k => .int k
  | none => .str s

/-- `toseq`, lines 73-84. -/
def toseq (s : List Char) : Shape :=
  match (split [','] s).map toDim with
  | [d] => .one d
  | ds => .many ds

/-- `split_parts`, lines 87-89. -/
def splitParts (s : List Char) : List Shape :=
  (split [')', ',', '('] s).map fun p => toseq (rstrip ')' (lstrip '(' p))

/-- `flatten`, lines 92-94. -/
def flatten (parts : List Shape) : List Dim :=
  parts.flatMap fun | .one d => [d] | .many ds => ds

/-- `name = int(name)` with ValueError ignored, lines 128-131. -/
def reInt : Dim → Dim
  | .str s => toDim s
  | .int k => .int k

/-- The loop of lines 127-133. -/
def collect (ds : List Dim) : List Dim :=
  ds.foldl (fun acc d => if reInt d ≠ .str [] ∧ reInt d ∉ acc then acc ++ [reInt d] else acc) []

/-- `parse_gufunc_signature`; `none` when the string does not contain exactly one arrow. -/
def parse (sig : List Char) : Option (List Dim × List Shape × List Shape) :=
  match split ['-', '>'] (dropSpaces sig) with
  | [left, right] =>
    let sin := splitParts left
    let sout := splitParts right
    some (collect (flatten sin ++ flatten sout), sin, sout)
  | _ => none

/-- `get_varnames_from_docstring_and_sig`, lines 165-176, as far as the parameter names of the
first docstring line go (`line`): the text between the first `(` and the first `, /`. -/
def docVars (line : List Char) : List (List Char) :=
  let start := match find ['('] line with | some i => i + 1 | none => 0
  let params := match find [',', ' ', '/'] line with
    | some e => (line.take e).drop start
    | none => line.dropLast.drop start
  split [','] (dropSpaces params)

/-- `get_nin_nout`, src/util/ufunc_tools.h lines 27-42; `out` says that `pcount` points to
`nout`. -/
def ninNoutLoop : List Char → (out : Bool) → Nat → Nat → Nat × Nat
  | [], _, nin, nout => (nin, nout)
  | c :: s, out, nin, nout =>
    if c = '-' then ninNoutLoop s true nin nout
    else if c = '(' then
      if out then ninNoutLoop s out nin (nout + 1) else ninNoutLoop s out (nin + 1) nout
    else ninNoutLoop s out nin nout

def ninNout (sig : List Char) : Nat × Nat := ninNoutLoop sig false 0 0

/-! ### generate_concrete_loop, lines 274-363 -/

/-- What follows the pointer of a variable in the core call. -/
inductive StrideArg where
  /-- nothing -/
  | none
  /-- `steps[i]` -/
  | step (i : Nat)
  /-- `&steps[i]`, an array of `len` strides for the callee -/
  | ptr (i len : Nat)
  deriving DecidableEq, Repr

/-- The generated loop: for variable number `k`, named `v`, there is `p_v = args[k]` and
`p_v += steps[k]`. -/
structure LoopCode where
  vars : List (List Char)
  /-- `assert(dimensions[i] == v)`, lines 302-306 -/
  asserts : List (Nat × Nat)
  /-- `npy_intp name = dimensions[i]`, lines 307-310 -/
  decls : List (List Char × Nat)
  /-- core dimension names passed to the core function, lines 333-337 -/
  callDims : List (List Char)
  /-- stride arguments, lines 338-357 -/
  strides : List StrideArg
  deriving Repr

/-- The loop of lines 340-357; `istep` is the running index. -/
def genStrides : List Shape → (istep : Nat) → List StrideArg
  | [], _ => []
  | .one (.str s) :: r, istep => if s ≠ [] then .step istep :: genStrides r (istep + 1) else .none :: genStrides r istep
  | .one (.int _) :: r, istep => .step istep :: genStrides r (istep + 1)
  | .many ds :: r, istep => .ptr istep ds.length :: genStrides r (istep + ds.length)

/-- The integer core dimensions with their index in `dimensions` (lines 302-306). -/
def genAsserts : List Dim → (k : Nat) → List (Nat × Nat)
  | [], _ => []
  | .int v :: r, k => (k + 1, v) :: genAsserts r (k + 1)
  | .str _ :: r, k => genAsserts r (k + 1)

/-- The symbolic core dimensions with their index in `dimensions` (lines 307-310). -/
def genDecls : List Dim → (k : Nat) → List (List Char × Nat)
  | [], _ => []
  | .int _ :: r, k => genDecls r (k + 1)
  | .str s :: r, k => (s, k + 1) :: genDecls r (k + 1)

/-- `core_dim_symbols`, line 333. -/
def symbols : List Dim → List (List Char)
  | [] => []
  | .int _ :: r => symbols r
  | .str s :: r => s :: symbols r

/-- `generate_concrete_loop`; the caller has checked that there are as many variable names as shapes
(lines 405-407). -/
def genLoop (coreDims : List Dim) (shapes : List Shape) (vars : List (List Char)) : LoopCode where
  vars := vars
  asserts := genAsserts coreDims 0
  decls := genDecls coreDims 0
  callDims := symbols coreDims
  strides := genStrides shapes vars.length

/-- The names declared in the outermost block of the generated function: its parameters, the
pointers, the number of iterations and the core dimensions (lines 281-309). -/
def LoopCode.scope (c : LoopCode) : List (List Char) :=
  ["args".toList, "dimensions".toList, "steps".toList, "data".toList] ++ c.vars.map ("p_".toList ++ ·) ++
    ["nloops".toList] ++ c.decls.map Prod.fst

/-- One call of the core function: dimensions, pointers, strides per argument. -/
structure CoreCall where
  dims : List Int
  ptrs : List Int
  strides : List (List Int)
  deriving DecidableEq, Repr

/-- Value of a stride argument; reading `steps` outside its length is `none`. -/
def StrideArg.eval (steps : List Int) : StrideArg → Option (List Int)
  | .none => some []
  | .step i => (steps[i]?).map fun s => [s]
  | .ptr i len => if i + len ≤ steps.length then some ((steps.drop i).take len) else Option.none

/-- `p_k += steps[k]` for every variable. -/
def advance (steps : List Int) (ptrs : List Int) : List Int :=
  ptrs.zipWith (· + ·) steps

/-- The `for` loop: `j` is a C `int`, so `++j` at `2^31 - 1` is undefined (`none`). -/
def runLoop (call : (j : Int) → List Int → CoreCall) (steps : List Int) (nloops : Int) :
    (fuel : Nat) → (j : Int) → (ptrs : List Int) → Option (List CoreCall)
  | 0, _, _ => none
  | fuel + 1, j, ptrs =>
    if j < nloops then
      if j = 2 ^ 31 - 1 then none
      else (runLoop call steps nloops fuel (j + 1) (advance steps ptrs)).map (call j ptrs :: ·)
    else some []

/-- Execution of the generated function: the sequence of core calls.  `none` is a failed
assertion, a read outside `dimensions`/`steps`/`args`, a signed overflow, or a function that does not
compile because a name is declared twice or not at all.  The names in the core call are looked up
within the `for` statement (line 315), where `j` is the counter. -/
def exec (c : LoopCode) (args dimensions steps : List Int) : Option (List CoreCall) :=
  if ¬ c.scope.Nodup then none
  else if args.length < c.vars.length ∨ steps.length < c.vars.length then none
  else if c.asserts.all (fun a => dimensions[a.1]? == some (a.2 : Int)) = false then none
  else
    (dimensions[0]?).bind fun nloops =>
    (c.decls.mapM fun d => (dimensions[d.2]?).map fun v => (d.1, v)).bind fun env =>
    (c.callDims.mapM fun s => (env.lookup s).map fun v => (s, v)).bind fun dims =>
    (c.strides.mapM (StrideArg.eval steps)).bind fun strides =>
    runLoop (fun j ptrs => ⟨dims.map fun d => if d.1 = ['j'] then j else d.2, ptrs, strides⟩) steps nloops
      (nloops.toNat + 1) 0 (args.take c.vars.length)

/-! ### The generated `process_core_dims` function, lines 503-526 -/

/-- Generation fails (`none`) when a name is not a core dimension (`list.index` raises). -/
def genChecks (coreDims : List Dim) (nonzero : List (List Char)) : Option (List (List Char × Nat)) :=
  nonzero.mapM fun s => if Dim.str s ∈ coreDims then some (s, coreDims.idxOf (.str s)) else none

/-- The generated function: `error name` is ValueError naming the dimension, return value -1. -/
def processCoreDims (sizes : List Int) : List (List Char × Nat) → Except (List Char) Unit
  | [] => .ok ()
  | (s, i) :: r => if sizes.getD i 0 = 0 then .error s else processCoreDims sizes r

/-- A call of the gufunc as NumPy performs it: process the core dimensions, and run the loop
only when that succeeds. -/
def callGufunc (coreDims : List Dim) (shapes : List Shape) (vars : List (List Char)) (checks : List (List Char × Nat))
    (sizes args dimensions steps : List Int) : Except (List Char) (Option (List CoreCall)) :=
  match processCoreDims sizes checks with
  | .error s => .error s
  | .ok _ => .ok (exec (genLoop coreDims shapes vars) args dimensions steps)

end Ufunclab.CxxGen

import Mathlib.Data.List.Basic
/-!
# src/ufunc-inspector/ufunc_inspector.c

What `ufunc_inspector` prints.  Arrays are lists with checked access: an access outside the array
makes the result `none`.  `F` is the type of the addresses of inner loops, compared with `=`;
`gen s` is the address of the generic loop `PyUFunc_s` of NumPy.  `descr t` is what
`PyArray_DescrFromType` gives for the type number `t`: the character and the type name, `none` for NULL
(the C function has then set an exception).
-/
namespace Ufunclab.Inspector

/-- The fields of `PyUFuncObject` that are read.  `types` holds `char`s, `flags` 32-bit words. -/
structure UFunc (F : Type) where
  name : String
  coreEnabled : Bool
  signature : String
  nin : Nat
  nout : Nat
  nargs : Nat
  coreNumDimIx : Nat
  coreDimSizes : List Int
  coreDimFlags : List (BitVec 32)
  coreNumDims : List Nat
  coreDimIxs : List Int
  coreOffsets : List Nat
  opFlags : List Nat
  ntypes : Nat
  types : List Int
  functions : List F
  /-- `userloops`: NULL, or the items of the dictionary: the key and the argument types of the loops
  of the linked list. -/
  userloops : Option (List (Int × List (List Int)))

/-- `%3d`, lines 179-238. -/
def pad3 (z : Int) : String :=
  let s := toString z
  String.ofList (List.replicate (3 - s.length) ' ') ++ s

/-- print_core_dim_flags, lines 16-36.  The three bits are UFUNC_CORE_DIM_CAN_IGNORE (2),
UFUNC_CORE_DIM_SIZE_INFERRED (4) and UFUNC_CORE_DIM_MISSING (0x40000) of NumPy's ufuncobject.h. -/
def printFlags (flags : BitVec 32) : String :=
  let out := ""
  let addBar := false
  let (out, addBar) := if flags &&& 4#32 ≠ 0#32 then (out ++ "SIZE_INFERRED", true) else (out, addBar)
  let (out, addBar) :=
    if flags &&& 2#32 ≠ 0#32 then
      let out := if addBar then out ++ " | " else out
      (out ++ "CAN_IGNORE", true)
    else (out, addBar)
  if flags &&& 0x40000#32 ≠ 0#32 then
    let out := if addBar then out ++ " | " else out
    out ++ "MISSING"
  else out

/-- The loops of lines 98-106, 108-117, 119-127, 142-150 and 152-160: `for (i = i0; i < n; ++i)`, print
item `i` and then `]\n` after item `n-1` or `, ` after the others.  `fuel = n - i`. -/
def printList (item : Nat → Option String) (n : Nat) : (fuel i : Nat) → String → Option String
  | 0, _, out => some out
  | fuel + 1, i, out => do
    let s ← item i
    let out := out ++ s
    printList item n fuel (i + 1) (if i + 1 = n then out ++ "]\n" else out ++ ", ")

/-- The inner loop of lines 132-137, `last = offset + core_num_dims[i] - 1`. -/
def printIxs (ixs : List Int) (last : Nat) : (fuel j : Nat) → String → Option String
  | 0, _, out => some out
  | fuel + 1, j, out => do
    let d ← ixs[j]?
    let out := out ++ toString d
    printIxs ixs last fuel (j + 1) (if j ≠ last then out ++ ", " else out)

/-- The loop of lines 129-139. -/
def printDimIxs (u : UFunc F) : (fuel i : Nat) → String → Option String
  | 0, _, out => some out
  | fuel + 1, i, out => do
    let offset ← u.coreOffsets[i]?
    let nd ← u.coreNumDims[i]?
    let out ← printIxs u.coreDimIxs (offset + nd - 1) nd offset (out ++ " [")
    printDimIxs u fuel (i + 1) (out ++ "]")

/-- Lines 93-166. -/
def printHead (u : UFunc F) : Option String :=
  if u.coreEnabled then do
    let out := "'" ++ u.name ++ "' is a gufunc with signature '" ++ u.signature ++ "'.\n"
    let out := out ++ ("nin = " ++ toString u.nin ++ ", nout = " ++ toString u.nout ++ "\n")
    let out := out ++ ("...core_num_dim_ix  (number of distinct names in sig) = " ++ toString u.coreNumDimIx ++ "\n")
    let out := out ++ "...core_dim_sizes                  (-1 if not frozen) = ["
    let out ← printList (fun i => (u.coreDimSizes[i]?).map toString) u.coreNumDimIx u.coreNumDimIx 0 out
    let out := out ++ "...core_dim_flags             (UFUNC_CORE_DIM* flags) = ["
    let out ← printList (fun i => (u.coreDimFlags[i]?).map printFlags) u.coreNumDimIx u.coreNumDimIx 0 out
    let out := out ++ "...core_num_dims    (number of core dims in each arg) = ["
    let out ← printList (fun i => (u.coreNumDims[i]?).map toString) u.nargs u.nargs 0 out
    let out := out ++ "...core_dim_ixs      (dimension indices for each arg) ="
    let out ← printDimIxs u u.nargs 0 out
    let out := out ++ "\n"
    let out := out ++ "...core_offsets    (pos. of 1st core dim of each arg) = ["
    let out ← printList (fun i => (u.coreOffsets[i]?).map toString) u.nargs u.nargs 0 out
    let out := out ++ "...op_flags (flags for each op when called by nditer) = ["
    let out ← printList (fun i => (u.opFlags[i]?).map toString) u.nargs u.nargs 0 out
    some (out ++ ("ntypes = " ++ toString u.ntypes ++ "\n"))
  else
    let out := "'" ++ u.name ++ "' is a ufunc.\n"
    let out := out ++ ("nin = " ++ toString u.nin ++ ", nout = " ++ toString u.nout ++ "\n")
    some (out ++ ("ntypes = " ++ toString u.ntypes ++ "\n"))

/-- get_typechar_from_typenum, lines 39-54. -/
def typechar (descr : Int → Option (Char × Option String)) (t : Int) : Char :=
  match descr t with
  | some d => d.1
  | none => '!'

/-- get_typename_from_typenum, lines 59-77. -/
def typename (descr : Int → Option (Char × Option String)) (t : Int) : String :=
  match descr t with
  | some d => match d.2 with
    | some s => s
    | none => "<NULL>"
  | none => "<unknown>"

/-- The chain of CHECKFORs, lines 173-176: the first equal generic loop. -/
def checkFor [DecidableEq F] (gen : String → F) (f : F) : List String → String
  | [] => "not generic (or not in the checked generics)\n"
  | s :: rest => if f = gen s then "PyUFunc_" ++ s ++ "\n" else checkFor gen f rest

/-- Lines 183-196. -/
def unaryLoops : List String :=
  ["e_e", "e_e_As_f_f", "e_e_As_d_d", "f_f", "f_f_As_d_d", "d_d", "g_g", "F_F", "F_F_As_D_D", "D_D", "G_G", "O_O", "O_O_method", "On_Om"]

/-- Lines 207-219. -/
def binaryLoops : List String :=
  ["ee_e", "ee_e_As_ff_f", "ee_e_As_dd_d", "ff_f", "ff_f_As_dd_d", "dd_d", "gg_g", "FF_F", "FF_F_As_DD_D", "DD_D", "GG_G", "OO_O", "OO_O_method"]

/-- What has been printed, and whether a Python exception has been set by a failed
`PyArray_DescrFromType` (nothing in the file clears it). -/
structure Out where
  text : String
  err : Bool
deriving DecidableEq

/-- `printf` of one more piece. -/
def Out.put (o : Out) (s : String) : Out := { o with text := o.text ++ s }

/-- A call of `get_typechar_from_typenum` for each type number of the list, then one `printf` of
`(` the characters before the last `->` the last one `)  `: lines 181-182, 204-206, 228-231, 239-243. -/
def Out.chars (descr : Int → Option (Char × Option String)) (o : Out) (ins : List Int) (t : Int) : Out :=
  { text := o.text ++ ("(" ++ String.ofList (ins.map (typechar descr)) ++ "->" ++ String.ofList [typechar descr t] ++ ")  ")
    err := o.err || (ins.any fun t => (descr t).isNone) || (descr t).isNone }

/-- One pass of the loop of lines 171-246. -/
def printLoop [DecidableEq F] (gen : String → F) (descr : Int → Option (Char × Option String)) (u : UFunc F) (i : Nat) (out : Out) : Option Out :=
  if u.nin = 1 ∧ u.nout = 1 then do
    let t0 ← u.types[2 * i]?
    let t1 ← u.types[2 * i + 1]?
    let out := out.put (pad3 i ++ ":  " ++ pad3 t0 ++ " -> " ++ pad3 t1 ++ "  ")
    let out := out.chars descr [t0] t1
    let f ← u.functions[i]?
    some (out.put (checkFor gen f unaryLoops))
  else if u.nin = 2 ∧ u.nout = 1 then do
    let t0 ← u.types[3 * i]?
    let t1 ← u.types[3 * i + 1]?
    let t2 ← u.types[3 * i + 2]?
    let out := out.put (pad3 i ++ ": (" ++ pad3 t0 ++ ", " ++ pad3 t1 ++ ") -> " ++ pad3 t2 ++ "  ")
    let out := out.chars descr [t0, t1] t2
    let f ← u.functions[i]?
    some (out.put (checkFor gen f binaryLoops))
  else if u.nin = 3 ∧ u.nout = 1 then do
    let t0 ← u.types[4 * i]?
    let t1 ← u.types[4 * i + 1]?
    let t2 ← u.types[4 * i + 2]?
    let t3 ← u.types[4 * i + 3]?
    let out := out.put (pad3 i ++ ": (" ++ pad3 t0 ++ ", " ++ pad3 t1 ++ ", " ++ pad3 t2 ++ ") -> " ++ pad3 t3 ++ "  ")
    let out := out.chars descr [t0, t1, t2] t3
    some (out.put "\n")
  else if u.nin = 4 ∧ u.nout = 1 then do
    let t0 ← u.types[5 * i]?
    let t1 ← u.types[5 * i + 1]?
    let t2 ← u.types[5 * i + 2]?
    let t3 ← u.types[5 * i + 3]?
    let t4 ← u.types[5 * i + 4]?
    let out := out.put (pad3 i ++ ": (" ++ pad3 t0 ++ ", " ++ pad3 t1 ++ ", " ++ pad3 t2 ++ ", " ++ pad3 t3 ++ ") -> " ++ pad3 t4 ++ "  ")
    let out := out.chars descr [t0, t1, t2, t3] t4
    some (out.put "\n")
  else some out

/-- The loop of lines 171-246, `fuel = ntypes - i`. -/
def printLoops [DecidableEq F] (gen : String → F) (descr : Int → Option (Char × Option String)) (u : UFunc F) : (fuel i : Nat) → Out → Option Out
  | 0, _, out => some out
  | fuel + 1, i, out => do
    let out ← printLoop gen descr u i out
    printLoops gen descr u fuel (i + 1) out

/-- The loop of lines 266-271, `fuel = nin + nout - i`. -/
def printArgTypes (nin : Nat) (ts : List Int) : (fuel i : Nat) → Out → Option Out
  | 0, _, out => some out
  | fuel + 1, i, out => do
    let out := if i = nin then out.put "   out:" else out
    let t ← ts[i]?
    printArgTypes nin ts fuel (i + 1) (out.put (" " ++ toString t))

/-- The linked list of loops of one key, lines 264-274. -/
def printUserLoops (u : UFunc F) : List (List Int) → Out → Option Out
  | [], out => some out
  | ts :: rest, out => do
    let out ← printArgTypes u.nin ts (u.nin + u.nout) 0 (out.put "      arg_types:  in:")
    printUserLoops u rest (out.put "\n")

/-- The items of the dictionary, lines 253-275.  The keys are type numbers: `PyLong_AsLong` succeeds. -/
def printUser (descr : Int → Option (Char × Option String)) (u : UFunc F) : List (Int × List (List Int)) → Out → Option Out
  | [], out => some out
  | (key, loops) :: rest, out => do
    let out := out.put ("  typenum = " ++ toString key)
    let out := if out.err then out else
      { text := out.text ++ ("; type name is '" ++ typename descr key ++ "'"), err := (descr key).isNone }
    let out := out.put "\n"
    let out ← printUserLoops u loops out
    printUser descr u rest out

/-- ufunc_inspector, lines 80-320, for an argument that is a ufunc.  The function returns `None`; if
`err` is set then CPython turns this into a `SystemError` (a result returned with an exception set). -/
def inspect [DecidableEq F] (gen : String → F) (descr : Int → Option (Char × Option String)) (u : UFunc F) : Option Out := do
  let head ← printHead u
  let out : Out := { text := head, err := false }
  let out := if u.ntypes > 0 ∧ u.nin > 0 ∧ u.nin < 5 ∧ u.nout = 1 then out.put "loop types:\n" else out
  let out ← printLoops gen descr u u.ntypes 0 out
  match u.userloops with
  | none => some out
  | some d => printUser descr u d (out.put "Registered user loops:\n")

end Ufunclab.Inspector

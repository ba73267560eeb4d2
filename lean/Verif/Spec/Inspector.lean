import Verif.Model.Inspector
/-!
# What the report of `ufunc_inspector` should be
-/
namespace Ufunclab.InspectorSpec
open Inspector

/-- The strings of a list with `sep` between them. -/
def joined (sep : String) : List String → String
  | [] => ""
  | [a] => a
  | a :: b :: l => a ++ sep ++ joined sep (b :: l)

/-- Consecutive strings. -/
def lines : List String → String
  | [] => ""
  | a :: l => a ++ lines l

/-- A list in brackets. -/
def bracketed (l : List String) : String := "[" ++ joined ", " l ++ "]"

/-- The names of the flags of a core dimension. -/
def flagNames (f : BitVec 32) : List String :=
  (if f.getLsbD 2 then ["SIZE_INFERRED"] else []) ++ (if f.getLsbD 1 then ["CAN_IGNORE"] else []) ++ (if f.getLsbD 18 then ["MISSING"] else [])

/-- The arguments of loop `i` among the consecutive type numbers of all loops. -/
def loopTypes (nargs : Nat) (types : List Int) (i : Nat) : List Int := (types.drop (i * nargs)).take nargs

/-- The columns with the type numbers of a loop: inputs and output, e.g. `( 12,  12) ->  12`. -/
def numberColumns : List Int → String
  | [] => ""
  | [a, b] => " " ++ pad3 a ++ " -> " ++ pad3 b
  | ts => "(" ++ joined ", " (ts.dropLast.map pad3) ++ ") -> " ++ joined "" ((ts.drop (ts.length - 1)).map pad3)

/-- The same with the type characters, e.g. `(dd->d)`. -/
def charColumns (chars : List Char) : String :=
  "(" ++ String.ofList chars.dropLast ++ "->" ++ String.ofList (chars.drop (chars.length - 1)) ++ ")"

/-- The character of a type number (`!` if there is none). -/
def charOf (descr : Int → Option (Char × Option String)) (t : Int) : Char := ((descr t).map Prod.fst).getD '!'

/-- The name of the Python type of a type number. -/
def nameOf (descr : Int → Option (Char × Option String)) (t : Int) : String :=
  match descr t with
  | some (_, some s) => s
  | some (_, none) => "<NULL>"
  | none => "<unknown>"

/-- The generic loops that are recognised, for one and for two inputs. -/
def generics : Nat → Option (List String)
  | 1 => some ["e_e", "e_e_As_f_f", "e_e_As_d_d", "f_f", "f_f_As_d_d", "d_d", "g_g", "F_F", "F_F_As_D_D", "D_D", "G_G", "O_O", "O_O_method", "On_Om"]
  | 2 => some ["ee_e", "ee_e_As_ff_f", "ee_e_As_dd_d", "ff_f", "ff_f_As_dd_d", "dd_d", "gg_g", "FF_F", "FF_F_As_DD_D", "DD_D", "GG_G", "OO_O", "OO_O_method"]
  | _ => none

/-- `s` describes the inner loop `f` of a ufunc with `nin` inputs: the name of a recognised generic loop
with this address, a remark if there is none, nothing for more than two inputs. -/
def Describes {F : Type} (gen : String → F) (nin : Nat) (f : F) (s : String) : Prop :=
  match generics nin with
  | none => s = ""
  | some l => (∃ g ∈ l, f = gen g ∧ s = "PyUFunc_" ++ g) ∨ ((∀ g ∈ l, f ≠ gen g) ∧ s = "not generic (or not in the checked generics)")

/-- The line of one loop. -/
def loopLine (descr : Int → Option (Char × Option String)) (i : Nat) (ts : List Int) (what : String) : String :=
  pad3 i ++ ": " ++ numberColumns ts ++ "  " ++ charColumns (ts.map (charOf descr)) ++ "  " ++ what ++ "\n"

/-- The description of a ufunc or of a gufunc before the loops. -/
def head {F : Type} (u : UFunc F) : String :=
  if u.coreEnabled then
    "'" ++ u.name ++ "' is a gufunc with signature '" ++ u.signature ++ "'.\n" ++
    "nin = " ++ toString u.nin ++ ", nout = " ++ toString u.nout ++ "\n" ++
    "...core_num_dim_ix  (number of distinct names in sig) = " ++ toString u.coreNumDimIx ++ "\n" ++
    "...core_dim_sizes                  (-1 if not frozen) = " ++ bracketed (u.coreDimSizes.map toString) ++ "\n" ++
    "...core_dim_flags             (UFUNC_CORE_DIM* flags) = " ++ bracketed (u.coreDimFlags.map fun f => joined " | " (flagNames f)) ++ "\n" ++
    "...core_num_dims    (number of core dims in each arg) = " ++ bracketed (u.coreNumDims.map toString) ++ "\n" ++
    "...core_dim_ixs      (dimension indices for each arg) =" ++
      lines ((u.coreOffsets.zip u.coreNumDims).map fun a => " " ++ bracketed (((u.coreDimIxs.drop a.1).take a.2).map toString)) ++ "\n" ++
    "...core_offsets    (pos. of 1st core dim of each arg) = " ++ bracketed (u.coreOffsets.map toString) ++ "\n" ++
    "...op_flags (flags for each op when called by nditer) = " ++ bracketed (u.opFlags.map toString) ++ "\n" ++
    "ntypes = " ++ toString u.ntypes ++ "\n"
  else
    "'" ++ u.name ++ "' is a ufunc.\n" ++
    "nin = " ++ toString u.nin ++ ", nout = " ++ toString u.nout ++ "\n" ++
    "ntypes = " ++ toString u.ntypes ++ "\n"

/-- The lines of the loops registered for one user type. -/
def userLines (descr : Int → Option (Char × Option String)) (nin : Nat) (item : Int × List (List Int)) : String :=
  "  typenum = " ++ toString item.1 ++ "; type name is '" ++ nameOf descr item.1 ++ "'\n" ++
  lines (item.2.map fun ts =>
    "      arg_types:  in:" ++ lines ((ts.take nin).map fun t => " " ++ toString t) ++
    (if ts.length ≤ nin then "" else "   out:") ++ lines ((ts.drop nin).map fun t => " " ++ toString t) ++ "\n")

/-- All loops of a ufunc are listed if it has one to four inputs and one output. -/
def Listed {F : Type} (u : UFunc F) : Prop := 1 ≤ u.nin ∧ u.nin ≤ 4 ∧ u.nout = 1

instance {F : Type} (u : UFunc F) : Decidable (Listed u) := by unfold Listed; infer_instance

/-- The list of the loops; `what i` is the description of loop `i`. -/
def loopLines {F : Type} (descr : Int → Option (Char × Option String)) (u : UFunc F) (what : Nat → String) : String :=
  if Listed u then
    (if u.ntypes = 0 then "" else "loop types:\n") ++
    lines ((List.range u.ntypes).map fun i => loopLine descr i (loopTypes u.nargs u.types i) (what i))
  else ""

/-- The registered user loops. -/
def userReport {F : Type} (descr : Int → Option (Char × Option String)) (u : UFunc F) : String :=
  match u.userloops with
  | none => ""
  | some d => "Registered user loops:\n" ++ lines (d.map (userLines descr u.nin))

/-- A ufunc object as NumPy creates it. -/
structure WellFormed {F : Type} (u : UFunc F) : Prop where
  nargs : u.nargs = u.nin + u.nout
  nargs_pos : 0 < u.nargs
  dims_pos : u.coreEnabled → 0 < u.coreNumDimIx
  sizes : u.coreEnabled → u.coreDimSizes.length = u.coreNumDimIx
  flags : u.coreEnabled → u.coreDimFlags.length = u.coreNumDimIx
  numDims : u.coreEnabled → u.coreNumDims.length = u.nargs
  offsets : u.coreEnabled → u.coreOffsets.length = u.nargs
  ixs : u.coreEnabled → ∀ i (h : i < u.coreOffsets.length) (h' : i < u.coreNumDims.length), u.coreOffsets[i] + u.coreNumDims[i] ≤ u.coreDimIxs.length
  opFlags : u.coreEnabled → u.opFlags.length = u.nargs
  types : u.types.length = u.ntypes * u.nargs
  functions : u.functions.length = u.ntypes
  user : ∀ d, u.userloops = some d → ∀ k ∈ d, ∀ ts ∈ k.2, ts.length = u.nargs

end Ufunclab.InspectorSpec

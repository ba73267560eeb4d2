import Mathlib.Data.List.Count
import Mathlib.Data.List.Nodup
/-!
# Objects created by the initialisation of an extension module

Every step of an initialisation that calls Python or NumPy may fail; `Env` says which.
-/
namespace Ufunclab.ModInit

inductive Step where
  /-- `PyArray_ImportNumPyAPI()` -/
  | numpy
  /-- `import_umath()` or `import_ufunc()` -/
  | umath
  /-- `PyModule_Create` -/
  | create
  /-- creation of the object for item `i` -/
  | make (i : Nat)
  /-- adding it to the module -/
  | add (i : Nat)
  deriving DecidableEq

/-- Which steps succeed. -/
abbrev Env := Step → Bool

/-- What a module defines: a ufunc, or an integer constant. -/
inductive Item where
  | ufunc (name : String)
  | const (name : String)

def Item.name : Item → String
  | .ufunc n => n
  | .const n => n

def Item.isUfunc : Item → Bool
  | .ufunc _ => true
  | .const _ => false

/-- The objects on the heap: the module with its names (an integer constant is `none`), the reference
counts of the ufuncs by their serial number, and the next serial number. -/
structure Heap where
  modRc : Int
  dict : List (String × Option Nat)
  rc : Nat → Int
  next : Nat

/-- Nothing created yet. -/
def Heap.empty : Heap := ⟨0, [], fun _ => 0, 0⟩

/-- Nothing is left: the module and all ufuncs are freed. -/
def Heap.Clean (h : Heap) : Prop := h.modRc = 0 ∧ ∀ o, h.rc o = 0

/-- The module has exactly the names of `items`, in that order, ufuncs where ufuncs are declared, the caller owns the only
reference to the module and the module the only reference to each ufunc. -/
def Heap.Complete (h : Heap) (items : List Item) : Prop :=
  h.modRc = 1 ∧ h.dict.map Prod.fst = items.map Item.name ∧ (h.dict.map fun e => e.2.isSome) = items.map Item.isUfunc ∧
    (∀ o, h.rc o = if some o ∈ h.dict.map Prod.snd then 1 else 0) ∧ ∀ o, (h.dict.map Prod.snd).count (some o) ≤ 1

/-- All steps of the initialisation succeed. -/
def AllOk (env : Env) (items : List Item) : Prop :=
  env .numpy ∧ env .umath ∧ env .create ∧ ∀ i (h : i < items.length), (items[i].isUfunc → env (.make i)) ∧ env (.add i)

end Ufunclab.ModInit

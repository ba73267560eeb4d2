import Verif.Model.LazyImport
/-!
# Model of the package `ufunclab` over time: import, repeated import, reload, attribute access
-/
namespace Ufunclab.ImportState
open Ufunclab.LazyImport

/-- `sys.modules` and what belongs to it: the loaded submodules, whether `ufunclab.normal` still has the attribute `erfcx`, and, if the package itself is loaded, the names of
submodules bound in it. -/
structure World where
  loaded : List String
  erfcx : Bool
  pkg : Option (List String)

/-- A new interpreter. -/
def start : World := ⟨[], false, none⟩

/-- The submodules a Python submodule imports: ufunclab/_wrapped.py lines 11-15, ufunclab/_gendot_wrap.py line 2. -/
def deps : String → List String
  | "._wrapped" => ["._bincount", "._convert_to_base", "._nextn", "._one_hot"]
  | "._gendot_wrap" => ["._gendot"]
  | _ => []

/-- The name bound in the package for a submodule: without the dot. -/
def attrOf (m : String) : String := String.ofList (m.toList.drop 1)

/-- Importing a submodule: nothing if it is loaded; otherwise, if it can be loaded (`can`), it and what it imports are loaded and bound in the package. -/
def load (can : String → Bool) (m : String) (W : World) : World × Bool :=
  if m ∈ W.loaded then (W, true)
  else if can m && (moduleDefs.lookup m).isSome then
    ({ loaded := m :: deps m ++ W.loaded, erfcx := W.erfcx || m == ".normal", pkg := W.pkg.map fun b => (m :: deps m).map attrOf ++ b }, true)
  else (W, false)

/-- The body of ufunclab/__init__.py, lines 4-147, in a namespace that exists: `from . import normal`, `from .normal import erfcx`, `del normal.erfcx`, the two
imports of `first` and `percentileofscore`; the rest cannot fail.  `false` = ImportError. -/
def exec (can : String → Bool) (W : World) : World × Bool :=
  match load can ".normal" W with
  | (W, false) => (W, false)
  | (W, true) =>
    if W.erfcx then
      let W := { W with erfcx := false }
      match load can "._first" W with
      | (W, false) => (W, false)
      | (W, true) => load can "._percentileofscore" W
    else (W, false)

/-- `import ufunclab`: if it is in `sys.modules` nothing happens; otherwise the body is run, and on failure the package (not its submodules) is removed from `sys.modules`. -/
def importPkg (can : String → Bool) (W : World) : World × Bool :=
  match W.pkg with
  | some _ => (W, true)
  | none =>
    match exec can { W with pkg := some [] } with
    | (W, true) => (W, true)
    | (W, false) => ({ W with pkg := none }, false)

/-- `importlib.reload(ufunclab)`: the body is run again; on failure the package stays. -/
def reload (can : String → Bool) (W : World) : World × Bool := exec can W

/-- `ufunclab.name` for the imported package: names bound by the body of __init__.py, then submodules bound by imports, then `__getattr__` (lines 109-120). -/
def access (can : String → Bool) (name : String) (W : World) : World × Attr :=
  match eager.lookup name with
  | some a => (W, a)
  | none =>
    if name ∈ W.pkg.getD [] then (W, .module ("." ++ name))
    else if name = "semivar" then
      match load can ("." ++ name) W with
      | (W, true) => (W, .module ("." ++ name))
      | (W, false) => (W, .importError)
    else
      match nameToModule.lookup name with
      | none => (W, .attributeError)
      | some m =>
        match load can m W with
        | (W, false) => (W, .importError)
        | (W, true) => (W, importFrom m name)

/-- Attribute accesses one after the other; which modules can be loaded may change between them. -/
def accesses : List (String × (String → Bool)) → World → World
  | [], W => W
  | (name, can) :: rest, W => accesses rest (access can name W).1

end Ufunclab.ImportState

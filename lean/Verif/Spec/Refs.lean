import Verif.Model.Mem
/-!
# Reference counts of Python objects

Objects are numbered.  A state has the reference count of every object, the number of references
owned by the rest of the program (variables, other containers), and the cells of the object arrays;
a cell that is not NULL owns one reference.
-/
namespace Ufunclab.Refs

abbrev Obj := Nat

structure St where
  /-- `ob_refcnt` -/
  rc : Obj → Int
  /-- references owned elsewhere in the program -/
  ext : Obj → Int
  /-- the cells of object arrays, by address; `none` is NULL -/
  cell : Int → Option Obj
  /-- an exception is set (`PyErr_Occurred()`) -/
  err : Bool
  /-- a freed object, or NULL, was used -/
  dead : Bool
  /-- a function of the C API was called although an exception was set -/
  pend : Bool

/-- The number of cells among the addresses `A` that hold `o`. -/
def holders (A : List Int) (cell : Int → Option Obj) (o : Obj) : Int :=
  (A.countP fun a => cell a == some o : Nat)

/-- Every reference count is the number of owners: the rest of the program, the cells `A`, and the
list `L` of references that a C function holds in local variables.  At the end of a call `L` must be
empty: what is left in `L` is owned by nobody and is never released. -/
def Owned (A : List Int) (L : List Obj) (s : St) : Prop :=
  (∀ o, 0 ≤ s.ext o) ∧ ∀ o, s.rc o = s.ext o + holders A s.cell o + (L.count o : Nat)

/-- Python code called with two objects, with a result or (`none`) an exception: it may use and change
everything the program can reach, but keeps the counts right. -/
structure Sound (A : List Int) {β : Type _} (f : Obj → Obj → St → St × Option β) : Prop where
  owned : ∀ L s a b, Owned A L s → Owned A L (f a b s).1
  dead : ∀ s a b, (f a b s).1.dead = s.dead
  pend : ∀ s a b, (f a b s).1.pend = s.pend
  error : ∀ s a b, (f a b s).2 = none → (f a b s).1.err = true
  success : ∀ s a b, (f a b s).2 ≠ none → (f a b s).1.err = s.err

/-- It does not write to the cells `A`. -/
def Keeps (A : List Int) {β : Type _} (f : Obj → Obj → St → St × Option β) : Prop :=
  ∀ s a b, ∀ c ∈ A, (f a b s).1.cell c = s.cell c

/-- An arithmetic operation (`PyNumber_Multiply`, ...): the result is a new reference, owned by the
caller. -/
structure SoundNew (A : List Int) (f : Obj → Obj → St → St × Option Obj) : Prop where
  owned : ∀ L s a b, Owned A L s → match (f a b s).2 with
    | some r => Owned A (r :: L) (f a b s).1
    | none => Owned A L (f a b s).1
  dead : ∀ s a b, (f a b s).1.dead = s.dead
  pend : ∀ s a b, (f a b s).1.pend = s.pend
  error : ∀ s a b, (f a b s).2 = none → (f a b s).1.err = true
  success : ∀ s a b, (f a b s).2 ≠ none → (f a b s).1.err = s.err

end Ufunclab.Refs

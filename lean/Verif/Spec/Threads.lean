import Verif.Model.Mem
/-!
# Threads on a shared memory

A thread is a program that reads and writes cells one at a time; between two accesses it computes on
local variables only.  A schedule is the list of the thread numbers in the order of their accesses.
Accesses to a cell are atomic.
-/
namespace Ufunclab.Threads

inductive Prog (α : Type) where
  | done
  | read (a : Int) (k : α → Prog α)
  | write (a : Int) (v : α) (k : Prog α)

variable {α : Type}

/-- Running a program alone. -/
def Prog.run : Prog α → Mem α → Mem α
  | .done, m => m
  | .read a k, m => (k (m a)).run m
  | .write a v k, m => k.run (m.store a v)

/-- Every access of the program, whatever it reads, is a read in `R` or a write in `W`. -/
def Prog.Within (R W : Int → Prop) : Prog α → Prop
  | .done => True
  | .read a k => R a ∧ ∀ v, (k v).Within R W
  | .write a _ k => W a ∧ k.Within R W

/-- One access of thread `i`; nothing if it has ended. -/
def stepAt (i : Nat) (s : List (Prog α) × Mem α) : List (Prog α) × Mem α :=
  match s.1[i]? with
  | some (.read a k) => (s.1.set i (k (s.2 a)), s.2)
  | some (.write a v k) => (s.1.set i k, s.2.store a v)
  | _ => s

/-- Running the threads by a schedule. -/
def interleave (sched : List Nat) (s : List (Prog α) × Mem α) : List (Prog α) × Mem α :=
  sched.foldl (fun s i => stepAt i s) s

/-- All threads have ended. -/
def Finished (s : List (Prog α) × Mem α) : Prop := ∀ p ∈ s.1, p = .done

end Ufunclab.Threads

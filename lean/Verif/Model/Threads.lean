import Verif.Spec.Threads
import Verif.Model.Bincount
import Verif.Model.Signal
/-!
# The loops as sequences of memory accesses

NumPy releases the GIL while it runs loops without objects, so that other threads run at the same time.  The
C and C++ code has no static variables that are written after the import (the static arrays are the tables of loops, types and
coefficients; the `.data` pointers and module state are set in `PyInit_*`): a loop uses its arguments and local
variables only.  Each program below makes the accesses of the cited loop in their order.
-/
namespace Ufunclab.Threads
variable {α : Type}

/-- Reading a list of cells, in order. -/
def readAll : List Int → (List α → Prog α) → Prog α
  | [], k => k []
  | a :: as, k => .read a fun v => readAll as fun vs => k (v :: vs)

/-- Writing a list of cells, in order. -/
def writeAll : List (Int × α) → Prog α → Prog α
  | [], k => k
  | (a, v) :: ws, k => .write a v (writeAll ws k)

/-- A generated elementwise loop, tools/cxxgen/generate_ufunc_extmod.py lines 220-237: `args` are the inputs `px0, ...` with their steps. -/
def ufuncProg (f : List α → α) : (n : Nat) → (args : List (Int × Int)) → (pout so : Int) → Prog α
  | 0, _, _, _ => .done
  | n + 1, args, pout, so =>
    readAll (args.map (·.1)) fun vs => .write pout (f vs) (ufuncProg f n (args.map fun p => (p.1 + p.2, p.2)) (pout + so) so)

/-- The same loop on a memory (compare Model/Debye1, `loop`). -/
def ufuncLoop (f : List α → α) : (n : Nat) → (args : List (Int × Int)) → (pout so : Int) → Mem α → Mem α
  | 0, _, _, _, m => m
  | n + 1, args, pout, so, m =>
    ufuncLoop f n (args.map fun p => (p.1 + p.2, p.2)) (pout + so) so (m.store pout (f (args.map fun p => m p.1)))

/-- An operand of a gufunc with one core dimension: pointer, core stride, core length and the step from item to item. -/
structure Operand where
  p : Int
  stride : Int
  n : Nat
  step : Int

/-- The cells of item `j`. -/
def Operand.cells (o : Operand) (j : Nat) : List Int := (List.range o.n).map fun (i : Nat) => o.p + (j : Int) * o.step + (i : Int) * o.stride

/-- A generated gufunc loop (tools/cxxgen/gufuncgen.py lines 315-363) with a core function that reads its inputs and then
writes its outputs, as those of the minmax family, kbnsum, mad, meanvar, vnorm, corr, first, ordered, searchsorted and percentileofscore do; `g` gives the values to write.  (Some read
a cell more than once or not at all; what they compute depends on the values in the cells only.) -/
def gufuncProg (g : List α → List α) (ins outs : List Operand) : (cnt j : Nat) → Prog α
  | 0, _ => .done
  | cnt + 1, j =>
    readAll (ins.flatMap (·.cells j)) fun vs => writeAll ((outs.flatMap (·.cells j)).zip (g vs)) (gufuncProg g ins outs cnt (j + 1))

/-- The same loop on a memory. -/
def gufuncLoop (g : List α → List α) (ins outs : List Operand) : (cnt j : Nat) → Mem α → Mem α
  | 0, _, m => m
  | cnt + 1, j, m =>
    gufuncLoop g ins outs cnt (j + 1)
      (((outs.flatMap (·.cells j)).zip (g ((ins.flatMap (·.cells j)).map m))).foldl (fun m w => m.store w.1 w.2) m)

/-- `bincount_core_calc`, src/bincount/bincount_gufunc.h lines 21-61: `out[k] += 1` is a read and a write.  Cells hold values of all the
types; `key` takes the value in a cell of `x` as an integer and `inc` is the `+ 1` of the output type. -/
def bincountProg (key : α → Int) (inc : α → α) (m : Nat) (px xs po os : Int) : (cnt i : Nat) → Prog α
  | 0, _ => .done
  | cnt + 1, i => .read (px + (i : Int) * xs) fun k =>
    if Bincount.guard (key k) m then
      .read (po + Bincount.toIntp (key k) * os) fun v => .write (po + Bincount.toIntp (key k) * os) (inc v) (bincountProg key inc m px xs po os cnt (i + 1))
    else bincountProg key inc m px xs po os cnt (i + 1)

/-- The same loop on a memory (compare Model/Bincount, `loop`). -/
def bincountLoop (key : α → Int) (inc : α → α) (m : Nat) (px xs po os : Int) : (cnt i : Nat) → Mem α → Mem α
  | 0, _, mem => mem
  | cnt + 1, i, mem =>
    let k := key (mem (px + (i : Int) * xs))
    let a := po + Bincount.toIntp k * os
    bincountLoop key inc m px xs po os cnt (i + 1) (if Bincount.guard k m then mem.store a (inc (mem a)) else mem)

/-- `hysteresis_relay_core`, src/hysteresis_relay/hysteresis_relay_gufunc.h lines 13-51: reads `x[k]`, may read `out[k-1]`, writes `out[k]`.
(The thresholds are the values of the scalar arguments, which the loop reads first.) -/
def relayProg [LT α] [DecidableLT α] (lowT highT lowV highV init : α) (px xs po os : Int) : (cnt k : Nat) → Prog α
  | 0, _ => .done
  | cnt + 1, k => .read (px + (k : Int) * xs) fun x =>
    let rest := relayProg lowT highT lowV highV init px xs po os cnt (k + 1)
    let o := po + (k : Int) * os
    if x < lowT then .write o lowV rest
    else if highT < x then .write o highV rest
    else if k = 0 then .write o init rest
    else .read (po + ((k - 1 : Nat) : Int) * os) fun y => .write o y rest

/-- The same loop on a memory (compare Model/Signal, `relayLoop`). -/
def relayLoop [LT α] [DecidableLT α] (lowT highT lowV highV init : α) (px xs po os : Int) : (cnt k : Nat) → Mem α → Mem α
  | 0, _, m => m
  | cnt + 1, k, m =>
    let x := m (px + (k : Int) * xs)
    let y := if x < lowT then lowV else if highT < x then highV else if k = 0 then init else m (po + ((k - 1 : Nat) : Int) * os)
    relayLoop lowT highT lowV highV init px xs po os cnt (k + 1) (m.store (po + (k : Int) * os) y)

/-- A call that a thread makes, with its arrays.  For `bincount` the type of `x` is not `uint64`, whose values `>= 2^63` are out of the range of `npy_intp`. -/
inductive Call (α : Type) [LT α] [DecidableLT α] where
  | ufunc (f : List α → α) (n : Nat) (args : List (Int × Int)) (pout so : Int)
  | gufunc (g : List α → List α) (ins outs : List Operand) (cnt : Nat)
  | bincount (key : α → Int) (hkey : ∀ v, key v < 2 ^ 63) (inc : α → α) (m n : Nat) (px xs po os : Int)
  | relay (lowT highT lowV highV init : α) (n : Nat) (px xs po os : Int)

namespace Call
variable [LT α] [DecidableLT α]

/-- The cells of the input arrays. -/
def Input : Call α → Int → Prop
  | .ufunc _ n args _ _, a => ∃ q ∈ args, ∃ j : Nat, j < n ∧ a = q.1 + (j : Int) * q.2
  | .gufunc _ ins _ cnt, a => ∃ o ∈ ins, ∃ j : Nat, j < cnt ∧ a ∈ o.cells j
  | .bincount _ _ _ _ n px xs _ _, a => ∃ j : Nat, j < n ∧ a = px + (j : Int) * xs
  | .relay _ _ _ _ _ n px xs _ _, a => ∃ j : Nat, j < n ∧ a = px + (j : Int) * xs

/-- The cells of the output arrays. -/
def Output : Call α → Int → Prop
  | .ufunc _ n _ pout so, a => ∃ j : Nat, j < n ∧ a = pout + (j : Int) * so
  | .gufunc _ _ outs cnt, a => ∃ o ∈ outs, ∃ j : Nat, j < cnt ∧ a ∈ o.cells j
  | .bincount _ _ _ m _ _ _ po os, a => ∃ k : Nat, k < m ∧ a = po + (k : Int) * os
  | .relay _ _ _ _ _ n _ _ po os, a => ∃ j : Nat, j < n ∧ a = po + (j : Int) * os

/-- The accesses of the call. -/
def prog : Call α → Prog α
  | .ufunc f n args pout so => ufuncProg f n args pout so
  | .gufunc g ins outs cnt => gufuncProg g ins outs cnt 0
  | .bincount key _ inc m n px xs po os => bincountProg key inc m px xs po os n 0
  | .relay lowT highT lowV highV init n px xs po os => relayProg lowT highT lowV highV init px xs po os n 0

/-- What the call does to the memory when nothing else runs. -/
def result : Call α → Mem α → Mem α
  | .ufunc f n args pout so => ufuncLoop f n args pout so
  | .gufunc g ins outs cnt => gufuncLoop g ins outs cnt 0
  | .bincount key _ inc m n px xs po os => bincountLoop key inc m px xs po os n 0
  | .relay lowT highT lowV highV init n px xs po os => relayLoop lowT highT lowV highV init px xs po os n 0

end Call
end Ufunclab.Threads

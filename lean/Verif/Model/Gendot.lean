import Verif.Model.PyStr
import Verif.Model.Mem
/-!
# Model of src/gendot/gendotmodule.c and ufunclab/_gendot_wrap.py

Byte-addressed memory.  Writes are checked against a predicate `ok` of the addresses that the
function owns (the temporary buffer and the output items); a write outside it makes the
execution `none`.  The inputs are read through decoders `rx`, `ry` of a memory that is not
written (NumPy copies operands that overlap the output).
-/
namespace Ufunclab.Gendot

abbrev Bytes := Mem UInt8

/-- `n` bytes at `p`. -/
def load (m : Bytes) (p : Int) (n : Nat) : List UInt8 := (List.range n).map fun (i : Nat) => m (p + (i : Int))

/-- Write bytes at `p`. -/
def storeRaw (m : Bytes) (p : Int) (bs : List UInt8) : Bytes := fun a =>
  if p ≤ a ∧ a < p + bs.length then bs.getD (a - p).toNat 0 else m a

/-- Checked write. -/
def store (ok : Int → Bool) (m : Bytes) (p : Int) (bs : List UInt8) : Option Bytes :=
  if (List.range bs.length).all (fun (i : Nat) => ok (p + (i : Int))) then some (storeRaw m p bs) else none

/-- Representation of an item type. -/
structure Codec (β : Type) where
  size : Nat
  enc : β → List UInt8
  dec : List UInt8 → β
  len : ∀ b, (enc b).length = size
  roundtrip : ∀ b, dec (enc b) = b

variable {α₁ α₂ β γ : Type}

/-- The loop function of the product ufunc (NumPy's convention for an elementwise binary loop),
writing items of type `β` at `pout, pout + sout, ...`. -/
def prodLoop (ok : Int → Bool) (P : Codec β) (f : α₁ → α₂ → β) (rx : Int → α₁) (ry : Int → α₂)
    (px sx py sy sout : Int) : (n : Nat) → (i : Nat) → (pout : Int) → Bytes → Option Bytes
  | 0, _, _, m => some m
  | n + 1, i, pout, m =>
    (store ok m pout (P.enc (f (rx (px + (i : Int) * sx)) (ry (py + (i : Int) * sy))))).bind
      (prodLoop ok P f rx ry px sx py sy sout n (i + 1) (pout + sout))

/-- The `for` loop of `reduce`, lines 72-75: the loop function of the sum ufunc is called with
one item. -/
def reduceLoop (ok : Int → Bool) (P : Codec β) (S : Codec γ) (g : β → β → γ) (stride : Int) (result : Int) :
    (n : Nat) → (data : Int) → Bytes → Option Bytes
  | 0, _, m => some m
  | n + 1, data, m =>
    (store ok m result (S.enc (g (P.dec (load m result P.size)) (P.dec (load m data P.size))))).bind
      (reduceLoop ok P S g stride result n (data + stride))

/-- `reduce`, lines 49-78. -/
def reduce (ok : Int → Bool) (P : Codec β) (S : Codec γ) (g : β → β → γ) (data : Int) (n : Nat) (stride : Int)
    (itemsize : Nat) (result : Int) (m : Bytes) : Option Bytes :=
  if n = 0 then some m
  else (store ok m result (load m data itemsize)).bind fun m =>
    if n = 1 then some m else reduceLoop ok P S g stride result (n - 1) (data + stride) m

/-- The sum function: an elementwise ufunc with two inputs, or a gufunc `(n)->()`. -/
inductive SumFn (β γ : Type) where
  | elementwise (g : β → β → γ)
  | gufunc (h : List β → γ)

/-- Apply the sum function to the `n` products in the temporary buffer (lines 160-161, 184-186). -/
def applySum (ok : Int → Bool) (P : Codec β) (S : Codec γ) (sum : SumFn β γ) (tmp : Int) (n : Nat) (pout : Int) (m : Bytes) :
    Option Bytes :=
  match sum with
  | .elementwise g => reduce ok P S g tmp n S.size S.size pout m
  | .gufunc h => store ok m pout (S.enc (h ((List.range n).map fun (k : Nat) => P.dec (load m (tmp + (k : Int) * S.size) P.size))))

/-- The outer loop, lines 149-162 and 176-187.  `steps` are the three outer steps. -/
def outerLoop (ok : Int → Bool) (P : Codec β) (S : Codec γ) (f : α₁ → α₂ → β) (sum : SumFn β γ)
    (rx : Int → α₁) (ry : Int → α₂) (s0 s1 s2 s3 s4 : Int) (tmp : Int) (n : Nat) :
    (nloops : Nat) → (px py pout : Int) → Bytes → Option Bytes
  | 0, _, _, _, m => some m
  | k + 1, px, py, pout, m =>
    (prodLoop ok P f rx ry px s3 py s4 S.size n 0 tmp m).bind fun m =>
    (applySum ok P S sum tmp n pout m).bind
      (outerLoop ok P S f sum rx ry s0 s1 s2 s3 s4 tmp n k (px + s0) (py + s1) (pout + s2))

/-- The identity loop, lines 111-113. -/
def identityLoop (ok : Int → Bool) (identity : List UInt8) (s2 : Int) : (nloops : Nat) → (pout : Int) → Bytes → Option Bytes
  | 0, _, m => some m
  | k + 1, pout, m => (store ok m pout identity).bind (identityLoop ok identity s2 k (pout + s2))

inductive Outcome where
  /-- the memory after the call; `none` is a write outside the owned memory -/
  | done (m : Option Bytes)
  /-- ValueError: zero-size array to reduction operation with no identity -/
  | valueError (m : Bytes)

/-- `gendot_loop`, lines 81-191.  `tmp` is the address returned by `malloc` (its failure is not
modelled); the buffer has `n * S.size` bytes, `S.size` being `itemsize`. -/
def gendotLoop (ok : Int → Bool) (P : Codec β) (S : Codec γ) (f : α₁ → α₂ → β) (sum : SumFn β γ)
    (identity : Option (List UInt8)) (rx : Int → α₁) (ry : Int → α₂) (s0 s1 s2 s3 s4 : Int) (tmp : Int)
    (nloops n : Nat) (px py pout : Int) (m : Bytes) : Outcome :=
  if n = 0 then
    match identity with
    | some idt => .done (identityLoop ok idt s2 nloops pout m)
    | none => .valueError m
  else .done (outerLoop ok P S f sum rx ry s0 s1 s2 s3 s4 tmp n nloops px py pout m)

/-! ### The Python wrapper: selection of the loops, ufunclab/_gendot_wrap.py lines 159-172 -/

/-- A type signature of a ufunc: input codes and output code (all functions here have one
output). -/
structure TypeSig where
  ins : List Char
  out : Char
  deriving DecidableEq, Repr

/-- The pairs `(i, j)` of `loop_indices` with the combined type codes (`prod_type[:2] +
sum_type[-1]`). -/
def selectLoops (prodTypes sumTypes : List TypeSig) (sumNin : Nat) : List ((Nat × Nat) × List Char) :=
  (prodTypes.zipIdx).flatMap fun (p, i) =>
    if 'O' ∈ p.ins ∨ p.out = 'O' then []
    else (sumTypes.zipIdx).filterMap fun (s, j) =>
      if s.ins = List.replicate sumNin p.out then some ((i, j), p.ins.take 2 ++ [s.out]) else none

end Ufunclab.Gendot

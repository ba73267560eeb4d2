/-!
# Model of the memory of gendot functions: layout of the block and lifetime of what it points to
-/
namespace Ufunclab.GendotLife

/-! ## The block allocated by `gendot` -/

/-- The six parts of the block, as offset and size: `gendot_funcs`, `gendot_data_ptrs`, `gendot_data`, `gendot_typecodes`,
`gendot_name`, `gendot_doc`; src/gendot/gendotmodule.c lines 254-296.  `w` is the size of a pointer (and of `npy_intp`); `gendot_data_t`
has seven fields of that size and 32 bytes (lines 15-26); `name` and `doc` are the lengths of the strings. -/
def layout (w nloops name doc : Nat) : List (Nat × Nat) :=
  let funcs := nloops * w
  let ptrs := nloops * w
  let data := nloops * (7 * w + 32)
  let codes := nloops * 3
  [(0, funcs), (funcs, ptrs), (funcs + ptrs, data), (funcs + ptrs + data, codes), (funcs + ptrs + data + codes, name + 1),
    (funcs + ptrs + data + codes + (name + 1), doc + 1)]

/-- `total_memory_required`, lines 261-263. -/
def total (w nloops name doc : Nat) : Nat :=
  nloops * w + nloops * w + nloops * (7 * w + 32) + nloops * 3 + (name + 1) + (doc + 1)

/-- What is written, lines 304-331, as offset and size: `memcpy` of the typecodes, the two strings with their zero bytes, and for each loop the function pointer, the data
pointer and the record, in it the identity in the 32 bytes at the end. -/
def writes (w nloops name doc : Nat) (itemsize : Nat → Nat) : List (Nat × Nat) :=
  let funcs := nloops * w
  let ptrs := nloops * w
  let data := nloops * (7 * w + 32)
  let codes := nloops * 3
  [(funcs + ptrs + data, codes), (funcs + ptrs + data + codes, name + 1), (funcs + ptrs + data + codes + (name + 1), doc + 1)] ++
  (List.range nloops).flatMap fun i =>
    [(i * w, w), (funcs + ptrs + i * (7 * w + 32), 7 * w), (funcs + ptrs + i * (7 * w + 32) + 7 * w, itemsize i), (funcs + i * w, w)]

/-! ## Lifetime -/

/-- A ufunc: `static` ones have their tables in static memory (C extensions); `dynamic` ones own a block with the data of their loops, freed with them
(numba, for instance); `gendot p s` is the result of `gendot(p, s)` and owns the block above. -/
inductive Kind where
  | static
  | dynamic
  | gendot (p s : Nat)
  deriving DecidableEq

structure Ufunc where
  kind : Kind
  /-- references held by the program -/
  refs : Nat

/-- Ufuncs in order of creation, the ufuncs whose block is allocated, and whether a freed block was used or freed again. -/
structure World where
  ufuncs : List Ufunc
  blocks : List Nat
  bad : Bool

/-- What a program does with ufuncs. -/
inductive Op where
  | newStatic
  | newDynamic
  /-- `gendot(p, s)`; `mem` and `make` say whether the allocation and the creation of the gufunc succeed -/
  | gendot (p s : Nat) (mem make : Bool)
  /-- one more reference, `g = f` -/
  | copy (i : Nat)
  /-- `del f` -/
  | drop (i : Nat)
  /-- `f(x, y)` -/
  | call (i : Nat)

/-- The program holds a reference to ufunc `i`. -/
def World.held (W : World) (i : Nat) : Prop := ∃ u, W.ufuncs[i]? = some u ∧ 0 < u.refs

instance (W : World) (i : Nat) : Decidable (W.held i) :=
  match h : W.ufuncs[i]? with
  | none => isFalse (by rintro ⟨u, hu, -⟩; rw [h] at hu; cases hu)
  | some u => if hr : 0 < u.refs then isTrue ⟨u, h, hr⟩ else isFalse (by rintro ⟨v, hv, hp⟩; rw [h] at hv; cases hv; exact hr hp)

/-- The loop data of ufunc `i`, to which a gendot function has copied the pointer, can be read. -/
def readable (W : World) (i : Nat) : Bool :=
  match W.ufuncs[i]? with
  | none => false
  | some u => match u.kind with
    | .static => true
    | _ => W.blocks.contains i

/-- One step; a program can only use ufuncs that it holds.
`gendot`: src/gendot/gendotmodule.c lines 265-352: the block is allocated, pointers to the loop data of `p` and `s` are copied into it (no reference to `p` or `s` is taken), the gufunc
is created, and on failure the block is freed.
`drop`: when the last reference is gone, NumPy's `ufunc_dealloc` frees the block (`ufunc->ptr`).
`call`: `gendot_loop` (lines 82-180) reads the block and calls the loops of `p` and `s` with their data. -/
def step (W : World) : Op → World
  | .newStatic => { W with ufuncs := W.ufuncs ++ [⟨.static, 1⟩] }
  | .newDynamic => { W with ufuncs := W.ufuncs ++ [⟨.dynamic, 1⟩], blocks := W.ufuncs.length :: W.blocks }
  | .gendot p s mem make =>
    if W.held p ∧ W.held s then
      if mem then
        if make then { W with ufuncs := W.ufuncs ++ [⟨.gendot p s, 1⟩], blocks := W.ufuncs.length :: W.blocks,
                              bad := W.bad || !readable W p || !readable W s }
        else W
      else W
    else W
  | .copy i => if W.held i then { W with ufuncs := W.ufuncs.modify i fun u => { u with refs := u.refs + 1 } } else W
  | .drop i =>
    match W.ufuncs[i]? with
    | none => W
    | some u =>
      if u.refs = 0 then W
      else if u.refs = 1 ∧ u.kind ≠ .static then
        { ufuncs := W.ufuncs.modify i fun u => { u with refs := u.refs - 1 }, blocks := W.blocks.erase i, bad := W.bad || !W.blocks.contains i }
      else { W with ufuncs := W.ufuncs.modify i fun u => { u with refs := u.refs - 1 } }
  | .call i =>
    if W.held i then
      match W.ufuncs[i]? with
      | some ⟨.gendot p s, _⟩ => { W with bad := W.bad || !W.blocks.contains i || !readable W p || !readable W s }
      | some ⟨.dynamic, _⟩ => { W with bad := W.bad || !W.blocks.contains i }
      | _ => W
    else W

/-- A history. -/
def run : List Op → World → World
  | [], W => W
  | op :: ops, W => run ops (step W op)

def start : World := ⟨[], [], false⟩

end Ufunclab.GendotLife

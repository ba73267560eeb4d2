import Verif.Proof.First
import Mathlib.Algebra.Order.Ring.Unbundled.Rat
import Mathlib.Algebra.Field.Rat
/-! # Properties C19-C20: first and argfirst -/
namespace Ufunclab.First
open Spec
variable {α : Type _}

/-- C19: for each operator (arbitrary comparison functions, so also floats with
NaN), argfirst is -1 if no element satisfies `x op target`, and otherwise the
least index of such an element. -/
theorem C19_argfirst (c : CmpOps α) (op : Op) (code : Int) (hc : Op.ofCode code = some op)
    (target : α) (xs : List α) :
    (argfirst c code target xs = -1 ∧ ∀ x ∈ xs, c.holds op x target = false) ∨
    ∃ i : Nat, argfirst c code target xs = (i : Int) ∧
      IsFirstIdx (fun x => c.holds op x target = true) xs i := by
  unfold argfirst
  rw [hc]
  simpa using argfirstOp_spec c op target 0 xs

/-- C19 on a linear order (integers): the relation is the mathematical one. -/
theorem C19_argfirst_linear {β : Type _} [LinearOrder β] (op : Op) (code : Int)
    (hc : Op.ofCode code = some op) (target : β) (xs : List β) (i : Nat) :
    argfirst (linOps β) code target xs = (i : Int) ↔
      IsFirstIdx (fun x => Op.rel op x target) xs i := by
  have hp : (fun x => (linOps β).holds op x target = true) = fun x => Op.rel op x target := by
    funext x; simp only [eq_iff_iff]; exact linOps_holds op x target
  rcases C19_argfirst (linOps β) op code hc target xs with ⟨h1, h2⟩ | ⟨j, h1, h2⟩
  · rw [h1]
    constructor
    · intro h; omega
    · rintro ⟨⟨x, hx, hr⟩, _⟩
      have := h2 x (List.mem_of_getElem? hx)
      rw [← linOps_holds] at hr; simp [this] at hr
  · rw [hp] at h2
    rw [h1]
    constructor
    · intro h
      have : j = i := by omega
      exact this ▸ h2
    · intro h
      have h3 : j = i := by
        obtain ⟨⟨x, hx, hxr⟩, hf⟩ := h2
        obtain ⟨⟨y, hy, hyr⟩, hg⟩ := h
        rcases Nat.lt_trichotomy j i with hlt | he | hgt
        · exact absurd hxr (hg j hlt x hx)
        · exact he
        · exact absurd hyr (hf i hgt y hy)
      rw [h3]

/-- C19: -1 exactly when no element satisfies the relation. -/
theorem C19_argfirst_none {β : Type _} [LinearOrder β] (op : Op) (code : Int)
    (hc : Op.ofCode code = some op) (target : β) (xs : List β) :
    argfirst (linOps β) code target xs = -1 ↔ ∀ x ∈ xs, ¬ Op.rel op x target := by
  rcases C19_argfirst (linOps β) op code hc target xs with ⟨h1, h2⟩ | ⟨j, h1, ⟨x, hx, hr⟩, _⟩
  · simp only [h1, true_iff]
    intro x hx hr
    rw [← linOps_holds] at hr; simp [h2 x hx] at hr
  · rw [h1]
    constructor
    · intro h; omega
    · intro h; exact absurd ((linOps_holds op x target).1 hr) (h x (List.mem_of_getElem? hx))

/-- C19: a NaN element (and likewise a NaN target) satisfies only `!=`. -/
theorem C19_nan {K : Type _} [LinearOrder K] (op : Op) (t : XF K) :
    ((xfOps K).holds op .nan t = true ↔ op = .NE) ∧ ((xfOps K).holds op t .nan = true ↔ op = .NE) := by
  constructor <;> cases op <;> cases t <;>
    simp [xfOps, CmpOps.holds, XF.lt, XF.le, XF.eq, XF.ne, XF.gt, XF.ge]

/-- C20: first is the element at argfirst, or `otherwise` when argfirst is -1;
for every op code, including unknown ones. -/
theorem C20_first (c : CmpOps α) (code : Int) (target otherwise : α) (xs : List α) :
    (argfirst c code target xs = -1 ∧ first c code target otherwise xs = otherwise) ∨
    ∃ i : Nat, argfirst c code target xs = (i : Int) ∧
      xs[i]? = some (first c code target otherwise xs) := by
  unfold argfirst first
  cases hc : Op.ofCode code with
  | none => left; simp
  | some op =>
    simp only
    have hf := firstOp_spec c op target otherwise 0 xs
    rcases argfirstOp_spec c op target 0 xs with ⟨h1, _⟩ | ⟨i, h1, ⟨x, hx, _⟩, _⟩
    · left; rw [hf]; simp [h1]
    · right
      refine ⟨i, by simpa using h1, ?_⟩
      rw [hf, h1, if_neg (by omega)]
      simp [hx]

/-- C20: an op code that is not one of the six gives -1 and `otherwise`. -/
theorem C20_unknown_op (c : CmpOps α) (code : Int) (h : code < 0 ∨ 5 < code)
    (target otherwise : α) (xs : List α) :
    argfirst c code target xs = -1 ∧ first c code target otherwise xs = otherwise := by
  have : Op.ofCode code = none := by
    unfold Op.ofCode; split <;> first | omega | rfl
  simp [argfirst, first, this]

/-- C19/C20: the object versions agree with the typed ones when comparisons do
not raise. -/
theorem C19_C20_object (c : CmpOps α) (p : α → α → Int → Bool)
    (hp : ∀ code op, Op.ofCode code = some op → ∀ a b, p a b code = c.holds op a b)
    (code : Int) (target otherwise : α) (xs : List α) :
    argfirstObj (fun a b o => some (p a b o)) code target xs = argfirst c code target xs ∧
    firstObj (fun a b o => some (p a b o)) code target otherwise xs
      = some (first c code target otherwise xs) := by
  unfold argfirstObj firstObj
  by_cases h : 0 ≤ code ∧ code ≤ 5
  · have : ∃ op, Op.ofCode code = some op := by
      have : code = 0 ∨ code = 1 ∨ code = 2 ∨ code = 3 ∨ code = 4 ∨ code = 5 := by omega
      rcases this with rfl | rfl | rfl | rfl | rfl | rfl <;> exact ⟨_, rfl⟩
    obtain ⟨op, ho⟩ := this
    simp only [h, and_self, if_true, argfirst, first, ho]
    exact ⟨argfirstObjLoop_pure p code target c op (hp code op ho) 0 xs,
      firstObjLoop_pure p code target otherwise c op (hp code op ho) xs⟩
  · simp only [h, if_false]
    have h' := C20_unknown_op c code (by omega) target otherwise xs
    exact ⟨h'.1.symm, by rw [h'.2]⟩

/-- C19/C20: with raising comparisons the object version of argfirst yields the
error marker -2 iff the first comparison that is not "false" raises. -/
theorem C19_object_error (cmp : α → α → Int → Option Bool) (code : Int)
    (hcode : 0 ≤ code ∧ code ≤ 5) (target : α) (xs : List α) :
    argfirstObj cmp code target xs = -2 ↔
      ∃ pre x post, xs = pre ++ x :: post ∧ (∀ y ∈ pre, cmp y target code = some false) ∧
        cmp x target code = none := by
  simp only [argfirstObj, hcode, and_self, if_true]
  exact argfirstObjLoop_err cmp code target 0 xs

/-! ### Non-vacuity -/
example : argfirst (linOps Int) 4 3 [1, 3, 5, 7] = 2 ∧ first (linOps Int) 4 3 99 [1, 3, 5, 7] = 5 ∧
    argfirst (linOps Int) 0 1 [1, 3, 5, 7] = -1 ∧ first (linOps Int) 0 1 99 [1, 3, 5, 7] = 99 := by
  decide
example : argfirst (xfOps Int) 3 (.fin 1) [.fin 1, .nan] = 1 ∧
    argfirst (xfOps Int) 5 (.fin 1) [.nan, .pinf] = 1 := by decide

end Ufunclab.First

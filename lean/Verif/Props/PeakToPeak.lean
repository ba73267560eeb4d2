import Verif.Proof.PeakToPeak
import Verif.Spec.Cmp
/-! # Property C18: peaktopeak -/
namespace Ufunclab.PeakToPeak
open Spec
variable {α ρ : Type _}

/-- C18, signed integers of any width `bits` (8, 16, 32, 64 in the code), any
item size and stride (contiguous or not): the result is the exact difference
of the largest and the smallest element, and it fits the unsigned output type
(under wrap-around semantics of signed overflow, see `C18_signed_overflow`). -/
theorem C18_signed (bits : Nat) (hb : 0 < bits) (size : Int) (m : Mem Int) (p s : Int) (n : Nat)
    (hn : 0 < n) (hr : ∀ x ∈ elems m p s n, (IntTy.mk bits true).InRange x) :
    ∃ a ∈ elems m p s n, ∃ b ∈ elems m p s n, (∀ x ∈ elems m p s n, b ≤ x ∧ x ≤ a) ∧
      peaktopeakSigned bits size m p s n = some (a - b) ∧ (IntTy.mk bits false).InRange (a - b) := by
  obtain ⟨n, rfl⟩ : ∃ k, n = k + 1 := ⟨n - 1, by omega⟩
  have h := MinMax.C14_minmax _ StrictWeak.int (m p) (elems m (p + s) s n)
  rw [← elems_succ] at h
  obtain ⟨h1, h2, h3⟩ := h
  refine ⟨_, h2, _, h1, fun x hx => by simpa using h3 x hx, ?_⟩
  have hba := (h3 _ h2).1
  simp only [decide_eq_false_iff_not, not_lt] at hba
  refine ⟨?_, ?_⟩
  · rw [peaktopeakSigned, peaktopeak_eq _ StrictWeak.int.irrefl StrictWeak.int.trans]
    rw [maxDiff_exact bits hb _ _ hba (hr _ h2) (hr _ h1)]
  · have r1 := hr _ h1
    have r2 := hr _ h2
    have hs := IntTy.two_pow_split hb
    have hp := IntTy.two_pow_pos (bits - 1)
    simp only [IntTy.InRange, IntTy.min, IntTy.max, if_true, Bool.false_eq_true, if_false] at r1 r2 ⊢
    omega

/-- C18, unsigned integers. -/
theorem C18_unsigned (bits : Nat) (hb : 0 < bits) (size : Int) (m : Mem Int) (p s : Int) (n : Nat)
    (hn : 0 < n) (hr : ∀ x ∈ elems m p s n, (IntTy.mk bits false).InRange x) :
    ∃ a ∈ elems m p s n, ∃ b ∈ elems m p s n, (∀ x ∈ elems m p s n, b ≤ x ∧ x ≤ a) ∧
      peaktopeakUnsigned bits size m p s n = some (a - b) := by
  obtain ⟨n, rfl⟩ : ∃ k, n = k + 1 := ⟨n - 1, by omega⟩
  have h := MinMax.C14_minmax _ StrictWeak.int (m p) (elems m (p + s) s n)
  rw [← elems_succ] at h
  obtain ⟨h1, h2, h3⟩ := h
  refine ⟨_, h2, _, h1, fun x hx => by simpa using h3 x hx, ?_⟩
  have hba := (h3 _ h2).1
  simp only [decide_eq_false_iff_not, not_lt] at hba
  rw [peaktopeakUnsigned, peaktopeak_eq _ StrictWeak.int.irrefl StrictWeak.int.trans]
  congr 1
  rw [IntTy.unsigned_wrap_wrap]
  · have r1 := hr _ h1
    have r2 := hr _ h2
    simp only [IntTy.InRange, IntTy.min, IntTy.max, Bool.false_eq_true, if_false] at r1 r2
    exact IntTy.unsigned_wrap_of_lt _ _ (by omega) (by omega)
  · split <;> simp [IntTy.i32]; omega

/-- C18, any element type (floats with NaN included): the contiguous and the
strided branch give the same result, the subtraction applied to the pair
returned by `minmax`. -/
theorem C18_any_type (lt : α → α → Bool) (hirr : ∀ a, lt a a = false)
    (htrans : ∀ a b c, lt a b = true → lt b c = true → lt a c = true) (diff : α → α → ρ)
    (size : Int) (m : Mem α) (p s : Int) (x0 : α) (xs : List α)
    (hx : elems m p s (xs.length + 1) = x0 :: xs) :
    peaktopeak lt diff size m p s (xs.length + 1) =
      some (diff (MinMax.minmax lt x0 xs).2 (MinMax.minmax lt x0 xs).1) := by
  rw [peaktopeak_eq lt hirr htrans]
  rw [elems_succ] at hx
  simp only [List.cons.injEq] at hx
  rw [hx.1, hx.2]

/-- C18: an empty core dimension raises. -/
theorem C18_empty (lt : α → α → Bool) (diff : α → α → ρ) (size : Int) (m : Mem α) (p s : Int) :
    peaktopeak lt diff size m p s 0 = none := by simp [peaktopeak]

/-- C18, the ISO C view: for representable `xmin ≤ xmax`, the evaluation
involves signed overflow (undefined behaviour; harmless under wrap-around)
exactly for 32- and 64-bit types when the minimum is the least value of the type
and the maximum is not negative. -/
theorem C18_signed_overflow (bits : Nat) (hb : bits = 8 ∨ bits = 16 ∨ bits = 32 ∨ bits = 64)
    (xmax xmin : Int) (h : xmin ≤ xmax)
    (h1 : (IntTy.mk bits true).InRange xmax) (h2 : (IntTy.mk bits true).InRange xmin) :
    overflows bits xmax xmin ↔ 32 ≤ bits ∧ xmin = (IntTy.mk bits true).min ∧ 0 ≤ xmax := by
  rcases hb with rfl | rfl | rfl | rfl <;>
    simp only [overflows, maxDiffC, promoted, sumType, IntTy.i32, IntTy.InRange, IntTy.min, IntTy.max,
      IntTy.wrap, if_true, Bool.false_eq_true, if_false, Nat.reduceLT, Nat.reduceSub] at * <;>
    norm_num at * <;> split <;> simp <;> omega

/-- C18 violated as ISO C: such inputs exist (e.g. int32 `[0, -2^31]`). -/
theorem C18_ub_violated : ∃ xmax xmin : Int, xmin ≤ xmax ∧ IntTy.i32.InRange xmax ∧
    IntTy.i32.InRange xmin ∧ overflows 32 xmax xmin :=
  ⟨0, -2147483648, by decide, by decide, by decide,
    (C18_signed_overflow 32 (by decide) _ _ (by decide) (by decide) (by decide)).2 (by decide)⟩

/-- C18: object arrays with non-raising comparisons: subtraction of the minmax
pair. -/
theorem C18_object (lt : α → α → Bool) (hirr : ∀ a, lt a a = false)
    (htrans : ∀ a b c, lt a b = true → lt b c = true → lt a c = true)
    (sub : α → α → Option α) (x0 : α) (xs : List α) :
    peaktopeakObj (fun a b => some (lt a b)) (fun a b => some (lt b a)) sub (x0 :: xs) =
      sub (MinMax.minmax lt x0 xs).2 (MinMax.minmax lt x0 xs).1 := by
  have hl : ∀ (l g : α → α → Option Bool) (a b : α) (ys : List α),
      objLoop l g a b ys = MinMax.minmaxObjLoop l g a b ys := by
    intro l g a b ys
    induction ys generalizing a b with
    | nil => rfl
    | cons y ys ih => simp only [objLoop, MinMax.minmaxObjLoop, ih]; rfl
  simp only [peaktopeakObj, hl, MinMax.minmaxObjLoop_pure lt htrans x0 x0 (hirr x0) xs,
    MinMax.minmax]

/-! ### Non-vacuity: int8 array [100, -128, 127] read with stride 2. -/
def exMem : Mem Int := fun a => if a = 0 then 100 else if a = 2 then -128 else if a = 4 then 127 else 0
example : elems exMem 0 2 3 = [100, -128, 127] ∧ peaktopeakSigned 8 1 exMem 0 2 3 = some 255 ∧
    peaktopeakSigned 8 2 exMem 0 2 3 = some 255 := by decide
example : maxDiff 32 2147483647 (-2147483648) = 4294967295 ∧ maxDiff 64 0 (-2^63) = 2^63 := by decide

end Ufunclab.PeakToPeak

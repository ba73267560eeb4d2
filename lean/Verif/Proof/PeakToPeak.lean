import Verif.Model.PeakToPeak
import Verif.Proof.Mem
import Verif.Proof.IntTy
import Verif.Props.MinMax
import Mathlib.Algebra.Order.Ring.Int
import Mathlib.Tactic.NormNum
namespace Ufunclab.IntTy

/-- Converting to a wider type first does not change the residue. -/
theorem unsigned_wrap_wrap (w : Nat) (t : IntTy) (h : w ≤ t.bits) (z : Int) :
    (IntTy.mk w false).wrap (t.wrap z) = (IntTy.mk w false).wrap z := by
  have hd : (2 : Int) ^ w ∣ 2 ^ t.bits := pow_dvd_pow 2 h
  simp only [wrap, Bool.false_eq_true, if_false]
  apply Int.emod_emod_of_dvd _ hd |>.symm.trans _ |>.symm
  by_cases hs : t.signed
  · simp only [hs, if_true]
    rw [Int.emod_emod_of_dvd _ hd]
    apply Int.emod_emod_of_dvd _ hd |>.symm.trans _ |>.symm
    rw [Int.sub_emod, Int.emod_emod, ← Int.sub_emod, Int.add_sub_cancel]
    rw [Int.emod_emod_of_dvd _ hd]
  · simp only [hs]
    rfl

theorem unsigned_wrap_of_lt (w : Nat) (z : Int) (h0 : 0 ≤ z) (h1 : z < 2 ^ w) :
    (IntTy.mk w false).wrap z = z := by
  simp [wrap, Int.emod_eq_of_lt h0 h1]

theorem unsigned_wrap_add_wrap (w : Nat) (a b : Int) :
    (IntTy.mk w false).wrap (a + (IntTy.mk w false).wrap b) = (IntTy.mk w false).wrap (a + b) := by
  simp [wrap]

end Ufunclab.IntTy

namespace Ufunclab.PeakToPeak
open Spec
variable {α ρ : Type _}

theorem contigLoop_eq (lt : α → α → Bool) (m : Mem α) (p size : Int) (fuel i : Nat) (a b : α) :
    contigLoop lt m p size fuel i a b
      = MinMax.minmaxLoop lt a b (elems m (p + (i : Int) * size) size fuel) := by
  induction fuel generalizing i a b with
  | zero => simp [contigLoop, MinMax.minmaxLoop]
  | succ f ih =>
    rw [elems_succ]
    simp only [contigLoop, MinMax.minmaxLoop, MinMax.stdMin, MinMax.stdMax, ih]
    have : p + ((i + 1 : Nat) : Int) * size = p + (i : Int) * size + size := by grind
    rw [this]

theorem stridedLoop_eq (lt : α → α → Bool)
    (htrans : ∀ a b c, lt a b = true → lt b c = true → lt a c = true)
    (m : Mem α) (step : Int) (fuel : Nat) (p : Int) (a b : α) (hab : lt b a = false) :
    stridedLoop lt m step fuel p a b = MinMax.minmaxLoop lt a b (elems m p step fuel) := by
  induction fuel generalizing p a b with
  | zero => simp [stridedLoop, MinMax.minmaxLoop]
  | succ f ih =>
    rw [elems_succ]
    simp only [stridedLoop, MinMax.minmaxLoop, MinMax.stdMin, MinMax.stdMax]
    by_cases h1 : lt (m p) a = true
    · have h2 : lt b (m p) = false := by
        cases h : lt b (m p) with
        | false => rfl
        | true => exact absurd (htrans b _ a h h1) (by simp [hab])
      simp only [h1, h2, if_true, Bool.false_eq_true, if_false]
      exact ih _ _ _ h2
    · by_cases h2 : lt b (m p) = true
      · simp only [h1, h2, if_true, Bool.false_eq_true, if_false]
        exact ih _ _ _ (by simpa using h1)
      · simp only [h1, h2, Bool.false_eq_true, if_false]
        exact ih _ _ _ hab

theorem peaktopeak_eq (lt : α → α → Bool) (hirr : ∀ a, lt a a = false)
    (htrans : ∀ a b c, lt a b = true → lt b c = true → lt a c = true) (diff : α → α → ρ)
    (size : Int) (m : Mem α) (p s : Int) (n : Nat) :
    peaktopeak lt diff size m p s (n + 1) =
      some (diff (MinMax.minmax lt (m p) (elems m (p + s) s n)).2
        (MinMax.minmax lt (m p) (elems m (p + s) s n)).1) := by
  simp only [peaktopeak, Nat.add_sub_cancel, Nat.add_eq_zero_iff, Nat.one_ne_zero, and_false, if_false,
    MinMax.minmax]
  by_cases h : s = size
  · subst h
    rw [if_pos rfl, contigLoop_eq]; simp
  · rw [if_neg h, stridedLoop_eq lt htrans _ _ _ _ _ _ (hirr _)]

theorem maxDiff_exact (bits : Nat) (hb : 0 < bits) (a b : Int) (hba : b ≤ a)
    (ha : (IntTy.mk bits true).InRange a) (hbr : (IntTy.mk bits true).InRange b) :
    maxDiff bits a b = a - b := by
  have hpw : bits ≤ (promoted bits).bits := by
    unfold promoted; split <;> simp [IntTy.i32]; omega
  have hsw : bits ≤ (sumType bits).bits := by
    unfold sumType; split <;> simp [IntTy.i32]; omega
  have hs := IntTy.two_pow_split hb
  have hp := IntTy.two_pow_pos (bits - 1)
  simp only [IntTy.InRange, IntTy.min, IntTy.max, if_true] at ha hbr
  unfold maxDiff maxDiffC
  simp only
  split
  · rw [IntTy.unsigned_wrap_wrap _ _ hpw]
    exact IntTy.unsigned_wrap_of_lt _ _ (by omega) (by omega)
  · rw [IntTy.unsigned_wrap_wrap _ _ hsw, IntTy.unsigned_wrap_add_wrap, ]
    have h2 : (IntTy.mk bits false).wrap (a + (promoted bits).wrap (-b))
        = (IntTy.mk bits false).wrap (a + -b) := by
      rw [← IntTy.unsigned_wrap_add_wrap, IntTy.unsigned_wrap_wrap _ _ hpw,
        IntTy.unsigned_wrap_add_wrap]
    rw [h2]
    exact IntTy.unsigned_wrap_of_lt _ _ (by omega) (by omega)

end Ufunclab.PeakToPeak

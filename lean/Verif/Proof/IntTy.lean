import Verif.Model.IntTy
namespace Ufunclab.IntTy

theorem two_pow_split {b : Nat} (hb : 0 < b) : (2 : Int) ^ b = 2 * 2 ^ (b - 1) := by
  obtain ⟨c, rfl⟩ : ∃ c, b = c + 1 := ⟨b - 1, by omega⟩
  simp [Int.pow_succ]; omega

theorem two_pow_pos (b : Nat) : (0 : Int) < 2 ^ b := Int.pow_pos (by decide)

theorem wrap_of_inRange (t : IntTy) (hb : 0 < t.bits) (z : Int) (h : t.InRange z) : t.wrap z = z := by
  unfold InRange min max at h
  unfold wrap
  have := two_pow_split hb
  have := two_pow_pos (t.bits - 1)
  split at h <;> simp_all
  · rw [Int.emod_eq_of_lt] <;> omega
  · rw [Int.emod_eq_of_lt] <;> omega

theorem inRange_tdiv (t : IntTy) (hb : 0 < t.bits) (k b : Int) (h : t.InRange k)
    (hm : ¬ (k = t.min ∧ b = -1)) (hu : t.InRange b) : t.InRange (k.tdiv b) := by
  have hp := two_pow_pos (t.bits - 1)
  have hs := two_pow_split hb
  have habs : (k.tdiv b).natAbs ≤ k.natAbs := by
    rw [Int.natAbs_tdiv]; exact Nat.div_le_self _ _
  have hbig : b = 1 ∨ b = -1 ∨ b = 0 ∨ (2 ≤ b.natAbs) := by omega
  unfold InRange min max at *
  cases ht : t.signed
  · simp only [ht, if_true, if_false, Bool.false_eq_true] at *
    have : 0 ≤ k.tdiv b := Int.tdiv_nonneg h.1 hu.1
    omega
  · simp only [ht, if_true, if_false, Bool.false_eq_true] at *
    rcases hbig with rfl | rfl | rfl | h2
    · simp; omega
    · simp [Int.tdiv_neg]; omega
    · simp; omega
    · have : (k.tdiv b).natAbs ≤ k.natAbs / 2 := by
        rw [Int.natAbs_tdiv]; exact Nat.div_le_div_left h2 (by omega)
      omega

end Ufunclab.IntTy

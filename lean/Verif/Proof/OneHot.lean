import Verif.Model.OneHot
import Verif.Proof.Mem
namespace Ufunclab.OneHot

open Classical in
theorem memsetZero_apply (p : Int) (n : Nat) (mo : Mem Int) (b : Int) :
    memsetZero p n mo b = if ∃ j < n, b = p + (j : Int) * sizeofT then 0 else mo b := by
  induction n generalizing mo with
  | zero => simp [memsetZero]
  | succ n ih =>
    rw [memsetZero, ih]
    by_cases h : ∃ j < n, b = p + (j : Int) * sizeofT
    · have h' : ∃ j < n + 1, b = p + (j : Int) * sizeofT := by
        obtain ⟨j, hj, e⟩ := h; exact ⟨j, by omega, e⟩
      simp only [if_pos h, if_pos h']
    · by_cases hb : b = p + (n : Int) * sizeofT
      · have h' : ∃ j < n + 1, b = p + (j : Int) * sizeofT := ⟨n, by omega, hb⟩
        rw [if_neg h, if_pos h', hb, Mem.store_same]
      · have h' : ¬ ∃ j < n + 1, b = p + (j : Int) * sizeofT := by
          rintro ⟨j, hj, e⟩
          by_cases hjn : j = n
          · exact hb (hjn ▸ e)
          · exact h ⟨j, by omega, e⟩
        simp only [if_neg h, if_neg h', Mem.store_other _ _ hb]

open Classical in
theorem zeroLoop_apply (p s : Int) (cnt i : Nat) (mo : Mem Int) (b : Int) :
    zeroLoop p s cnt i mo b =
      if ∃ j, i ≤ j ∧ j < i + cnt ∧ b = p + (j : Int) * s then 0 else mo b := by
  induction cnt generalizing i mo with
  | zero =>
    have : ¬ ∃ j, i ≤ j ∧ j < i + 0 ∧ b = p + (j : Int) * s := by
      rintro ⟨j, h1, h2, _⟩; omega
    rw [if_neg this]; rfl
  | succ cnt ih =>
    rw [zeroLoop, ih]
    by_cases h : ∃ j, i + 1 ≤ j ∧ j < i + 1 + cnt ∧ b = p + (j : Int) * s
    · have h' : ∃ j, i ≤ j ∧ j < i + (cnt + 1) ∧ b = p + (j : Int) * s := by
        obtain ⟨j, h1, h2, e⟩ := h; exact ⟨j, by omega, by omega, e⟩
      simp only [if_pos h, if_pos h']
    · by_cases hb : b = p + (i : Int) * s
      · have h' : ∃ j, i ≤ j ∧ j < i + (cnt + 1) ∧ b = p + (j : Int) * s := ⟨i, by omega, by omega, hb⟩
        rw [if_neg h, if_pos h', hb, set, Mem.store_same]
      · have h' : ¬ ∃ j, i ≤ j ∧ j < i + (cnt + 1) ∧ b = p + (j : Int) * s := by
          rintro ⟨j, h1, h2, e⟩
          by_cases hji : j = i
          · exact hb (hji ▸ e)
          · exact h ⟨j, by omega, by omega, e⟩
        rw [if_neg h, if_neg h', set, Mem.store_other _ _ hb]

end Ufunclab.OneHot

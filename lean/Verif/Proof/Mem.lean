import Verif.Model.Mem
namespace Ufunclab
variable {α : Type _}

@[simp] theorem Mem.store_same (m : Mem α) (a : Int) (v : α) : m.store a v a = v := by
  simp [Mem.store]

theorem Mem.store_other (m : Mem α) {a b : Int} (v : α) (h : b ≠ a) : m.store a v b = m b := by
  simp [Mem.store, h]

@[simp] theorem elems_length (m : Mem α) (p s : Int) (n : Nat) : (elems m p s n).length = n := by
  simp [elems]

theorem elems_getElem (m : Mem α) (p s : Int) (n i : Nat) (h : i < (elems m p s n).length) :
    (elems m p s n)[i] = get m p s i := by
  simp [elems]

theorem elems_succ (m : Mem α) (p s : Int) (n : Nat) :
    elems m p s (n + 1) = m p :: elems m (p + s) s n := by
  simp only [elems, List.range_succ_eq_map, List.map_cons, List.map_map]
  congr 1
  · simp [get]
  · apply List.map_congr_left
    intro i _
    simp only [Function.comp, get, Nat.succ_eq_add_one]
    congr 1
    grind

@[simp] theorem elems_zero (m : Mem α) (p s : Int) : elems m p s 0 = [] := by simp [elems]

theorem elems_congr {m m' : Mem α} {p s : Int} {n : Nat}
    (h : ∀ i < n, m (p + (i : Int) * s) = m' (p + (i : Int) * s)) :
    elems m p s n = elems m' p s n := by
  apply List.map_congr_left
  intro i hi
  exact h i (by simpa using hi)

/-- Multiplication by a non-zero stride is injective. -/
theorem stride_inj {p s : Int} (hs : s ≠ 0) {i j : Nat}
    (h : p + (i : Int) * s = p + (j : Int) * s) : i = j := by
  have h1 : (i : Int) * s = (j : Int) * s := by omega
  have := Int.eq_of_mul_eq_mul_right hs h1
  omega


/-- Store the list at indices `i, i+1, ...` of the view `(p, s)`. -/
def writeFrom (m : Mem α) (p s : Int) (i : Nat) : List α → Mem α
  | [] => m
  | x :: xs => writeFrom (set m p s i x) p s (i + 1) xs

theorem writeFrom_frame (m : Mem α) (p s : Int) (i : Nat) (xs : List α) (b : Int)
    (hb : ∀ j, i ≤ j → j < i + xs.length → b ≠ p + (j : Int) * s) :
    writeFrom m p s i xs b = m b := by
  induction xs generalizing m i with
  | nil => rfl
  | cons x xs ih =>
    simp only [writeFrom, List.length_cons] at *
    rw [ih (set m p s i x) (i + 1) (fun j h1 h2 => hb j (by omega) (by omega)), set,
      Mem.store_other _ _ (hb i (by omega) (by omega))]

theorem writeFrom_get (m : Mem α) (p s : Int) (hs : s ≠ 0) (i : Nat) (xs : List α) (j : Nat)
    (hj : j < xs.length) : get (writeFrom m p s i xs) p s (i + j) = xs[j] := by
  induction xs generalizing m i j with
  | nil => simp at hj
  | cons x xs ih =>
    simp only [writeFrom]
    cases j with
    | zero =>
      simp only [get, Nat.add_zero, List.getElem_cons_zero]
      rw [writeFrom_frame, set, Mem.store_same]
      intro j h1 h2 h
      have := stride_inj hs h
      omega
    | succ j =>
      have := ih (set m p s i x) (i + 1) j (by simpa using hj)
      simp only [List.getElem_cons_succ]
      rw [← this]
      congr 1
      omega

theorem writeFrom_elems (m : Mem α) (p s : Int) (hs : s ≠ 0) (xs : List α) :
    elems (writeFrom m p s 0 xs) p s xs.length = xs := by
  apply List.ext_getElem
  · simp
  · intro j h1 h2
    rw [elems_getElem]
    have := writeFrom_get m p s hs 0 xs j h2
    simpa using this

end Ufunclab

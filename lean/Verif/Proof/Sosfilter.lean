import Verif.Model.Sosfilter
import Verif.Proof.Mem
namespace Ufunclab.Sosfilter
variable {α : Type _} [Add α] [Sub α] [Mul α]

/-! ### Contiguous = strided -/

theorem contigInner_eq (size : Int) (mS : Mem α) (pS pZ ya : Int) (fuel k : Nat) (xi : α)
    (mz my : Mem α) :
    contigInner size mS pS pZ ya fuel k xi mz my =
      icInner mS ⟨pS, 6 * size, size⟩ ⟨pZ, 2 * size, size⟩ ya fuel k xi mz my := by
  induction fuel generalizing k xi mz my with
  | zero => rfl
  | succ f ih =>
    simp only [contigInner, icInner, get2d, set2d, ih]
    have a0 : pS + (k : Int) * (6 * size) + ((0 : Nat) : Int) * size = pS + 6 * (k : Int) * size := by grind
    have a1 : pS + (k : Int) * (6 * size) + ((1 : Nat) : Int) * size = pS + (6 * (k : Int) + 1) * size := by grind
    have a2 : pS + (k : Int) * (6 * size) + ((2 : Nat) : Int) * size = pS + (6 * (k : Int) + 2) * size := by grind
    have a4 : pS + (k : Int) * (6 * size) + ((4 : Nat) : Int) * size = pS + (6 * (k : Int) + 4) * size := by grind
    have a5 : pS + (k : Int) * (6 * size) + ((5 : Nat) : Int) * size = pS + (6 * (k : Int) + 5) * size := by grind
    have z0 : pZ + (k : Int) * (2 * size) + ((0 : Nat) : Int) * size = pZ + 2 * (k : Int) * size := by grind
    have z1 : pZ + (k : Int) * (2 * size) + ((1 : Nat) : Int) * size = pZ + (2 * (k : Int) + 1) * size := by grind
    rw [a0, a1, a2, a4, a5, z0, z1]

theorem contigOuter_eq (size : Int) (m : Nat) (mS : Mem α) (pS : Int) (mx : Mem α) (px pZ py : Int)
    (fuel i : Nat) (mz my : Mem α) :
    contigOuter size m mS pS mx px pZ py fuel i mz my =
      icOuter m mS ⟨pS, 6 * size, size⟩ mx px size ⟨pZ, 2 * size, size⟩ py size fuel i mz my := by
  induction fuel generalizing i mz my with
  | zero => rfl
  | succ f ih => simp only [contigOuter, icOuter, contigInner_eq, ih]

omit [Add α] [Sub α] [Mul α] in
theorem memcpy_eq_copyRows (size dst src : Int) (fuel k : Nat) (mz : Mem α) :
    memcpy size dst src (2 * fuel) (2 * k) mz =
      copyRows ⟨src, 2 * size, size⟩ ⟨dst, 2 * size, size⟩ fuel k mz := by
  induction fuel generalizing k mz with
  | zero => rfl
  | succ f ih =>
    have e : 2 * (f + 1) = 2 * f + 1 + 1 := by omega
    have e2 : 2 * k + 1 + 1 = 2 * (k + 1) := by omega
    rw [e]
    simp only [memcpy, copyRows, get2d, set2d]
    rw [e2, ih]
    have h0 : ∀ p : Int, p + (k : Int) * (2 * size) + ((0 : Nat) : Int) * size = p + ((2 * k : Nat) : Int) * size := by
      intro p; grind
    have h1 : ∀ p : Int, p + (k : Int) * (2 * size) + ((1 : Nat) : Int) * size = p + ((2 * k + 1 : Nat) : Int) * size := by
      intro p; grind
    rw [h0, h0, h1, h1]

theorem contigCore_eq (size : Int) (m n : Nat) (mS : Mem α) (pS : Int) (mx : Mem α) (px : Int)
    (pZI : Int) (my : Mem α) (py : Int) (pZF : Int) (mz : Mem α) :
    contigCore size m n mS pS mx px pZI my py pZF mz =
      icCore size m n mS ⟨pS, 6 * size, size⟩ mx px size ⟨pZI, 2 * size, size⟩ my py size
        ⟨pZF, 2 * size, size⟩ mz := by
  simp only [contigCore, icCore, and_self, if_true, contigOuter_eq]
  have h := memcpy_eq_copyRows size pZF pZI m 0 mz
  simp only [Nat.mul_zero] at h
  by_cases he : pZF = pZI
  · simp [he]
  · have he' : pZI ≠ pZF := fun h => he h.symm
    simp [he, he', h]

/-! ### Memory level = list level -/

/-- The cells of rows `< m` are pairwise different. -/
def View2.Inj (v : View2) (m : Nat) : Prop :=
  ∀ i i' j j', i < m → i' < m → j < 2 → j' < 2 → v.addr i j = v.addr i' j' → i = i' ∧ j = j'

theorem get2d_addr (m : Mem α) (v : View2) (i j : Nat) : get2d m v.p v.s0 v.s1 i j = m (v.addr i j) := rfl

theorem icInner_z_frame (mS : Mem α) (S Z : View2) (ya : Int) (fuel k : Nat) (xi : α) (mz my : Mem α)
    (a : Int) (h : ∀ i j, k ≤ i → i < k + fuel → j < 2 → a ≠ Z.addr i j) :
    (icInner mS S Z ya fuel k xi mz my).1 a = mz a := by
  induction fuel generalizing k xi mz my with
  | zero => rfl
  | succ f ih =>
    simp only [icInner]
    rw [ih _ _ _ _ (fun i j h1 h2 => h i j (by omega) (by omega))]
    have h0 := h k 0 (by omega) (by omega) (by omega)
    have h1 := h k 1 (by omega) (by omega) (by omega)
    simp only [View2.addr] at h0 h1
    rw [set2d, Mem.store_other _ _ h1, set2d, Mem.store_other _ _ h0]

theorem icInner_y_frame (mS : Mem α) (S Z : View2) (ya : Int) (fuel k : Nat) (xi : α) (mz my : Mem α)
    (a : Int) (h : a ≠ ya) : (icInner mS S Z ya fuel k xi mz my).2 a = my a := by
  induction fuel generalizing k xi mz my with
  | zero => rfl
  | succ f ih => simp only [icInner]; rw [ih, Mem.store_other _ _ h]

/-- Inner loop = `sampleStep` on rows `k, ..., k+fuel-1`. -/
theorem icInner_spec (mS : Mem α) (S Z : View2) (ya : Int) (m : Nat) (hZ : Z.Inj m)
    (fuel k : Nat) (hk : k + fuel ≤ m) (xi : α) (mz my : Mem α) :
    (List.range' k fuel).map (stateAt (icInner mS S Z ya fuel k xi mz my).1 Z) =
      (sampleStep ((List.range' k fuel).map (sectionAt mS S))
        ((List.range' k fuel).map (stateAt mz Z)) xi).2 ∧
    (0 < fuel → (icInner mS S Z ya fuel k xi mz my).2 ya =
      (sampleStep ((List.range' k fuel).map (sectionAt mS S))
        ((List.range' k fuel).map (stateAt mz Z)) xi).1) := by
  induction fuel generalizing k xi mz my with
  | zero => simp [sampleStep]
  | succ f ih =>
    have hr : List.range' k (f + 1) = k :: List.range' (k + 1) f := by simp [List.range'_succ]
    -- the memory after the body
    let yi := secOut (sectionAt mS S k) (stateAt mz Z k) xi
    let st := secState (sectionAt mS S k) (stateAt mz Z k) xi
    let mz' := (mz.store (Z.addr k 0) st.z0).store (Z.addr k 1) st.z1
    have hstep : icInner mS S Z ya (f + 1) k xi mz my =
        icInner mS S Z ya f (k + 1) yi mz' (my.store ya yi) := rfl
    have hne : Z.addr k 0 ≠ Z.addr k 1 := by
      intro h; have := hZ k k 0 1 (by omega) (by omega) (by omega) (by omega) h; omega
    have hkz : stateAt mz' Z k = st := by
      simp only [stateAt, get2d_addr, mz', Mem.store_same, Mem.store_other _ _ hne]
    have hother : ∀ i, k < i → i < m → stateAt mz' Z i = stateAt mz Z i := by
      intro i h1 h2
      simp only [stateAt, get2d_addr, mz']
      have a : ∀ j j', j < 2 → j' < 2 → Z.addr i j ≠ Z.addr k j' := by
        intro j j' hj hj' h
        have := hZ i k j j' h2 (by omega) hj hj' h; omega
      rw [Mem.store_other _ _ (a 0 1 (by omega) (by omega)), Mem.store_other _ _ (a 0 0 (by omega) (by omega)),
        Mem.store_other _ _ (a 1 1 (by omega) (by omega)), Mem.store_other _ _ (a 1 0 (by omega) (by omega))]
    have hrest : (List.range' (k + 1) f).map (stateAt mz' Z) = (List.range' (k + 1) f).map (stateAt mz Z) := by
      apply List.map_congr_left
      intro i hi
      rw [List.mem_range'_1] at hi
      exact hother i (by omega) (by omega)
    obtain ⟨i1, i2⟩ := ih (k + 1) (by omega) yi mz' (my.store ya yi)
    rw [hrest] at i1 i2
    rw [hstep, hr]
    simp only [List.map_cons, sampleStep]
    refine ⟨?_, ?_⟩
    · rw [i1]
      congr 1
      have hfr : ∀ j, j < 2 → (icInner mS S Z ya f (k + 1) yi mz' (my.store ya yi)).1 (Z.addr k j)
          = mz' (Z.addr k j) := by
        intro j hj
        apply icInner_z_frame
        intro i j' h1 h2 hj' h
        have := hZ k i j j' (by omega) (by omega) hj hj' h; omega
      simp only [stateAt, get2d_addr]
      rw [hfr 0 (by omega), hfr 1 (by omega)]
      exact hkz
    · intro _
      rcases Nat.eq_zero_or_pos f with rfl | hf
      · simp [icInner, sampleStep]; rfl
      · exact i2 hf

theorem icOuter_z_spec (m : Nat) (hm : 0 < m) (mS : Mem α) (S : View2) (mx : Mem α) (px xs : Int)
    (Z : View2) (hZ : Z.Inj m) (py ys : Int) (hys : ys ≠ 0) (fuel i : Nat) (mz my : Mem α) :
    states (icOuter m mS S mx px xs Z py ys fuel i mz my).1 Z m =
      (filter (sections mS S m) (states mz Z m) (elems mx (px + (i : Int) * xs) xs fuel)).2 ∧
    elems (icOuter m mS S mx px xs Z py ys fuel i mz my).2 (py + (i : Int) * ys) ys fuel =
      (filter (sections mS S m) (states mz Z m) (elems mx (px + (i : Int) * xs) xs fuel)).1 ∧
    ∀ a, (∀ j, i ≤ j → j < i + fuel → a ≠ py + (j : Int) * ys) →
      (icOuter m mS S mx px xs Z py ys fuel i mz my).2 a = my a := by
  induction fuel generalizing i mz my with
  | zero => simp [icOuter, filter]
  | succ f ih =>
    rw [elems_succ, elems_succ]
    simp only [icOuter, filter]
    have hin := icInner_spec mS S Z (py + (i : Int) * ys) m hZ m 0 (by omega)
      (mx (px + (i : Int) * xs)) mz my
    simp only [← List.range_eq_range'] at hin
    have e1 : px + (i : Int) * xs + xs = px + ((i + 1 : Nat) : Int) * xs := by grind
    have e2 : py + (i : Int) * ys + ys = py + ((i + 1 : Nat) : Int) * ys := by grind
    obtain ⟨h1, h2, h3⟩ := ih (i + 1)
      (icInner mS S Z (py + (i : Int) * ys) m 0 (mx (px + (i : Int) * xs)) mz my).1
      (icInner mS S Z (py + (i : Int) * ys) m 0 (mx (px + (i : Int) * xs)) mz my).2
    have hst : states (icInner mS S Z (py + (i : Int) * ys) m 0 (mx (px + (i : Int) * xs)) mz my).1 Z m
        = (sampleStep (sections mS S m) (states mz Z m) (mx (px + (i : Int) * xs))).2 := hin.1
    rw [hst] at h1 h2
    rw [e1, e2]
    refine ⟨h1, ?_, ?_⟩
    · rw [h2]
      congr 1
      rw [h3]
      · exact hin.2 hm
      · intro j hj1 hj2 h
        have := stride_inj hys h
        omega
    · intro a ha
      rw [h3 a (fun j hj1 hj2 => ha j (by omega) (by omega)), icInner_y_frame]
      exact ha i (by omega) (by omega)

/-- Copying zi to zf. -/
theorem copyRows_spec (ZI ZF : View2) (m : Nat) (hF : ZF.Inj m)
    (hdisj : ∀ i i' j j', i < m → i' < m → j < 2 → j' < 2 → ZI.addr i j ≠ ZF.addr i' j')
    (fuel k : Nat) (hk : k + fuel ≤ m) (mz : Mem α) :
    (∀ i j, k ≤ i → i < k + fuel → j < 2 →
      copyRows ZI ZF fuel k mz (ZF.addr i j) = mz (ZI.addr i j)) ∧
    (∀ a, (∀ i j, k ≤ i → i < k + fuel → j < 2 → a ≠ ZF.addr i j) →
      copyRows ZI ZF fuel k mz a = mz a) := by
  induction fuel generalizing k mz with
  | zero => exact ⟨fun i j h1 h2 => by omega, fun a _ => rfl⟩
  | succ f ih =>
    let mz1 := mz.store (ZF.addr k 0) (mz (ZI.addr k 0))
    let mz2 := mz1.store (ZF.addr k 1) (mz1 (ZI.addr k 1))
    have hstep : copyRows ZI ZF (f + 1) k mz = copyRows ZI ZF f (k + 1) mz2 := rfl
    have hsrc : ∀ i j, i < m → j < 2 → mz2 (ZI.addr i j) = mz (ZI.addr i j) := by
      intro i j hi hj
      simp only [mz2, mz1]
      rw [Mem.store_other _ _ (hdisj i k j 1 hi (by omega) hj (by omega)),
        Mem.store_other _ _ (hdisj i k j 0 hi (by omega) hj (by omega))]
    have hne : ZF.addr k 0 ≠ ZF.addr k 1 := by
      intro h; have := hF k k 0 1 (by omega) (by omega) (by omega) (by omega) h; omega
    obtain ⟨h1, h2⟩ := ih (k + 1) (by omega) mz2
    rw [hstep]
    refine ⟨?_, ?_⟩
    · intro i j hi1 hi2 hj
      rcases Nat.eq_or_lt_of_le hi1 with rfl | hlt
      · rw [h2]
        · have : j = 0 ∨ j = 1 := by omega
          rcases this with rfl | rfl
          · simp only [mz2, mz1]; rw [Mem.store_other _ _ hne, Mem.store_same]
          · simp only [mz2, mz1]; rw [Mem.store_same,
              Mem.store_other _ _ (hdisj k k 1 0 (by omega) (by omega) (by omega) (by omega))]
        · intro i' j' h3 h4 hj' h
          have := hF k i' j j' (by omega) (by omega) hj hj' h; omega
      · rw [h1 i j (by omega) (by omega) hj, hsrc i j (by omega) hj]
    · intro a ha
      rw [h2 a (fun i j h3 h4 => ha i j (by omega) (by omega))]
      simp only [mz2, mz1]
      rw [Mem.store_other _ _ (ha k 1 (by omega) (by omega) (by omega)),
        Mem.store_other _ _ (ha k 0 (by omega) (by omega) (by omega))]

/-! ### List level -/

theorem filter_length (ss : List (Section α)) (zs : List (State α)) (xs : List α) :
    (filter ss zs xs).1.length = xs.length := by
  induction xs generalizing zs with
  | nil => rfl
  | cons x xs ih => simp [filter, ih]

theorem filter_append (ss : List (Section α)) (zs : List (State α)) (xs ys : List α) :
    filter ss zs (xs ++ ys) =
      ((filter ss zs xs).1 ++ (filter ss (filter ss zs xs).2 ys).1,
       (filter ss (filter ss zs xs).2 ys).2) := by
  induction xs generalizing zs with
  | nil => simp [filter]
  | cons x xs ih => simp [filter, ih]

theorem filter_nil_sections (xs : List α) : (filter ([] : List (Section α)) [] xs) = (xs, []) := by
  induction xs with
  | nil => rfl
  | cons x xs ih => simp [filter, sampleStep, ih]

/-- Sample-by-sample = section-by-section. -/
theorem filter_cons (s : Section α) (ss : List (Section α)) (z : State α) (zs : List (State α))
    (xs : List α) :
    filter (s :: ss) (z :: zs) xs =
      ((filter ss zs (filter [s] [z] xs).1).1,
       (filter [s] [z] xs).2 ++ (filter ss zs (filter [s] [z] xs).1).2) := by
  induction xs generalizing z zs with
  | nil => simp [filter]
  | cons x xs ih => simp [filter, sampleStep, ih]

end Ufunclab.Sosfilter

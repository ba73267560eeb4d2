import Verif.Proof.Bincount
/-! # Properties C09-C13: bincount

`hx : ∀ k ∈ elems mx px sx n, k < 2^63` says that every element of `x` fits in
`npy_intp`; it holds automatically for every integer dtype except uint64. -/
namespace Ufunclab.Bincount

/-- C09: `out[j]` grows by the number of `i` with `x[i] = j`, on every
contiguous/strided branch, whatever `out` contained; negative and too large
values of `x` have no influence (they equal no `j < m`). -/
theorem C09_counts (szT szU : Int) (n m : Nat) (mx : Mem Int) (px sx po so : Int) (mo : Mem Int)
    (hso : so ≠ 0) (hx : ∀ k ∈ elems mx px sx n, k < 2 ^ 63) (j : Nat) (hj : j < m) :
    get (core szT szU n m mx px sx po so mo) po so j =
      get mo po so j + ((elems mx px sx n).countP (fun k => k == (j : Int)) : Int) := by
  rw [core_eq_foldl]
  exact foldl_step_get m po so hso _ hx mo j hj

/-- C09 with the wrapper's `np.zeros` output: the result is the count. -/
theorem C09_counts_zero (szT szU : Int) (n m : Nat) (mx : Mem Int) (px sx po so : Int) (mo : Mem Int)
    (hso : so ≠ 0) (hx : ∀ k ∈ elems mx px sx n, k < 2 ^ 63)
    (hz : ∀ j < m, get mo po so j = 0) :
    elems (core szT szU n m mx px sx po so mo) po so m =
      (List.range m).map (fun j : Nat => ((elems mx px sx n).countP (fun k => k == (j : Int)) : Int)) := by
  apply List.map_congr_left
  intro j hj
  have hj' : j < m := by simpa using hj
  rw [C09_counts szT szU n m mx px sx po so mo hso hx j hj', hz j hj']
  simp

/-- C10 (for values that fit in `npy_intp`, i.e. all dtypes but the top half
of uint64): nothing outside `out[0..m-1]` is written, for any strides. -/
theorem C10_frame_partial (szT szU : Int) (n m : Nat) (mx : Mem Int) (px sx po so : Int)
    (mo : Mem Int) (hx : ∀ k ∈ elems mx px sx n, k < 2 ^ 63) (b : Int)
    (hb : ∀ j < m, b ≠ po + (j : Int) * so) :
    core szT szU n m mx px sx po so mo b = mo b := by
  rw [core_eq_foldl]
  exact foldl_step_frame m po so _ hx mo b hb

/-- C10 is false of the code for uint64: EVERY value `k` in `[2^63, 2^64)`
passes the guard for every `m`, and the cell incremented is element number
`k - 2^64 < 0` of `out`, i.e. outside it. -/
theorem C10_violated_uint64 (szT szU : Int) (m : Nat) (mx : Mem Int) (px sx po so : Int)
    (mo : Mem Int) (hso : so ≠ 0) (k : Int) (h1 : 2 ^ 63 ≤ k) (h2 : k < 2 ^ 64) (hk : mx px = k) :
    let b := po + (k - 2 ^ 64) * so
    (∀ j < m, b ≠ po + (j : Int) * so) ∧
    core szT szU 1 m mx px sx po so mo b = mo b + 1 := by
  intro b
  constructor
  · intro j _ h
    have : (k - 2 ^ 64) * so = (j : Int) * so := by omega
    have := Int.eq_of_mul_eq_mul_right hso this
    omega
  · rw [core_eq_foldl]
    have : elems mx px sx 1 = [k] := by
      simp [elems, get, hk]
    rw [this]
    have hg : guard k m = true := by
      unfold guard
      rw [toIntp_of_ge h1 h2]
      simp; omega
    simp only [List.foldl_cons, List.foldl_nil, stepK, hg, if_true, bump, toIntp_of_ge h1 h2]
    simp [b]

/-- C11: two successive calls accumulate like one call on the concatenated
input (here: any array whose elements are those of `x` followed by `y`). -/
theorem C11_append (szT szU szT' szU' szT'' szU'' : Int) (n1 n2 m : Nat) (mx my mz : Mem Int)
    (px sx py sy pz sz po so : Int) (mo : Mem Int)
    (hz : elems mz pz sz (n1 + n2) = elems mx px sx n1 ++ elems my py sy n2) :
    core szT' szU' n2 m my py sy po so (core szT szU n1 m mx px sx po so mo) =
      core szT'' szU'' (n1 + n2) m mz pz sz po so mo := by
  simp only [core_eq_foldl, hz, List.foldl_append]

/-- C11: the result does not depend on the order of the elements of `x`. -/
theorem C11_perm (szT szU szT' szU' : Int) (n m : Nat) (mx my : Mem Int) (px sx py sy po so : Int)
    (mo : Mem Int) (hso : so ≠ 0) (hx : ∀ k ∈ elems mx px sx n, k < 2 ^ 63)
    (hp : (elems mx px sx n).Perm (elems my py sy n)) :
    core szT szU n m mx px sx po so mo = core szT' szU' n m my py sy po so mo := by
  have hy : ∀ k ∈ elems my py sy n, k < 2 ^ 63 := fun k hk => hx k (hp.mem_iff.2 hk)
  funext b
  by_cases hb : ∃ j < m, b = po + (j : Int) * so
  · obtain ⟨j, hj, rfl⟩ := hb
    have h1 := C09_counts szT szU n m mx px sx po so mo hso hx j hj
    have h2 := C09_counts szT' szU' n m my py sy po so mo hso hy j hj
    rw [hp.countP_eq] at h1
    unfold get at h1 h2
    rw [h1, h2]
  · have hb' : ∀ j < m, b ≠ po + (j : Int) * so := fun j hj h => hb ⟨j, hj, h⟩
    rw [C10_frame_partial szT szU n m mx px sx po so mo hx b hb',
      C10_frame_partial szT' szU' n m my py sy po so mo hy b hb']

theorem sum_count_range (xs : List Int) (m : Nat) :
    ((List.range m).map (fun j : Nat => (xs.countP (fun k => k == (j : Int)) : Int))).sum =
      (xs.countP (fun k => decide (0 ≤ k) && decide (k < (m : Int))) : Int) := by
  induction m with
  | zero =>
    simp only [List.range_zero, List.map_nil, List.sum_nil]
    rw [List.countP_eq_zero.2]
    · rfl
    · intro k _; simp
  | succ m ih =>
    rw [List.range_succ, List.map_append, List.sum_append, ih]
    simp only [List.map_cons, List.map_nil, List.sum_cons, List.sum_nil]
    clear ih
    induction xs with
    | nil => simp
    | cons x xs ih2 =>
      simp only [List.countP_cons]
      by_cases h1 : x = (m : Int)
      · subst h1
        have h2 : (m : Int) < (m : Int) + 1 := by omega
        simp [h2] at ih2 ⊢; omega
      · have e : (decide (0 ≤ x) && decide (x < ((m + 1 : Nat) : Int)))
            = (decide (0 ≤ x) && decide (x < (m : Int))) := by
          have : (x < ((m + 1 : Nat) : Int)) ↔ x < (m : Int) := by omega
          simp only [this]
        rw [e]
        simp [h1] at ih2 ⊢; omega

theorem sum_map_add (f g : Nat → Int) (l : List Nat) :
    (l.map (fun j => f j + g j)).sum = (l.map f).sum + (l.map g).sum := by
  induction l with
  | nil => rfl
  | cons a l ih => simp only [List.map_cons, List.sum_cons, ih]; omega

/-- C11: the total of `out` grows by exactly the number of in-range elements. -/
theorem C11_total (szT szU : Int) (n m : Nat) (mx : Mem Int) (px sx po so : Int) (mo : Mem Int)
    (hso : so ≠ 0) (hx : ∀ k ∈ elems mx px sx n, k < 2 ^ 63) :
    (elems (core szT szU n m mx px sx po so mo) po so m).sum =
      (elems mo po so m).sum +
      ((elems mx px sx n).countP (fun k => decide (0 ≤ k) && decide (k < (m : Int))) : Int) := by
  have : elems (core szT szU n m mx px sx po so mo) po so m =
      (List.range m).map (fun j : Nat => get mo po so j +
        ((elems mx px sx n).countP (fun k => k == (j : Int)) : Int)) := by
    apply List.map_congr_left
    intro j hj
    exact C09_counts szT szU n m mx px sx po so mo hso hx j (by simpa using hj)
  rw [this, sum_map_add, sum_count_range]
  rfl

section weighted
variable {W : Type _} [Add W]

/-- C12: with weights, `out[j]` becomes the left-to-right sum, starting from
its old value, of the weights whose index is `j` (no law of `+` is used: the
equality is bit-exact), and nothing else is written. -/
theorem C12_weighted (n m : Nat) (mx : Mem Int) (mw : Mem W) (px sx pw sw po so : Int) (mo : Mem W)
    (hso : so ≠ 0) (hx : ∀ k ∈ elems mx px sx n, k < 2 ^ 63) :
    let mo' := coreW m mx mw px sx pw sw po so n 0 mo
    (∀ j < m, get mo' po so j =
      ((((elems mx px sx n).zip (elems mw pw sw n)).filter (fun kw => kw.1 == (j : Int))).map
        Prod.snd).foldl (· + ·) (get mo po so j)) ∧
    (∀ b, (∀ j < m, b ≠ po + (j : Int) * so) → mo' b = mo b) := by
  intro mo'
  have hx' : ∀ kw ∈ (elems mx px sx n).zip (elems mw pw sw n), kw.1 < 2 ^ 63 := by
    intro kw hkw
    exact hx kw.1 (List.of_mem_zip hkw).1
  have he : mo' = ((elems mx px sx n).zip (elems mw pw sw n)).foldl (stepW m po so) mo := by
    simp only [mo']; rw [coreW_eq_foldl, zip_elems]
  constructor
  · intro j hj
    rw [he]; exact foldl_stepW_get m po so hso _ hx' mo j hj
  · intro b hb
    rw [he]; exact foldl_stepW_frame m po so _ hx' mo b hb

/-- C12: weighted calls on pieces compose (bit-exactly). -/
theorem C12_append (n1 n2 m : Nat) (mx : Mem Int) (mw : Mem W)
    (px sx pw sw po so : Int) (mo : Mem W) :
    coreW m mx mw px sx pw sw po so (n1 + n2) 0 mo =
      coreW m mx mw (px + (n1 : Int) * sx) sx (pw + (n1 : Int) * sw) sw po so n2 0
        (coreW m mx mw px sx pw sw po so n1 0 mo) := by
  simp only [coreW_eq_foldl]
  rw [List.range_add, List.map_append, List.foldl_append, List.map_map]
  congr 1
  apply List.map_congr_left
  intro j _
  have e : ∀ p s : Int, p + ((0 + (n1 + j) : Nat) : Int) * s = p + (n1 : Int) * s + ((0 + j : Nat) : Int) * s := by
    intro p s
    rw [show ((0 + (n1 + j) : Nat) : Int) = (n1 : Int) + ((0 + j : Nat) : Int) by omega, Int.add_mul]
    omega
  simp only [Function.comp, get, e]
end weighted

/-- C12: with all weights equal to 1 (in `Int`), bincountw is bincount. -/
theorem C12_unit_weights (szT szU : Int) (n m : Nat) (mx mw : Mem Int)
    (px sx pw sw po so : Int) (mo : Mem Int) (hw : ∀ i < n, get mw pw sw i = 1) :
    coreW m mx mw px sx pw sw po so n 0 mo = core szT szU n m mx px sx po so mo := by
  rw [core_eq_foldl, coreW_eq_foldl]
  have : (List.range n).map (fun j => (get mx px sx (0 + j), get mw pw sw (0 + j)))
      = (elems mx px sx n).map (fun k => (k, (1 : Int))) := by
    simp only [elems, List.map_map]
    apply List.map_congr_left
    intro j hj
    simp [hw j (by simpa using hj)]
  rw [this, List.foldl_map]
  rfl

/-- C13 (no overflow of the dtype): the default length is one more than the
largest element (0 if that is negative), so every non-negative element is
counted, and no smaller length would count the largest. -/
theorem C13_default_m_partial (t : IntTy) (hb : 0 < t.bits) (xs : List Int) (hne : xs ≠ [])
    (hov : ∀ x ∈ xs, t.InRange (x + 1)) :
    ∃ m, defaultM t xs = some m ∧ 0 ≤ m ∧ (∀ x ∈ xs, x < m) ∧ (m = 0 ∨ m - 1 ∈ xs) := by
  cases xs with
  | nil => exact absurd rfl hne
  | cons a as =>
    have hmem := npMax_mem a as
    have hge := npMax_ge a as
    have hw : t.wrap (npMax a as + 1) = npMax a as + 1 :=
      IntTy.wrap_of_inRange t hb _ (hov _ hmem)
    simp only [defaultM, hw]
    refine ⟨_, rfl, ?_⟩
    split
    · refine ⟨by omega, ?_, Or.inl rfl⟩
      intro x hx
      have := hge x hx
      omega
    · refine ⟨by omega, ?_, ?_⟩
      · intro x hx
        have := hge x hx
        omega
      · right
        rw [show npMax a as + 1 - 1 = npMax a as by omega]
        exact hmem

theorem npMax_eq_of (a : Int) (as : List Int) (v : Int) (hv : v ∈ a :: as)
    (h : ∀ x ∈ a :: as, x ≤ v) : npMax a as = v := by
  have h1 := npMax_ge a as v hv
  have h2 := h _ (npMax_mem a as)
  omega

/-- C13 is false of the code for EVERY integer dtype: as soon as `x` contains
the largest value of its dtype the default length is 0, so nothing at all is
counted (e.g. `bincount(np.array([0, 255], dtype=np.uint8))` is empty). -/
theorem C13_violated (t : IntTy) (hb : 0 < t.bits) (xs : List Int)
    (hr : ∀ x ∈ xs, t.InRange x) (hmax : t.max ∈ xs) : defaultM t xs = some 0 := by
  cases xs with
  | nil => simp at hmax
  | cons a as =>
    have hm := npMax_eq_of a as t.max hmax (fun x hx => (hr x hx).2)
    simp only [defaultM, hm]
    have hp := IntTy.two_pow_pos (t.bits - 1)
    have hs := IntTy.two_pow_split hb
    have : t.wrap (t.max + 1) = t.min := by
      unfold IntTy.wrap IntTy.max IntTy.min
      cases t.signed
      · simp
      · simp
        rw [show (2:Int) ^ (t.bits - 1) + 2 ^ (t.bits - 1) = 2 ^ t.bits by omega]
        simp
    rw [this]
    unfold IntTy.min
    cases t.signed
    · simp
    · simp [hp]

/-- C13: an empty `x` without `m` raises. -/
theorem C13_empty_raises (t : IntTy) : defaultM t [] = none := rfl

/-! ### Non-vacuity -/
/-- x = [3, -1, 3, 9, 0] at addresses 0, 8, .. -/
def exX : Mem Int := fun p =>
  if p = 0 then 3 else if p = 8 then -1 else if p = 16 then 3 else if p = 24 then 9 else 0

example : elems (core 8 8 5 4 exX 0 8 1000 8 (fun _ => 10)) 1000 8 4 = [11, 10, 10, 12] := by decide
example : elems (core 8 8 5 4 exX 32 (-8) 1000 16 (fun _ => 0)) 1000 16 4 = [1, 0, 0, 2] := by decide
example : ∀ k ∈ elems exX 0 8 5, k < 2 ^ 63 := by decide
example : defaultM IntTy.u8 [0, 255] = some 0 ∧ defaultM IntTy.u8 [0, 254] = some 255 := by decide
example : (coreW 4 exX (fun p => p / 8 + 1) 0 8 0 8 1000 8 5 0 (fun _ => 0 : Mem Int)) 1024 = 1 + 3 := by
  decide

end Ufunclab.Bincount

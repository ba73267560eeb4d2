import Verif.Props.Dispatch
import Verif.Model.AllSame
import Verif.Model.Ordered
import Verif.Proof.Float
import Verif.Proof.FloatRatio
/-!
# C111: integers survive the cast to the loop that runs
-/
namespace Ufunclab.Dispatch
open Ufunclab.Float


def DT.isInt (t : DT) : Bool := t.kind == .boolean || t.kind == .signed || t.kind == .unsigned

/-- A cast that keeps every integer: safe, and not from 64 bits to a significand of 53. -/
def keeps (P : Platform) (s t : DT) : Bool :=
  canCast P s t && !(s.bits P == 64 && (t.kind == .float || t.kind == .complex) && t.prec P ≤ 53)

/-- C111: such a cast keeps the values. -/
theorem C111_keeps (P : Platform) (s t : DT) (hs : s.isInt = true) (h : keeps P s t = true) (v : ℤ) (hv : s.HasInt P v) :
    t.HasInt P v := by
  have bd : |v| ≤ 2 ^ s.bits P := by
    have h2 : ∀ n : ℕ, (2 : ℤ) ^ (n - 1) ≤ 2 ^ n := fun n => pow_le_pow_right₀ (by norm_num) (Nat.sub_le _ _)
    have h3 := h2 (s.bits P)
    have h4 : (1 : ℤ) ≤ 2 ^ s.bits P := one_le_pow₀ (by norm_num)
    rw [abs_le]
    unfold DT.HasInt at hv
    split at hv
    · rcases hv with e | e <;> subst e <;> constructor <;> linarith
    · constructor <;> linarith [hv.1, hv.2]
    · constructor <;> linarith [hv.1, hv.2]
    · rename_i hk; simp [DT.isInt, hk] at hs
    · rename_i hk; simp [DT.isInt, hk] at hs
    · rename_i hk; simp [DT.isInt, hk] at hs
  have fl : s.bits P ≤ t.prec P → ∃ (m : ℤ) (k : ℕ), v = m * 2 ^ k ∧ |m| ≤ 2 ^ t.prec P := fun hb =>
    ⟨v, 0, by simp, bd.trans (pow_le_pow_right₀ (by norm_num) hb)⟩
  rcases P with ⟨_ | _, _ | _⟩ <;> cases s <;> first | (exfalso; revert hs; decide) | skip
  all_goals
    cases t <;> first | (exfalso; revert h; decide) | exact fl (by decide) | skip
  all_goals
    clear fl bd h hs
    first
      | trivial
      | (simp only [DT.HasInt, DT.kind, DT.bits, if_true, Bool.false_eq_true, if_false, Nat.reduceSub, Int.reducePow,
          Int.reduceNeg] at hv ⊢; first | done | assumption | omega)

/-- The functions that count, compare, select or order integers, with a call in which all data has the type `t`; `p` stands for
the `intp` arguments, `b` for the comparison codes.  These have a loop for every 64 bit integer type on every platform. -/
def exactCalls (P : Platform) (t : DT) : List (UFunc × List DT) := [
  (bincountU, [t]), (bincountwU, [t, t]), (convertToBaseU, [t, t]), (argminU "argmin", [t]), (argminU "argmax", [t]),
  (argminU "argminmax", [t]), (minmaxU, [t]), (minArgminU "min_argmin", [t]), (minArgminU "max_argmax", [t]),
  (percentileU, [t, t, int64 P]), (peaktopeakU, [t]), (searchsortedU "searchsortedl", [t, t]),
  (searchsortedU "searchsortedr", [t, t]), (meanvarU, [t, int64 P])]

/-- Those whose widest integer loops are for C `long`. -/
def longCalls (t : DT) : List (UFunc × List DT) := [
  (allSameU, [t]), (orderedU, [t, .b]), (firstU, [t, .b, t, t]), (argfirstU, [t, .b, t]), (pearsonU, [t, t]), (wjaccardU, [t, t])]

/-- C111: called with integer arrays of one type, these functions find a loop and every integer of the type reaches it unchanged: on every
platform for the first list, where C `long` has 64 bits for the second. -/
theorem C111_same_type (P : Platform) (t : DT) (ht : t.isInt = true) (c : UFunc × List DT)
    (hc : c ∈ exactCalls P t ∨ P.long64 = true ∧ c ∈ longCalls t) :
    ∃ s r, resolve P (c.1.loops P) c.2 = some s ∧ s.ins.head? = some r ∧ ∀ v, t.HasInt P v → r.HasInt P v := by
  have key : ∀ P ∈ allPlatforms, ∀ t ∈ allTypes, t.isInt = true → ∀ c ∈ exactCalls P t ++ (if P.long64 then longCalls t else []),
      ((resolve P (c.1.loops P) c.2).bind fun s => s.ins.head?).any (keeps P t) = true := by decide +kernel
  have hm : c ∈ exactCalls P t ++ (if P.long64 then longCalls t else []) := by
    rcases hc with hc | ⟨h1, hc⟩
    · exact List.mem_append_left _ hc
    · rw [h1]; exact List.mem_append_right _ hc
  have := key P (mem_allPlatforms P) t (mem_allTypes t) ht c hm
  cases hr : resolve P (c.1.loops P) c.2 with
  | none => rw [hr] at this; cases this
  | some s =>
    rw [hr] at this
    simp only [Option.bind_some] at this
    cases hh : s.ins.head? with
    | none => rw [hh] at this; cases this
    | some r =>
      rw [hh] at this
      exact ⟨s, r, rfl, hh, fun v hv => C111_keeps P t r ht this v hv⟩

theorem not_double (P : Platform) : ¬ DT.d.HasInt P (2 ^ 53 + 1) := by
  rintro ⟨m, k, h1, h2⟩
  simp only [DT.prec] at h2
  cases k with
  | zero =>
    rw [pow_zero, mul_one] at h1
    rw [← h1] at h2
    norm_num at h2
  | succ k =>
    have : (2 : ℤ) ∣ 2 ^ 53 + 1 := by rw [h1, pow_succ]; exact ⟨m * 2 ^ k, by ring⟩
    norm_num at this

/-- The comparisons of the integers and of the real numbers. -/
def intCmp : CmpOps ℤ :=
  ⟨fun x y => decide (x < y), fun x y => decide (x ≤ y), fun x y => decide (x = y), fun x y => decide (x ≠ y),
    fun x y => decide (x > y), fun x y => decide (x ≥ y)⟩
noncomputable def realCmp : CmpOps ℝ :=
  ⟨fun x y => decide (x < y), fun x y => decide (x ≤ y), fun x y => decide (x = y), fun x y => decide (x ≠ y),
    fun x y => decide (x > y), fun x y => decide (x ≥ y)⟩

/-- C111: where C `long` has 32 bits (Windows) the functions of the second list convert `int64` arrays to `double`, in which the `int64` value
`2^53 + 1` does not exist. -/
theorem C111_windows_violated : (∀ c ∈ longCalls .q ++ [(crossU "cross2", [.q, .q]), (crossU "cross3", [.q, .q])],
    ∃ s, resolve windows (c.1.loops windows) c.2 = some s ∧ s.ins.head? = some .d) ∧
    DT.q.HasInt windows (2 ^ 53 + 1) ∧ ¬ DT.d.HasInt windows (2 ^ 53 + 1) := by
  refine ⟨?_, ?_, not_double _⟩
  · have : ∀ c ∈ longCalls .q ++ [(crossU "cross2", [.q, .q]), (crossU "cross3", [.q, .q])],
      ((resolve windows (c.1.loops windows) c.2).bind fun s => s.ins.head?) = some .d := by decide +kernel
    intro c hc
    have h := this c hc
    cases hr : resolve windows (c.1.loops windows) c.2 with
    | none => rw [hr] at h; cases h
    | some s => rw [hr] at h; exact ⟨s, rfl, h⟩
  · constructor <;> norm_num [DT.bits, DT.kind]

theorem round_next {rd : ℝ → ℝ} (h : Nearest 53 (-1074) rd) : rd (2 ^ 54) = 2 ^ 54 ∧ rd (2 ^ 54 + 1) = 2 ^ 54 := by
  have hf : IsFloat 53 (-1074) ((2 : ℝ) ^ 54) := by
    have := isFloat_zpow (K := ℝ) (p := 53) (by norm_num) (emin := -1074) (e := 54) (by norm_num)
    exact_mod_cast this
  refine ⟨h.exact hf, ?_⟩
  have h1 := h.mono_float hf (show (2 : ℝ) ^ 54 ≤ 2 ^ 54 + 1 by norm_num)
  have h2 := (h (2 ^ 54 + 1)).2 _ hf
  obtain ⟨m, e, hm, -, hx⟩ := (h (2 ^ 54 + 1)).1
  rw [hx] at h1 h2 ⊢
  have hm' : |(m : ℝ)| < 2 ^ 53 := by exact_mod_cast hm
  have he : 2 ≤ e := by
    by_contra hc
    have h3 : (2 : ℝ) ^ e ≤ 2 ^ (1 : ℤ) := zpow_le_zpow_right₀ (by norm_num) (by omega)
    have h4 := two_zpow_pos (K := ℝ) e
    have h5 : (m : ℝ) * 2 ^ e ≤ |(m : ℝ)| * 2 ^ e := mul_le_mul_of_nonneg_right (le_abs_self _) h4.le
    have h6 : |(m : ℝ)| * 2 ^ e ≤ |(m : ℝ)| * 2 ^ (1 : ℤ) := mul_le_mul_of_nonneg_left h3 (abs_nonneg _)
    norm_num at h6 hm' h1
    linarith
  obtain ⟨n, rfl⟩ : ∃ n : ℕ, e = n + 2 := ⟨(e - 2).toNat, by omega⟩
  have ez : (m : ℝ) * 2 ^ ((n : ℤ) + 2) = ((m * 2 ^ n * 4 : ℤ) : ℝ) := by
    rw [zpow_add₀ two_ne_zero, zpow_natCast]; push_cast; norm_num; ring
  rw [ez] at h1 h2 ⊢
  rw [show |(2 : ℝ) ^ 54 - (2 ^ 54 + 1)| = 1 by norm_num, abs_le] at h2
  have g1 : (2 ^ 54 : ℤ) ≤ m * 2 ^ n * 4 := by exact_mod_cast h1
  have g2 : m * 2 ^ n * 4 ≤ 2 ^ 54 + 2 := by
    have : ((m * 2 ^ n * 4 : ℤ) : ℝ) ≤ ((2 ^ 54 + 2 : ℤ) : ℝ) := by push_cast at h2 ⊢; linarith [h2.2]
    exact_mod_cast this
  have g3 : m * 2 ^ n * 4 = 2 ^ 54 := by generalize m * 2 ^ n = k at *; norm_num at *; omega
  rw [g3]; norm_num

/-- C111: what the user sees there: `all_same` of the two `int64` numbers `2^54` and `2^54 + 1` is true, and `ordered` with `op.LT`
says that they are not increasing. -/
theorem C111_windows_result_violated {rd : ℝ → ℝ} (h : Nearest 53 (-1074) rd) :
    resolve windows (allSameU.loops windows) [.q] = some ⟨[.d], [.bool_]⟩ ∧
    resolve windows (orderedU.loops windows) [.q, .b] = some ⟨[.d, .b], [.bool_]⟩ ∧
    AllSame.allSame (fun x y : ℝ => decide (x ≠ y)) ([2 ^ 54, 2 ^ 54 + 1].map rd) = true ∧
    AllSame.allSame (fun x y : ℤ => decide (x ≠ y)) [2 ^ 54, 2 ^ 54 + 1] = false ∧
    Ordered.ordered realCmp 0 ([2 ^ 54, 2 ^ 54 + 1].map rd) = false ∧
    Ordered.ordered intCmp 0 [2 ^ 54, 2 ^ 54 + 1] = true := by
  obtain ⟨e1, e2⟩ := round_next h
  refine ⟨by decide +kernel, by decide +kernel, ?_, by decide +kernel, ?_, by decide +kernel⟩
  · simp [AllSame.allSame, AllSame.loop, e1, e2]
  · simp [Ordered.ordered, Ordered.checkOrdered, Ordered.failTest, Op.ofCode, realCmp, e1, e2]

/-- C111: `uint64` vectors have no exact loop in `cross2` and `cross3` on any platform. -/
theorem C111_cross_violated (P : Platform) : ∃ s, resolve P ((crossU "cross2").loops P) [uint64 P, uint64 P] = some s ∧
    s.ins.head? = some .d ∧ (uint64 P).HasInt P (2 ^ 53 + 1) ∧ ¬ DT.d.HasInt P (2 ^ 53 + 1) := by
  refine ⟨⟨[.d, .d], [.d]⟩, ?_, rfl, ?_, not_double P⟩
  · have : ∀ P ∈ allPlatforms, resolve P ((crossU "cross2").loops P) [uint64 P, uint64 P] = some ⟨[.d, .d], [.d]⟩ := by
      decide +kernel
    exact this P (mem_allPlatforms P)
  · rcases P with ⟨_ | _, _ | _⟩ <;> constructor <;> norm_num [DT.bits, DT.kind, uint64]

/-- C111: an `int64` and a `uint64` array together are searched in `double` on every platform. -/
theorem C111_mixed_violated (P : Platform) : resolve P ((searchsortedU "searchsortedl").loops P) [int64 P, uint64 P] =
    some ⟨[.d, .d], [int64 P]⟩ := by
  have : ∀ P ∈ allPlatforms, resolve P ((searchsortedU "searchsortedl").loops P) [int64 P, uint64 P] =
    some ⟨[.d, .d], [int64 P]⟩ := by decide +kernel
  exact this P (mem_allPlatforms P)

/-- A rounding function as in `C111_windows_result_violated` exists; and a 64 bit integer above `2^53` on Linux is kept. -/
example : ∃ rd : ℝ → ℝ, Nearest 53 (-1074) rd := exists_nearest (by norm_num) _
example : keeps linux .i .d = true ∧ keeps linux .l .d = false ∧ keeps linux .L .g = true ∧ DT.i.HasInt linux (-5) := by
  refine ⟨by decide, by decide, by decide, ?_⟩
  constructor <;> norm_num [DT.bits]

end Ufunclab.Dispatch

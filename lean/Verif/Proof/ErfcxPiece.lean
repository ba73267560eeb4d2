import Verif.Model.Erfcx
import Verif.Proof.ErfcxRef
/-! # The polynomials of `erfcx_y100` approximate `erfcx` -/
namespace Ufunclab.Erfcx
open Real Set Ufunclab.Debye1

/-! ## Chebyshev polynomials -/

def t3 : List ℤ := [0, -3, 0, 4]
def t4 : List ℤ := [1, 0, -8, 0, 8]
def t5 : List ℤ := [0, 5, 0, -20, 0, 16]
def t6 : List ℤ := [-1, 0, 18, 0, -48, 0, 32]
def t7 : List ℤ := [0, -7, 0, 56, 0, -112, 0, 64]
def t8 : List ℤ := [1, 0, -32, 0, 160, 0, -256, 0, 128]
def t9 : List ℤ := [0, 9, 0, -120, 0, 432, 0, -576, 0, 256]

theorem abs_le_one_of {T U t : ℝ} (ht : t ∈ Icc (-1 : ℝ) 1) (h : T ^ 2 = 1 - (1 - t ^ 2) * U ^ 2) : |T| ≤ 1 := by
  rw [← sq_le_one_iff_abs_le_one, h]
  have : 0 ≤ 1 - t ^ 2 := by nlinarith [ht.1, ht.2]
  have := mul_nonneg this (sq_nonneg U)
  linarith

theorem t3_le {t : ℝ} (ht : t ∈ Icc (-1 : ℝ) 1) : |peval t3 t| ≤ 1 :=
  abs_le_one_of (U := (-1) * t ^ 0 + (4) * t ^ 2) ht
    (by simp only [t3, peval_cons, peval_nil]; push_cast; ring)

theorem t4_le {t : ℝ} (ht : t ∈ Icc (-1 : ℝ) 1) : |peval t4 t| ≤ 1 :=
  abs_le_one_of (U := (-4) * t ^ 1 + (8) * t ^ 3) ht
    (by simp only [t4, peval_cons, peval_nil]; push_cast; ring)

theorem t5_le {t : ℝ} (ht : t ∈ Icc (-1 : ℝ) 1) : |peval t5 t| ≤ 1 :=
  abs_le_one_of (U := (1) * t ^ 0 + (-12) * t ^ 2 + (16) * t ^ 4) ht
    (by simp only [t5, peval_cons, peval_nil]; push_cast; ring)

theorem t6_le {t : ℝ} (ht : t ∈ Icc (-1 : ℝ) 1) : |peval t6 t| ≤ 1 :=
  abs_le_one_of (U := (6) * t ^ 1 + (-32) * t ^ 3 + (32) * t ^ 5) ht
    (by simp only [t6, peval_cons, peval_nil]; push_cast; ring)

theorem t7_le {t : ℝ} (ht : t ∈ Icc (-1 : ℝ) 1) : |peval t7 t| ≤ 1 :=
  abs_le_one_of (U := (-1) * t ^ 0 + (24) * t ^ 2 + (-80) * t ^ 4 + (64) * t ^ 6) ht
    (by simp only [t7, peval_cons, peval_nil]; push_cast; ring)

theorem t8_le {t : ℝ} (ht : t ∈ Icc (-1 : ℝ) 1) : |peval t8 t| ≤ 1 :=
  abs_le_one_of (U := (-8) * t ^ 1 + (80) * t ^ 3 + (-192) * t ^ 5 + (128) * t ^ 7) ht
    (by simp only [t8, peval_cons, peval_nil]; push_cast; ring)

theorem t9_le {t : ℝ} (ht : t ∈ Icc (-1 : ℝ) 1) : |peval t9 t| ≤ 1 :=
  abs_le_one_of (U := (1) * t ^ 0 + (-40) * t ^ 2 + (240) * t ^ 4 + (-448) * t ^ 6 + (256) * t ^ 8) ht
    (by simp only [t9, peval_cons, peval_nil]; push_cast; ring)

/-- A bound of a polynomial on `[-1, 1]`: multiples of the given Chebyshev polynomials are removed one
after the other, and the rest is bounded by the sum of the coefficients. -/
def cheb : List (List ℤ) → List ℤ → ℤ
  | [], d => pabs d
  | T :: l, d =>
    let a := d.getD (T.length - 1) 0 / 2 ^ (T.length - 2)
    |a| + cheb l (padd d (psmul (-a) T))

theorem cheb_sound (l : List (List ℤ)) (hl : ∀ T ∈ l, ∀ t ∈ Icc (-1 : ℝ) 1, |peval T t| ≤ 1) (d : List ℤ) {t : ℝ}
    (ht : t ∈ Icc (-1 : ℝ) 1) : |peval d t| ≤ cheb l d := by
  induction l generalizing d with
  | nil => exact pabs_bound d (abs_le.mpr ht)
  | cons T l ih =>
    rw [cheb]
    obtain ⟨a, ha⟩ : ∃ a, a = d.getD (T.length - 1) 0 / 2 ^ (T.length - 2) := ⟨_, rfl⟩
    simp only [← ha]
    have h1 := ih (fun T' h => hl T' (List.mem_cons_of_mem _ h)) (padd d (psmul (-a) T))
    have e : peval d t = a * peval T t + peval (padd d (psmul (-a) T)) t := by
      rw [peval_padd, peval_psmul]; push_cast; ring
    rw [e]
    push_cast
    refine (abs_add_le _ _).trans (add_le_add ?_ h1)
    rw [abs_mul]
    exact mul_le_of_le_one_right (abs_nonneg _) (hl T List.mem_cons_self t ht)

/-! ## The check of one polynomial -/

/-- The value of the polynomial in exact arithmetic. -/
noncomputable def val (t : ℝ) : List (ℤ × ℕ) → ℝ
  | [] => 0
  | c :: cs => lit c + t * val t cs

/-- `Σ |c_i|`, and the weights of the rounding errors. -/
noncomputable def aval : List (ℤ × ℕ) → ℝ
  | [] => 0
  | c :: cs => |lit c| + aval cs
noncomputable def wval : List (ℤ × ℕ) → ℝ
  | [] => 0
  | c :: cs => wval cs + 2 * (|lit c| + aval cs)

/-- The same in integers, times `10^45`. -/
def pI : List (ℤ × ℕ) → List ℤ
  | [] => []
  | c :: cs => c.1 * 10 ^ (45 - c.2) :: pI cs
def wI : List ℤ → ℤ
  | [] => 0
  | a :: p => wI p + 2 * (|a| + pabs p)

def small (cs : List (ℤ × ℕ)) : Bool := cs.all fun c => decide (c.2 ≤ 45)

theorem lit_scale {c : ℤ × ℕ} (h : c.2 ≤ 45) : lit c = ((c.1 * 10 ^ (45 - c.2) : ℤ) : ℝ) / 10 ^ 45 := by
  have e : (10 : ℝ) ^ 45 = 10 ^ (45 - c.2) * 10 ^ c.2 := by rw [← pow_add]; congr 1; omega
  rw [lit, e]
  push_cast
  have : (10 : ℝ) ^ (45 - c.2) ≠ 0 := by positivity
  have : (10 : ℝ) ^ c.2 ≠ 0 := by positivity
  field_simp

theorem val_eq {cs : List (ℤ × ℕ)} (h : small cs = true) (t : ℝ) : val t cs = peval (pI cs) t / 10 ^ 45 := by
  induction cs with
  | nil => simp [val, pI]
  | cons c cs ih =>
    simp only [small, List.all_cons, Bool.and_eq_true, decide_eq_true_eq] at h
    rw [val, ih h.2, lit_scale h.1, pI, peval_cons]; ring

theorem aval_eq {cs : List (ℤ × ℕ)} (h : small cs = true) : aval cs = pabs (pI cs) / 10 ^ 45 := by
  induction cs with
  | nil => simp [aval, pI, pabs]
  | cons c cs ih =>
    simp only [small, List.all_cons, Bool.and_eq_true, decide_eq_true_eq] at h
    rw [aval, ih h.2, lit_scale h.1, pI, pabs, abs_div, abs_of_pos (show (0 : ℝ) < 10 ^ 45 by positivity)]
    rw [Int.cast_add, Int.cast_abs, add_div]

theorem wval_eq {cs : List (ℤ × ℕ)} (h : small cs = true) : wval cs = wI (pI cs) / 10 ^ 45 := by
  induction cs with
  | nil => simp [wval, pI, wI]
  | cons c cs ih =>
    simp only [small, List.all_cons, Bool.and_eq_true, decide_eq_true_eq] at h
    have h3 := aval_eq h.2
    rw [wval, ih h.2, h3, lit_scale h.1, pI, wI, abs_div, abs_of_pos (show (0 : ℝ) < 10 ^ 45 by positivity)]
    push_cast
    ring

/-- The difference from the reference is at most `num/den` of the least value. -/
def pieceOk (l : List (List ℤ)) (num den : ℤ) (Q : List ℤ) (cs : List (ℤ × ℕ)) : Bool :=
  small cs && decide (1 ≤ cs.length) && decide (cs.length ≤ 8) && decide (0 < pevalZ Q (-1)) &&
  decide (cheb l (padd (pI cs) (psmul (-(10 ^ 15)) Q)) * den ≤ num * (10 ^ 15 * pevalZ Q (-1))) &&
  decide (wI (pI cs) * 10 ≤ 32 * (10 ^ 15 * pevalZ Q (-1)))

theorem G_mono {k : ℕ} (hk : 1 ≤ k) (hk' : k ≤ 99) {s t : ℝ} (hs : s ∈ Icc (-1 : ℝ) 1) (ht : t ∈ Icc (-1 : ℝ) 1) (hst : s ≤ t) :
    G k s ≤ G k t := by
  have h1 : (1 : ℝ) ≤ k := by exact_mod_cast hk
  have h2 : (k : ℝ) ≤ 99 := by exact_mod_cast hk'
  have hs0 : 0 < s + (2 * (k : ℝ) + 1) := by have := hs.1; linarith
  have ht0 : 0 < t + (2 * (k : ℝ) + 1) := by have := ht.1; linarith
  unfold G
  refine E_antitone ?_ ?_
  · rw [sub_nonneg, le_div_iff₀ ht0]; have := ht.2; linarith
  · have : 800 / (t + (2 * (k : ℝ) + 1)) ≤ 800 / (s + (2 * (k : ℝ) + 1)) := by
      apply div_le_div_of_nonneg_left (by norm_num) hs0; linarith
    linarith

/-- What the check proves. -/
structure Piece (k : ℕ) (cs : List (ℤ × ℕ)) (τ : ℝ) : Prop where
  pos : 1 ≤ cs.length
  len : cs.length ≤ 8
  err : ∀ t ∈ Icc (-1 : ℝ) 1, |val t cs - G k t| ≤ τ * G k t
  weight : ∀ t ∈ Icc (-1 : ℝ) 1, wval cs ≤ 3.21 * G k t

theorem piece_good {k : ℕ} (hk : 1 ≤ k) (hk' : k ≤ 99) {l : List (List ℤ)} {num den : ℤ} (hnum : 0 ≤ num) (hden : 0 < den)
    {Q : List ℤ} {cs : List (ℤ × ℕ)}
    (hT : ∀ T ∈ l, ∀ t ∈ Icc (-1 : ℝ) 1, |peval T t| ≤ 1) (hQ : Good k Q (4 / 10 ^ 21)) (h : pieceOk l num den Q cs = true) :
    Piece k cs (4 / 10 ^ 21 + (num / den) * (1 + 4 / 10 ^ 21)) := by
  simp only [pieceOk, Bool.and_eq_true, decide_eq_true_eq] at h
  obtain ⟨⟨⟨⟨⟨hsm, hl1⟩, hl⟩, hq⟩, hd⟩, hw⟩ := h
  have hm1 : (-1 : ℝ) ∈ Icc (-1 : ℝ) 1 := by constructor <;> norm_num
  have hnd : (0 : ℝ) ≤ (num : ℝ) / den := div_nonneg (by exact_mod_cast hnum) (by exact_mod_cast hden.le)
  have eQ : ref Q (-1) = pevalZ Q (-1) / 10 ^ 30 := by
    have := peval_intCast Q (-1)
    push_cast at this
    rw [ref, this]
  have hQ1 := hQ _ hm1
  have hlow : ∀ t ∈ Icc (-1 : ℝ) 1, (pevalZ Q (-1) : ℝ) / 10 ^ 30 ≤ (1 + 4 / 10 ^ 21) * G k t := by
    intro t ht
    have h1 := G_mono hk hk' hm1 ht ht.1
    have h2 := (abs_le.mp hQ1).2
    rw [eQ] at h2
    nlinarith
  refine ⟨hl1, hl, fun t ht => ?_, fun t ht => ?_⟩
  · obtain ⟨d, hdd⟩ : ∃ d, d = padd (pI cs) (psmul (-(10 ^ 15)) Q) := ⟨_, rfl⟩
    rw [← hdd] at hd
    have hd' : (cheb l d : ℝ) * den ≤ num * (10 ^ 15 * pevalZ Q (-1)) := by exact_mod_cast hd
    have hden' : (0 : ℝ) < den := by exact_mod_cast hden
    have e1 : val t cs - ref Q t = peval d t / 10 ^ 45 := by
      rw [val_eq hsm, ref, hdd, peval_padd, peval_psmul]
      push_cast
      ring
    have h1 : |val t cs - ref Q t| ≤ cheb l d / 10 ^ 45 := by
      rw [e1, abs_div, abs_of_pos (show (0 : ℝ) < 10 ^ 45 by positivity)]
      gcongr
      exact cheb_sound l hT d ht
    have h2 : (cheb l d : ℝ) / 10 ^ 45 ≤ (num / den) * (pevalZ Q (-1) / 10 ^ 30) := by
      rw [div_mul_div_comm, div_le_div_iff₀ (by positivity) (by positivity)]
      have := mul_le_mul_of_nonneg_right hd' (show (0 : ℝ) ≤ 10 ^ 30 by positivity)
      linarith
    have h3 := mul_le_mul_of_nonneg_left (hlow t ht) hnd
    have h4 := hQ t ht
    calc |val t cs - G k t| = |(val t cs - ref Q t) + (ref Q t - G k t)| := by congr 1; ring
      _ ≤ _ := abs_add_le _ _
      _ ≤ _ := by linarith
  · rw [wval_eq hsm]
    have hw' : (wI (pI cs) : ℝ) * 10 ≤ 32 * (10 ^ 15 * pevalZ Q (-1)) := by exact_mod_cast hw
    have h1 := hlow t ht
    have hG := G_pos k t
    have h2 : (wI (pI cs) : ℝ) / 10 ^ 45 ≤ 3.2 * (pevalZ Q (-1) / 10 ^ 30) := by
      rw [div_le_iff₀ (by positivity)]
      linarith
    linarith

/-- All polynomials from `case k` on. -/
def piecesOk (l : List (List ℤ)) (num den : ℤ) (k : ℕ) (table : List (List (ℤ × ℕ))) : Bool :=
  (List.range' k (100 - k)).all fun i => pieceOk l num den (refs.getD (i - 2) []) (table.getD i [])

theorem pieces_good {k₀ : ℕ} {l : List (List ℤ)} {num den : ℤ} {table : List (List (ℤ × ℕ))}
    (hT : ∀ T ∈ l, ∀ t ∈ Icc (-1 : ℝ) 1, |peval T t| ≤ 1) (hnum : 0 ≤ num) (hden : 0 < den) (hk0 : 2 ≤ k₀)
    (hlen : table.length = 100) (h : piecesOk l num den k₀ table = true) {k : ℕ} (hk : k₀ ≤ k) (hk' : k ≤ 99) :
    ∃ cs, table[k]? = some cs ∧ Piece k cs (4 / 10 ^ 21 + (num / den) * (1 + 4 / 10 ^ 21)) := by
  obtain ⟨Q, hQ, hg⟩ := refs_good (hk0.trans hk) hk'
  simp only [piecesOk, List.all_eq_true] at h
  have h1 := h k (by rw [List.mem_range'_1]; omega)
  have hcs : table[k]? = some (table[k]'(by omega)) := List.getElem?_eq_getElem (by omega)
  refine ⟨_, hcs, ?_⟩
  rw [List.getD_eq_getElem?_getD, List.getD_eq_getElem?_getD, hQ, hcs] at h1
  exact piece_good (by omega) hk' hnum hden hT hg h1

/-! ## The three tables -/

theorem tableF_length : tableF.length = 100 := by decide +kernel
theorem tableD_length : tableD.length = 100 := by decide +kernel
theorem tableL_length : tableL.length = 100 := by decide +kernel

theorem piecesF : piecesOk [t5, t4, t3] 37 (10 ^ 9) 28 tableF = true := by decide +kernel
theorem piecesD : piecesOk [t8, t7, t6] 17 (10 ^ 18) 7 tableD = true := by decide +kernel
theorem piecesL : piecesOk [t9, t8, t7] 56 (10 ^ 21) 3 tableL = true := by decide +kernel

/-- The polynomials that can be reached, from `case k₀` on. -/
def Pieces (v : Variant) (k₀ : ℕ) (τ : ℝ) : Prop :=
  v.table.length = 100 ∧ ∀ k, k₀ ≤ k → k ≤ 99 → ∃ cs, v.table[k]? = some cs ∧ Piece k cs τ

theorem Piece.mono {k : ℕ} {cs : List (ℤ × ℕ)} {τ τ' : ℝ} (h : Piece k cs τ) (hτ : τ ≤ τ') : Piece k cs τ' :=
  ⟨h.pos, h.len, fun t ht => (h.err t ht).trans (mul_le_mul_of_nonneg_right hτ (G_pos k t).le), h.weight⟩

theorem pieces_float : Pieces floatV 28 (1.05 / 2 ^ 24) := by
  refine ⟨tableF_length, fun k h1 h2 => ?_⟩
  obtain ⟨cs, hcs, hp⟩ := pieces_good (table := tableF) (by
    intro T hT t ht
    simp only [List.mem_cons, List.not_mem_nil, or_false] at hT
    rcases hT with rfl | rfl | rfl
    exacts [t5_le ht, t4_le ht, t3_le ht]) (by norm_num) (by norm_num) (by norm_num) tableF_length piecesF h1 h2
  exact ⟨cs, hcs, hp.mono (by norm_num)⟩

theorem pieces_double : Pieces doubleV 7 (1.05 / 2 ^ 53) := by
  refine ⟨tableD_length, fun k h1 h2 => ?_⟩
  obtain ⟨cs, hcs, hp⟩ := pieces_good (table := tableD) (by
    intro T hT t ht
    simp only [List.mem_cons, List.not_mem_nil, or_false] at hT
    rcases hT with rfl | rfl | rfl
    exacts [t8_le ht, t7_le ht, t6_le ht]) (by norm_num) (by norm_num) (by norm_num) tableD_length piecesD h1 h2
  exact ⟨cs, hcs, hp.mono (by norm_num)⟩

theorem pieces_longDouble : Pieces longDoubleV 3 (1.12 / 2 ^ 64) := by
  refine ⟨tableL_length, fun k h1 h2 => ?_⟩
  obtain ⟨cs, hcs, hp⟩ := pieces_good (table := tableL) (by
    intro T hT t ht
    simp only [List.mem_cons, List.not_mem_nil, or_false] at hT
    rcases hT with rfl | rfl | rfl
    exacts [t9_le ht, t8_le ht, t7_le ht]) (by norm_num) (by norm_num) (by norm_num) tableL_length piecesL h1 h2
  exact ⟨cs, hcs, hp.mono (by norm_num)⟩

end Ufunclab.Erfcx

import Verif.Model.Flags
import Verif.Model.Mad
import Mathlib.Algebra.Field.Rat
import Mathlib.Tactic.Linarith
import Mathlib.Algebra.Order.Ring.Rat
/-!
# C118: floating-point warnings

Which operations are reported to the user as RuntimeWarning or FloatingPointError.
-/
namespace Ufunclab.Flags
variable {α β : Type}

theorem clear_four (f : Flags) (e : Exc) (he : e ≠ .inexact) : clearFloatstatus f e = false := by
  unfold clearFloatstatus
  split_ifs with h
  · cases e <;> simp_all
  · cases e <;> simp_all

theorem raise_none (f : Flags) : raise f none = f := by funext e; simp [raise, none]

/-- The results of a generated loop, and of a call in any chunks, are those of the function. -/
theorem items_results (op : α → β × Flags) (xs : List α) (f : Flags) : (items op xs f).1 = xs.map fun x => (op x).1 := by
  induction xs generalizing f with
  | nil => rfl
  | cons x xs ih => simp [items, ih]

theorem C118_results (op : α → β × Flags) (cin cout : List α → Flags) (xss : List (List α)) (f : Flags) :
    (chunks (ufuncLoop op) cin cout xss f).1 = xss.flatten.map fun x => (op x).1 := by
  induction xss generalizing f with
  | nil => rfl
  | cons xs xss ih => simp [chunks, ufuncLoop, items_results, ih]

/-- C118: whatever a generated elementwise function computes, for every array and every division into chunks, none of its
operations is reported: what is reported comes from the conversion of the last results. -/
theorem C118_silent (op : α → β × Flags) (cin cout : List α → Flags) (xss : List (List α)) (e : Exc) :
    reported (ufuncLoop op) cin cout xss e = true ↔ e ≠ .inexact ∧ ∃ xs, xss.getLast? = some xs ∧ cout xs e = true := by
  have key : ∀ (xss : List (List α)) (f : Flags) (xs : List α), e ≠ .inexact →
      (chunks (ufuncLoop op) cin cout (xs :: xss) f).2 e = cout ((xs :: xss).getLast (by simp)) e := by
    intro xss
    induction xss with
    | nil =>
      intro f xs he
      simp [chunks, ufuncLoop, raise, clear_four _ _ he]
    | cons ys yss ih =>
      intro f xs he
      rw [chunks]
      simp only [ih _ ys he]
      rw [List.getLast_cons (l := ys :: yss) (by simp)]
  unfold reported
  by_cases he : e = .inexact
  · simp [he]
  · obtain _ | ⟨xs, xss⟩ := xss
    · simp [chunks, none]
    · rw [List.getLast?_eq_some_getLast (by simp)]
      simp [he, key xss none xs he]

/-- C118: without conversion of the results nothing is reported. -/
theorem C118_no_warning (op : α → β × Flags) (cin : List α → Flags) (xss : List (List α)) (e : Exc) :
    reported (ufuncLoop op) cin (fun _ => none) xss e = false := by
  have := C118_silent op cin (fun _ => none) xss e
  simpa [none] using this

/-- That an overflow in the conversion of the arguments (a `float64` too large for the requested `float32` loop) is reported does not hold: the
loop clears flags that are not its own. -/
theorem C118_cast_violated (op : α → β × Flags) (x : α) :
    ∃ cin cout : List α → Flags, ∃ xss : List (List α), (∀ xs ∈ xss, cin xs .overflow = true) ∧ xss ≠ [] ∧
      reported (ufuncLoop op) cin cout xss .overflow = false :=
  ⟨fun _ => only .overflow, fun _ => none, [[x]], by simp [only], by simp, C118_no_warning op _ _ _⟩

/-- A core function that only sets flags: those of `own`. -/
def OnlySets (core : α → Flags → β × Flags) (own : α → Flags) : Prop := ∀ x f, (core x f).2 = raise f (own x)

theorem gufuncLoop_flags (core : α → Flags → β × Flags) (own : α → Flags) (h : OnlySets core own) (xs : List α) (f : Flags) (e : Exc) :
    (gufuncLoop core xs f).2 e = true ↔ f e = true ∨ ∃ x ∈ xs, own x e = true := by
  induction xs generalizing f with
  | nil => simp [gufuncLoop]
  | cons x xs ih => simp [gufuncLoop, ih, h x f, raise, or_assoc]

/-- C118: a gufunc whose core function only sets flags reports exactly what one of its items, or a conversion, sets, in whatever
order and chunks the items come. -/
theorem C118_gufunc (core : α → Flags → β × Flags) (own : α → Flags) (h : OnlySets core own) (cin cout : List α → Flags)
    (xss : List (List α)) (e : Exc) :
    reported (gufuncLoop core) cin cout xss e = true ↔
      e ≠ .inexact ∧ ((∃ x ∈ xss.flatten, own x e = true) ∨ ∃ xs ∈ xss, cin xs e = true ∨ cout xs e = true) := by
  have key : ∀ f, (chunks (gufuncLoop core) cin cout xss f).2 e = true ↔
      f e = true ∨ ((∃ x ∈ xss.flatten, own x e = true) ∨ ∃ xs ∈ xss, cin xs e = true ∨ cout xs e = true) := by
    induction xss with
    | nil => simp [chunks]
    | cons xs xss ih =>
      intro f
      simp only [chunks, ih, raise, Bool.or_eq_true, gufuncLoop_flags core own h, List.flatten_cons, List.mem_append, List.mem_cons]
      constructor
      · rintro ((((h1 | h1) | ⟨x, hx, h1⟩) | h1) | (⟨x, hx, h1⟩ | ⟨ys, hy, h1⟩))
        · exact Or.inl h1
        · exact Or.inr (Or.inr ⟨xs, Or.inl rfl, Or.inl h1⟩)
        · exact Or.inr (Or.inl ⟨x, Or.inl hx, h1⟩)
        · exact Or.inr (Or.inr ⟨xs, Or.inl rfl, Or.inr h1⟩)
        · exact Or.inr (Or.inl ⟨x, Or.inr hx, h1⟩)
        · exact Or.inr (Or.inr ⟨ys, Or.inr hy, h1⟩)
      · rintro (h1 | ⟨x, hx | hx, h1⟩ | ⟨ys, rfl | hy, h1 | h1⟩)
        · exact Or.inl (Or.inl (Or.inl (Or.inl h1)))
        · exact Or.inl (Or.inl (Or.inr ⟨x, hx, h1⟩))
        · exact Or.inr (Or.inl ⟨x, hx, h1⟩)
        · exact Or.inl (Or.inl (Or.inl (Or.inr h1)))
        · exact Or.inl (Or.inr h1)
        · exact Or.inr (Or.inr ⟨ys, hy, Or.inl h1⟩)
        · exact Or.inr (Or.inr ⟨ys, hy, Or.inr h1⟩)
  simp [reported, key, none]

/-! ## gini and rmad -/

variable {K : Type} [Field K] [LinearOrder K]

theorem scan_flags (k : Nat) (sum total : XF K) (ts : List (XF K)) (f : Flags) :
    (scan k sum total ts f).1 = (scan k sum total ts none).1 ∧ (scan k sum total ts f).2.1 = (scan k sum total ts none).2.1 ∧
      (scan k sum total ts f).2.2 = raise f (scan k sum total ts none).2.2 := by
  induction ts generalizing k sum total f with
  | nil => simp [scan, raise_none]
  | cons t ts ih =>
    simp only [scan]
    have h1 := ih (k + 1) (XF.add sum (XF.sub (XF.mul (.fin (k : K)) t) total)) (XF.add total t)
    refine ⟨by rw [(h1 _).1]; exact ((h1 _).1).symm, by rw [(h1 _).2.1]; exact ((h1 _).2.1).symm, ?_⟩
    rw [(h1 _).2.2]
    conv_rhs => rw [(h1 _).2.2]
    funext e
    simp [raise, none, Bool.or_assoc]

theorem unnormalized_flags (x : List (XF K)) (f : Flags) :
    (unnormalized x f).1 = (unnormalized x none).1 ∧ (unnormalized x f).2.1 = (unnormalized x none).2.1 ∧
      (unnormalized x f).2.2 = raise f (unnormalized x none).2.2 := by
  unfold unnormalized
  split
  · simp [raise_none]
  · exact scan_flags 1 _ _ _ f

/-- `sum == 0 && denom == 0`: the case of data whose Gini index is 0/0. -/
def zeroCase (x : List (XF K)) (unbiased : Bool) : Bool :=
  XF.eq (unnormalized x none).1 (.fin 0) &&
    XF.eq (XF.mul (.fin (if unbiased then (x.length : K) - 1 else (x.length : K))) (unnormalized x none).2.1) (.fin 0)

theorem gini_flags (clang : Bool) (x : List (XF K)) (unbiased : Bool) (f : Flags) :
    (gini clang x unbiased f).1 = (gini false x unbiased none).1 ∧
      ((clang = false ∨ zeroCase x unbiased = false) → (gini clang x unbiased f).2 = raise f (gini false x unbiased none).2) := by
  obtain ⟨h1, h2, h3⟩ := unnormalized_flags x f
  unfold gini zeroCase
  simp only [h1, h2, h3]
  set s := (unnormalized x none).1
  set t := (unnormalized x none).2.1
  set g := (unnormalized x none).2.2
  set n : XF K := .fin (if unbiased = true then (x.length : K) - 1 else (x.length : K))
  by_cases c : (XF.eq s (.fin 0) && XF.eq (XF.mul n t) (.fin 0)) = true
  · simp only [c, if_true]
    refine ⟨trivial, fun hc => ?_⟩
    obtain rfl | hc := hc
    · funext e; simp [raise, Bool.or_assoc]
    · simp at hc
  · simp only [c, Bool.false_eq_true, if_false]
    split_ifs
    · exact ⟨rfl, fun _ => by funext e; simp [raise, Bool.or_assoc]⟩
    · exact ⟨rfl, fun _ => by funext e; simp [raise, Bool.or_assoc]⟩

theorem rmad_flags (clang : Bool) (x : List (XF K)) (unbiased : Bool) (f : Flags) :
    (rmad clang x unbiased f).1 = (rmad false x unbiased none).1 ∧
      ((clang = false ∨ zeroCase x unbiased = false) → (rmad clang x unbiased f).2 = raise f (rmad false x unbiased none).2) := by
  obtain ⟨h1, h2⟩ := gini_flags clang x unbiased f
  unfold rmad
  simp only [h1]
  split_ifs
  · exact ⟨rfl, fun hc => by rw [h2 hc]; funext e; simp [raise, Bool.or_assoc]⟩
  · exact ⟨h1, h2⟩

/-- C118: compiled with a compiler other than clang, gini and rmad report exactly the flags set by one of the items. -/
theorem C118_gini (cin cout : List (List (XF K) × Bool) → Flags) (xss : List (List (List (XF K) × Bool))) (e : Exc) :
    (reported (gufuncLoop fun i f => gini false i.1 i.2 f) cin cout xss e = true ↔
      e ≠ .inexact ∧ ((∃ i ∈ xss.flatten, (gini false i.1 i.2 none).2 e = true) ∨ ∃ xs ∈ xss, cin xs e = true ∨ cout xs e = true)) ∧
    (reported (gufuncLoop fun i f => rmad false i.1 i.2 f) cin cout xss e = true ↔
      e ≠ .inexact ∧ ((∃ i ∈ xss.flatten, (rmad false i.1 i.2 none).2 e = true) ∨ ∃ xs ∈ xss, cin xs e = true ∨ cout xs e = true)) :=
  ⟨C118_gufunc _ (fun i => (gini false i.1 i.2 none).2) (fun i f => (gini_flags false i.1 i.2 f).2 (Or.inl rfl)) cin cout xss e,
    C118_gufunc _ (fun i => (rmad false i.1 i.2 none).2) (fun i f => (rmad_flags false i.1 i.2 f).2 (Or.inl rfl)) cin cout xss e⟩

/-- The results do not depend on the compiler or on the flags. -/
theorem C118_gini_results (clang : Bool) (x : List (XF K)) (unbiased : Bool) (f : Flags) :
    (gini clang x unbiased f).1 = (gini false x unbiased none).1 ∧ (rmad clang x unbiased f).1 = (rmad false x unbiased none).1 :=
  ⟨(gini_flags clang x unbiased f).1, (rmad_flags clang x unbiased f).1⟩

theorem gufuncLoop_congr {c c' : α → Flags → β × Flags} (xs : List α) (h : ∀ x ∈ xs, c x = c' x) (f : Flags) : gufuncLoop c xs f = gufuncLoop c' xs f := by
  induction xs generalizing f with
  | nil => rfl
  | cons x xs ih => simp [gufuncLoop, h x (by simp), ih fun y hy => h y (by simp [hy])]

theorem chunks_congr {l l' : List α → Flags → List β × Flags} (cin cout : List α → Flags) (xss : List (List α)) (h : ∀ xs ∈ xss, l xs = l' xs) (f : Flags) :
    chunks l cin cout xss f = chunks l' cin cout xss f := by
  induction xss generalizing f with
  | nil => rfl
  | cons x xs ih => simp [chunks, h x (by simp), ih fun y hy => h y (by simp [hy])]

/-- C118, clang: the same reports as with other compilers if no item is a case 0/0.  What is missing: `C118_gini_clang_violated`. -/
theorem C118_gini_clang_partial (cin cout : List (List (XF K) × Bool) → Flags) (xss : List (List (List (XF K) × Bool)))
    (hz : ∀ i ∈ xss.flatten, zeroCase i.1 i.2 = false) (e : Exc) :
    reported (gufuncLoop fun i f => gini true i.1 i.2 f) cin cout xss e = reported (gufuncLoop fun i f => gini false i.1 i.2 f) cin cout xss e := by
  unfold reported
  rw [chunks_congr cin cout xss fun xs hxs => funext fun f => gufuncLoop_congr (c' := fun i f => gini false i.1 i.2 f) xs (fun i hi => funext fun g => ?_) f]
  have hi' := hz i (List.mem_flatten.mpr ⟨xs, hxs, hi⟩)
  refine Prod.ext ?_ ?_
  · exact ((gini_flags true i.1 i.2 g).1).trans ((gini_flags false i.1 i.2 g).1).symm
  · exact ((gini_flags true i.1 i.2 g).2 (Or.inr hi')).trans ((gini_flags false i.1 i.2 g).2 (Or.inl rfl)).symm

/-- With clang the report depends on the order of the items: the invalid operation `inf - inf` in the item `[inf, inf]` is reported if that item comes last,
and forgotten if `[0, 0]` comes after it. -/
theorem C118_gini_clang_violated :
    (gini false ([.pinf, .pinf] : List (XF ℚ)) true none).2 .invalid = true ∧
      reported (gufuncLoop fun i f => gini true i.1 i.2 f) (fun _ => none) (fun _ => none)
        [[(([.fin 0, .fin 0] : List (XF ℚ)), true), ([.pinf, .pinf], true)]] .invalid = true ∧
      reported (gufuncLoop fun i f => gini true i.1 i.2 f) (fun _ => none) (fun _ => none)
        [[(([.pinf, .pinf] : List (XF ℚ)), true), ([.fin 0, .fin 0], true)]] .invalid = false := by
  have h1 : ([.pinf, .pinf] : List (XF ℚ)).mergeSort (fun a b => XF.le a b) = [.pinf, .pinf] := List.mergeSort_of_pairwise (by decide)
  have h2 : ([.fin 0, .fin 0] : List (XF ℚ)).mergeSort (fun a b => XF.le a b) = [.fin 0, .fin 0] := List.mergeSort_of_pairwise (by decide +kernel)
  simp only [reported, chunks, gufuncLoop, gini, unnormalized, h1, h2]
  decide +kernel

/-- C118: on finite data gini reports nothing: 0/0 is recognised before the division, and so is x/0. -/
theorem C118_gini_finite (clang : Bool) (x : List K) (unbiased : Bool) (e : Exc) :
    (gini clang (x.map .fin) unbiased none).2 e = false := by
  have hscan : ∀ (ts : List (XF K)) (k : Nat) (s t : K), (∀ a ∈ ts, ∃ v, a = .fin v) →
      ∃ s' t', scan k (.fin s) (.fin t) ts none = (.fin s', .fin t', none) := by
    intro ts
    induction ts with
    | nil => intro k s t _; exact ⟨s, t, rfl⟩
    | cons a ts ih =>
      intro k s t h
      obtain ⟨v, rfl⟩ := h a (by simp)
      obtain ⟨s', t', h'⟩ := ih (k + 1) (s + ((k : K) * v + -t)) (t + v) fun b hb => h b (by simp [hb])
      refine ⟨s', t', ?_⟩
      rw [← h']
      simp [scan, XF.mul, XF.sub, XF.neg, XF.add, flagsOf, XF.isnan, raise_none]
  have hu : ∃ s' t', unnormalized (x.map XF.fin) none = (.fin s', .fin t', none) := by
    unfold unnormalized
    have hm : ∀ a ∈ (x.map XF.fin).mergeSort (fun a b => XF.le a b), ∃ v, a = .fin v := by
      intro a ha
      rw [List.mem_mergeSort, List.mem_map] at ha
      obtain ⟨v, _, rfl⟩ := ha
      exact ⟨v, rfl⟩
    split
    · exact ⟨0, 0, rfl⟩
    · rename_i t ts heq
      rw [heq] at hm
      obtain ⟨v, rfl⟩ := hm t (by simp)
      exact hscan ts 1 0 v fun b hb => hm b (by simp [hb])
  obtain ⟨s, t, hu⟩ := hu
  unfold gini
  rw [hu]
  simp only [XF.mul, XF.eq]
  generalize (if unbiased = true then ((List.map XF.fin x).length : K) - 1 else ((List.map XF.fin x).length : K)) = n
  have h0 : flagsOf (.fin n) (.fin t) (.fin (n * t)) = none := by simp [flagsOf, XF.isnan]
  rw [h0, raise_none]
  by_cases hd : n * t = 0
  · by_cases hs : s = 0
    · cases clang <;> simp [-mul_eq_zero, hd, hs, none]
    · simp [-mul_eq_zero, hd, hs, none]
  · simp [-mul_eq_zero, hd, XF.div, flagsOf, XF.isnan, flagsDiv, raise, none]

/-- C118: on finite data the values are those of the model of C38 and C39. -/
theorem C118_gini_values (clang : Bool) (x : List K) (unbiased : Bool) (f : Flags) :
    (gini clang (x.map .fin) unbiased f).1 = Mad.gini x unbiased ∧ (rmad clang (x.map .fin) unbiased f).1 = Mad.rmad x unbiased := by
  have hscan : ∀ (ts : List K) (k : Nat) (s t : K) (f : Flags),
      (scan k (.fin s) (.fin t) (ts.map XF.fin) f).1 = .fin (Mad.scan k s t ts).1 ∧ (scan k (.fin s) (.fin t) (ts.map XF.fin) f).2.1 = .fin (Mad.scan k s t ts).2 := by
    intro ts
    induction ts with
    | nil => intro k s t f; exact ⟨rfl, rfl⟩
    | cons a ts ih =>
      intro k s t f
      simp only [List.map_cons, scan, Mad.scan, XF.mul, XF.sub, XF.neg, XF.add, sub_eq_add_neg]
      exact ih _ _ _ _
  have hu : ∀ f, (unnormalized (x.map XF.fin) f).1 = .fin (Mad.unnormalizedMad x).1 ∧ (unnormalized (x.map XF.fin) f).2.1 = .fin (Mad.unnormalizedMad x).2 := by
    intro f
    unfold unnormalized Mad.unnormalizedMad Mad.sort
    have hm : (x.map XF.fin).mergeSort (fun a b => XF.le a b) = (x.mergeSort fun a b => decide (a ≤ b)).map XF.fin := by
      refine (List.map_mergeSort fun a _ b _ => ?_).symm
      simp only [XF.le, XF.lt, XF.eq, ← Bool.decide_or, le_iff_lt_or_eq]
    rw [hm]
    cases x.mergeSort fun a b => decide (a ≤ b) with
    | nil => exact ⟨rfl, rfl⟩
    | cons t ts => exact hscan ts 1 0 t f
  have hg : ∀ f, (gini clang (x.map .fin) unbiased f).1 = Mad.gini x unbiased := by
    intro f
    obtain ⟨h1, h2⟩ := hu f
    unfold gini Mad.gini
    simp only [h1, h2, List.length_map, XF.mul, XF.eq]
    generalize Mad.unnormalizedMad x = r
    have hd : (if unbiased = true then ((x.length : K) - 1) * r.2 else (x.length : K) * r.2) = (if unbiased = true then (x.length : K) - 1 else (x.length : K)) * r.2 := by
      split_ifs <;> rfl
    rw [hd]
    generalize (if unbiased = true then (x.length : K) - 1 else (x.length : K)) * r.2 = d
    by_cases hz : d = 0
    · by_cases hs : r.1 = 0 <;> simp [hz, hs]
    · simp [hz, XF.div]
  refine ⟨hg f, ?_⟩
  unfold rmad Mad.rmad
  simp only [hg f]
  split_ifs
  · rfl
  · exact hg f

/-! ### Infinite data -/

/-- `sum` and `total` are both infinite, or an invalid operation was reported. -/
def Bad (s t : XF K) (f : Flags) : Prop := f .invalid = true ∨ s.isinf = true ∧ t.isinf = true

theorem mul_pinf {k : K} (h : 0 < k) : XF.mul (.fin k) .pinf = .pinf := by simp [XF.mul, XF.infMul, h, h.ne']
theorem mul_ninf {k : K} (h : 0 < k) : XF.mul (.fin k) .ninf = .ninf := by simp [XF.mul, XF.infMul, h, h.ne']

theorem mul_fin (a b : K) : XF.mul (.fin a) (.fin b) = .fin (a * b) := rfl

theorem scan_mono (ts : List (XF K)) (k : Nat) (s t : XF K) (f : Flags) (e : Exc) (h : f e = true) : (scan k s t ts f).2.2 e = true := by
  rw [(scan_flags k s t ts f).2.2]
  simp [raise, h]

/-- Only `invalid` is ever raised. -/
theorem scan_only (ts : List (XF K)) (k : Nat) (s t : XF K) (f : Flags) (e : Exc) (he : e ≠ .invalid) (h : f e = false) : (scan k s t ts f).2.2 e = false := by
  induction ts generalizing k s t f with
  | nil => exact h
  | cons a ts ih =>
    refine ih _ _ _ _ ?_
    have : ∀ a b r : XF K, flagsOf a b r e = false := by
      intro a b r
      unfold flagsOf
      split_ifs <;> simp [only, none, he]
    simp [raise, h, this]

section
variable [IsStrictOrderedRing K]

theorem scan_bad (ts : List (XF K)) : ∀ (k : Nat) (s t : XF K) (f : Flags), 0 < k → (∀ a ∈ ts, a.isnan = false) → Bad s t f →
    Bad (scan k s t ts f).1 (scan k s t ts f).2.1 (scan k s t ts f).2.2 := by
  induction ts with
  | nil => intro k s t f _ _ h; exact h
  | cons a ts ih =>
    intro k s t f hk hn h
    have hk' : (0 : K) < (k : K) := Nat.cast_pos.mpr hk
    refine ih _ _ _ _ (by omega) (fun b hb => hn b (by simp [hb])) ?_
    have ha := hn a (by simp)
    rcases h with h | ⟨h1, h2⟩
    · left
      simp [raise, h]
    · cases a <;> simp only [XF.isnan, Bool.true_eq_false] at ha <;>
        cases s <;> simp only [XF.isinf, Bool.false_eq_true] at h1 <;>
        cases t <;> simp only [XF.isinf, Bool.false_eq_true] at h2 <;>
        simp [Bad, mul_pinf hk', mul_ninf hk', mul_fin, XF.sub, XF.neg, XF.add, flagsOf, XF.isnan, XF.isinf, raise, only, none]

/-- From a finite sum: an infinite total and one more element, or an infinite element. -/
theorem scan_inf (ts : List (XF K)) : ∀ (k : Nat) (s : K) (t : XF K) (f : Flags), 0 < k → t.isnan = false → (∀ a ∈ ts, a.isnan = false) →
    (t.isinf = true ∧ ts ≠ [] ∨ ∃ a ∈ ts, a.isinf = true) →
    Bad (scan k (.fin s) t ts f).1 (scan k (.fin s) t ts f).2.1 (scan k (.fin s) t ts f).2.2 := by
  induction ts with
  | nil => intro k s t f _ _ _ h; simp at h
  | cons a ts ih =>
    intro k s t f hk ht hn h
    have hk' : (0 : K) < (k : K) := Nat.cast_pos.mpr hk
    have ha := hn a (by simp)
    have hn' : ∀ b ∈ ts, b.isnan = false := fun b hb => hn b (by simp [hb])
    by_cases hfin : ∃ u v, t = .fin u ∧ a = .fin v
    · obtain ⟨u, v, rfl, rfl⟩ := hfin
      refine ih (k + 1) _ _ _ (by omega) rfl hn' (Or.inr ?_)
      rcases h with ⟨h, _⟩ | ⟨b, hb, h⟩
      · simp [XF.isinf] at h
      · rcases List.mem_cons.mp hb with rfl | hb
        · simp [XF.isinf] at h
        · exact ⟨b, hb, h⟩
    · refine scan_bad ts (k + 1) _ _ _ (by omega) hn' ?_
      cases a <;> simp only [XF.isnan, Bool.true_eq_false] at ha <;>
        cases t <;> simp only [XF.isnan, Bool.true_eq_false] at ht <;>
        simp [Bad, mul_pinf hk', mul_ninf hk', mul_fin, XF.sub, XF.neg, XF.add, flagsOf, XF.isnan, XF.isinf, raise, only, none]
      exact absurd ⟨_, _, rfl, rfl⟩ hfin

/-- C118: gini of data without NaN reports exactly this: `invalid`, if an element is infinite, unless it is the only element and the biased form is asked for. -/
theorem C118_gini_invalid (x : List (XF K)) (hn : ∀ a ∈ x, a.isnan = false) (unbiased : Bool) (e : Exc) :
    (gini false x unbiased none).2 e = true ↔ e = .invalid ∧ (∃ a ∈ x, a.isinf = true) ∧ (2 ≤ x.length ∨ unbiased = true) := by
  have hflag : ∀ (a b r : XF K), e ≠ .invalid → flagsOf a b r e = false := by
    intro a b r he
    unfold flagsOf
    split_ifs <;> simp [only, none, he]
  by_cases hfin : ∃ a ∈ x, a.isinf = true
  swap
  · have hx : ∃ y : List K, x = y.map .fin := by
      refine ⟨x.filterMap fun | .fin v => some v | _ => Option.none, ?_⟩
      clear hflag
      induction x with
      | nil => rfl
      | cons a x ih =>
        have h1 := hn a (by simp)
        cases a with
        | fin v =>
          simp only [List.filterMap_cons, List.map_cons]
          rw [← ih (fun b hb => hn b (by simp [hb])) fun ⟨b, hb, h⟩ => hfin ⟨b, by simp [hb], h⟩]
        | nan => simp [XF.isnan] at h1
        | pinf => exact absurd ⟨.pinf, by simp, rfl⟩ hfin
        | ninf => exact absurd ⟨.ninf, by simp, rfl⟩ hfin
    obtain ⟨y, rfl⟩ := hx
    rw [C118_gini_finite]
    constructor
    · intro h
      cases h
    · rintro ⟨-, h, -⟩
      exact absurd h hfin
  by_cases he : e = .invalid
  swap
  · simp only [he, false_and, iff_false, Bool.not_eq_true]
    have hu : (unnormalized x none).2.2 e = false := by
      unfold unnormalized
      split
      · rfl
      · exact scan_only _ _ _ _ _ _ he rfl
    unfold gini
    generalize unnormalized x none = r at hu ⊢
    obtain ⟨s, t, f⟩ := r
    simp only at hu ⊢
    generalize XF.fin (if unbiased = true then (x.length : K) - 1 else (x.length : K)) = n
    generalize XF.mul n t = d
    by_cases c1 : (XF.eq s (.fin 0) && XF.eq d (.fin 0)) = true
    · simp [c1, raise, hu, hflag _ _ _ he]
    by_cases c2 : XF.eq d (.fin 0) = true
    · rw [if_neg c1, if_pos c2]
      simp [raise, hu, hflag _ _ _ he]
    · have : flagsDiv s d e = false := by
        unfold flagsDiv
        split
        · rw [if_neg]
          · rfl
          · rintro ⟨-, rfl⟩
            simp [XF.eq] at c2
        · rfl
      rw [if_neg c1, if_neg c2]
      simp [raise, hu, hflag _ _ _ he, this]
  subst he
  simp only [true_and, hfin]
  have hmem : ∀ a, a ∈ x.mergeSort (fun a b => XF.le a b) ↔ a ∈ x := fun a => List.mem_mergeSort
  have hlen : (x.mergeSort fun a b => XF.le a b).length = x.length := List.length_mergeSort _
  unfold gini unnormalized
  generalize x.mergeSort (fun a b => XF.le a b) = L at hmem hlen
  match L, hmem, hlen with
  | [], hmem, hlen =>
    obtain ⟨a, ha, -⟩ := hfin
    exact absurd ((hmem a).mpr ha) (by simp)
  | [t], hmem, hlen =>
    obtain ⟨a, ha, hi⟩ := hfin
    have ha := (hmem a).mpr ha
    simp only [List.mem_singleton] at ha
    subst ha
    have h1 : x.length = 1 := by simpa using hlen.symm
    have hn0 := hn a ((hmem a).mp (by simp))
    cases a <;> simp only [XF.isinf, XF.isnan, Bool.false_eq_true, Bool.true_eq_false] at hi hn0 <;> cases unbiased <;>
      simp [scan, h1, XF.mul, XF.infMul, XF.eq, XF.div, flagsOf, flagsDiv, XF.isnan, raise, only, none]
  | t :: u :: ts, hmem, hlen =>
    have h2 : 2 ≤ x.length := by simp only [List.length_cons] at hlen; omega
    have hpos : (0 : K) < if unbiased = true then (x.length : K) - 1 else (x.length : K) := by
      have : (2 : K) ≤ (x.length : K) := by exact_mod_cast h2
      split_ifs <;> linarith
    have hb := scan_inf (u :: ts) 1 (0 : K) t none (by omega) (hn t ((hmem t).mp (by simp))) (fun a ha => hn a ((hmem a).mp (by simp at ha ⊢; tauto))) (by
      obtain ⟨a, ha, hi⟩ := hfin
      rcases List.mem_cons.mp ((hmem a).mpr ha) with rfl | ha
      · exact Or.inl ⟨hi, by simp⟩
      · exact Or.inr ⟨a, ha, hi⟩)
    simp only
    generalize scan 1 (.fin (0 : K)) t (u :: ts) none = r at hb ⊢
    obtain ⟨s, w, f⟩ := r
    simp only at hb ⊢
    simp only [h2, true_or, iff_true]
    generalize (if unbiased = true then (x.length : K) - 1 else (x.length : K)) = n at hpos ⊢
    rcases hb with hf | ⟨hs, hw⟩
    · split_ifs <;> simp_all [raise]
    · cases s <;> simp only [XF.isinf, Bool.false_eq_true] at hs <;> cases w <;> simp only [XF.isinf, Bool.false_eq_true] at hw <;>
        simp [mul_pinf hpos, mul_ninf hpos, XF.eq, XF.div, flagsOf, flagsDiv, XF.isnan, raise, only, none]

/-- C118: rmad reports what gini reports. -/
theorem C118_rmad (clang : Bool) (x : List (XF K)) (unbiased : Bool) (f : Flags) : (rmad clang x unbiased f).2 = (gini clang x unbiased f).2 := by
  unfold rmad
  generalize gini clang x unbiased f = r
  obtain ⟨v, g⟩ := r
  have h2 : (0 : K) < 2 := two_pos
  funext e
  cases v <;> simp [XF.isnan, XF.mul, XF.infMul, flagsOf, raise, none, h2]

end

/-- The zero case exists, and reports nothing although the result is NaN. -/
example : gini true ([.fin 0, .fin 0] : List (XF ℚ)) true none = (.nan, none) := by
  have h2 : ([.fin 0, .fin 0] : List (XF ℚ)).mergeSort (fun a b => XF.le a b) = [.fin 0, .fin 0] := List.mergeSort_of_pairwise (by decide +kernel)
  simp only [gini, unnormalized, h2]
  refine Prod.ext ?_ ?_
  · decide +kernel
  · funext e; cases e <;> decide +kernel

/-- C118_gini_invalid for two elements. -/
example : (gini false ([.fin 1, .pinf] : List (XF ℚ)) false none).2 .invalid = true :=
  (C118_gini_invalid _ (by decide) _ _).mpr ⟨rfl, ⟨.pinf, by simp, rfl⟩, Or.inl (by decide)⟩

/-- A function whose operations set flags: `1/x` at 0, in two chunks. -/
example : (reported (ufuncLoop fun x : ℚ => (1 / x, if x = 0 then only .divByZero else none)) (fun _ => none) (fun _ => none) [[1], [0, 2]] .divByZero) = false :=
  C118_no_warning _ _ _ _

end Ufunclab.Flags

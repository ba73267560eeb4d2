import Verif.Props.Flags
/-!
# C118: flags of the elementwise loops, and of gini and rmad on data with NaN
-/
namespace Ufunclab.Flags
variable {α β : Type}

/-- C118: after the `for` loop of an elementwise function the flags are those that were set before and those of every item. -/
theorem C118_items (op : α → β × Flags) (xs : List α) (f : Flags) (e : Exc) :
    (items op xs f).2 e = true ↔ f e = true ∨ ∃ x ∈ xs, (op x).2 e = true := by
  induction xs generalizing f with
  | nil => simp [items]
  | cons x xs ih => simp [items, ih, raise, or_assoc]

/-- C118: the flag `inexact`, which NumPy does not look at, is not cleared: after the loop of an elementwise function it is set exactly if
it was set before or by one of the items. -/
theorem C118_inexact (op : α → β × Flags) (xs : List α) (f : Flags) :
    (ufuncLoop op xs f).2 .inexact = true ↔ f .inexact = true ∨ ∃ x ∈ xs, (op x).2 .inexact = true := by
  rw [← C118_items]
  simp only [ufuncLoop, clearFloatstatus]
  split_ifs <;> simp

/-- Three items, of which the first only sets `inexact`. -/
example : (ufuncLoop (fun n : Nat => (n, if n = 0 then only .inexact else only .invalid)) [0, 1, 2] none).2 .inexact = true :=
  (C118_inexact _ _ _).mpr (.inr ⟨0, by simp, by simp [only]⟩)

variable {K : Type} [Field K] [LinearOrder K] [IsStrictOrderedRing K]

/-- C118: a NaN in the data of gini or rmad is passed on without a report: if no element is infinite, no flag is set. -/
theorem C118_gini_nan (clang : Bool) (x : List (XF K)) (unbiased : Bool) (hx : ∀ a ∈ x, a.isinf = false) (e : Exc) :
    (gini clang x unbiased none).2 e = false ∧ (rmad clang x unbiased none).2 e = false := by
  have hadd : ∀ a b : XF K, a.isinf = false → b.isinf = false → (XF.add a b).isinf = false ∧ flagsOf a b (XF.add a b) = none := by
    intro a b; cases a <;> cases b <;> simp [XF.isinf, XF.add, flagsOf, XF.isnan]
  have hneg : ∀ a : XF K, a.isinf = false → (XF.neg a).isinf = false := by
    intro a; cases a <;> simp [XF.isinf, XF.neg]
  have hsub : ∀ a b : XF K, a.isinf = false → b.isinf = false → (XF.sub a b).isinf = false ∧ flagsOf a b (XF.sub a b) = none := by
    intro a b; cases a <;> cases b <;> simp [XF.isinf, XF.sub, XF.neg, XF.add, flagsOf, XF.isnan]
  have hmul : ∀ a b : XF K, a.isinf = false → b.isinf = false → (XF.mul a b).isinf = false ∧ flagsOf a b (XF.mul a b) = none := by
    intro a b; cases a <;> cases b <;> simp [XF.isinf, XF.mul, flagsOf, XF.isnan]
  have hdiv : ∀ a b : XF K, a.isinf = false → b.isinf = false → XF.eq b (.fin 0) = false →
      (XF.div a b).isinf = false ∧ flagsOf a b (XF.div a b) = none ∧ flagsDiv a b = none := by
    intro a b; cases a <;> cases b <;> simp +contextual [XF.isinf, XF.div, flagsOf, XF.isnan, XF.eq, flagsDiv]
  have hscan : ∀ (ts : List (XF K)) (k : Nat) (s t : XF K), s.isinf = false → t.isinf = false → (∀ a ∈ ts, a.isinf = false) →
      (scan k s t ts none).1.isinf = false ∧ (scan k s t ts none).2.1.isinf = false ∧ (scan k s t ts none).2.2 = none := by
    intro ts
    induction ts with
    | nil => intro k s t hs ht _; exact ⟨hs, ht, rfl⟩
    | cons a ts ih =>
      intro k s t hs ht h
      have ha := h a (by simp)
      obtain ⟨p1, p2⟩ := hmul (.fin (k : K)) a rfl ha
      obtain ⟨d1, d2⟩ := hsub _ t p1 ht
      obtain ⟨s1, s2⟩ := hadd s _ hs d1
      obtain ⟨u1, u2⟩ := hadd t a ht ha
      simp only [scan, p2, d2, s2, u2, raise_none]
      exact ih _ _ _ s1 u1 fun b hb => h b (by simp [hb])
  have hu : (unnormalized x none).1.isinf = false ∧ (unnormalized x none).2.1.isinf = false ∧ (unnormalized x none).2.2 = none := by
    unfold unnormalized
    have hm : ∀ a ∈ x.mergeSort (fun a b => XF.le a b), a.isinf = false := fun a ha => hx a (List.mem_mergeSort.mp ha)
    split
    · exact ⟨rfl, rfl, rfl⟩
    · rename_i t ts heq
      rw [heq] at hm
      exact hscan ts 1 _ t rfl (hm t (by simp)) fun b hb => hm b (by simp [hb])
  have hg : (gini clang x unbiased none).2 = none ∧
      ((gini clang x unbiased none).1 = .pinf ∨ (gini clang x unbiased none).1.isinf = false) := by
    unfold gini
    generalize unnormalized x none = r at hu
    obtain ⟨s, t, f⟩ := r
    simp only at hu ⊢
    obtain ⟨h1, h2, rfl⟩ := hu
    obtain ⟨m1, m2⟩ := hmul (.fin (if unbiased = true then (x.length : K) - 1 else (x.length : K))) t rfl h2
    rw [m2, raise_none]
    generalize XF.mul (.fin (if unbiased = true then (x.length : K) - 1 else (x.length : K))) t = d at m1
    split_ifs with c1 c2 c3
    · exact ⟨by funext e; simp [none], .inr rfl⟩
    · exact ⟨rfl, .inr rfl⟩
    · exact ⟨rfl, .inl rfl⟩
    · obtain ⟨q1, q2, q3⟩ := hdiv s d h1 m1 (by simpa using c3)
      exact ⟨by simp only [q2, q3, raise_none], .inr q1⟩
  refine ⟨by rw [hg.1]; rfl, ?_⟩
  obtain ⟨g1, g2⟩ := hg
  simp only [rmad]
  split_ifs with c
  · simp only [g1]
    have : flagsOf (gini clang x unbiased none).1 (.fin 2) (XF.mul (gini clang x unbiased none).1 (.fin 2)) = none := by
      rcases g2 with g2 | g2
      · rw [g2]
        simp only [XF.mul, XF.infMul, two_ne_zero, if_false]
        split_ifs <;> simp [flagsOf, XF.isnan]
      · exact (hmul _ _ g2 rfl).2
    rw [this]; rfl
  · rw [g1]; rfl

/-- Data with a NaN: the result is NaN, and nothing is reported. -/
example : (gini false ([.fin 1, .nan, .fin 3] : List (XF ℚ)) true none).2 .invalid = false :=
  (C118_gini_nan false _ true (by simp [XF.isinf]) .invalid).1

end Ufunclab.Flags

import Verif.Model.Wrapped
import Mathlib.Data.List.Basic
/-! # Property C63: axis handling of the Python wrappers -/
namespace Ufunclab.Wrapped

/-- The position an axis argument denotes among `d` axes. -/
def position (d : Nat) (axis : Int) : Nat := (axis % (d : Int)).toNat

theorem insertIdx_eq_take_drop (l : List Nat) (n k : Nat) (hk : k ≤ l.length) :
    l.insertIdx k n = l.take k ++ n :: l.drop k := by
  induction l generalizing k with
  | nil => have : k = 0 := by simpa using hk
           subst this; rfl
  | cons a l ih =>
    cases k with
    | zero => rfl
    | succ k => simp only [List.insertIdx_succ_cons, List.take_succ_cons, List.drop_succ_cons, List.cons_append]; rw [ih k (by simpa using hk)]

theorem position_eq (d : Nat) (axis : Int) (h : -(d : Int) ≤ axis ∧ axis < d) :
    (position d axis : Int) = if axis < 0 then axis + d else axis := by
  unfold position
  split_ifs with h0
  · rw [show axis = (axis + d) + d * (-1) by omega, Int.add_mul_emod_self_left, Int.emod_eq_of_lt (by omega) (by omega)]; omega
  · rw [Int.emod_eq_of_lt (by omega) (by omega)]; omega

/-- C63: `_normalize_axis` succeeds exactly for `-ndim ≤ axis < ndim`, with the position that
the axis denotes; otherwise AxisError. -/
theorem C63_normalize (ndim : Nat) (axis : Int) :
    normalizeAxis ndim axis = if -(ndim : Int) ≤ axis ∧ axis < ndim then .ok (position ndim axis) else .error .axisError := by
  unfold normalizeAxis
  by_cases h : -(ndim : Int) ≤ axis ∧ axis < ndim
  · rw [if_neg (by omega), if_pos h]
    congr 1
    have := position_eq ndim axis h
    split_ifs at this ⊢ <;> omega
  · rw [if_pos (by omega), if_neg h]

/-- C63: convert_to_base, nextn_greater, nextn_less, one_hot.  The axis is accepted iff
`-(ndim+1) ≤ axis ≤ ndim`; then the output shape is the input shape with `n` inserted at the
position of the axis.  Any other axis gives AxisError.  (The upper check in the code is off by
one; the following call of the gufunc rejects what it lets through.) -/
theorem C63_insert (shape : List Nat) (axis : Int) (n : Nat) :
    insertWrapper shape axis n none =
      if -((shape.length + 1 : Nat) : Int) ≤ axis ∧ axis < (shape.length + 1 : Nat) then
        .ok (shape.insertIdx (position (shape.length + 1) axis) n)
      else .error .axisError := by
  have hins : ∀ (k : Nat), k ≤ shape.length → shape.take k ++ [n] ++ shape.drop k = shape.insertIdx k n := by
    intro k hk
    rw [insertIdx_eq_take_drop _ _ _ hk]; simp
  unfold insertWrapper
  by_cases h : -((shape.length + 1 : Nat) : Int) ≤ axis ∧ axis < (shape.length + 1 : Nat)
  · have hp := position_eq (shape.length + 1) axis h
    have ha : (if axis < 0 then axis + 1 + (shape.length : Int) else axis) = (position (shape.length + 1) axis : Int) := by
      rw [hp]; split_ifs <;> push_cast <;> omega
    have hb : position (shape.length + 1) axis ≤ shape.length := by
      have : (position (shape.length + 1) axis : Int) < (shape.length + 1 : Nat) := by rw [hp]; split_ifs <;> omega
      omega
    simp only [ha]
    rw [if_neg (by omega), if_neg (by omega), if_pos h, Int.toNat_natCast, Int.toNat_natCast, hins _ hb]
    simp only [gufuncAxis, List.length_insertIdx_of_le_length hb]
    rw [if_neg (by omega)]
  · rw [if_neg h]
    simp only []
    by_cases h2 : (if axis < 0 then axis + 1 + (shape.length : Int) else axis) < 0 ∨ (if axis < 0 then axis + 1 + (shape.length : Int) else axis) > 1 + shape.length
    · rw [if_pos h2]
    · rw [if_neg h2, if_neg (by omega)]
      have : axis ≥ shape.length + 1 := by split_ifs at h2 <;> omega
      rw [gufuncAxis, if_pos]
      right
      simp only [List.length_append, List.length_take, List.length_drop, List.length_singleton]
      have : 0 ≤ axis := by omega
      split_ifs at h2 ⊢
      · omega
      · omega

/-- C63: the inserted shape: one more axis, `n` at the denoted position, and removing that
axis gives back the input shape. -/
theorem C63_insert_shape (shape : List Nat) (axis : Int) (n : Nat) (r : List Nat) (h : insertWrapper shape axis n none = .ok r) :
    r.length = shape.length + 1 ∧ r[position (shape.length + 1) axis]? = some n ∧ shapeRemoveAxis r axis = .ok shape := by
  rw [C63_insert] at h
  split_ifs at h with hax
  have hp := position_eq (shape.length + 1) axis hax
  have hb : position (shape.length + 1) axis ≤ shape.length := by
    have : (position (shape.length + 1) axis : Int) < (shape.length + 1 : Nat) := by rw [hp]; split_ifs <;> omega
    omega
  simp only [Except.ok.injEq] at h
  subst h
  have hl := List.length_insertIdx_of_le_length hb n
  refine ⟨hl, ?_, ?_⟩
  · rw [List.getElem?_insertIdx_self, if_pos hb]
  · unfold shapeRemoveAxis
    rw [C63_normalize, hl, if_pos hax]
    simp only [Except.ok.injEq]
    rw [insertIdx_eq_take_drop _ _ _ hb]
    set k := position (shape.length + 1) axis
    have h1 : (shape.take k ++ n :: shape.drop k).take k = shape.take k := by
      rw [List.take_append_of_le_length (by simp [hb]), List.take_take]; simp
    have h2 : (shape.take k ++ n :: shape.drop k).drop (k + 1) = shape.drop k := by
      rw [List.drop_append, List.drop_eq_nil_of_le (by simp; omega)]
      simp [hb, List.length_take, Nat.min_eq_left hb]
    rw [h1, h2, List.take_append_drop]

/-- C63: with `out` given, the call succeeds iff `out` has the shape it would have been given,
and otherwise raises ValueError or AxisError. -/
theorem C63_out (shape : List Nat) (axis : Int) (n : Nat) (o r : List Nat) :
    insertWrapper shape axis n (some o) = .ok r ↔ insertWrapper shape axis n none = .ok r ∧ o = r := by
  unfold insertWrapper
  simp only []
  by_cases h1 : (if axis < 0 then axis + 1 + (shape.length : Int) else axis) < 0 ∨ (if axis < 0 then axis + 1 + (shape.length : Int) else axis) > 1 + shape.length
  · rw [if_pos h1, if_pos h1]; simp
  · rw [if_neg h1, if_neg h1, if_neg (by omega : ¬ ((n : Int) < 0)), if_neg (by omega : ¬ ((n : Int) < 0))]
    generalize hS : shape.take (if axis < 0 then axis + 1 + (shape.length : Int) else axis).toNat ++ [(n : Int).toNat] ++ shape.drop (if axis < 0 then axis + 1 + (shape.length : Int) else axis).toNat = S
    by_cases ho : o = S
    · subst ho
      rw [if_neg (by simp)]
      cases gufuncAxis o.length axis with
      | error e => simp
      | ok u => simp only [Except.ok.injEq]; constructor
                · intro h; exact ⟨h, h⟩
                · exact fun h => h.1
    · rw [if_pos ho]
      cases gufuncAxis S.length axis with
      | error e => simp
      | ok u => simp only [reduceCtorEq, Except.ok.injEq, false_iff]; rintro ⟨rfl, h⟩; exact ho h

/-- C63: a non-negative axis and its negative equivalent give the same outcome. -/
theorem C63_negative (shape : List Nat) (axis : Int) (n : Nat) (h : 0 ≤ axis ∧ axis ≤ shape.length) :
    insertWrapper shape (axis - (shape.length + 1)) n none = insertWrapper shape axis n none := by
  rw [C63_insert, C63_insert, if_pos (by push_cast; omega), if_pos (by push_cast; omega)]
  congr 2
  unfold position
  rw [show axis - ((shape.length : Int) + 1) = axis + ((shape.length + 1 : Nat) : Int) * (-1) by push_cast; omega, Int.add_mul_emod_self_left]

/-- C63: `bincount` without weights: the length along the axis is replaced by `m`; any
out-of-range axis gives AxisError. -/
theorem C63_bincount (xShape : List Nat) (axis : Int) (m : Nat) :
    bincountShape xShape axis m none =
      if -(xShape.length : Int) ≤ axis ∧ axis < xShape.length then .ok (xShape.set (position xShape.length axis) m) else .error .axisError := by
  unfold bincountShape
  rw [C63_normalize]
  split_ifs <;> rfl

theorem broadcastRev_self (s : List Nat) : broadcastRev s s = some s := by
  induction s with
  | nil => rfl
  | cons a s ih => simp [broadcastRev, ih]

theorem broadcastRev_comm (s t : List Nat) : broadcastRev s t = broadcastRev t s := by
  induction s generalizing t with
  | nil => cases t <;> rfl
  | cons a s ih =>
    cases t with
    | nil => rfl
    | cons b t =>
      rw [broadcastRev, broadcastRev, ih t]
      cases broadcastRev t s with
      | none => rfl
      | some r =>
        simp only
        by_cases h1 : a = b
        · subst h1; simp
        · rw [if_neg h1, if_neg (Ne.symm h1)]
          by_cases h2 : a = 1
          · by_cases h3 : b = 1
            · omega
            · rw [if_pos h2, if_neg h3, if_pos h2]
          · by_cases h3 : b = 1
            · rw [if_neg h2, if_pos h3, if_pos h3]
            · rw [if_neg h2, if_neg h3, if_neg h3, if_neg h2]

/-- C63: removing an axis and inserting `m` there replaces its length. -/
theorem remove_insert (s : List Nat) (axis : Int) (m : Nat) (h : -(s.length : Int) ≤ axis ∧ axis < s.length) :
    ∃ b, shapeRemoveAxis s axis = .ok b ∧ shapeInsertAxis b axis m = .ok (s.set (position s.length axis) m) := by
  have hp := position_eq s.length axis h
  have hb : position s.length axis < s.length := by
    have : (position s.length axis : Int) < s.length := by rw [hp]; split_ifs <;> omega
    omega
  refine ⟨s.take (position s.length axis) ++ s.drop (position s.length axis + 1), ?_, ?_⟩
  · unfold shapeRemoveAxis; rw [C63_normalize, if_pos h]
  · unfold shapeInsertAxis
    have hl : (s.take (position s.length axis) ++ s.drop (position s.length axis + 1)).length + 1 = s.length := by
      simp; omega
    rw [hl, C63_normalize, if_pos h]
    simp only [Except.ok.injEq]
    set k := position s.length axis
    have h1 : (s.take k ++ s.drop (k + 1)).take k = s.take k := by
      rw [List.take_append_of_le_length (by simp; omega), List.take_take]; simp
    have h2 : (s.take k ++ s.drop (k + 1)).drop k = s.drop (k + 1) := by
      rw [List.drop_left' (by simp; omega)]
    rw [h1, h2, List.set_eq_take_append_cons_drop, if_pos hb]; simp

/-- C63: `bincount` with weights of the same shape as `x` has the output shape of `bincount`
without weights, for every axis. -/
theorem C63_bincountw_same (s : List Nat) (axis : Int) (m : Nat) :
    bincountwShape s s axis m none = bincountShape s axis m none := by
  rw [C63_bincount]
  unfold bincountwShape
  split_ifs with h
  · obtain ⟨b, h1, h2⟩ := remove_insert s axis m h
    rw [h1]
    simp only [broadcastShapes, broadcastRev_self, Option.map_some, List.reverse_reverse, h2]
  · have : shapeRemoveAxis s axis = .error .axisError := by unfold shapeRemoveAxis; rw [C63_normalize, if_neg h]
    rw [this]

/-- C63: the output shape with weights is symmetric in the shapes of `x` and the weights. -/
theorem C63_bincountw_comm (s t r : List Nat) (axis : Int) (m : Nat) :
    bincountwShape s t axis m none = .ok r ↔ bincountwShape t s axis m none = .ok r := by
  unfold bincountwShape
  cases h1 : shapeRemoveAxis s axis with
  | error e => cases h2 : shapeRemoveAxis t axis <;> simp
  | ok a =>
    cases h2 : shapeRemoveAxis t axis with
    | error e => simp
    | ok b => simp only [broadcastShapes]; rw [broadcastRev_comm]

/-- The axes of two shapes combine, counted from the last: a missing axis counts as 1, and two
lengths combine to the other one when one of them is 1, and to themselves when equal. -/
theorem broadcastRev_spec (s t r : List Nat) (h : broadcastRev s t = some r) :
    r.length = max s.length t.length ∧ ∀ i, i < r.length →
      (s.getD i 1 = t.getD i 1 ∨ s.getD i 1 = 1 ∨ t.getD i 1 = 1) ∧
      r.getD i 1 = if s.getD i 1 = 1 then t.getD i 1 else s.getD i 1 := by
  induction s generalizing t r with
  | nil =>
    simp only [broadcastRev, Option.some.injEq] at h
    subst h
    simp
  | cons a s ih =>
    cases t with
    | nil =>
      simp only [broadcastRev, Option.some.injEq] at h
      subst h
      refine ⟨by simp, fun i _ => ⟨by simp, ?_⟩⟩
      split_ifs with h1
      · rw [h1]; rfl
      · rfl
    | cons b t =>
      rw [broadcastRev] at h
      cases h2 : broadcastRev s t with
      | none => rw [h2] at h; simp at h
      | some q =>
        rw [h2] at h
        obtain ⟨hl, hq⟩ := ih t q h2
        have key : ∃ c, r = c :: q ∧ (a = b ∨ a = 1 ∨ b = 1) ∧ c = if a = 1 then b else a := by
          simp only at h
          by_cases h3 : a = b
          · rw [if_pos h3] at h; refine ⟨a, (Option.some.inj h).symm, .inl h3, by split_ifs <;> simp [h3]⟩
          · rw [if_neg h3] at h
            by_cases h4 : a = 1
            · rw [if_pos h4] at h; exact ⟨b, (Option.some.inj h).symm, .inr (.inl h4), by rw [if_pos h4]⟩
            · rw [if_neg h4] at h
              by_cases h5 : b = 1
              · rw [if_pos h5] at h; exact ⟨a, (Option.some.inj h).symm, .inr (.inr h5), by rw [if_neg h4]⟩
              · rw [if_neg h5] at h; simp at h
        obtain ⟨c, rfl, hc, hc2⟩ := key
        refine ⟨by simp only [List.length_cons]; omega, ?_⟩
        intro i hi
        cases i with
        | zero => exact ⟨hc, hc2⟩
        | succ i => exact hq i (by simpa using hi)

theorem remove_length (s b : List Nat) (axis : Int) (h : shapeRemoveAxis s axis = .ok b) : b.length + 1 = s.length := by
  unfold shapeRemoveAxis at h
  rw [C63_normalize] at h
  split_ifs at h with hax
  have hp := position_eq s.length axis hax
  have hb : position s.length axis < s.length := by
    have : (position s.length axis : Int) < s.length := by rw [hp]; split_ifs <;> omega
    omega
  simp only [Except.ok.injEq] at h
  subst h
  simp only [List.length_append, List.length_take, List.length_drop]; omega

theorem remove_ok (s : List Nat) (axis : Int) (h : -(s.length : Int) ≤ axis ∧ axis < s.length) : ∃ b, shapeRemoveAxis s axis = .ok b := by
  unfold shapeRemoveAxis; rw [C63_normalize, if_pos h]; exact ⟨_, rfl⟩

/-- C63: `bincount` with weights.  It succeeds iff the axis is in range for both arrays and the
remaining axes broadcast; then removing the axis from the output shape gives the broadcast
shape, and the length along the axis is `m`. -/
theorem C63_bincountw (s t : List Nat) (axis : Int) (m : Nat) (r : List Nat) :
    bincountwShape s t axis m none = .ok r ↔
      ∃ xb wb bc, shapeRemoveAxis s axis = .ok xb ∧ shapeRemoveAxis t axis = .ok wb ∧ broadcastShapes xb wb = some bc ∧
        r.length = bc.length + 1 ∧ r[position r.length axis]? = some m ∧ shapeRemoveAxis r axis = .ok bc := by
  have hins : ∀ xb wb bc, shapeRemoveAxis s axis = .ok xb → shapeRemoveAxis t axis = .ok wb → broadcastShapes xb wb = some bc →
      shapeInsertAxis bc axis m = insertWrapper bc axis m none := by
    intro xb wb bc h1 h2 h3
    rw [C63_insert]
    unfold shapeInsertAxis
    rw [C63_normalize]
    split_ifs with h
    · have hp := position_eq (bc.length + 1) axis h
      have hb : position (bc.length + 1) axis ≤ bc.length := by
        have : (position (bc.length + 1) axis : Int) < (bc.length + 1 : Nat) := by rw [hp]; split_ifs <;> omega
        omega
      simp only [insertIdx_eq_take_drop _ _ _ hb, List.append_assoc, List.singleton_append]
    · rfl
  have hrange : ∀ xb wb bc, shapeRemoveAxis s axis = .ok xb → shapeRemoveAxis t axis = .ok wb → broadcastShapes xb wb = some bc →
      -((bc.length + 1 : Nat) : Int) ≤ axis ∧ axis < (bc.length + 1 : Nat) := by
    intro xb wb bc h1 h2 h3
    have l1 := remove_length _ _ _ h1
    have l2 := remove_length _ _ _ h2
    have hx : -(s.length : Int) ≤ axis ∧ axis < s.length := by
      unfold shapeRemoveAxis at h1; rw [C63_normalize] at h1; split_ifs at h1 with h; exact h
    unfold broadcastShapes at h3
    cases h4 : broadcastRev xb.reverse wb.reverse with
    | none => rw [h4] at h3; simp at h3
    | some q =>
      rw [h4] at h3
      simp only [Option.map_some, Option.some.injEq] at h3
      have := (broadcastRev_spec _ _ _ h4).1
      simp only [List.length_reverse] at this
      rw [← h3, List.length_reverse]
      omega
  constructor
  · intro h
    unfold bincountwShape at h
    cases h1 : shapeRemoveAxis s axis with
    | error e => rw [h1] at h; simp at h
    | ok xb =>
      cases h2 : shapeRemoveAxis t axis with
      | error e => rw [h1, h2] at h; simp at h
      | ok wb =>
        rw [h1, h2] at h
        simp only at h
        cases h3 : broadcastShapes xb wb with
        | none => rw [h3] at h; simp at h
        | some bc =>
          rw [h3] at h
          simp only at h
          rw [hins _ _ _ h1 h2 h3] at h
          cases h4 : insertWrapper bc axis m none with
          | error e => rw [h4] at h; simp at h
          | ok q =>
            rw [h4] at h
            simp only [Except.ok.injEq] at h
            subst h
            obtain ⟨a, b, c⟩ := C63_insert_shape _ _ _ _ h4
            exact ⟨xb, wb, bc, rfl, rfl, h3, a, by rw [a]; exact b, c⟩
  · rintro ⟨xb, wb, bc, h1, h2, h3, h4, h5, h6⟩
    unfold bincountwShape
    rw [h1, h2]
    simp only [h3]
    have hr := hrange _ _ _ h1 h2 h3
    obtain ⟨b, g1, g2⟩ := remove_insert r axis m (by rw [h4]; exact hr)
    rw [h6] at g1
    simp only [Except.ok.injEq] at g1
    subst g1
    rw [g2]
    simp only [Except.ok.injEq]
    rw [List.getElem?_eq_some_iff] at h5
    obtain ⟨g3, g4⟩ := h5
    conv_lhs => rw [← g4]
    exact List.set_getElem_self g3

/-- C63: with `out` given, `bincount` succeeds iff `out` has the computed shape. -/
theorem C63_bincount_out (s : List Nat) (axis : Int) (m : Nat) (o r : List Nat) :
    bincountShape s axis m (some o) = .ok r ↔ bincountShape s axis m none = .ok r ∧ o = r := by
  unfold bincountShape
  rw [C63_normalize]
  split_ifs with h
  · simp only []
    by_cases ho : o = s.set (position s.length axis) m
    · subst ho; simp
    · rw [if_pos ho]; simp only [reduceCtorEq, Except.ok.injEq, false_iff]; rintro ⟨rfl, h⟩; exact ho h
  · simp

/-! ### Non-vacuity -/
example : insertWrapper [2, 3] 1 5 none = .ok [2, 5, 3] ∧ insertWrapper [2, 3] (-1) 5 none = .ok [2, 3, 5] ∧
    insertWrapper [2, 3] 3 5 none = .error .axisError ∧ insertWrapper [2, 3] (-4) 5 none = .error .axisError := by decide
example : bincountwShape [4, 3, 7] [3, 7] (-1) 5 none = .ok [4, 3, 5] ∧ bincountShape [4, 7] 0 3 none = .ok [3, 7] := by decide

end Ufunclab.Wrapped

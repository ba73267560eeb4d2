import Verif.Model.Signal
import Verif.Proof.Mem
import Verif.Spec.Signal
namespace Ufunclab.Signal
variable {α : Type _}
open Spec

section Relay
variable [LT α] [DecidableLT α]

theorem relay_length (a b c d e : α) (xs : List α) : (relay a b c d e xs).length = xs.length := by
  induction xs generalizing e with
  | nil => rfl
  | cons x xs ih => simp [relay, ih]

theorem relay_append (a b c d e : α) (xs ys : List α) :
    relay a b c d e (xs ++ ys) =
      relay a b c d e xs ++ relay a b c d ((relay a b c d e xs).getLastD e) ys := by
  induction xs generalizing e with
  | nil => simp [relay]
  | cons x xs ih =>
    simp only [List.cons_append, relay, ih, List.cons.injEq, true_and]
    rw [List.getLastD_cons]

theorem relayLoop_frame (a b c d e : α) (mx : Mem α) (px xs po os : Int) (fuel k : Nat) (mo : Mem α)
    (addr : Int) (h : ∀ j, k ≤ j → j < k + fuel → addr ≠ po + (j : Int) * os) :
    relayLoop a b c d e mx px xs po os fuel k mo addr = mo addr := by
  induction fuel generalizing k mo with
  | zero => rfl
  | succ f ih =>
    simp only [relayLoop]
    rw [ih (k + 1) _ (fun j h1 h2 => h j (by omega) (by omega))]
    have := h k (by omega) (by omega)
    (repeat' split) <;> simp [set, Mem.store_other _ _ this]

/-- The memory loop started at `k` with previous output `prev` writes the list
result. -/
theorem relayLoop_eq (a b c d e : α) (mx : Mem α) (px xs po os : Int) (hos : os ≠ 0)
    (fuel k : Nat) (mo : Mem α) (prev : α)
    (hprev : prev = if k = 0 then e else get mo po os (k - 1)) :
    elems (relayLoop a b c d e mx px xs po os fuel k mo) (po + (k : Int) * os) os fuel =
      relay a b c d prev (elems mx (px + (k : Int) * xs) xs fuel) := by
  induction fuel generalizing k mo prev with
  | zero => simp [relay]
  | succ f ih =>
    rw [elems_succ, elems_succ]
    simp only [relayLoop, relay]
    have hx : mx (px + (k : Int) * xs) = get mx px xs k := rfl
    have hmo : (if get mx px xs k < a then set mo po os k c
        else if b < get mx px xs k then set mo po os k d
        else if k = 0 then set mo po os k e
        else set mo po os k (get mo po os (k - 1)))
        = set mo po os k (if get mx px xs k < a then c else if b < get mx px xs k then d else prev) := by
      rw [hprev]; repeat' split
      all_goals rfl
    rw [hmo, hx]
    congr 1
    · rw [relayLoop_frame]
      · simp [set]
      · intro j h1 h2 h
        have := stride_inj hos h
        omega
    · have e1 : po + (k : Int) * os + os = po + ((k + 1 : Nat) : Int) * os := by grind
      have e2 : px + (k : Int) * xs + xs = px + ((k + 1 : Nat) : Int) * xs := by grind
      rw [e1, e2]
      apply ih
      simp [get, set]

theorem relay_getElem (a b c d e : α) (xs : List α) (k : Nat) (hk : k < xs.length) :
    (relay a b c d e xs)[k]? = some (relayValue a b c d e (xs.take (k + 1))) := by
  induction xs generalizing e k with
  | nil => simp at hk
  | cons x xs ih =>
    cases k with
    | zero =>
      simp only [relay, relayValue, lastOutside, List.take_succ_cons, List.take_zero,
        List.getElem?_cons_zero, List.reverse_cons, List.reverse_nil, List.nil_append]
      by_cases h1 : x < a
      · simp [h1, List.find?]
      · by_cases h2 : b < x <;> simp [h1, h2, List.find?]
    | succ k =>
      simp only [relay, List.getElem?_cons_succ, List.take_succ_cons]
      rw [ih _ _ (by simpa using hk)]
      simp only [relayValue, lastOutside, List.reverse_cons, List.find?_append]
      cases hf : (List.take (k + 1) xs).reverse.find? (fun x => decide (x < a) || decide (b < x)) with
      | some y => simp
      | none =>
        by_cases h1 : x < a
        · simp [h1, List.find?]
        · by_cases h2 : b < x <;> simp [h1, h2, List.find?]

end Relay

section Backlash
variable [Add α] [Sub α] [LT α] [DecidableLT α]

theorem backlashLoop_length (h y : α) (xs : List α) : (backlashLoop h y xs).length = xs.length := by
  induction xs generalizing y with
  | nil => rfl
  | cons x xs ih => simp [backlashLoop, ih]

theorem backlashLoop_append (h y : α) (xs ys : List α) :
    backlashLoop h y (xs ++ ys) =
      backlashLoop h y xs ++ backlashLoop h ((backlashLoop h y xs).getLastD y) ys := by
  induction xs generalizing y with
  | nil => simp [backlashLoop]
  | cons x xs ih =>
    simp only [List.cons_append, backlashLoop, ih, List.cons.injEq, true_and]
    rw [List.getLastD_cons]

variable [Mul α] [Div α] [OfNat α 2] [OfNat α 0]

theorem sumInner_fst (x : α) (chs : List (Channel α)) (ys : List α) (t : α) :
    (sumInner x chs ys t).1 =
      List.zipWith (fun c y => backlashStep (c.deadband / 2) y x) chs ys := by
  induction chs generalizing ys t with
  | nil => simp [sumInner]
  | cons c chs ih => cases ys <;> simp [sumInner, ih]

theorem sumInner_snd (x : α) (chs : List (Channel α)) (ys : List α) (t : α) :
    (sumInner x chs ys t).2 =
      (List.zipWith (fun c y => (c.w * backlashStep (c.deadband / 2) y x)) chs ys).foldl (· + ·) t := by
  induction chs generalizing ys t with
  | nil => simp [sumInner]
  | cons c chs ih => cases ys <;> simp [sumInner, ih]

theorem sumOuter_append (chs : List (Channel α)) (f : List α) (xs ys : List α) :
    sumOuter chs f (xs ++ ys) =
      ((sumOuter chs f xs).1 ++ (sumOuter chs (sumOuter chs f xs).2 ys).1,
       (sumOuter chs (sumOuter chs f xs).2 ys).2) := by
  induction xs generalizing f with
  | nil => simp [sumOuter]
  | cons x xs ih => simp [sumOuter, ih]

end Backlash
end Ufunclab.Signal

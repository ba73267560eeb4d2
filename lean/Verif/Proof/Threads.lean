import Mathlib.Tactic.SplitIfs
import Mathlib.Tactic.Push
import Mathlib.Order.Basic
import Verif.Proof.IntTy
import Verif.Model.Threads
/-! # Programs with separate cells -/
namespace Ufunclab.Threads
variable {α : Type}

theorem store_agree {S : Int → Prop} {m m' : Mem α} (h : ∀ a, S a → m a = m' a) (b : Int) (v : α) :
    ∀ a, S a → (m.store b v) a = (m'.store b v) a := by
  intro a ha
  unfold Mem.store
  split_ifs
  · rfl
  · exact h a ha

/-- The run depends on the cells in `R` only. -/
theorem run_congr {R W S : Int → Prop} (p : Prog α) (hp : p.Within R W) (hR : ∀ a, R a → S a) (m m' : Mem α) (h : ∀ a, S a → m a = m' a) :
    ∀ a, S a → p.run m a = p.run m' a := by
  induction p generalizing m m' with
  | done => exact h
  | read b k ih =>
    simp only [Prog.run]
    rw [h b (hR b hp.1)]
    exact ih _ (hp.2 _) m m' h
  | write b v k ih => exact ih hp.2 _ _ (store_agree h b v)

/-- Nothing outside `W` is written. -/
theorem run_frame {R W : Int → Prop} (p : Prog α) (hp : p.Within R W) (m : Mem α) (a : Int) (ha : ¬ W a) : p.run m a = m a := by
  induction p generalizing m with
  | done => rfl
  | read b k ih => exact ih _ (hp.2 _) m
  | write b v k ih =>
    rw [Prog.run, ih hp.2]
    unfold Mem.store
    rw [if_neg]
    rintro rfl
    exact ha hp.1

/-- No thread writes a cell that another thread reads or writes. -/
def Separate (R W : Nat → Int → Prop) : Prop := ∀ i j, i ≠ j → ∀ a, W i a → ¬ R j a ∧ ¬ W j a

theorem step_inv {R W : Nat → Int → Prop} (hs : Separate R W) (s : List (Prog α) × Mem α)
    (hp : ∀ (i : Nat) (p : Prog α), s.1[i]? = some p → p.Within (R i) (W i)) (i : Nat) :
    (stepAt i s).1.length = s.1.length ∧
    (∀ (j : Nat) (p : Prog α), (stepAt i s).1[j]? = some p → p.Within (R j) (W j)) ∧
    (∀ (j : Nat) (p p' : Prog α), s.1[j]? = some p → (stepAt i s).1[j]? = some p' → ∀ a, R j a ∨ W j a → p'.run (stepAt i s).2 a = p.run s.2 a) ∧
    ∀ a, (∀ j, ¬ W j a) → (stepAt i s).2 a = s.2 a := by
  have hset : ∀ (q : Prog α) (j : Nat) (p' : Prog α), (s.1.set i q)[j]? = some p' → (i = j ∧ p' = q) ∨ (i ≠ j ∧ s.1[j]? = some p') := by
    intro q j p' h
    rw [List.getElem?_set] at h
    split_ifs at h with h1 h2
    · exact Or.inl ⟨h1, (Option.some.inj h).symm⟩
    · exact Or.inr ⟨h1, h⟩
  unfold stepAt
  split
  · rename_i a k hi
    have hw := hp i _ hi
    refine ⟨by simp, fun j p h => ?_, fun j p p' h h' b hb => ?_, fun b _ => rfl⟩
    · obtain ⟨rfl, rfl⟩ | ⟨_, h⟩ := hset _ _ _ h
      · exact hw.2 _
      · exact hp j p h
    · obtain ⟨rfl, rfl⟩ | ⟨_, h'⟩ := hset _ _ _ h'
      · rw [hi] at h
        cases h
        rfl
      · rw [h] at h'
        cases h'
        rfl
  · rename_i a v k hi
    have hw := hp i _ hi
    refine ⟨by simp, fun j p h => ?_, fun j p p' h h' b hb => ?_, fun b hb => ?_⟩
    · obtain ⟨rfl, rfl⟩ | ⟨_, h⟩ := hset _ _ _ h
      · exact hw.2
      · exact hp j p h
    · obtain ⟨rfl, rfl⟩ | ⟨hne, h'⟩ := hset _ _ _ h'
      · rw [hi] at h
        cases h
        rfl
      · rw [h] at h'
        cases h'
        refine run_congr (R := R j) (W := W j) (S := fun a => R j a ∨ W j a) p (hp j p h) (fun a ha => Or.inl ha) _ _ (fun c hc => ?_) b hb
        have := hs i j hne a hw.1
        simp only [Mem.store]
        rw [if_neg]
        rintro rfl
        obtain h1 | h1 := hc
        · exact this.1 h1
        · exact this.2 h1
    · simp only [Mem.store]
      rw [if_neg]
      rintro rfl
      exact hb i hw.1
  · exact ⟨rfl, hp, fun j p p' h h' _ _ => by rw [h] at h'; cases h'; rfl, fun _ _ => rfl⟩

theorem interleave_inv {R W : Nat → Int → Prop} (hs : Separate R W) (sched : List Nat) (s : List (Prog α) × Mem α)
    (hp : ∀ (i : Nat) (p : Prog α), s.1[i]? = some p → p.Within (R i) (W i)) :
    (interleave sched s).1.length = s.1.length ∧
    (∀ (j : Nat) (p : Prog α), (interleave sched s).1[j]? = some p → p.Within (R j) (W j)) ∧
    (∀ (j : Nat) (p p' : Prog α), s.1[j]? = some p → (interleave sched s).1[j]? = some p' →
      ∀ a, R j a ∨ W j a → p'.run (interleave sched s).2 a = p.run s.2 a) ∧
    ∀ a, (∀ j, ¬ W j a) → (interleave sched s).2 a = s.2 a := by
  induction sched generalizing s with
  | nil =>
    refine ⟨rfl, hp, fun j p p' h h' _ _ => ?_, fun _ _ => rfl⟩
    simp only [interleave, List.foldl_nil] at h'
    rw [h] at h'
    cases h'
    rfl
  | cons i sched ih =>
    obtain ⟨h1, h2, h3, h4⟩ := step_inv hs s hp i
    obtain ⟨g1, g2, g3, g4⟩ := ih (stepAt i s) h2
    refine ⟨g1.trans h1, g2, fun j p p' h h' a ha => ?_, fun a ha => (g4 a ha).trans (h4 a ha)⟩
    have hlt : j < (stepAt i s).1.length := by rw [h1]; exact (List.getElem?_eq_some_iff.mp h).1
    have hq := List.getElem?_eq_getElem hlt
    exact (g3 j _ p' hq h' a ha).trans (h3 j p _ h hq a ha)

/-! ## Every schedule can be completed -/

theorem interleave_append (s1 s2 : List Nat) (s : List (Prog α) × Mem α) : interleave (s1 ++ s2) s = interleave s2 (interleave s1 s) := by
  simp [interleave, List.foldl_append]

theorem finish_one (i : Nat) (p : Prog α) : ∀ (ps : List (Prog α)) (m : Mem α), ps[i]? = some p →
    ∃ sched, interleave sched (ps, m) = (ps.set i .done, p.run m) := by
  induction p with
  | done =>
    intro ps m h
    refine ⟨[], ?_⟩
    obtain ⟨hl, he⟩ := List.getElem?_eq_some_iff.mp h
    simp only [interleave, List.foldl_nil, Prod.mk.injEq, Prog.run, and_true]
    rw [← he, List.set_getElem_self]
  | read a k ih =>
    intro ps m h
    have hl := (List.getElem?_eq_some_iff.mp h).1
    obtain ⟨sched, hs⟩ := ih (m a) (ps.set i (k (m a))) m (by simp [hl])
    refine ⟨i :: sched, ?_⟩
    have : stepAt i (ps, m) = (ps.set i (k (m a)), m) := by simp [stepAt, h]
    simp only [interleave, List.foldl_cons, this] at hs ⊢
    rw [hs, List.set_set]
    rfl
  | write a v k ih =>
    intro ps m h
    have hl := (List.getElem?_eq_some_iff.mp h).1
    obtain ⟨sched, hs⟩ := ih (ps.set i k) (m.store a v) (by simp [hl])
    refine ⟨i :: sched, ?_⟩
    have : stepAt i (ps, m) = (ps.set i k, m.store a v) := by simp [stepAt, h]
    simp only [interleave, List.foldl_cons, this] at hs ⊢
    rw [hs, List.set_set]
    rfl

/-- The threads one after the other. -/
theorem one_after_another (ps : List (Prog α)) (m : Mem α) :
    ∃ sched, Finished (interleave sched (ps, m)) ∧ (interleave sched (ps, m)).2 = ps.foldl (fun m p => p.run m) m := by
  have key : ∀ n, n ≤ ps.length → ∃ sched, (interleave sched (ps, m)).2 = (ps.take n).foldl (fun m p => p.run m) m ∧
      (interleave sched (ps, m)).1.length = ps.length ∧
      (∀ (j : Nat), j < n → (interleave sched (ps, m)).1[j]? = some .done) ∧ ∀ (j : Nat), n ≤ j → (interleave sched (ps, m)).1[j]? = ps[j]? := by
    intro n
    induction n with
    | zero => intro _; exact ⟨[], rfl, rfl, by simp, fun _ _ => rfl⟩
    | succ n ih =>
      intro hn
      obtain ⟨sched, hm, hl, hd, hr⟩ := ih (by omega)
      have hlt : n < ps.length := by omega
      have hq := (hr n (Nat.le_refl _)).trans (List.getElem?_eq_getElem hlt)
      obtain ⟨sched', hs⟩ := finish_one n _ _ (interleave sched (ps, m)).2 hq
      have e : interleave (sched ++ sched') (ps, m) = ((interleave sched (ps, m)).1.set n .done, ps[n].run (interleave sched (ps, m)).2) := by
        rw [interleave_append, ← hs]
      refine ⟨sched ++ sched', ?_, ?_, fun j hj => ?_, fun j hj => ?_⟩
      · rw [e, List.take_add_one, List.foldl_append, ← hm, List.getElem?_eq_getElem hlt]
        rfl
      · rw [e]
        simpa using hl
      · rw [e, List.getElem?_set]
        split_ifs with e1 e2
        · rfl
        · omega
        · exact hd j (by omega)
      · rw [e, List.getElem?_set, if_neg (by omega)]
        exact hr j (by omega)
  obtain ⟨sched, hm, hl, hd, -⟩ := key _ (Nat.le_refl _)
  refine ⟨sched, fun p hp => ?_, by rw [hm, List.take_length]⟩
  obtain ⟨j, hj, rfl⟩ := List.mem_iff_getElem.mp hp
  have := hd j (by omega)
  rw [List.getElem?_eq_getElem hj] at this
  exact Option.some.inj this

/-! ## The programs of the loops -/

theorem run_readAll (as : List Int) (k : List α → Prog α) (m : Mem α) : (readAll as k).run m = (k (as.map m)).run m := by
  induction as generalizing k with
  | nil => rfl
  | cons a as ih => simp [readAll, Prog.run, ih]

theorem within_readAll {R W : Int → Prop} (as : List Int) (k : List α → Prog α) (h : ∀ a ∈ as, R a) (hk : ∀ vs, (k vs).Within R W) :
    (readAll as k).Within R W := by
  induction as generalizing k with
  | nil => exact hk []
  | cons a as ih => exact ⟨h a (by simp), fun v => ih _ (fun b hb => h b (by simp [hb])) fun vs => hk _⟩

theorem run_writeAll (ws : List (Int × α)) (k : Prog α) (m : Mem α) :
    (writeAll ws k).run m = k.run (ws.foldl (fun m w => m.store w.1 w.2) m) := by
  induction ws generalizing m with
  | nil => rfl
  | cons w ws ih => simp [writeAll, Prog.run, ih]

theorem within_writeAll {R W : Int → Prop} (ws : List (Int × α)) (k : Prog α) (h : ∀ w ∈ ws, W w.1) (hk : k.Within R W) :
    (writeAll ws k).Within R W := by
  induction ws with
  | nil => exact hk
  | cons w ws ih => exact ⟨h w (by simp), ih fun b hb => h b (by simp [hb])⟩

theorem run_ufuncProg (f : List α → α) (n : Nat) (args : List (Int × Int)) (pout so : Int) (m : Mem α) :
    (ufuncProg f n args pout so).run m = ufuncLoop f n args pout so m := by
  induction n generalizing args pout m with
  | zero => rfl
  | succ n ih => simp [ufuncProg, run_readAll, Prog.run, ih, ufuncLoop, Function.comp_def]

theorem within_ufuncProg (f : List α → α) {R W : Int → Prop} (n : Nat) (args : List (Int × Int)) (pout so : Int)
    (hR : ∀ q ∈ args, ∀ (j : Nat), j < n → R (q.1 + (j : Int) * q.2)) (hW : ∀ (j : Nat), j < n → W (pout + (j : Int) * so)) :
    (ufuncProg f n args pout so).Within R W := by
  induction n generalizing args pout with
  | zero => trivial
  | succ n ih =>
    refine within_readAll _ _ (fun a ha => ?_) fun vs => ⟨by simpa using hW 0 (by omega), ih _ _ (fun q hq j hj => ?_) fun j hj => ?_⟩
    · obtain ⟨q, hq, rfl⟩ := List.mem_map.mp ha
      simpa using hR q hq 0 (by omega)
    · obtain ⟨q', hq', rfl⟩ := List.mem_map.mp hq
      have := hR q' hq' (j + 1) (by omega)
      rw [show q'.1 + ((j + 1 : Nat) : Int) * q'.2 = q'.1 + q'.2 + (j : Int) * q'.2 by push_cast; rw [Int.add_mul]; omega] at this
      exact this
    · have := hW (j + 1) (by omega)
      rw [show pout + ((j + 1 : Nat) : Int) * so = pout + so + (j : Int) * so by push_cast; rw [Int.add_mul]; omega] at this
      exact this

theorem run_gufuncProg (g : List α → List α) (ins outs : List Operand) (cnt j : Nat) (m : Mem α) :
    (gufuncProg g ins outs cnt j).run m = gufuncLoop g ins outs cnt j m := by
  induction cnt generalizing j m with
  | zero => rfl
  | succ n ih => simp [gufuncProg, run_readAll, run_writeAll, ih, gufuncLoop]

theorem within_gufuncProg (g : List α → List α) {R W : Int → Prop} (ins outs : List Operand) (cnt j0 : Nat)
    (hR : ∀ o ∈ ins, ∀ (j : Nat), j0 ≤ j → j < j0 + cnt → ∀ a ∈ o.cells j, R a) (hW : ∀ o ∈ outs, ∀ (j : Nat), j0 ≤ j → j < j0 + cnt → ∀ a ∈ o.cells j, W a) :
    (gufuncProg g ins outs cnt j0).Within R W := by
  induction cnt generalizing j0 with
  | zero => trivial
  | succ n ih =>
    refine within_readAll _ _ (fun a ha => ?_) fun vs => within_writeAll _ _ (fun w hw => ?_)
      (ih (j0 + 1) (fun o ho j h1 h2 => hR o ho j (by omega) (by omega)) fun o ho j h1 h2 => hW o ho j (by omega) (by omega))
    · obtain ⟨o, ho, ha⟩ := List.mem_flatMap.mp ha
      exact hR o ho j0 (Nat.le_refl _) (by omega) a ha
    · obtain ⟨a, v⟩ := w
      obtain ⟨o, ho, ha⟩ := List.mem_flatMap.mp (List.of_mem_zip hw).1
      exact hW o ho j0 (Nat.le_refl _) (by omega) a ha

theorem run_bincountProg (key : α → Int) (inc : α → α) (n : Nat) (px xs po os : Int) (cnt i : Nat) (m : Mem α) :
    (bincountProg key inc n px xs po os cnt i).run m = bincountLoop key inc n px xs po os cnt i m := by
  induction cnt generalizing i m with
  | zero => rfl
  | succ cnt ih =>
    simp only [bincountProg, Prog.run, bincountLoop]
    split_ifs with hg
    · simp only [Prog.run]
      exact ih _ _
    · exact ih _ _

/-- With input cells that are not output cells, the loop has the effect of the model with separate memories. -/
theorem bincountLoop_eq (key : Int → Int) (n : Nat) (px xs po os : Int) (cnt i : Nat) (m m0 : Mem Int)
    (hkey : ∀ (j : Nat), i ≤ j → j < i + cnt → key (m0 (px + (j : Int) * xs)) = m0 (px + (j : Int) * xs))
    (hsep : ∀ (j : Nat), i ≤ j → j < i + cnt → ∀ (l : Nat), i ≤ l → l < i + cnt → Bincount.guard (m0 (px + (l : Int) * xs)) n = true →
      px + (j : Int) * xs ≠ po + Bincount.toIntp (m0 (px + (l : Int) * xs)) * os)
    (hx : ∀ (j : Nat), i ≤ j → j < i + cnt → m (px + (j : Int) * xs) = m0 (px + (j : Int) * xs)) :
    bincountLoop key (· + 1) n px xs po os cnt i m = Bincount.loop (fun i => get m0 px xs i) n po os cnt i m := by
  induction cnt generalizing i m with
  | zero => rfl
  | succ cnt ih =>
    have h0 := hx i (Nat.le_refl _) (by omega)
    have hk0 := hkey i (Nat.le_refl _) (by omega)
    simp only [bincountLoop, Bincount.loop]
    simp only [get, h0, hk0] at ih ⊢
    by_cases hg : Bincount.guard (m0 (px + (i : Int) * xs)) n = true
    · simp only [hg, if_true, Bincount.bump]
      refine ih (i + 1) _ (fun j h1 h2 => hkey j (by omega) (by omega)) (fun j h1 h2 l h3 h4 => hsep j (by omega) (by omega) l (by omega) (by omega))
        fun j h1 h2 => ?_
      simp only [Mem.store]
      rw [if_neg (hsep j (by omega) (by omega) i (Nat.le_refl _) (by omega) hg)]
      exact hx j (by omega) (by omega)
    · simp only [hg]
      exact ih (i + 1) m (fun j h1 h2 => hkey j (by omega) (by omega))
        (fun j h1 h2 l h3 h4 => hsep j (by omega) (by omega) l (by omega) (by omega)) fun j h1 h2 => hx j (by omega) (by omega)

theorem within_bincountProg {R W : Int → Prop} (key : α → Int) (inc : α → α) (n : Nat) (px xs po os : Int) (cnt i : Nat)
    (hR : ∀ (j : Nat), i ≤ j → j < i + cnt → R (px + (j : Int) * xs))
    (hW : ∀ v, Bincount.guard (key v) n = true → R (po + Bincount.toIntp (key v) * os) ∧ W (po + Bincount.toIntp (key v) * os)) :
    (bincountProg key inc n px xs po os cnt i).Within R W := by
  induction cnt generalizing i with
  | zero => trivial
  | succ cnt ih =>
    have ih' := ih (i + 1) fun j h1 h2 => hR j (by omega) (by omega)
    refine ⟨hR i (Nat.le_refl _) (by omega), fun k => ?_⟩
    show Prog.Within R W (if _ then _ else _)
    split_ifs with hg
    · exact ⟨(hW k hg).1, fun v => ⟨(hW k hg).2, ih'⟩⟩
    · exact ih'

variable [LT α] [DecidableLT α]

theorem run_relayProg (lowT highT lowV highV init : α) (px xs po os : Int) (cnt k : Nat) (m : Mem α) :
    (relayProg lowT highT lowV highV init px xs po os cnt k).run m = relayLoop lowT highT lowV highV init px xs po os cnt k m := by
  induction cnt generalizing k m with
  | zero => rfl
  | succ cnt ih =>
    simp only [relayProg, Prog.run, relayLoop]
    split_ifs <;> simp only [Prog.run] <;> exact ih _ _

theorem relayLoop_eq (lowT highT lowV highV init : α) (px xs po os : Int) (cnt k : Nat) (m m0 : Mem α)
    (hsep : ∀ (j l : Nat), j < k + cnt → l < k + cnt → px + (j : Int) * xs ≠ po + (l : Int) * os)
    (hx : ∀ (j : Nat), k ≤ j → j < k + cnt → m (px + (j : Int) * xs) = m0 (px + (j : Int) * xs)) :
    relayLoop lowT highT lowV highV init px xs po os cnt k m = Signal.relayLoop lowT highT lowV highV init m0 px xs po os cnt k m := by
  induction cnt generalizing k m with
  | zero => rfl
  | succ cnt ih =>
    have h0 := hx k (Nat.le_refl _) (by omega)
    have step : ∀ v, relayLoop lowT highT lowV highV init px xs po os cnt (k + 1) (m.store (po + (k : Int) * os) v) =
        Signal.relayLoop lowT highT lowV highV init m0 px xs po os cnt (k + 1) (m.store (po + (k : Int) * os) v) := by
      intro v
      refine ih (k + 1) _ (fun j l h1 h2 => hsep j l (by omega) (by omega)) fun j h1 h2 => ?_
      simp only [Mem.store]
      rw [if_neg (hsep j k (by omega) (by omega))]
      exact hx j (by omega) (by omega)
    simp only [relayLoop, Signal.relayLoop, get, set, h0]
    rw [step]
    congr 1
    by_cases h1 : m0 (px + (k : Int) * xs) < lowT
    · simp only [h1, if_true]
    by_cases h2 : highT < m0 (px + (k : Int) * xs)
    · simp only [h1, h2, if_true, if_false]
    by_cases h3 : k = 0
    · subst h3
      simp only [h1, h2, if_true, if_false]
    · simp only [h1, h2, h3, if_false]

theorem within_relayProg (lowT highT lowV highV init : α) {R W : Int → Prop} (px xs po os : Int) (cnt k : Nat)
    (hR : ∀ (j : Nat), j < k + cnt → R (px + (j : Int) * xs)) (hW : ∀ (j : Nat), j < k + cnt → R (po + (j : Int) * os) ∧ W (po + (j : Int) * os)) :
    (relayProg lowT highT lowV highV init px xs po os cnt k).Within R W := by
  induction cnt generalizing k with
  | zero => trivial
  | succ cnt ih =>
    have ih' := ih (k + 1) (fun j hj => hR j (by omega)) fun j hj => hW j (by omega)
    refine ⟨hR k (by omega), fun x => ?_⟩
    have hk := (hW k (by omega)).2
    simp only
    split_ifs
    · exact ⟨hk, ih'⟩
    · exact ⟨hk, ih'⟩
    · exact ⟨hk, ih'⟩
    · exact ⟨(hW (k - 1) (by omega)).1, fun v => ⟨hk, ih'⟩⟩

theorem run_prog (c : Call α) (m : Mem α) : c.prog.run m = c.result m := by
  cases c
  · exact run_ufuncProg ..
  · exact run_gufuncProg ..
  · exact run_bincountProg ..
  · exact run_relayProg ..

theorem toIntp_eq (k : Int) (h0 : 0 ≤ k) (h : k < 2 ^ 63) : Bincount.toIntp k = k := by
  refine IntTy.wrap_of_inRange _ (by decide) k ?_
  constructor
  · exact Int.le_trans (by decide) h0
  · exact Int.le_trans (Int.le_sub_one_of_lt h) (by decide)

theorem within_prog (c : Call α) : c.prog.Within (fun a => c.Input a ∨ c.Output a) c.Output := by
  cases c with
  | ufunc f n args pout so =>
    exact within_ufuncProg _ _ _ _ _ (fun q hq j hj => Or.inl ⟨q, hq, j, hj, rfl⟩) fun j hj => ⟨j, hj, rfl⟩
  | gufunc g ins outs cnt =>
    exact within_gufuncProg _ _ _ _ _ (fun o ho j _ hj a ha => Or.inl ⟨o, ho, j, by omega, ha⟩) fun o ho j _ hj a ha => ⟨o, ho, j, by omega, ha⟩
  | bincount key hkey inc m n px xs po os =>
    have hout : ∀ v, Bincount.guard (key v) m = true → Call.Output (.bincount key hkey inc m n px xs po os) (po + Bincount.toIntp (key v) * os) := by
      intro v hv
      simp only [Bincount.guard, Bool.and_eq_true, decide_eq_true_eq] at hv
      rw [toIntp_eq _ hv.1 (hkey v)] at hv ⊢
      exact ⟨(key v).toNat, by omega, by rw [Int.toNat_of_nonneg hv.1]⟩
    exact within_bincountProg _ _ _ _ _ _ _ _ _ (fun j _ hj => Or.inl ⟨j, by omega, rfl⟩) fun v hv => ⟨Or.inr (hout v hv), hout v hv⟩
  | relay lowT highT lowV highV init n px xs po os =>
    have hout : ∀ j : Nat, j < 0 + n → Call.Output (.relay lowT highT lowV highV init n px xs po os) (po + (j : Int) * os) :=
      fun j hj => ⟨j, by omega, rfl⟩
    exact within_relayProg _ _ _ _ _ _ _ _ _ _ _ (fun j hj => Or.inl ⟨j, by omega, rfl⟩) fun j hj => ⟨Or.inr (hout j hj), hout j hj⟩

end Ufunclab.Threads

import Verif.Proof.Threads
import Verif.Model.Debye1
import Mathlib.Data.List.Perm.Basic
import Mathlib.Tactic.FinCases
import Mathlib.Tactic.NormNum
/-!
# C119: calls from several threads

Calls that run at the same time in several threads, none of which writes to an array that another one uses, give for every schedule what
they give one after the other, in any order; they may read the same arrays.
-/
namespace Ufunclab.Threads
variable {α : Type} [LT α] [DecidableLT α]

/-- Neither call writes to a cell of an array of the other one.  The inputs may be shared. -/
def Apart (c d : Call α) : Prop :=
  (∀ a, c.Output a → ¬ d.Input a ∧ ¬ d.Output a) ∧ (∀ a, d.Output a → ¬ c.Input a ∧ ¬ c.Output a)

theorem Apart.symm {c d : Call α} (h : Apart c d) : Apart d c := ⟨h.2, h.1⟩

/-- C119: whatever the order of the accesses, when all calls have ended each output has the values that its own call computes
when nothing else runs, and all other cells are unchanged. -/
theorem C119_threads (calls : List (Call α)) (m : Mem α) (hsep : calls.Pairwise Apart) (sched : List Nat)
    (hfin : Finished (interleave sched (calls.map Call.prog, m))) :
    (∀ c ∈ calls, ∀ a, c.Output a → (interleave sched (calls.map Call.prog, m)).2 a = c.result m a) ∧
    ∀ a, (∀ c ∈ calls, ¬ c.Output a) → (interleave sched (calls.map Call.prog, m)).2 a = m a := by
  let R : Nat → Int → Prop := fun i a => ∃ c, calls[i]? = some c ∧ (c.Input a ∨ c.Output a)
  let W : Nat → Int → Prop := fun i a => ∃ c, calls[i]? = some c ∧ c.Output a
  have hs : Separate R W := by
    rintro i j hij a ⟨c, hc, ha⟩
    have key : ∀ d, calls[j]? = some d → ¬ d.Input a ∧ ¬ d.Output a := by
      intro d hd
      obtain ⟨hi, rfl⟩ := List.getElem?_eq_some_iff.mp hc
      obtain ⟨hj, rfl⟩ := List.getElem?_eq_some_iff.mp hd
      rcases Nat.lt_or_gt_of_ne hij with h | h
      · exact (List.pairwise_iff_getElem.mp hsep i j hi hj h).1 a ha
      · exact (List.pairwise_iff_getElem.mp hsep j i hj hi h).2 a ha
    constructor
    · rintro ⟨d, hd, h⟩
      exact h.elim (key d hd).1 (key d hd).2
    · rintro ⟨d, hd, h⟩
      exact (key d hd).2 h
  have hp : ∀ (i : Nat) (p : Prog α), (calls.map Call.prog)[i]? = some p → p.Within (R i) (W i) := by
    intro i p h
    rw [List.getElem?_map, Option.map_eq_some_iff] at h
    obtain ⟨c, hc, rfl⟩ := h
    have e1 : R i = fun a => c.Input a ∨ c.Output a := by
      funext a
      simp only [R, hc, Option.some.injEq, exists_eq_left']
    have e2 : W i = c.Output := by
      funext a
      simp only [W, hc, Option.some.injEq, exists_eq_left']
    rw [e1, e2]
    exact within_prog c
  obtain ⟨h1, -, h3, h4⟩ := interleave_inv hs sched (calls.map Call.prog, m) hp
  refine ⟨fun c hc a ha => ?_, fun a ha => h4 a ?_⟩
  · obtain ⟨i, hi, rfl⟩ := List.mem_iff_getElem.mp hc
    have hl : i < (interleave sched (calls.map Call.prog, m)).1.length := by rw [h1]; simpa using hi
    have := h3 i _ _ (by rw [List.getElem?_map, List.getElem?_eq_getElem hi]; rfl) (List.getElem?_eq_getElem hl) a
      (Or.inr ⟨_, List.getElem?_eq_getElem hi, ha⟩)
    rw [hfin _ (List.getElem_mem hl)] at this
    exact this.trans (by rw [run_prog])
  · rintro i ⟨c, hc, h⟩
    exact ha c (List.mem_of_getElem? hc) h

/-- C119: no call waits for another one: from every point, the calls can run to their end. -/
theorem C119_progress (calls : List (Call α)) (m : Mem α) (sched : List Nat) :
    ∃ more, Finished (interleave (sched ++ more) (calls.map Call.prog, m)) := by
  obtain ⟨more, h, -⟩ := one_after_another (interleave sched (calls.map Call.prog, m)).1 (interleave sched (calls.map Call.prog, m)).2
  exact ⟨more, by rw [interleave_append]; exact h⟩

/-- C119: the result is that of the calls made one after the other, in any order. -/
theorem C119_one_after_another (calls order : List (Call α)) (horder : order.Perm calls) (m : Mem α) (hsep : calls.Pairwise Apart) (sched : List Nat)
    (hfin : Finished (interleave sched (calls.map Call.prog, m))) :
    (interleave sched (calls.map Call.prog, m)).2 = order.foldl (fun m c => c.result m) m := by
  have hsep' : order.Pairwise Apart := (horder.pairwise_iff fun h => h.symm).mpr hsep
  obtain ⟨s', hf', hm'⟩ := one_after_another (order.map Call.prog) m
  rw [List.foldl_map] at hm'
  simp only [run_prog] at hm'
  rw [← hm']
  obtain ⟨h1, h2⟩ := C119_threads calls m hsep sched hfin
  obtain ⟨g1, g2⟩ := C119_threads order m hsep' s' hf'
  funext a
  by_cases h : ∃ c ∈ calls, c.Output a
  · obtain ⟨c, hc, ha⟩ := h
    rw [h1 c hc a ha, g1 c (horder.mem_iff.mpr hc) a ha]
  · have h : ∀ c ∈ calls, ¬ c.Output a := fun c hc ha => h ⟨c, hc, ha⟩
    rw [h2 a h, g2 a fun c hc => h c (horder.mem_iff.mp hc)]

/-! ## The results are those of the other models -/

/-- C119: a call of a function of one argument has the effect of the loop of Model/Debye1. -/
theorem C119_unary (f : α → α) (f' : List α → α) (hf : ∀ x, f' [x] = f x) (n : Nat) (pin is pout os : Int) (m : Mem α) :
    (Call.ufunc f' n [(pin, is)] pout os).result m = Debye1.loop f is os n pin pout m := by
  simp only [Call.result]
  induction n generalizing pin pout m with
  | zero => rfl
  | succ n ih => simp only [ufuncLoop, List.map_cons, List.map_nil, hf, Debye1.loop, ih]

/-- The value of an integer type other than `uint64` as a `npy_intp`. -/
def intpKey (v : Int) : Int := IntTy.intp.wrap v

theorem intpKey_lt (v : Int) : intpKey v < 2 ^ 63 := by
  show (v + 2 ^ 63) % 2 ^ 64 - 2 ^ 63 < 2 ^ 63
  have := Int.emod_lt_of_pos (v + 2 ^ 63) (show (0 : Int) < 2 ^ 64 by decide)
  norm_num at this ⊢
  omega

/-- C119: `bincount` with an `out` that does not overlap `x` has the effect of the loop of Model/Bincount. -/
theorem C119_bincount (n m : Nat) (px xs po os : Int) (mem : Mem Int)
    (hx : ∀ j : Nat, j < n → IntTy.intp.InRange (mem (px + (j : Int) * xs)))
    (hsep : ∀ j : Nat, j < n → ∀ k : Nat, k < m → px + (j : Int) * xs ≠ po + (k : Int) * os) :
    (Call.bincount intpKey intpKey_lt (· + 1) m n px xs po os).result mem = Bincount.loop (fun i => get mem px xs i) m po os n 0 mem := by
  refine bincountLoop_eq _ _ _ _ _ _ _ _ _ _ (fun j _ hj => ?_) (fun j _ hj l _ hl hg => ?_) fun _ _ _ => rfl
  · exact IntTy.wrap_of_inRange _ (by decide) _ (hx j (by omega))
  · have hw := IntTy.wrap_of_inRange _ (by decide) _ (hx l (by omega))
    simp only [Bincount.guard, Bool.and_eq_true, decide_eq_true_eq] at hg
    rw [show Bincount.toIntp (mem (px + (l : Int) * xs)) = mem (px + (l : Int) * xs) from hw] at hg ⊢
    have := hsep j (by omega) (mem (px + (l : Int) * xs)).toNat (by omega)
    rwa [Int.toNat_of_nonneg hg.1] at this

/-- C119: `hysteresis_relay` with an `out` that does not overlap `x` has the effect of the loop of Model/Signal. -/
theorem C119_relay (lowT highT lowV highV init : α) (n : Nat) (px xs po os : Int) (m : Mem α)
    (hsep : ∀ j l : Nat, j < n → l < n → px + (j : Int) * xs ≠ po + (l : Int) * os) :
    (Call.relay lowT highT lowV highV init n px xs po os).result m = Signal.relayCore lowT highT lowV highV init m px xs m po os n :=
  relayLoop_eq _ _ _ _ _ _ _ _ _ _ _ _ _ (fun j l h1 h2 => hsep j l (by omega) (by omega)) fun _ _ _ => rfl

/-- C119: a reduction with one output, of items of length `n`: item `j` is replaced by `g` of its elements, if the output does not overlap the input
and the cells of the output are distinct. -/
theorem C119_reduction (g : List α → α) (p stride : Int) (n : Nat) (step : Int) (po ostep : Int) (cnt : Nat) (m : Mem α) (h0 : ostep ≠ 0)
    (hsep : ∀ i j l : Nat, i < n → j < cnt → l < cnt → p + (j : Int) * step + (i : Int) * stride ≠ po + (l : Int) * ostep) (j : Nat) (hj : j < cnt) :
    (Call.gufunc (fun xs => [g xs]) [⟨p, stride, n, step⟩] [⟨po, 0, 1, ostep⟩] cnt).result m (po + (j : Int) * ostep) =
      g (elems m (p + (j : Int) * step) stride n) := by
  have hinj : ∀ a b : Nat, po + (a : Int) * ostep = po + (b : Int) * ostep → a = b := by
    intro a b h
    have : (a : Int) * ostep = (b : Int) * ostep := by omega
    have := Int.eq_of_mul_eq_mul_right h0 this
    omega
  have key : ∀ cnt' j0 (m' : Mem α), j0 + cnt' = cnt → (∀ i j : Nat, i < n → j < cnt → m' (p + (j : Int) * step + (i : Int) * stride) = m (p + (j : Int) * step + (i : Int) * stride)) →
      gufuncLoop (fun xs => [g xs]) [⟨p, stride, n, step⟩] [⟨po, 0, 1, ostep⟩] cnt' j0 m' (po + (j : Int) * ostep) =
        if j0 ≤ j then g (elems m (p + (j : Int) * step) stride n) else m' (po + (j : Int) * ostep) := by
    intro cnt'
    induction cnt' with
    | zero =>
      intro j0 m' h1 _
      rw [if_neg (by omega)]
      rfl
    | succ k ih =>
      intro j0 m' h1 h2
      have hcell : ∀ j : Nat, Operand.cells ⟨po, 0, 1, ostep⟩ j = [po + (j : Int) * ostep] := by
        intro j
        simp [Operand.cells]
      simp only [gufuncLoop, List.flatMap_cons, List.flatMap_nil, List.append_nil, hcell, List.zip_cons_cons, List.zip_nil_right, List.foldl_cons, List.foldl_nil]
      have he : (Operand.cells ⟨p, stride, n, step⟩ j0).map m' = elems m (p + (j0 : Int) * step) stride n := by
        simp only [Operand.cells, elems, get, List.map_map]
        refine List.map_congr_left fun i hi => ?_
        exact h2 i j0 (List.mem_range.mp hi) (by omega)
      rw [he, ih (j0 + 1) _ (by omega)]
      · by_cases e : j0 = j
        · subst e
          rw [if_neg (by omega), if_pos (Nat.le_refl _)]
          simp [Mem.store]
        · by_cases e2 : j0 + 1 ≤ j
          · rw [if_pos e2, if_pos (by omega)]
          · rw [if_neg e2, if_neg (by omega)]
            simp only [Mem.store]
            rw [if_neg]
            intro h
            exact e (hinj _ _ h).symm
      · intro i l hi hl
        simp only [Mem.store]
        rw [if_neg (hsep i l j0 hi hl (by omega))]
        exact h2 i l hi hl
  have := key cnt 0 m (by omega) fun _ _ _ _ => rfl
  rw [if_pos (Nat.zero_le _)] at this
  exact this

/-! ## Counting into one array from two threads -/

/-- `bincount` of the element at `px` into the one count at 100. -/
def countInto (px : Int) : Call Int := .bincount intpKey intpKey_lt (· + 1) 1 1 px 8 100 8

/-- The condition on outputs is needed: two calls of `bincount` that add to the same `out` can lose a count. -/
theorem C119_shared_out_loses : ∃ (m : Mem Int) (sched : List Nat),
    Finished (interleave sched ([countInto 0, countInto 8].map Call.prog, m)) ∧
    (interleave sched ([countInto 0, countInto 8].map Call.prog, m)).2 100 = 1 ∧
    [countInto 0, countInto 8].foldl (fun m c => c.result m) m 100 = 2 := by
  refine ⟨fun _ => 0, [0, 1, 0, 1, 0, 1], ?_, by decide, by decide⟩
  intro p hp
  fin_cases hp <;> rfl

/-- The hypotheses of C119_threads for two calls that share their input, one of them in place on other data, under a schedule that changes threads at every access. -/
example : [Call.ufunc (fun v => v.sum) 2 [(0, 8), (16, 8)] 100 8, .ufunc (fun v => v.sum) 1 [(0, 8), (200, 8)] 200 8].Pairwise (Apart (α := Int)) ∧
    Finished (interleave [0, 1, 0, 1, 0, 1, 0, 0, 0]
      ([Call.ufunc (fun v => v.sum) 2 [(0, 8), (16, 8)] 100 8, .ufunc (fun v => v.sum) 1 [(0, 8), (200, 8)] 200 8].map Call.prog, (id : Mem Int))) ∧
    (interleave [0, 1, 0, 1, 0, 1, 0, 0, 0]
      ([Call.ufunc (fun v => v.sum) 2 [(0, 8), (16, 8)] 100 8, .ufunc (fun v => v.sum) 1 [(0, 8), (200, 8)] 200 8].map Call.prog, (id : Mem Int))).2 108 = 32 := by
  refine ⟨?_, ?_, by decide⟩
  · simp only [List.pairwise_cons, List.mem_singleton, forall_eq, List.not_mem_nil, false_imp_iff, implies_true, List.Pairwise.nil, and_true]
    constructor
    · rintro a ⟨j, hj, rfl⟩
      constructor
      · rintro ⟨q, hq, i, hi, h⟩
        fin_cases hq <;> simp only at h <;> omega
      · rintro ⟨i, hi, h⟩
        omega
    · rintro a ⟨j, hj, rfl⟩
      constructor
      · rintro ⟨q, hq, i, hi, h⟩
        fin_cases hq <;> simp only at h <;> omega
      · rintro ⟨i, hi, h⟩
        omega
  · intro p hp
    fin_cases hp <;> rfl

end Ufunclab.Threads

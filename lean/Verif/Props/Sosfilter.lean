import Verif.Proof.Sosfilter
import Mathlib.Algebra.Ring.Rat
import Mathlib.Tactic.Ring
import Mathlib.Tactic.NormNum
/-! # Properties C26 (sosfilter part), C30-C32: sosfilter, sosfilter_ic -/
namespace Ufunclab.Sosfilter
variable {α : Type _}

section Free
variable [Add α] [Sub α] [Mul α]

/-- C30 (refinement): for every layout (strides of all arrays) with at least one
section, `sosfilter_ic` fills `y` and `zf` with the outputs and final states of
the sample-by-sample filter on the logical elements.  `zf` has distinct cells
and does not overlap `zi`.  Bit-exact. -/
theorem C30_C32_ic_core (size : Int) (m n : Nat) (hm : 0 < m) (mS : Mem α) (S : View2) (mx : Mem α)
    (px xs : Int) (ZI : View2) (my : Mem α) (py ys : Int) (hys : ys ≠ 0) (ZF : View2)
    (hF : ZF.Inj m)
    (hdisj : ∀ i i' j j', i < m → i' < m → j < 2 → j' < 2 → ZI.addr i j ≠ ZF.addr i' j')
    (mz : Mem α) :
    let r := icCore size m n mS S mx px xs ZI my py ys ZF mz
    let spec := filter (sections mS S m) (states mz ZI m) (elems mx px xs n)
    elems r.2 py ys n = spec.1 ∧ states r.1 ZF m = spec.2 ∧
    ∀ a, (∀ j < n, a ≠ py + (j : Int) * ys) → r.2 a = my a := by
  intro r spec
  have hp : ZI.p ≠ ZF.p := by
    have := hdisj 0 0 0 0 hm hm (by omega) (by omega)
    simpa [View2.addr] using this
  have hb : r = icOuter m mS S mx px xs ZF py ys n 0 (copyRows ZI ZF m 0 mz) my := by
    simp only [r, icCore, hp, ne_eq, not_false_eq_true, if_true]
    split
    · rename_i h; rw [h.1, h.2]
    · rfl
  obtain ⟨h1, h2, h3⟩ := icOuter_z_spec m hm mS S mx px xs ZF hF py ys hys n 0
    (copyRows ZI ZF m 0 mz) my
  have hst : states (copyRows ZI ZF m 0 mz) ZF m = states mz ZI m := by
    apply List.map_congr_left
    intro i hi
    have hi : i < m := by simpa using hi
    have hc := (copyRows_spec ZI ZF m hF hdisj m 0 (by omega) mz).1
    simp only [stateAt, get2d_addr]
    rw [hc i 0 (by omega) (by omega) (by omega), hc i 1 (by omega) (by omega) (by omega)]
  rw [hst] at h1 h2
  simp only [Int.natCast_zero, Int.zero_mul, Int.add_zero] at h1 h2
  rw [hb]
  exact ⟨h2, h1, fun a ha => h3 a (fun j _ hj => ha j (by omega))⟩

/-- C32: the contiguous implementation does exactly what the strided one does on
contiguous arrays (same memories, hence bit-identical outputs). -/
theorem C32_contig_eq_strided (size : Int) (m n : Nat) (mS : Mem α) (pS : Int) (mx : Mem α)
    (px : Int) (pZI : Int) (my : Mem α) (py : Int) (pZF : Int) (mz : Mem α) :
    contigCore size m n mS pS mx px pZI my py pZF mz =
      icCore size m n mS ⟨pS, 6 * size, size⟩ mx px size ⟨pZI, 2 * size, size⟩ my py size
        ⟨pZF, 2 * size, size⟩ mz :=
  contigCore_eq size m n mS pS mx px pZI my py pZF mz

theorem bufInj (size pz : Int) (hsz : size ≠ 0) (m : Nat) : View2.Inj ⟨pz, 2 * size, size⟩ m := by
  intro i i' j j' _ _ hj hj' h
  simp only [View2.addr] at h
  have : ((2 * i + j : Nat) : Int) = ((2 * i' + j' : Nat) : Int) := by
    apply Int.eq_of_mul_eq_mul_right hsz
    grind
  omega

/-- C32: `sosfilter` - whichever branch it takes - outputs what `sosfilter_ic`
outputs for all-zero initial states. -/
theorem C32_zero_state (size : Int) (hsz : size ≠ 0) (zero : α) (m n : Nat) (hm : 0 < m)
    (mS : Mem α) (S : View2) (mx : Mem α) (px xs : Int) (my : Mem α) (po os : Int) (hos : os ≠ 0)
    (pz : Int) :
    let out := sosfilterCore size zero m n mS S mx px xs my po os pz
    elems out po os n =
      (filter (sections mS S m) (List.replicate m ⟨zero, zero⟩) (elems mx px xs n)).1 ∧
    ∀ a, (∀ j < n, a ≠ po + (j : Int) * os) → out a = my a := by
  intro out
  have hb : out = (icOuter m mS S mx px xs ⟨pz, 2 * size, size⟩ po os n 0 (fun _ => zero) my).2 := by
    simp only [out, sosfilterCore]
    split
    · rename_i h
      obtain ⟨h1, h2, h3, h4⟩ := h
      rw [contigCore_eq]
      have hS : (⟨S.p, 6 * size, size⟩ : View2) = S := by rw [← h1, ← h2]
      rw [hS, h3, h4]
      simp [icCore]
    · simp only [icCore, ne_eq, not_true_eq_false, if_false]
      split
      · rename_i h; rw [h.1, h.2]
      · rfl
  obtain ⟨_, h2, h3⟩ := icOuter_z_spec m hm mS S mx px xs ⟨pz, 2 * size, size⟩
    (bufInj size pz hsz m) po os hos n 0 (fun _ => zero) my
  have hst : states (fun _ : Int => zero) (⟨pz, 2 * size, size⟩ : View2) m
      = List.replicate m ⟨zero, zero⟩ := by
    rw [List.eq_replicate_iff]
    refine ⟨by simp [states], ?_⟩
    intro b hb
    obtain ⟨k, _, rfl⟩ := List.mem_map.1 hb
    rfl
  rw [hst] at h2
  rw [hb]
  simp only [Int.natCast_zero, Int.zero_mul, Int.add_zero] at h2
  exact ⟨h2, fun a ha => h3 a (fun j _ hj => ha j (by omega))⟩

/-- C32: with no sections (`m = 0`) nothing is ever written to the output: the
caller sees uninitialised memory instead of a copy of the input. -/
theorem C32_no_sections_violated (size : Int) (zero : α) (n : Nat)
    (mS : Mem α) (S : View2) (mx : Mem α) (px xs : Int) (my : Mem α) (po os : Int) (pz : Int) :
    sosfilterCore size zero 0 n mS S mx px xs my po os pz = my := by
  have h1 : ∀ (fuel i : Nat) (mz my : Mem α) (xs ys : Int) (Z : View2),
      (icOuter 0 mS S mx px xs Z po ys fuel i mz my).2 = my := by
    intro fuel
    induction fuel with
    | zero => intros; rfl
    | succ f ih => intros; simp only [icOuter, icInner, ih]
  have h2 : ∀ (fuel i : Nat) (mz my : Mem α),
      (contigOuter size 0 mS S.p mx px pz po fuel i mz my).2 = my := by
    intro fuel
    induction fuel with
    | zero => intros; rfl
    | succ f ih => intros; simp only [contigOuter, contigInner, ih]
  simp only [sosfilterCore, contigCore, icCore]
  split
  · simp [h2]
  · split <;> simp [h1]

/-- C26: sosfilter_ic in two chunks with `zf` passed on as `zi` (bit-exact). -/
theorem C26_sosfilter_chunks (ss : List (Section α)) (zi : List (State α)) (xs ys : List α) :
    filter ss zi (xs ++ ys) =
      ((filter ss zi xs).1 ++ (filter ss (filter ss zi xs).2 ys).1,
       (filter ss (filter ss zi xs).2 ys).2) :=
  filter_append ss zi xs ys

/-- C30: running all sections sample by sample equals running the first section
over the whole signal and the remaining ones on its output (bit-exact). -/
theorem C30_cascade (s : Section α) (ss : List (Section α)) (z : State α) (zs : List (State α))
    (xs : List α) :
    (filter (s :: ss) (z :: zs) xs).1 = (filter ss zs (filter [s] [z] xs).1).1 ∧
    (filter (s :: ss) (z :: zs) xs).2
      = (filter [s] [z] xs).2 ++ (filter ss zs (filter [s] [z] xs).1).2 := by
  rw [filter_cons]; exact ⟨rfl, rfl⟩

/-- C31: causality, bit-exact: the first `k` outputs depend only on the first
`k` inputs. -/
theorem C31_causal (ss : List (Section α)) (zi : List (State α)) (xs : List α) (k : Nat) :
    (filter ss zi xs).1.take k = (filter ss zi (xs.take k)).1 := by
  conv_lhs => rw [← List.take_append_drop k xs, filter_append]
  rcases Nat.le_total k xs.length with h | h
  · rw [List.take_append_of_le_length (by rw [filter_length, List.length_take]; omega),
      List.take_of_length_le (by rw [filter_length, List.length_take]; omega)]
  · rw [List.drop_eq_nil_of_le h]
    simp only [filter, List.append_nil]
    rw [List.take_of_length_le (by rw [filter_length, List.length_take]; omega)]

end Free

section Exact
variable {K : Type _} [CommRing K]

/-- The state after a past with last inputs `x1, x2` and outputs `y1, y2`. -/
def pastState (s : Section K) (x1 x2 y1 y2 : K) : State K :=
  ⟨s.b1 * x1 + s.b2 * x2 - s.a1 * y1 - s.a2 * y2, s.b2 * x1 - s.a2 * y1⟩

/-- C30: the difference equation, with the history `x1, x2, y1, y2` (most recent
first) of the samples before the start in front: with `X = x2, x1, x[0], x[1], ...`
and `Y = y2, y1, y[0], y[1], ...`,
`Y[n+2] = b0 X[n+2] + b1 X[n+1] + b2 X[n] - a1 Y[n+1] - a2 Y[n]`. -/
theorem C30_difference_equation_history (s : Section K) (x1 x2 y1 y2 : K) (xs : List K) (n : Nat)
    (hn : n < xs.length) :
    let ys := (filter [s] [pastState s x1 x2 y1 y2] xs).1
    let X := x2 :: x1 :: xs
    let Y := y2 :: y1 :: ys
    Y.getD (n + 2) 0 = s.b0 * X.getD (n + 2) 0 + s.b1 * X.getD (n + 1) 0 + s.b2 * X.getD n 0
      - s.a1 * Y.getD (n + 1) 0 - s.a2 * Y.getD n 0 := by
  induction xs generalizing x1 x2 y1 y2 n with
  | nil => simp at hn
  | cons x xs ih =>
    cases n with
    | zero =>
      simp only [filter, sampleStep, secOut, pastState, List.getD_cons_succ, List.getD_cons_zero]
      ring
    | succ n =>
      have hst : secState s (pastState s x1 x2 y1 y2) x =
          pastState s x x1 (secOut s (pastState s x1 x2 y1 y2) x) y1 := by
        simp only [secState, pastState, secOut, State.mk.injEq, and_true]
        ring
      have := ih x x1 (secOut s (pastState s x1 x2 y1 y2) x) y1 n (by simpa using hn)
      simp only [filter, sampleStep, hst] at this ⊢
      simpa only [List.getD_cons_succ] using this

/-- C30: with zero initial state every sample before the start counts as 0. -/
theorem C30_difference_equation (s : Section K) (xs : List K) (n : Nat) (hn : n < xs.length) :
    let ys := (filter [s] [⟨0, 0⟩] xs).1
    let X := 0 :: 0 :: xs
    let Y := 0 :: 0 :: ys
    Y.getD (n + 2) 0 = s.b0 * X.getD (n + 2) 0 + s.b1 * X.getD (n + 1) 0 + s.b2 * X.getD n 0
      - s.a1 * Y.getD (n + 1) 0 - s.a2 * Y.getD n 0 := by
  have := C30_difference_equation_history s 0 0 0 0 xs n hn
  have hz : pastState s 0 0 0 0 = ⟨0, 0⟩ := by simp [pastState]
  rwa [hz] at this

/-- Pointwise `a + c * b`. -/
def axpyState (c : K) (a b : State K) : State K := ⟨a.z0 + c * b.z0, a.z1 + c * b.z1⟩

theorem sampleStep_linear (c : K) (ss : List (Section K)) (zs zs' : List (State K))
    (hl : zs.length = ss.length) (hl' : zs'.length = ss.length) (x x' : K) :
    sampleStep ss (List.zipWith (axpyState c) zs zs') (x + c * x') =
      ((sampleStep ss zs x).1 + c * (sampleStep ss zs' x').1,
       List.zipWith (axpyState c) (sampleStep ss zs x).2 (sampleStep ss zs' x').2) := by
  induction ss generalizing zs zs' x x' with
  | nil => simp [sampleStep]
  | cons s ss ih =>
    match zs, zs', hl, hl' with
    | z :: zs, z' :: zs', hl, hl' =>
      simp only [List.zipWith_cons_cons, sampleStep]
      have ho : secOut s (axpyState c z z') (x + c * x') = secOut s z x + c * secOut s z' x' := by
        simp only [secOut, axpyState]; ring
      have hs : secState s (axpyState c z z') (x + c * x') = axpyState c (secState s z x) (secState s z' x') := by
        simp only [secState, ho]
        simp only [axpyState, secOut, State.mk.injEq]
        constructor <;> ring
      rw [ho, hs, ih zs zs' (by simpa using hl) (by simpa using hl')]

theorem sampleStep_length (ss : List (Section K)) (zs : List (State K)) (hl : zs.length = ss.length)
    (x : K) : (sampleStep ss zs x).2.length = ss.length := by
  induction ss generalizing zs x with
  | nil => simp [sampleStep]
  | cons s ss ih =>
    match zs, hl with
    | z :: zs, hl => simp [sampleStep, ih zs (by simpa using hl)]

/-- C31: the filter is linear in input and initial state together. -/
theorem C31_linear (c : K) (ss : List (Section K)) (zs zs' : List (State K))
    (hl : zs.length = ss.length) (hl' : zs'.length = ss.length) (xs xs' : List K)
    (hx : xs.length = xs'.length) :
    filter ss (List.zipWith (axpyState c) zs zs') (List.zipWith (fun a b => a + c * b) xs xs') =
      (List.zipWith (fun a b => a + c * b) (filter ss zs xs).1 (filter ss zs' xs').1,
       List.zipWith (axpyState c) (filter ss zs xs).2 (filter ss zs' xs').2) := by
  induction xs generalizing xs' zs zs' with
  | nil => cases xs' <;> simp_all [filter]
  | cons x xs ih =>
    match xs', hx with
    | x' :: xs', hx =>
      simp only [List.zipWith_cons_cons, filter]
      rw [sampleStep_linear c ss zs zs' hl hl']
      simp only
      rw [ih _ _ (sampleStep_length ss zs hl x) (sampleStep_length ss zs' hl' x') xs' (by simpa using hx)]

/-- C31: time invariance: `d` zeros in front of the input put `d` zeros in front
of the zero-state output. -/
theorem C31_time_invariant (ss : List (Section K)) (xs : List K) (d : Nat) :
    (filter ss (List.replicate ss.length ⟨0, 0⟩) (List.replicate d 0 ++ xs)).1 =
      List.replicate d 0 ++ (filter ss (List.replicate ss.length ⟨0, 0⟩) xs).1 := by
  have h0 : sampleStep ss (List.replicate ss.length ⟨0, 0⟩) 0
      = ((0 : K), List.replicate ss.length ⟨0, 0⟩) := by
    induction ss with
    | nil => simp [sampleStep]
    | cons s ss ih => simp [sampleStep, secOut, secState, List.replicate_succ, ih]
  induction d with
  | zero => simp
  | succ d ih =>
    rw [List.replicate_succ, List.cons_append]
    simp only [filter, h0]
    rw [ih]; simp

end Exact

/-! ### Non-vacuity -/
example : (filter (α := ℚ) [⟨1, 2, 1, 1, -1/2, 1/4⟩, ⟨1, 0, -1, 1, 0, 1/2⟩] [⟨0, 0⟩, ⟨0, 0⟩] [1, 0, 0]).1
    = [1, 5/2, 1/2] := by
  norm_num [filter, sampleStep, secOut, secState]
/-- The layout hypotheses of `C30_C32_ic_core` are met: zi at 0, zf at 1000. -/
example : View2.Inj ⟨1000, 16, 8⟩ 3 ∧
    ∀ i i' j j', i < 3 → i' < 3 → j < 2 → j' < 2 →
      View2.addr ⟨0, 16, 8⟩ i j ≠ View2.addr ⟨1000, 16, 8⟩ i' j' := by
  constructor
  · intro i i' j j' _ _ _ _ h; simp only [View2.addr] at h; omega
  · intro i i' j j' _ _ _ _; simp only [View2.addr]; omega

end Ufunclab.Sosfilter

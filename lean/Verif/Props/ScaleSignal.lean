import Verif.Proof.ScaleExists
import Verif.Props.Scale
import Verif.Model.VnormRound
import Verif.Model.Cross
import Verif.Model.Sosfilter
import Verif.Model.Signal
import Verif.Model.Wjaccard
import Verif.Model.Step
import Verif.Model.LinearInterp
import Verif.Model.UnwrapRound
import Verif.Model.Deadzone
import Verif.Model.MeansRound
import Verif.Spec.FloatOrder
import Verif.Proof.FloatRatio
/-! # C108: signs, scales and argument order, the other functions -/
namespace Ufunclab.Float
variable {rd : ℝ → ℝ} {s : ℝ}

/-- Multiplication of a float by the constant `s` (exact). -/
def Fl.scale (s : ℝ) (a : Fl rd) : Fl rd := ⟨s * a.val⟩

theorem Fl.ext' {a b : Fl rd} (h : a.val = b.val) : a = b := by cases a; cases b; cases h; rfl

theorem Fl.mul_comm (a b : Fl rd) : a * b = b * a := Fl.ext' (congrArg rd (_root_.mul_comm _ _))

theorem Fl.scale_add (h : Commutes rd s) (a b : Fl rd) : Fl.scale s a + Fl.scale s b = Fl.scale s (a + b) :=
  Fl.ext' (by show rd (s * a.val + s * b.val) = s * rd (a.val + b.val); rw [← mul_add, h])

theorem Fl.scale_sub (h : Commutes rd s) (a b : Fl rd) : Fl.scale s a - Fl.scale s b = Fl.scale s (a - b) :=
  Fl.ext' (by show rd (s * a.val - s * b.val) = s * rd (a.val - b.val); rw [← mul_sub, h])

theorem Fl.scale_mul (h : Commutes rd s) (a b : Fl rd) : a * Fl.scale s b = Fl.scale s (a * b) :=
  Fl.ext' (by show rd (a.val * (s * b.val)) = s * rd (a.val * b.val); rw [mul_left_comm, h])

theorem Fl.scale_mul' (h : Commutes rd s) (a b : Fl rd) : Fl.scale s a * b = Fl.scale s (a * b) := by
  rw [Fl.mul_comm, Fl.scale_mul h, Fl.mul_comm b]

theorem Fl.scale_zero (s : ℝ) : Fl.scale s (0 : Fl rd) = 0 := Fl.ext' (mul_zero s)

theorem Fl.scale_scale (s t : ℝ) (a : Fl rd) : Fl.scale s (Fl.scale t a) = Fl.scale (s * t) a := Fl.ext' (mul_assoc s t a.val).symm

theorem Commutes.zero (h : Commutes rd (-1)) : rd 0 = 0 := by
  have := h 0; rw [mul_zero] at this; linarith

end Ufunclab.Float

namespace Ufunclab.Vnorm
open Ufunclab.Float
variable {rd : ℝ → ℝ} {s : ℝ}

theorem dotLoop_symm (m : Mem (Fl rd)) (px sx py sy : Int) : ∀ fuel k v,
    dotLoop m px sx py sy fuel k v = dotLoop m py sy px sx fuel k v := by
  intro fuel
  induction fuel with
  | zero => intro k v; rfl
  | succ f ih => intro k v; rw [dotLoop, dotLoop, Fl.mul_comm (get m px sx k)]; exact ih _ _

/-- C108: `vdot(x, y) = vdot(y, x)` bit for bit. -/
theorem C108_vdot_symm (m : Mem (Fl rd)) (w px sx py sy : Int) (n : Nat) : vdot m w px sx py sy n = vdot m w py sy px sx n := by
  rw [vdot, vdot, dotLoop_symm m px w, dotLoop_symm m px sx]
  simp only [and_comm]

theorem scale_dotLoop (h : Commutes rd s) (n : Nat) (m m' : Mem (Fl rd)) (px sx py sy px' sx' py' sy' : Int)
    (hx : ∀ k < n, get m' px' sx' k = Fl.scale s (get m px sx k)) (hy : ∀ k < n, get m' py' sy' k = get m py sy k) : ∀ fuel k v, k + fuel ≤ n →
    dotLoop m' px' sx' py' sy' fuel k (Fl.scale s v) = Fl.scale s (dotLoop m px sx py sy fuel k v) := by
  intro fuel
  induction fuel with
  | zero => intro k v _; rfl
  | succ f ih =>
    intro k v hk
    rw [dotLoop, dotLoop, hx k (by omega), hy k (by omega), Fl.scale_mul' h, Fl.scale_add h]
    exact ih _ _ (by omega)

theorem vdot_eq_loop {α : Type _} [Add α] [Mul α] [Zero α] (m : Mem α) (w px sx py sy : Int) (n : Nat) :
    vdot m w px sx py sy n = dotLoop m px sx py sy n 0 0 := by
  rw [vdot]; split_ifs with h
  · rw [h.1, h.2]
  · rfl

/-- C108: `vdot(s*x, y) = s*vdot(x, y)` bit for bit. -/
theorem C108_vdot_scale (h : Commutes rd s) (n : Nat) (m m' : Mem (Fl rd)) (w px sx py sy px' sx' py' sy' : Int)
    (hx : elems m' px' sx' n = (elems m px sx n).map (Fl.scale s)) (hy : elems m' py' sy' n = elems m py sy n) :
    vdot m' w px' sx' py' sy' n = Fl.scale s (vdot m w px sx py sy n) := by
  have hx : ∀ k < n, get m' px' sx' k = Fl.scale s (get m px sx k) := by
    intro k hk
    have := congrArg (fun l => l[k]?) hx
    simpa [elems, hk] using this
  have hy : ∀ k < n, get m' py' sy' k = get m py sy k := by
    intro k hk
    have := congrArg (fun l => l[k]?) hy
    simpa [elems, hk] using this
  rw [vdot_eq_loop, vdot_eq_loop, ← scale_dotLoop h n m m' px sx py sy px' sx' py' sy' hx hy n 0 0 (by omega), Fl.scale_zero]

theorem scale_sumSq (h : Commutes rd s) (m : Mem (Fl rd)) (p stride : Int) : ∀ fuel k v,
    sumSqLoop (fun a => Fl.scale s (m a)) p stride fuel k (Fl.scale (s * s) v) = Fl.scale (s * s) (sumSqLoop m p stride fuel k v) := by
  intro fuel
  induction fuel with
  | zero => intro k v; rfl
  | succ f ih =>
    intro k v
    have e : get (fun a => Fl.scale s (m a)) p stride k = Fl.scale s (get m p stride k) := rfl
    rw [sumSqLoop, sumSqLoop]
    simp only [e, Fl.scale_mul h, Fl.scale_mul' h, Fl.scale_scale]
    rw [Fl.scale_add (h.mul h)]
    exact ih _ _

theorem scale_csumSq (h : Commutes rd s) (m : Mem (Fl rd)) (p stride u : Int) : ∀ fuel k v,
    csumSqLoop (fun a => Fl.scale s (m a)) p stride u fuel k (Fl.scale (s * s) v) = Fl.scale (s * s) (csumSqLoop m p stride u fuel k v) := by
  intro fuel
  induction fuel with
  | zero => intro k v; rfl
  | succ f ih =>
    intro k v
    rw [csumSqLoop, csumSqLoop]
    simp only [Fl.scale_mul h, Fl.scale_mul' h, Fl.scale_scale, Fl.scale_add (h.mul h)]
    exact ih _ _

theorem scale_ccontig (h : Commutes rd s) (m : Mem (Fl rd)) (p u : Int) : ∀ fuel k v,
    ccontigLoop (fun a => Fl.scale s (m a)) p u fuel k (Fl.scale (s * s) v) = Fl.scale (s * s) (ccontigLoop m p u fuel k v) := by
  intro fuel
  induction fuel with
  | zero => intro k v; rfl
  | succ f ih =>
    intro k v
    have e : ∀ k, get (fun a => Fl.scale s (m a)) p u k = Fl.scale s (get m p u k) := fun _ => rfl
    rw [ccontigLoop, ccontigLoop]
    simp only [e, Fl.scale_mul h, Fl.scale_mul' h, Fl.scale_scale, Fl.scale_add (h.mul h)]
    exact ih _ _

theorem scale_rmsFin (h : Commutes rd s) (h' : Commutes rd |s|) (v : Fl rd) (n : Nat) : rmsFin rd (Fl.scale (s * s) v) n = Fl.scale |s| (rmsFin rd v n) := by
  apply Fl.ext'
  show rd (Real.sqrt (rd (s * s * v.val / rd n))) = |s| * rd (Real.sqrt (rd (v.val / rd n)))
  rw [mul_div_assoc, h.mul h, Real.sqrt_mul (mul_self_nonneg s), Real.sqrt_mul_self_eq_abs, h']

/-- C108: `rms(s*x) = |s|*rms(x)` bit for bit, real arrays. -/
theorem C108_rms_scale (h : Commutes rd s) (h' : Commutes rd |s|) (m : Mem (Fl rd)) (w p stride out : Int) (hout : ∀ k, p + (k : Nat) * stride ≠ out) (n : Nat) :
    rms (rmsFin rd) (fun a => Fl.scale s (m a)) w p stride out n out = Fl.scale |s| (rms (rmsFin rd) m w p stride out n out) := by
  have key : ∀ (M : Mem (Fl rd)), rms (rmsFin rd) M w p stride out n out = rmsFin rd (sumSqLoop M p stride n 0 0) n := by
    intro M
    have cg : ∀ (M' : Mem (Fl rd)), (∀ k : Nat, M' (p + k * stride) = M (p + k * stride)) → ∀ fuel k v, sumSqLoop M' p stride fuel k v = sumSqLoop M p stride fuel k v := by
      intro M' hM fuel
      induction fuel with
      | zero => intro k v; rfl
      | succ f ih => intro k v; rw [sumSqLoop, sumSqLoop, get, get, hM k]; exact ih _ _
    rw [rms, Mem.store, if_pos rfl]
    split_ifs
    · rw [cg]; intro k; rw [Mem.store, if_neg (hout k)]
    · rfl
  rw [key, key]
  have := scale_sumSq h m p stride n 0 0
  rw [Fl.scale_zero] at this
  rw [this, scale_rmsFin h h']

/-- C108: the same for complex arrays. -/
theorem C108_crms_scale (h : Commutes rd s) (h' : Commutes rd |s|) (m : Mem (Fl rd)) (u p stride out : Int) (n : Nat) :
    crms (rmsFin rd) (fun a => Fl.scale s (m a)) u p stride out n out = Fl.scale |s| (crms (rmsFin rd) m u p stride out n out) := by
  have e1 := scale_ccontig h m p u n 0 0
  have e2 := scale_csumSq h m p stride u n 0 0
  rw [Fl.scale_zero] at e1 e2
  rw [crms, crms]
  split_ifs
  · rw [Mem.store, if_pos rfl, Mem.store, if_pos rfl, e1, scale_rmsFin h h']
  · rw [Mem.store, if_pos rfl, Mem.store, if_pos rfl, e2, scale_rmsFin h h']

end Ufunclab.Vnorm

namespace Ufunclab.Cross
open Ufunclab.Float
variable {rd : ℝ → ℝ} {s : ℝ}

theorem det_swap (h : Commutes rd (-1)) (a b c d : Fl rd) : a * b - c * d = Fl.scale (-1) (d * c - b * a) := by
  apply Fl.ext'
  show rd (rd (a.val * b.val) - rd (c.val * d.val)) = -1 * rd (rd (d.val * c.val) - rd (b.val * a.val))
  rw [← h]; congr 1; rw [mul_comm a.val, mul_comm c.val]; ring

/-- C108: `cross2(u, v) = -cross2(v, u)` bit for bit, and `cross2(u, u) = 0`. -/
theorem C108_cross2_antisymm (h : Commutes rd (-1)) (m : Mem (Fl rd)) (pu us pv vs : Int) :
    cross2 m pu us pv vs = Fl.scale (-1) (cross2 m pv vs pu us) ∧ cross2 m pu us pu us = 0 := by
  constructor
  · simp only [cross2]
    rw [det_swap h, Fl.mul_comm (get m pv vs 0), Fl.mul_comm (get m pv vs 1)]
  · apply Fl.ext'
    show rd (rd _ - rd _) = 0
    rw [mul_comm, sub_self, h.zero]

/-- C108: `cross3(u, v) = -cross3(v, u)` bit for bit. -/
theorem C108_cross3_antisymm (h : Commutes rd (-1)) (m m' : Mem (Fl rd)) (pu us pv vs po os pu' us' pv' vs' po' os' : Int) (ho : os ≠ 0) (ho' : os' ≠ 0)
    (hu : elems m' pv' vs' 3 = elems m pu us 3) (hv : elems m' pu' us' 3 = elems m pv vs 3) :
    elems (cross3 m pu us pv vs po os) po os 3 = (elems (cross3 m' pu' us' pv' vs' po' os') po' os' 3).map (Fl.scale (-1)) := by
  have g : ∀ (m : Mem (Fl rd)) (os : Int), os ≠ 0 → ∀ po a b c, elems (set (set (set m po os 0 a) po os 1 b) po os 2 c) po os 3 = [a, b, c] := by
    intro m os ho po a b c
    simp [elems, List.range_succ, get, set, Mem.store, ho]
  simp only [elems, List.range_succ, List.range_zero, List.nil_append, List.cons_append, List.map_cons, List.map_nil, List.cons.injEq, and_true] at hu hv
  obtain ⟨u0, u1, u2⟩ := hu
  obtain ⟨v0, v1, v2⟩ := hv
  simp only [cross3, g _ _ ho, g _ _ ho', u0, u1, u2, v0, v1, v2, List.map_cons, List.map_nil]
  rw [det_swap h (get m pu us 1), det_swap h (get m pu us 2) (get m pv vs 0), det_swap h (get m pu us 0)]

/-- C108: `cross3(u, u) = 0`. -/
theorem C108_cross3_self (h : Commutes rd (-1)) (m : Mem (Fl rd)) (pu us po os : Int) (ho : os ≠ 0) :
    elems (cross3 m pu us pu us po os) po os 3 = [0, 0, 0] := by
  have z : ∀ a b : Fl rd, a * b - b * a = 0 := by
    intro a b
    apply Fl.ext'
    show rd (rd (a.val * b.val) - rd (b.val * a.val)) = 0
    rw [mul_comm, sub_self, h.zero]
  simp [cross3, z, elems, List.range_succ, get, set, Mem.store, ho]

end Ufunclab.Cross

namespace Ufunclab.Sosfilter
open Ufunclab.Float
variable {rd : ℝ → ℝ} {s : ℝ}

/-- A state multiplied by `s`. -/
def State.scale (s : ℝ) (z : State (Fl rd)) : State (Fl rd) := ⟨Fl.scale s z.z0, Fl.scale s z.z1⟩

theorem scale_sample (h : Commutes rd s) : ∀ (ss : List (Section (Fl rd))) (zs : List (State (Fl rd))) (x : Fl rd),
    sampleStep ss (zs.map (State.scale s)) (Fl.scale s x) = (Fl.scale s (sampleStep ss zs x).1, (sampleStep ss zs x).2.map (State.scale s))
  | [], _, _ => by simp [sampleStep]
  | _ :: _, [], _ => by simp [sampleStep]
  | c :: ss, z :: zs, x => by
    have e1 : secOut c (State.scale s z) (Fl.scale s x) = Fl.scale s (secOut c z x) := by
      simp only [secOut, State.scale, Fl.scale_mul h, Fl.scale_add h]
    have e2 : secState c (State.scale s z) (Fl.scale s x) = State.scale s (secState c z x) := by
      simp only [secState, e1]
      simp only [State.scale, Fl.scale_mul h, Fl.scale_add h, Fl.scale_sub h]
    rw [List.map_cons, sampleStep, sampleStep, e1, e2, scale_sample h ss zs]
    rfl

/-- C108: multiplying input and initial state by `s` multiplies output and final state by `s`, bit for bit. -/
theorem C108_sosfilter_scale (h : Commutes rd s) (ss : List (Section (Fl rd))) : ∀ (zs : List (State (Fl rd))) (x : List (Fl rd)),
    filter ss (zs.map (State.scale s)) (x.map (Fl.scale s)) = ((filter ss zs x).1.map (Fl.scale s), (filter ss zs x).2.map (State.scale s))
  | _, [] => rfl
  | zs, v :: x => by
    rw [List.map_cons, filter, filter]
    simp only [scale_sample h ss zs v]
    rw [C108_sosfilter_scale h ss _ x]
    rfl

end Ufunclab.Sosfilter

namespace Ufunclab.Signal
open Ufunclab.Float
variable {rd : ℝ → ℝ} {s : ℝ}

theorem scale_lt (hs : 0 < s) (a b : Fl rd) : Fl.scale s a < Fl.scale s b ↔ a < b := by
  show s * a.val < s * b.val ↔ a.val < b.val
  exact mul_lt_mul_iff_right₀ hs

theorem scale_step (h : Commutes rd s) (hs : 0 < s) (hb y x : Fl rd) :
    backlashStep (Fl.scale s hb) (Fl.scale s y) (Fl.scale s x) = Fl.scale s (backlashStep hb y x) := by
  simp only [backlashStep, Fl.scale_sub h, Fl.scale_add h, scale_lt hs]
  split_ifs <;> rfl

theorem scale_bloop (h : Commutes rd s) (hs : 0 < s) (hb : Fl rd) : ∀ (xs : List (Fl rd)) (y : Fl rd),
    backlashLoop (Fl.scale s hb) (Fl.scale s y) (xs.map (Fl.scale s)) = (backlashLoop hb y xs).map (Fl.scale s)
  | [], _ => rfl
  | x :: xs, y => by
    rw [List.map_cons, backlashLoop, backlashLoop]
    simp only [scale_step h hs, List.map_cons]
    rw [scale_bloop h hs hb xs]

/-- C108: `backlash` with all arguments multiplied by `s > 0` gives the output multiplied by `s`, bit for bit. -/
theorem C108_backlash_scale (h : Commutes rd s) (hs : 0 < s) (deadband initial : Fl rd) (xs : List (Fl rd)) :
    backlash (Fl.scale s deadband) (Fl.scale s initial) (xs.map (Fl.scale s)) = (backlash deadband initial xs).map (Fl.scale s) := by
  have e : Fl.scale s deadband / 2 = Fl.scale s (deadband / 2) := by
    apply Fl.ext'
    show rd (s * deadband.val / 2) = s * rd (deadband.val / 2)
    rw [mul_div_assoc, h]
  rw [backlash, e, scale_bloop h hs, backlash]

theorem neg_step (h : Commutes rd (-1)) (hm : Monotone rd) (hb y x : Fl rd) (h0 : 0 ≤ hb.val) :
    backlashStep hb (Fl.scale (-1) y) (Fl.scale (-1) x) = Fl.scale (-1) (backlashStep hb y x) := by
  have e1 : Fl.scale (-1) x - hb = Fl.scale (-1) (x + hb) := by
    apply Fl.ext'
    show rd (-1 * x.val - hb.val) = -1 * rd (x.val + hb.val)
    rw [← h]; congr 1; ring
  have e2 : Fl.scale (-1) x + hb = Fl.scale (-1) (x - hb) := by
    apply Fl.ext'
    show rd (-1 * x.val + hb.val) = -1 * rd (x.val - hb.val)
    rw [← h]; congr 1; ring
  have l : ∀ a b : Fl rd, Fl.scale (-1) a < Fl.scale (-1) b ↔ b < a := by
    intro a b
    show -1 * a.val < -1 * b.val ↔ b.val < a.val
    constructor <;> intro h <;> linarith
  have m : x - hb ≤ x + hb := by
    show rd (x.val - hb.val) ≤ rd (x.val + hb.val)
    exact hm (by linarith)
  simp only [backlashStep, e1, e2, l]
  split_ifs with c1 c2
  · exact absurd (c2.trans_le m) (not_lt.2 c1.le)
  · rfl
  · rfl
  · rfl

theorem neg_bloop (h : Commutes rd (-1)) (hm : Monotone rd) (hb : Fl rd) (h0 : 0 ≤ hb.val) : ∀ (xs : List (Fl rd)) (y : Fl rd),
    backlashLoop hb (Fl.scale (-1) y) (xs.map (Fl.scale (-1))) = (backlashLoop hb y xs).map (Fl.scale (-1))
  | [], _ => rfl
  | x :: xs, y => by
    rw [List.map_cons, backlashLoop, backlashLoop]
    simp only [neg_step h hm _ _ _ h0, List.map_cons]
    rw [neg_bloop h hm hb h0 xs]

/-- C108: with a deadband that is not negative, `backlash` of the negated signal and initial value is the negated output, bit for bit. -/
theorem C108_backlash_neg (h : Commutes rd (-1)) (hm : Monotone rd) (deadband initial : Fl rd) (h0 : 0 ≤ deadband.val) (xs : List (Fl rd)) :
    backlash deadband (Fl.scale (-1) initial) (xs.map (Fl.scale (-1))) = (backlash deadband initial xs).map (Fl.scale (-1)) := by
  refine neg_bloop h hm _ ?_ xs initial
  show 0 ≤ rd (deadband.val / 2)
  rw [← h.zero]
  exact hm (by linarith)

end Ufunclab.Signal

namespace Ufunclab.Wjaccard
open Ufunclab.Float Ufunclab.XF
variable {K : Type _} [Field K] [LinearOrder K] [IsStrictOrderedRing K] {rd : K → K} {s : K}

omit [Field K] [IsStrictOrderedRing K] in
theorem min_symm (x y : XF K) (hx : x.isnan = false) (hy : y.isnan = false) : stdMin x y = stdMin y x ∧ stdMax x y = stdMax y x := by
  cases x <;> cases y <;> simp [stdMin, stdMax, lt, isnan] at *
  rename_i a b
  rcases lt_trichotomy a b with h | h | h
  · simp [h, not_lt.2 h.le]
  · simp [h]
  · simp [h, not_lt.2 h.le]

omit [Field K] [IsStrictOrderedRing K] in
theorem loop_symm (add : XF K → XF K → XF K) : ∀ (l : List (XF K × XF K)) (a b : XF K), loop add a b (l.map Prod.swap) = loop add a b l
  | [], _, _ => rfl
  | (x, y) :: l, a, b => by
    rw [List.map_cons, Prod.swap_prod_mk, loop, loop, Bool.or_comm]
    split_ifs with c
    · rfl
    · simp only [Bool.or_eq_true, not_or, Bool.not_eq_true] at c
      rw [(min_symm y x c.2 c.1).1, (min_symm y x c.2 c.1).2]
      exact loop_symm add l _ _

omit [Field K] [IsStrictOrderedRing K] in
/-- C108: `wjaccard(x, y) = wjaccard(y, x)` bit for bit, in any arithmetic. -/
theorem C108_wjaccard_symm [Zero K] (add div : XF K → XF K → XF K) (l : List (XF K × XF K)) :
    wjaccard add div (l.map Prod.swap) = wjaccard add div l := by
  cases l with
  | nil => rfl
  | cons a l =>
    obtain ⟨x, y⟩ := a
    rw [List.map_cons, Prod.swap_prod_mk, wjaccard, wjaccard, Bool.or_comm]
    split_ifs with c
    · rfl
    · simp only [Bool.or_eq_true, not_or, Bool.not_eq_true] at c
      rw [(min_symm y x c.2 c.1).1, (min_symm y x c.2 c.1).2, loop_symm]

theorem scale_rounded (h : Commutes rd s) (hs : s ≠ 0) (a b : XF K) : rounded rd XF.add (scale s a) (scale s b) = scale s (rounded rd XF.add a b) := by
  rw [rounded, scale_add hs, rounded]
  cases XF.add a b <;> simp [scale, mul, infMul, hs, h _]
  all_goals split_ifs <;> rfl

theorem scale_min (hs : 0 < s) (a b : XF K) : stdMin (scale s a) (scale s b) = scale s (stdMin a b) ∧ stdMax (scale s a) (scale s b) = scale s (stdMax a b) := by
  simp only [stdMin, stdMax, XF.scale_lt hs]
  constructor <;> split_ifs <;> rfl

theorem scale_loop (h : Commutes rd s) (hs : 0 < s) : ∀ (l : List (XF K × XF K)) (a b : XF K),
    loop (rounded rd XF.add) (scale s a) (scale s b) (l.map (Prod.map (scale s) (scale s))) =
      (loop (rounded rd XF.add) a b l).map (Prod.map (scale s) (scale s))
  | [], _, _ => rfl
  | (x, y) :: l, a, b => by
    rw [List.map_cons, Prod.map_apply, loop, loop, scale_isnan hs.ne', scale_isnan hs.ne']
    split_ifs with c
    · rfl
    · rw [(scale_min hs x y).1, (scale_min hs x y).2, scale_rounded h hs.ne', scale_rounded h hs.ne']
      exact scale_loop h hs l _ _

/-- C108: `wjaccard(s*x, s*y) = wjaccard(x, y)` bit for bit, `s > 0`. -/
theorem C108_wjaccard_scale (h : Commutes rd s) (hs : 0 < s) (l : List (XF K × XF K)) :
    wjaccard (rounded rd XF.add) (rounded rd XF.div) (l.map (Prod.map (scale s) (scale s))) = wjaccard (rounded rd XF.add) (rounded rd XF.div) l := by
  cases l with
  | nil => rfl
  | cons a l =>
    obtain ⟨x, y⟩ := a
    rw [List.map_cons, Prod.map_apply, wjaccard, wjaccard, scale_isnan hs.ne', scale_isnan hs.ne']
    split_ifs with c
    · rfl
    · rw [(scale_min hs x y).1, (scale_min hs x y).2, scale_loop h hs]
      have ez : ∀ v : XF K, (scale s v).eq (.fin 0) = v.eq (.fin 0) := fun v => by
        have := scale_eq hs.ne' v (.fin 0); rwa [scale_zero] at this
      cases loop (rounded rd XF.add) (stdMin x y) (stdMax x y) l with
      | none => rfl
      | some r => simp only [Option.map_some, Prod.map, ez, rounded, scale_div hs]

end Ufunclab.Wjaccard

namespace Ufunclab.Step
open Ufunclab.Float Ufunclab.XF
variable {rd : ℝ → ℝ} {s : ℝ}

/-- C108: the step functions do not change when `x`, `a` and `b` are multiplied by `s > 0` (they do not depend on the unit of `x`). -/
theorem C108_step_scale_x (h : Commutes rd s) (hs : 0 < s) (x a b fa fb : ℝ) :
    linearstepR rd (s * x) (s * a) (s * b) fa fb = linearstepR rd x a b fa fb ∧
    smoothstep3R rd (s * x) (s * a) (s * b) fa fb = smoothstep3R rd x a b fa fb ∧
    smoothstep5R rd (s * x) (s * a) (s * b) fa fb = smoothstep5R rd x a b fa fb := by
  simp only [linearstepR, smoothstep3R, smoothstep5R, gt_iff_lt, ge_iff_le, mul_lt_mul_iff_right₀ hs, mul_le_mul_iff_right₀ hs,
    mul_right_inj' hs.ne', ← mul_sub, h _, mul_div_mul_left _ _ hs.ne', and_self]

/-- C108: multiplying `fa` and `fb` by `s` multiplies the step functions by `s`, bit for bit. -/
theorem C108_step_scale_f (h : Commutes rd s) (x a b fa fb : ℝ) :
    linearstepR rd x a b (s * fa) (s * fb) = scale s (linearstepR rd x a b fa fb) ∧
    smoothstep3R rd x a b (s * fa) (s * fb) = scale s (smoothstep3R rd x a b fa fb) ∧
    smoothstep5R rd x a b (s * fa) (s * fb) = scale s (smoothstep5R rd x a b fa fb) := by
  simp only [linearstepR, smoothstep3R, smoothstep5R, ← mul_sub, ← mul_add, mul_div_assoc, mul_assoc, h _]
  refine ⟨?_, ?_, ?_⟩ <;> split_ifs <;> rfl

end Ufunclab.Step

namespace Ufunclab.Deadzone
open Ufunclab.Float Ufunclab.XF
variable {K : Type _} [Field K] [LinearOrder K] [IsStrictOrderedRing K] {rd : K → K} {s : K}

/-- C108: `trapezoid_pulse` is unchanged when the five abscissas are multiplied by `s > 0`, and is multiplied by `t` with the amplitude. -/
theorem C108_trapezoid_scale {t : K} (h : Commutes rd s) (hs : 0 < s) (h' : Commutes rd t) (x a b c d amp : K) :
    trapezoidR rd (s * x) (s * a) (s * b) (s * c) (s * d) (t * amp) = scale t (trapezoidR rd x a b c d amp) := by
  simp only [trapezoidR, gt_iff_lt, ge_iff_le, mul_lt_mul_iff_right₀ hs, mul_le_mul_iff_right₀ hs, ← mul_sub, h _,
    mul_div_mul_left _ _ hs.ne', mul_assoc, h' _]
  split_ifs <;> first | rfl | exact (scale_zero t).symm

end Ufunclab.Deadzone

namespace Ufunclab.Unwrap
open Ufunclab.Float Ufunclab.XF
variable {rd rs : ℝ → ℝ} {s : ℝ}

theorem scale_rndX (h : Commutes rd s) (hs : s ≠ 0) (a : XF ℝ) : rndX rd (scale s a) = scale s (rndX rd a) := by
  cases a <;> simp [scale, mul, infMul, rndX, hs, h _]
  all_goals split_ifs <;> rfl

theorem scale_unwrap1 (h : Commutes rd s) (hs : 0 < s) (x0 x1 period : XF ℝ) :
    unwrap1R rd rs (scale s x0) (scale s x1) (scale s period) = (unwrap1R rd rs x0 x1 period).map (scale s) := by
  have ec : ∀ v : XF ℝ, copysignHalf (scale s v) = copysignHalf v := fun v => by
    have := scale_lt hs v (.fin 0)
    rw [scale_zero] at this
    simp only [copysignHalf, this]
  simp only [unwrap1R, scale_sub hs.ne', scale_rndX h hs.ne', scale_div hs, ec]
  cases toInt32 (rndX rs ((rndX rd ((rndX rd (x1.sub x0)).div period)).add (copysignHalf (rndX rd (x1.sub x0))))) with
  | none => rfl
  | some q => simp only [scale_mul_right hs.ne', scale_rndX h hs.ne', scale_sub hs.ne', Option.map_some]

theorem scale_uloop (h : Commutes rd s) (hs : 0 < s) (period : XF ℝ) : ∀ (xs : List (XF ℝ)) (x0 : XF ℝ),
    unwrapLoopR rd rs (scale s period) (scale s x0) (xs.map (scale s)) = (unwrapLoopR rd rs period x0 xs).map (List.map (scale s))
  | [], _ => rfl
  | x1 :: xs, x0 => by
    rw [List.map_cons, unwrapLoopR, unwrapLoopR, scale_isfinite hs.ne', scale_unwrap1 h hs]
    split_ifs
    · simp only [List.length_map, Option.map_some, List.map_replicate]; rfl
    · cases unwrap1R rd rs x0 x1 period with
      | none => rfl
      | some v =>
        simp only [Option.map_some]
        rw [scale_uloop h hs period xs v]
        cases unwrapLoopR rd rs period v xs <;> rfl

/-- C108: `unwrap` of the data and the period multiplied by `s > 0` is the output multiplied by `s`, bit for bit. -/
theorem C108_unwrap_scale (h : Commutes rd s) (hs : 0 < s) (period : XF ℝ) (xs : List (XF ℝ)) :
    unwrapCoreR rd rs (scale s period) (xs.map (scale s)) = (unwrapCoreR rd rs period xs).map (List.map (scale s)) := by
  cases xs with
  | nil => rfl
  | cons x0 xs =>
    rw [List.map_cons, unwrapCoreR, unwrapCoreR, scale_uloop h hs]
    cases unwrapLoopR rd rs period x0 xs <;> rfl

end Ufunclab.Unwrap

namespace Ufunclab.Means
open Ufunclab.Float Ufunclab.XF
variable {rd rx : ℝ → ℝ} {s : ℝ}

theorem scale_rnd (h : Commutes rd s) (hs : s ≠ 0) (a : XF ℝ) : rnd rd (scale s a) = scale s (rnd rd a) := by
  cases a <;> simp [scale, mul, infMul, rnd, hs, h _]
  all_goals split_ifs <;> rfl

theorem scale_hsum (h : Commutes rd s) (h' : Commutes rx s) (hs : 0 < s) : ∀ (x : List (XF ℝ)) (v : XF ℝ),
    hmeanSumR (rnd rd) (rnd rx) (scale s⁻¹ v) (x.map (scale s)) = scale s⁻¹ (hmeanSumR (rnd rd) (rnd rx) v x)
  | [], _ => rfl
  | a :: x, v => by
    have hi : (0 : ℝ) < s⁻¹ := inv_pos.2 hs
    have ez : ∀ v : XF ℝ, (scale s v).eq (.fin 0) = v.eq (.fin 0) := fun v => by
      have := scale_eq hs.ne' v (.fin 0); rwa [scale_zero] at this
    rw [List.map_cons, hmeanSumR, hmeanSumR, ez, scale_div_right hs, scale_rnd (h'.inv hs.ne') hi.ne', scale_add hi.ne',
      scale_rnd (h'.inv hs.ne') hi.ne', scale_rnd (h.inv hs.ne') hi.ne']
    split_ifs
    · simp [scale, mul, infMul, hs, hs.ne']
    · exact scale_hsum h h' hs x _

/-- C108: `hmean(s*x) = s*hmean(x)` bit for bit, `s > 0`. -/
theorem C108_hmean_scale (h : Commutes rd s) (h' : Commutes rx s) (hs : 0 < s) (x : List (XF ℝ)) :
    hmean1dR (rnd rd) (rnd rx) (x.map (scale s)) = scale s (hmean1dR (rnd rd) (rnd rx) x) := by
  have hi : (0 : ℝ) < s⁻¹ := inv_pos.2 hs
  have := scale_hsum h h' hs x (.fin 0)
  rw [scale_zero] at this
  rw [hmean1dR, this, List.length_map, scale_div_right hi, inv_inv, scale_rnd h hs.ne', hmean1dR]

end Ufunclab.Means

namespace Ufunclab.LinearInterp
open Ufunclab.Float Ufunclab.XF
variable {K : Type _} [Field K] [LinearOrder K] [IsStrictOrderedRing K] {rd : K → K} {s t : K}

theorem scale_searchLoop (hs : 0 < s) (key : XF K) (arr : List (XF K)) (klow khigh : Nat) :
    searchLoop (scale s key) (arr.map (scale s)) klow khigh = searchLoop key arr klow khigh := by
  induction hn : khigh - klow using Nat.strong_induction_on generalizing klow khigh with
  | _ n ih =>
    rw [searchLoop, searchLoop]
    split_ifs with hk
    · simp only [List.getElem?_map]
      cases arr[(klow + khigh) / 2]? with
      | none => rfl
      | some v =>
        simp only [Option.map_some, scale_eq hs.ne', XF.scale_lt hs]
        rw [ih _ (by omega) _ khigh rfl, ih _ (by omega) klow _ rfl]
    · rfl

theorem scale_search (hs : 0 < s) (key : XF K) (arr : List (XF K)) : search (scale s key) (arr.map (scale s)) = search key arr := by
  simp only [search, List.length_map, List.getElem?_map, scale_searchLoop hs]
  cases arr[0]? with
  | none => rfl
  | some v =>
    cases arr[arr.length - 1]? with
    | none => simp only [Option.map_some, Option.map_none, scale_eq hs.ne']
    | some v => simp only [Option.map_some, scale_eq hs.ne']

theorem scale_search_fin (hs : 0 < s) (x : K) (xp : List K) :
    search (.fin (s * x)) ((xp.map (s * ·)).map .fin) = search (.fin x) (xp.map .fin) := by
  rw [← scale_search hs (.fin x) (xp.map .fin), scale_fin]
  simp only [List.map_map]; rfl

/-- C108: `linear_interp1d` is unchanged when `x` and `xp` are multiplied by `s > 0`, and is multiplied by `t` with `fp`, bit for bit
(both code paths). -/
theorem C108_interp_scale (h : Commutes rd s) (hs : 0 < s) (h' : Commutes rd t) (x : K) (xp fp : List K) :
    interpOneR rd (s * x) (xp.map (s * ·)) (fp.map (t * ·)) = (interpOneR rd x xp fp).map (scale t) ∧
    fastOneR rd (s * x) (xp.map (s * ·)) (fp.map (t * ·)) = (fastOneR rd x xp fp).map (scale t) := by
  constructor
  · simp only [interpOneR, List.length_map, List.getElem?_map, scale_search_fin hs]
    split_ifs
    · rfl
    · cases xp[0]? with
      | none => rfl
      | some left =>
        cases xp[xp.length - 1]? with
        | none => rfl
        | some right =>
          simp only [Option.map_some, gt_iff_lt, mul_lt_mul_iff_right₀ hs]
          split_ifs
          · rfl
          · cases search (.fin x) (xp.map .fin) with
            | none => rfl
            | some k =>
              simp only
              cases xp[k]? with
              | none => rfl
              | some a =>
                cases fp[k]? with
                | none => rfl
                | some f =>
                  simp only [Option.map_some, mul_right_inj' hs.ne']
                  split_ifs
                  · rfl
                  · cases xp[k + 1]? with
                    | none => rfl
                    | some a' =>
                      cases fp[k + 1]? with
                      | none => rfl
                      | some f' =>
                        simp only [Option.map_some, ← mul_sub, h _, h' _]
                        rw [show ∀ u v : K, t * u / (s * v) = t * (s⁻¹ * (u / v)) by intro u v; rw [mul_div_mul_comm, div_eq_mul_inv t, mul_assoc], h', h.inv hs.ne',
                          show ∀ u v : K, t * (s⁻¹ * u) * (s * v) = t * (u * v) by intro u v; field_simp, h', ← mul_add, h']
                        rfl
  · simp only [fastOneR, List.length_map, List.getElem?_map, scale_search_fin hs]
    cases xp[0]? with
    | none => rfl
    | some left =>
      cases xp[xp.length - 1]? with
      | none => rfl
      | some right =>
        simp only [Option.map_some, gt_iff_lt, mul_lt_mul_iff_right₀ hs]
        split_ifs
        · rfl
        · cases search (.fin x) (xp.map .fin) with
          | none => rfl
          | some k =>
            simp only
            cases xp[k]? with
            | none => rfl
            | some a =>
              simp only [Option.map_some, mul_right_inj' hs.ne']
              split_ifs
              · cases fp[k]? <;> rfl
              · cases xp[k + 1]? with
                | none => rfl
                | some a' =>
                  simp only [Option.map_some]
                  cases fp[k]? with
                  | none => rfl
                  | some f =>
                    cases fp[k + 1]? with
                    | none => rfl
                    | some f' =>
                      simp only [Option.map_some, ← mul_sub, h _, h' _, mul_div_mul_left _ _ hs.ne', mul_left_comm _ t]
                      rw [← mul_add, h']
                      rfl

end Ufunclab.LinearInterp

namespace Ufunclab.Vnorm
open Ufunclab.Float Ufunclab.XF
variable {rd : ℝ → ℝ} {s : ℝ}

theorem scale_rnd (h : Commutes rd s) (hs : s ≠ 0) (a : XF ℝ) : rnd rd (scale s a) = scale s (rnd rd a) := by
  cases a <;> simp [scale, mul, infMul, rnd, hs, h _]
  all_goals split_ifs <;> rfl

theorem scale_maxAbs {T : Type _} (hs : 0 < s) (absf : T → XF ℝ) (f : T → T) (hf : ∀ v, absf (f v) = scale s (absf v)) (x : List T) :
    maxAbs absf (x.map f) = scale s (maxAbs absf x) := by
  have key : ∀ (x : List T) (m : XF ℝ), (x.map f).foldl (fun m v => if XF.lt m (absf v) then absf v else m) (scale s m) =
      scale s (x.foldl (fun m v => if XF.lt m (absf v) then absf v else m) m) := by
    intro x
    induction x with
    | nil => intro m; rfl
    | cons v x ih =>
      intro m
      simp only [List.map_cons, List.foldl_cons, hf, XF.scale_lt hs]
      rw [← ih]
      congr 1
      by_cases hc : m.lt (absf v) = true <;> simp only [hc, if_true, if_false, Bool.false_eq_true]
  have := key x (.fin 0)
  rwa [scale_zero] at this

/-- C108: `vnorm(s*x, order) = s*vnorm(x, order)` bit for bit, `s > 0`, whatever the library's `pow`.  `f` multiplies an element of the
array (real or complex) by `s`. -/
theorem C108_vnorm_scale {T : Type _} (h : Commutes rd s) (hs : 0 < s) (pow : XF ℝ → XF ℝ → XF ℝ) (absf : T → XF ℝ) (f : T → T)
    (hf : ∀ v, absf (f v) = scale s (absf v)) (x : List T) (order : XF ℝ) :
    vnormR (rnd rd) pow absf (x.map f) order = scale s (vnormR (rnd rd) pow absf x order) := by
  have ez : ∀ v : XF ℝ, (scale s v).eq (.fin 0) = v.eq (.fin 0) := fun v => by
    have := scale_eq hs.ne' v (.fin 0); rwa [scale_zero] at this
  rw [vnormR, vnormR]
  by_cases ho : order.le (.fin 0) = true
  · simp only [ho, if_true]; rfl
  simp only [scale_maxAbs hs absf f hf, ez, ho, Bool.false_eq_true, if_false]
  by_cases h0 : (maxAbs absf x).eq (.fin 0) = true
  · simp only [h0, if_true]; exact (scale_zero s).symm
  simp only [h0]
  generalize maxAbs absf x = M
  by_cases hi : order.isinf = true
  · simp only [hi, if_true, Bool.true_or]
    have key : ∀ (x : List T) (m : XF ℝ), (x.map f).foldl (fun m v => if XF.lt m (absf v) then absf v else m) (scale s m) =
        scale s (x.foldl (fun m v => if XF.lt m (absf v) then absf v else m) m) := by
      intro x
      induction x with
      | nil => intro m; rfl
      | cons v x ih =>
        intro m
        simp only [List.map_cons, List.foldl_cons, hf, XF.scale_lt hs]
        rw [← ih]
        congr 1
        by_cases hc : m.lt (absf v) = true <;> simp only [hc, if_true, if_false, Bool.false_eq_true]
    have := key x (.fin 0)
    rwa [scale_zero] at this
  simp only [hi, if_false, Bool.false_eq_true]
  by_cases h1 : order.eq (.fin 1) = true
  · simp only [h1, if_true, Bool.or_true]
    have key : ∀ (x : List T) (m : XF ℝ), (x.map f).foldl (fun m v => rnd rd (m.add (absf v))) (scale s m) =
        scale s (x.foldl (fun m v => rnd rd (m.add (absf v))) m) := by
      intro x
      induction x with
      | nil => intro m; rfl
      | cons v x ih =>
        intro m
        simp only [List.map_cons, List.foldl_cons, hf, scale_add hs.ne', scale_rnd h hs.ne']
        exact ih _
    have := key x (.fin 0)
    rwa [scale_zero] at this
  simp only [h1, if_false, Bool.false_eq_true]
  have key : ∀ (x : List T) (m : XF ℝ), (x.map f).foldl (fun m v => rnd rd (m.add (pow (rnd rd ((absf v).div (scale s M))) order))) m =
      x.foldl (fun m v => rnd rd (m.add (pow (rnd rd ((absf v).div M)) order))) m := by
    intro x
    induction x with
    | nil => intro m; rfl
    | cons v x ih =>
      intro m
      simp only [List.map_cons, List.foldl_cons, hf, scale_div hs]
      exact ih _
  rw [key x, scale_mul_left hs.ne', scale_rnd h hs.ne']
  simp only [Bool.or_self, Bool.false_eq_true, if_false]

end Ufunclab.Vnorm

namespace Ufunclab.Float
open Ufunclab.XF

/-- The hypotheses hold: there is a rounding to 53 bits that commutes with `-1` and with every power of two; with it, the sum of
the array multiplied by `-8` is `-8` times the sum, the correlation changes sign, and so on. -/
example : ∃ rd : ℝ → ℝ, (∀ z, |rd z - z| ≤ 2 ^ (-(53 : ℤ)) * |z|) ∧
    (∀ (m : Mem (XF ℝ)) p st w n, Kbnsum.kbnsum (Kbnsum.rnd rd) (fun a => scale (-1 * 2 ^ (3 : ℤ)) (m a)) p st w n =
      scale (-1 * 2 ^ (3 : ℤ)) (Kbnsum.kbnsum (Kbnsum.rnd rd) m p st w n)) ∧
    (∀ x : List ℝ, (Meanvar.meanvar rd (x.map (-1 * ·)) 1).2 = (Meanvar.meanvar rd x 1).2) ∧
    (∀ (x : List ℝ) b, Mad.giniR rd (x.map (2 ^ (3 : ℤ) * ·)) b = Mad.giniR rd x b) ∧
    (∀ n p, TriArea.triAreaCommonR rd n p 0 1 2 = TriArea.triAreaCommonR rd n p 2 0 1) := by
  obtain ⟨rd, h1, _, h3, h4⟩ := exists_scaling (p := 53)
  refine ⟨rd, by exact_mod_cast h1, ?_, ?_, ?_, ?_⟩
  · intro m p st w n
    exact Kbnsum.C107_kbnsum_scale (h3.mul (h4 3)) (by norm_num) m p st w n
  · intro x
    rw [Meanvar.C107_meanvar_scale h3 (by norm_num)]
    show scale (-1 * -1) _ = _
    rw [neg_one_mul, neg_neg, scale_one]
  · intro x b
    exact (Mad.C107_gini_scale (h4 3) (by norm_num) x b).1
  · intro n p
    exact TriArea.C107_tri_area_perm h3 n p 0 1 2 2 0 1 (by decide)

/-- The sign symmetries hold with the IEEE rounding of binary64, subnormal numbers included. -/
example : ∃ rd : ℝ → ℝ, Nearest 53 (-1074) rd ∧
    (∀ (m : Mem (Fl rd)) pu us pv vs, Cross.cross2 m pu us pv vs = Fl.scale (-1) (Cross.cross2 m pv vs pu us)) ∧
    (∀ (ini : Fl rd) xs, Signal.backlash ⟨1⟩ (Fl.scale (-1) ini) (xs.map (Fl.scale (-1))) = (Signal.backlash ⟨1⟩ ini xs).map (Fl.scale (-1))) := by
  obtain ⟨rd, h1, h2⟩ := exists_nearest_odd (p := 53) (by norm_num) (-1074)
  refine ⟨rd, h1, fun m pu us pv vs => (Cross.C108_cross2_antisymm h2 m pu us pv vs).1, fun ini xs => ?_⟩
  exact Signal.C108_backlash_neg h2 (Nearest.monotone h1) ⟨1⟩ ini (by norm_num) xs

end Ufunclab.Float

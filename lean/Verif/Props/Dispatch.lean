import Verif.Model.Dispatch
/-!
# C110: which loop of a function runs
-/
namespace Ufunclab.Dispatch

def allPlatforms : List Platform := [⟨true, true⟩, ⟨true, false⟩, ⟨false, true⟩, ⟨false, false⟩]
def allTypes : List DT := [.bool_, .b, .B, .h, .H, .i, .I, .l, .L, .q, .Q, .e, .f, .d, .g, .F, .D, .G, .O]

theorem mem_allPlatforms (P : Platform) : P ∈ allPlatforms := by
  rcases P with ⟨_ | _, _ | _⟩ <;> decide
theorem mem_allTypes (t : DT) : t ∈ allTypes := by cases t <;> decide

theorem canCast_refl (P : Platform) (t : DT) : canCast P t t = true := by
  have : ∀ P ∈ allPlatforms, ∀ t ∈ allTypes, canCast P t t = true := by decide +kernel
  exact this P (mem_allPlatforms P) t (mem_allTypes t)

theorem canCast_trans (P : Platform) (r s t : DT) (h1 : canCast P r s = true) (h2 : canCast P s t = true) :
    canCast P r t = true := by
  have : ∀ P ∈ allPlatforms, ∀ r ∈ allTypes, ∀ s ∈ allTypes, ∀ t ∈ allTypes, canCast P r s = true → canCast P s t = true →
    canCast P r t = true := by decide +kernel
  exact this P (mem_allPlatforms P) r (mem_allTypes r) s (mem_allTypes s) t (mem_allTypes t) h1 h2

theorem castable_refl (P : Platform) (ts : List DT) : castable P ts ts = true := by
  induction ts with
  | nil => rfl
  | cons t ts ih => simp [castable, canCast_refl, ih]

theorem castable_object {P : Platform} : ∀ {ss ts : List DT}, castable P ss ts = true → DT.O ∈ ss → DT.O ∈ ts
  | [], [], _, h => by simp at h
  | [], _ :: _, h, _ => by simp [castable] at h
  | _ :: _, [], h, _ => by simp [castable] at h
  | s :: ss, t :: ts, h, hm => by
    simp only [castable, Bool.and_eq_true] at h
    rcases List.mem_cons.1 hm with hm | hm
    · have : ∀ P ∈ allPlatforms, ∀ t ∈ allTypes, canCast P .O t = true → t = .O := by decide +kernel
      have e := this P (mem_allPlatforms P) t (mem_allTypes t) (by rw [hm]; exact h.1)
      exact e ▸ List.mem_cons_self
    · exact List.mem_cons_of_mem _ (castable_object h.2 hm)

/-- The order of the loops follows the casts: a loop that comes later is not strictly narrower. -/
def Sorted (P : Platform) (loops : List Loop) : Prop :=
  loops.Pairwise fun a b => castable P b.ins a.ins = true → castable P a.ins b.ins = true

instance (P : Platform) (loops : List Loop) : Decidable (Sorted P loops) := by unfold Sorted; infer_instance

theorem find_pairwise {α : Type _} {r : α → α → Prop} {p : α → Bool} : ∀ {l : List α} {s s' : α}, l.Pairwise r →
    l.find? p = some s → s' ∈ l → p s' = true → s = s' ∨ r s s'
  | [], _, _, _, h, _, _ => by simp at h
  | a :: l, s, s', hr, h, hm, hp => by
    rw [List.pairwise_cons] at hr
    rw [List.find?_cons] at h
    split at h
    · cases h
      rcases List.mem_cons.1 hm with e | e
      · exact Or.inl e.symm
      · exact Or.inr (hr.1 _ e)
    · rename_i hpa
      rcases List.mem_cons.1 hm with e | e
      · rw [e, hpa] at hp; cases hp
      · exact find_pairwise hr.2 h e hp

theorem minimal_of_sorted {P : Platform} {loops : List Loop} (hs : Sorted P loops) {args : List DT} {s s' : Loop}
    (h : resolve P loops args = some s) (hm : s' ∈ loops) (h1 : castable P args s'.ins = true)
    (h2 : castable P s'.ins s.ins = true) : castable P s.ins s'.ins = true := by
  unfold resolve at h
  split at h
  · rename_i s0 h0
    cases h
    have := List.find?_some h0
    simp only [beq_iff_eq] at this
    rwa [this]
  · have hp := List.find?_some h
    simp only [matches_, Bool.and_eq_true, Bool.or_eq_true, Bool.not_eq_true'] at hp
    have hp' : matches_ P (loops.length == 1) args s' = true := by
      simp only [matches_, Bool.and_eq_true, Bool.or_eq_true, Bool.not_eq_true']
      refine ⟨h1, ?_⟩
      rcases hp.2 with h3 | h3
      · exact Or.inl h3
      · right
        cases hc : s'.ins.contains DT.O with
        | false => rfl
        | true =>
          have := castable_object h2 (by simpa using hc)
          rw [List.contains_iff_mem.2 this] at h3
          cases h3
    rcases find_pairwise hs h hm hp' with e | e
    · rw [e]; exact castable_refl P _
    · exact e h2

/-- C110: for every function of the library, every platform and every combination of argument types, the loop that runs can take
the arguments, and no other loop that can take them is strictly narrower: nothing is widened needlessly, whatever the
argument types. -/
theorem C110_minimal (f : UFunc) (hf : f ∈ library) (P : Platform) (args : List DT) (s : Loop)
    (h : resolve P (f.loops P) args = some s) :
    s ∈ f.loops P ∧ castable P args s.ins = true ∧
    ∀ s' ∈ f.loops P, castable P args s'.ins = true → castable P s'.ins s.ins = true → castable P s.ins s'.ins = true := by
  have hsort : ∀ P ∈ allPlatforms, ∀ f ∈ library, Sorted P (f.loops P) := by decide +kernel
  refine ⟨?_, ?_, fun s' hm h1 h2 => minimal_of_sorted (hsort P (mem_allPlatforms P) f hf) h hm h1 h2⟩
  · unfold resolve at h
    split at h
    · rename_i h0; cases h; exact List.mem_of_find?_eq_some h0
    · exact List.mem_of_find?_eq_some h
  · unfold resolve at h
    split at h
    · rename_i h0; cases h
      have := List.find?_some h0
      simp only [beq_iff_eq] at this
      rw [this]; exact castable_refl P _
    · have hp := List.find?_some h
      simp only [matches_, Bool.and_eq_true] at hp
      exact hp.1

/-- C110: arguments of the types of a loop are not converted at all. -/
theorem C110_exact (f : UFunc) (hf : f ∈ library) (P : Platform) (s : Loop) (hs : s ∈ f.loops P) :
    resolve P (f.loops P) s.ins = some s := by
  have : ∀ P ∈ allPlatforms, ∀ f ∈ library, ∀ s ∈ f.loops P, resolve P (f.loops P) s.ins = some s := by decide +kernel
  exact this P (mem_allPlatforms P) f hf s hs

/-- C110: every table has the function's number of arguments. -/
theorem C110_arity (f : UFunc) (hf : f ∈ library) (P : Platform) (s : Loop) (hs : s ∈ f.loops P) : s.ins.length = f.nin := by
  have : ∀ P ∈ allPlatforms, ∀ f ∈ library, ∀ s ∈ f.loops P, s.ins.length = f.nin := by decide +kernel
  exact this P (mem_allPlatforms P) f hf s hs

/-- C110: the functions with a real and a complex version, and the two-argument functions that are symmetric, use the same loop for
exchanged arguments. -/
theorem C110_swap (f : UFunc) (hf : f ∈ [pearsonU, wjaccardU, crossU "cross2", crossU "cross3", fdg "vdot" 2,
    searchsortedU "searchsortedl", searchsortedU "searchsortedr", convertToBaseU]) (P : Platform) (a b : DT) :
    resolve P (f.loops P) [a, b] = resolve P (f.loops P) [b, a] := by
  have : ∀ P ∈ allPlatforms, ∀ f ∈ [pearsonU, wjaccardU, crossU "cross2", crossU "cross3", fdg "vdot" 2,
    searchsortedU "searchsortedl", searchsortedU "searchsortedr", convertToBaseU], ∀ a ∈ allTypes, ∀ b ∈ allTypes,
    resolve P (f.loops P) [a, b] = resolve P (f.loops P) [b, a] := by decide +kernel
  exact this P (mem_allPlatforms P) f hf a (mem_allTypes a) b (mem_allTypes b)

theorem castable_replicate (P : Platform) (t : DT) : ∀ args : List DT,
    castable P args (List.replicate args.length t) = args.all (canCast P · t)
  | [] => rfl
  | a :: as => by simp [castable, List.replicate_succ, castable_replicate P t as]

/-- A type of real numbers. -/
def DT.isReal (t : DT) : Bool := t.kind == .boolean || t.kind == .signed || t.kind == .unsigned || t.kind == .float

/-- The float type of the result of a floating point function: `float` if no argument needs more, else `double` if that is enough,
else `long double`; where `long double` is no wider than `double` it is used only if all arguments have it. -/
def resultFloat (P : Platform) (args : List DT) : DT :=
  if args.all (canCast P · .f) then .f else if args.all (· == .g) then .g else if args.all (canCast P · .d) then .d else .g

/-- C110: a floating point function accepts every combination of real argument types, computes in the smallest sufficient float type
and returns that type; with a complex or an object argument the call raises. -/
theorem C110_float (name : String) (P : Platform) (args : List DT) :
    resolve P ((fdg name args.length).loops P) args =
      if args.all DT.isReal then some (homog args.length (resultFloat P args) (resultFloat P args)) else none := by
  have hO : ∀ t : DT, t = .f ∨ t = .d ∨ t = .g → ((List.replicate args.length t).contains DT.O) = false := by
    intro t ht
    rw [Bool.eq_false_iff]
    intro hc
    have := List.eq_of_mem_replicate (List.contains_iff_mem.1 hc)
    rcases ht with e | e | e <;> rw [e] at this <;> cases this
  have hm : ∀ t : DT, t = .f ∨ t = .d ∨ t = .g →
      matches_ P false args (homog args.length t t) = args.all (canCast P · t) := by
    intro t ht
    simp only [matches_, homog, castable_replicate, hO t ht, Bool.not_false, Bool.or_true, Bool.and_true]
  have hreal : args.all DT.isReal = args.all (canCast P · .g) := by
    congr 1; funext t
    have : ∀ P ∈ allPlatforms, ∀ t ∈ allTypes, canCast P t .g = DT.isReal t := by decide +kernel
    exact (this P (mem_allPlatforms P) t (mem_allTypes t)).symm
  have up : ∀ t : DT, t = .f ∨ t = .d → args.all (canCast P · t) = true → args.all (canCast P · .g) = true := by
    intro t ht h
    rw [List.all_eq_true] at *
    intro x hx
    refine canCast_trans P x t .g (h x hx) ?_
    have : ∀ P ∈ allPlatforms, canCast P .f .g = true ∧ canCast P .d .g = true := by decide +kernel
    rcases ht with e | e <;> rw [e]
    · exact (this P (mem_allPlatforms P)).1
    · exact (this P (mem_allPlatforms P)).2
  have ex : ∀ t : DT, ((homog args.length t t).ins == args) = args.all (· == t) := by
    intro t
    rw [Bool.eq_iff_iff, beq_iff_eq, List.all_eq_true]
    show List.replicate args.length t = args ↔ _
    rw [eq_comm, List.eq_replicate_iff]
    simp
  have im : ∀ t : DT, args.all (· == t) = true → args.all (canCast P · t) = true := by
    intro t h
    rw [List.all_eq_true] at *
    intro x hx
    rw [beq_iff_eq.1 (h x hx)]; exact canCast_refl P t
  have no : ∀ t : DT, t = .d ∨ t = .g → args.all (· == t) = true → args.all (canCast P · .f) = true → args = [] := by
    intro t ht h1 h2
    cases args with
    | nil => rfl
    | cons x xs =>
      exfalso
      have : ∀ P ∈ allPlatforms, canCast P .d .f = false ∧ canCast P .g .f = false := by decide +kernel
      have e1 := beq_iff_eq.1 (List.all_eq_true.1 h1 x List.mem_cons_self)
      have e2 := List.all_eq_true.1 h2 x List.mem_cons_self
      have := this P (mem_allPlatforms P)
      rcases ht with e | e <;> rw [e1, e] at e2 <;> simp_all
  have nd : args.all (· == .d) = true → args.all (· == .g) = true → args = [] := by
    intro h1 h2
    cases args with
    | nil => rfl
    | cons x xs =>
      have e1 := beq_iff_eq.1 (List.all_eq_true.1 h1 x List.mem_cons_self)
      have e2 := beq_iff_eq.1 (List.all_eq_true.1 h2 x List.mem_cons_self)
      rw [e1] at e2; cases e2
  by_cases hnil : args = []
  · subst hnil; rfl
  rw [hreal]
  unfold resultFloat
  simp only [resolve, fdg, List.map_cons, List.map_nil, List.length_cons, List.length_nil, Nat.reduceAdd, Nat.reduceBEq,
    List.find?_cons, List.find?_nil, hm .f (by simp), hm .d (by simp), hm .g (by simp), ex]
  have i1 := im .f; have i2 := im .d; have i3 := im .g
  have u1 := up .f (by simp); have u2 := up .d (by simp)
  have n1 : args.all (· == .d) = true → args.all (canCast P · .f) = false := fun h => by
    by_contra hc; exact hnil (no .d (by simp) h (by simpa using hc))
  have n2 : args.all (· == .g) = true → args.all (canCast P · .f) = false := fun h => by
    by_contra hc; exact hnil (no .g (by simp) h (by simpa using hc))
  have n3 : args.all (· == .d) = true → args.all (· == .g) = false := fun h => by
    by_contra hc; exact hnil (nd h (by simpa using hc))
  clear ex hm hO hreal up im no nd hnil
  generalize (args.all fun x => canCast P x .f) = c1 at *
  generalize (args.all fun x => canCast P x .d) = c2 at *
  generalize (args.all fun x => canCast P x .g) = c3 at *
  generalize (args.all fun x => x == .f) = b1 at *
  generalize (args.all fun x => x == .d) = b2 at *
  generalize (args.all fun x => x == .g) = b3 at *
  cases c1 <;> cases c2 <;> cases c3 <;> cases b1 <;> cases b2 <;> cases b3 <;>
    first | rfl | (exfalso; revert i1 i2 i3 u1 u2 n1 n2 n3; decide)

/-- The loops of wjaccard on Linux: an `int8` and an `int16` array are compared in `int16`, not in `float`. -/
example : resolve linux (wjaccardU.loops linux) [.b, .h] = some ⟨[.h, .h], [.d]⟩ := by decide +kernel
example : resolve linux ((fdg "swish" 2).loops linux) [.l, .f] = some ⟨[.d, .d], [.d]⟩ := by decide +kernel
example : resolve linux ((fdg "swish" 2).loops linux) [.f, .F] = none := by decide +kernel
example : resolve linux (allSameU.loops linux) [.D] = none := by decide +kernel

end Ufunclab.Dispatch

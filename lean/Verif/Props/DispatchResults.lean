import Verif.Props.Dispatch
/-!
# C110: the types of the results

For every platform and every combination of argument types for which a loop is found.  `s.ins` are the types in which the loop
computes (the smallest sufficient ones, `C110_minimal`), `s.outs` the types of the arrays that the user gets.
-/
namespace Ufunclab.Dispatch

theorem resolve_mem {P : Platform} {loops : List Loop} {args : List DT} {s : Loop} (h : resolve P loops args = some s) :
    s ∈ loops := by
  unfold resolve at h
  split at h
  · rename_i h0
    cases h
    exact List.mem_of_find?_eq_some h0
  · exact List.mem_of_find?_eq_some h

/-- C110: the functions that return a magnitude return real numbers of the precision of their argument, complex or not. -/
theorem C110_result_magnitude (f : UFunc) (hf : f ∈ [absSquaredU "abs_squared", absSquaredU "abssq", vnormU, rmsU]) (P : Platform)
    (args : List DT) (s : Loop) (h : resolve P (f.loops P) args = some s) :
    ∃ t ts r, s.ins = t :: ts ∧ s.outs = [r] ∧ r.kind = .float ∧ r.prec P = t.prec P ∧ (t.kind = .float ∨ t.kind = .complex) := by
  have : ∀ P ∈ allPlatforms, ∀ f ∈ [absSquaredU "abs_squared", absSquaredU "abssq", vnormU, rmsU], ∀ s ∈ f.loops P,
      ∃ t ∈ allTypes, s.ins.head? = some t ∧ ∃ r ∈ allTypes, s.outs = [r] ∧ r.kind = .float ∧ r.prec P = t.prec P ∧
        (t.kind = .float ∨ t.kind = .complex) := by decide +kernel
  obtain ⟨t, _, h1, r, _, h2, h3, h4, h5⟩ := this P (mem_allPlatforms P) f hf s (resolve_mem h)
  obtain ⟨ts, h6⟩ := List.head?_eq_some_iff.1 h1
  exact ⟨t, ts, r, h6, h2, h3, h4, h5⟩

/-- C110: peaktopeak of integers returns a type that holds the difference of any two values of the argument's type; floats and
objects keep their type. -/
theorem C110_result_peaktopeak (P : Platform) (args : List DT) (s : Loop) (h : resolve P (peaktopeakU.loops P) args = some s) :
    ∃ t r, s.ins = [t] ∧ s.outs = [r] ∧
      ((t.kind = .float ∨ t.kind = .object) → r = t) ∧
      (t.kind = .signed ∨ t.kind = .unsigned → r.kind = .unsigned ∧ r.bits P = t.bits P ∧
        ∀ v w, t.HasInt P v → t.HasInt P w → w ≤ v → r.HasInt P (v - w)) ∧ t.kind ≠ .boolean ∧ t.kind ≠ .complex := by
  have : ∀ P ∈ allPlatforms, ∀ s ∈ peaktopeakU.loops P, ∃ t ∈ allTypes, ∃ r ∈ allTypes, s.ins = [t] ∧ s.outs = [r] ∧
      ((t.kind = .float ∨ t.kind = .object) → r = t) ∧
      (t.kind = .signed ∨ t.kind = .unsigned → r.kind = .unsigned ∧ r.bits P = t.bits P ∧ 0 < t.bits P) ∧
      t.kind ≠ .boolean ∧ t.kind ≠ .complex := by decide +kernel
  obtain ⟨t, _, r, _, h1, h2, h3, h4, h5, h6⟩ := this P (mem_allPlatforms P) s (resolve_mem h)
  refine ⟨t, r, h1, h2, h3, fun hk => ?_, h5, h6⟩
  obtain ⟨k1, k2, k3⟩ := h4 hk
  refine ⟨k1, k2, fun v w hv hw hle => ?_⟩
  obtain ⟨b, hb⟩ : ∃ b, t.bits P = b + 1 := ⟨t.bits P - 1, by omega⟩
  unfold DT.HasInt at hv hw ⊢
  rw [k1, k2]
  have hpow : (2 : ℤ) ^ (b + 1) = 2 * 2 ^ b := by rw [pow_succ, mul_comm]
  rcases hk with hk | hk
  · rw [hk] at hv hw
    simp only [hb, Nat.add_sub_cancel, hpow] at hv hw ⊢
    generalize (2 : ℤ) ^ b = c at hv hw ⊢
    exact ⟨by omega, by omega⟩
  · rw [hk] at hv hw
    simp only at hv hw ⊢
    generalize (2 : ℤ) ^ t.bits P = c at hv hw ⊢
    exact ⟨by omega, by omega⟩

/-- C110: positions and counts are 64-bit signed integers, whatever the type of the data. -/
theorem C110_result_index (f : UFunc) (hf : f ∈ [argminU "argmin", argminU "argmax", argminU "argminmax", argfirstU, bincountU, oneHotU,
      searchsortedU "searchsortedl", searchsortedU "searchsortedr"]) (P : Platform) (args : List DT) (s : Loop)
    (h : resolve P (f.loops P) args = some s) : ∃ r, s.outs = [r] ∧ r.kind = .signed ∧ r.bits P = 64 := by
  have : ∀ P ∈ allPlatforms, ∀ f ∈ [argminU "argmin", argminU "argmax", argminU "argminmax", argfirstU, bincountU, oneHotU,
      searchsortedU "searchsortedl", searchsortedU "searchsortedr"], ∀ s ∈ f.loops P,
      ∃ r ∈ allTypes, s.outs = [r] ∧ r.kind = .signed ∧ r.bits P = 64 := by decide +kernel
  obtain ⟨r, _, hr⟩ := this P (mem_allPlatforms P) f hf s (resolve_mem h)
  exact ⟨r, hr⟩

/-- C110: tests return Booleans. -/
theorem C110_result_bool (f : UFunc) (hf : f ∈ [allSameU, orderedU, issnanU]) (P : Platform) (args : List DT) (s : Loop)
    (h : resolve P (f.loops P) args = some s) : s.outs = [.bool_] := by
  have : ∀ P ∈ allPlatforms, ∀ f ∈ [allSameU, orderedU, issnanU], ∀ s ∈ f.loops P, s.outs = [.bool_] := by decide +kernel
  exact this P (mem_allPlatforms P) f hf s (resolve_mem h)

/-- C110: functions that return elements, or numbers of the kind of the elements, keep the type of the first argument; min_argmin
and max_argmax add a 64-bit index, backlash_sum and sosfilter_ic return two arrays of the type. -/
theorem C110_result_same (P : Platform) (args : List DT) (s : Loop) :
    (∀ f ∈ [minmaxU, firstU, crossU "cross2", crossU "cross3", convertToBaseU, madU "mad", madU "rmad", madU "gini",
        triAreaIndexedU, log1pU "log1p_theorem4", log1pU "log1p_doubledouble", fd "debye1" 1, fd "loggamma1p" 1, fd "linear_interp1d" 3],
      resolve P (f.loops P) args = some s → ∃ t ts, s.ins = t :: ts ∧ s.outs = [t]) ∧
    (∀ f ∈ [minArgminU "min_argmin", minArgminU "max_argmax"], resolve P (f.loops P) args = some s →
      ∃ t r, s.ins = [t] ∧ s.outs = [t, r] ∧ r.kind = .signed ∧ r.bits P = 64) ∧
    (∀ f ∈ [backlashSumU, sosfilterIcU "sosfilter_ic", sosfilterIcU "sosfilter_ic_contig"], resolve P (f.loops P) args = some s →
      ∃ t ts, s.ins = t :: ts ∧ s.outs = [t, t]) := by
  have a : ∀ P ∈ allPlatforms, ∀ f ∈ [minmaxU, firstU, crossU "cross2", crossU "cross3", convertToBaseU, madU "mad", madU "rmad",
        madU "gini", triAreaIndexedU, log1pU "log1p_theorem4", log1pU "log1p_doubledouble", fd "debye1" 1, fd "loggamma1p" 1,
        fd "linear_interp1d" 3], ∀ s ∈ f.loops P, ∃ t ∈ allTypes, s.ins.head? = some t ∧ s.outs = [t] := by decide +kernel
  have b : ∀ P ∈ allPlatforms, ∀ f ∈ [minArgminU "min_argmin", minArgminU "max_argmax"], ∀ s ∈ f.loops P, ∃ t ∈ allTypes,
      ∃ r ∈ allTypes, s.ins = [t] ∧ s.outs = [t, r] ∧ r.kind = .signed ∧ r.bits P = 64 := by decide +kernel
  have c : ∀ P ∈ allPlatforms, ∀ f ∈ [backlashSumU, sosfilterIcU "sosfilter_ic", sosfilterIcU "sosfilter_ic_contig"],
      ∀ s ∈ f.loops P, ∃ t ∈ allTypes, s.ins.head? = some t ∧ s.outs = [t, t] := by decide +kernel
  refine ⟨fun f hf h => ?_, fun f hf h => ?_, fun f hf h => ?_⟩
  · obtain ⟨t, _, h1, h2⟩ := a P (mem_allPlatforms P) f hf s (resolve_mem h)
    obtain ⟨ts, h3⟩ := List.head?_eq_some_iff.1 h1
    exact ⟨t, ts, h3, h2⟩
  · obtain ⟨t, _, r, _, h1⟩ := b P (mem_allPlatforms P) f hf s (resolve_mem h)
    exact ⟨t, r, h1⟩
  · obtain ⟨t, _, h1, h2⟩ := c P (mem_allPlatforms P) f hf s (resolve_mem h)
    obtain ⟨ts, h3⟩ := List.head?_eq_some_iff.1 h1
    exact ⟨t, ts, h3, h2⟩

/-- C110: statistics of integers are doubles and those of floats have the type of the data; percentileofscore and logfactorial
always return doubles; bincount with weights returns the type of the weights. -/
theorem C110_result_statistic (P : Platform) (args : List DT) (s : Loop) :
    (∀ f ∈ [pearsonU, meanvarU, wjaccardU], resolve P (f.loops P) args = some s →
      ∃ t ts r, s.ins = t :: ts ∧ s.outs = [r] ∧ r = if t.kind = .float then t else .d) ∧
    (∀ f ∈ [percentileU, logfactorialU], resolve P (f.loops P) args = some s → s.outs = [.d]) ∧
    (resolve P (bincountwU.loops P) args = some s → ∃ t r, s.ins = [t, r] ∧ s.outs = [r]) := by
  have a : ∀ P ∈ allPlatforms, ∀ f ∈ [pearsonU, meanvarU, wjaccardU], ∀ s ∈ f.loops P, ∃ t ∈ allTypes, s.ins.head? = some t ∧
      ∃ r ∈ allTypes, s.outs = [r] ∧ r = if t.kind = .float then t else .d := by decide +kernel
  have b : ∀ P ∈ allPlatforms, ∀ f ∈ [percentileU, logfactorialU], ∀ s ∈ f.loops P, s.outs = [.d] := by decide +kernel
  have c : ∀ P ∈ allPlatforms, ∀ s ∈ bincountwU.loops P, ∃ t ∈ allTypes, ∃ r ∈ allTypes, s.ins = [t, r] ∧ s.outs = [r] := by
    decide +kernel
  refine ⟨fun f hf h => ?_, fun f hf h => b P (mem_allPlatforms P) f hf s (resolve_mem h), fun h => ?_⟩
  · obtain ⟨t, _, h1, r, _, h2, h3⟩ := a P (mem_allPlatforms P) f hf s (resolve_mem h)
    obtain ⟨ts, h4⟩ := List.head?_eq_some_iff.1 h1
    exact ⟨t, ts, r, h4, h2, h3⟩
  · obtain ⟨t, _, r, _, h1⟩ := c P (mem_allPlatforms P) s (resolve_mem h)
    exact ⟨t, r, h1⟩

/-- The seven groups and the floating point functions (`C110_float`) are all functions of the library. -/
example : library.length = floatU.length + (4 + 1 + 8 + 3 + 14 + 2 + 3 + 3 + 2 + 1) := by decide +kernel

/-- Concrete calls: peaktopeak of int16 is uint16, abs_squared of complex64 is float32, meanvar of int8 is double. -/
example : resolve linux (peaktopeakU.loops linux) [.h] = some ⟨[.h], [.H]⟩ ∧
    resolve linux ((absSquaredU "abs_squared").loops linux) [.F] = some ⟨[.F], [.f]⟩ ∧
    resolve linux (meanvarU.loops linux) [.b, .l] = some ⟨[.b, .l], [.d]⟩ := by decide +kernel

end Ufunclab.Dispatch

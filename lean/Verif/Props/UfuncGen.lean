import Verif.Proof.UfuncGen
/-!
# C75: the generated elementwise ufuncs

The modules produced by tools/cxxgen/generate_ufuncs.py apply the C++ function of each entry, at the
type each signature names, to every element.
-/
namespace Ufunclab.UfuncGen
open PyStr Spec

/-! ## C75 -/

/-- **C75** For every reasonable configuration the generator succeeds, and the ufunc it registers for
entry `i` is right: its name, its number of loops and of inputs; NumPy reads from the type array the types
of signature `k` for loop `k`; and loop `k`, run on `n` elements, stores at each output position the C++
function of the entry, instantiated at the signature's types, of the input elements in order, at the
output type, and changes nothing else.  The input cells hold the input types, and no output element is
stored over an input element that is read later. -/
theorem C75_dispatch (e : ExtMod) (h : Config e) :
    ∃ M : Module, generate e = some M ∧ ∀ (i : Nat) (f : Func), e.allFuncs[i]? = some f → ∀ (k : Nat) ins out, f.types[k]? = some (sig ins out) →
      ∃ U, M.ufuncs[i]? = some U ∧ U.name = f.ufuncname ∧ U.ntypes = f.types.length ∧ U.nin = ins.length
        ∧ loopTypes U k = ins.map npyOf ++ [npyOf out]
        ∧ U.funcs.length = U.ntypes
        ∧ ∃ loop, U.funcs[k]? = some loop ∧
          ∀ {V : Type} (lib : List Char → List Char → List (List Char) → List V → V) (args steps : List Int) (pout so : Int)
            (n : Nat) (m : Mem (Cell V)) (_ : args.length = ins.length) (_ : steps.length = ins.length),
            n < 2 ^ 31 → so ≠ 0 →
            (∀ j < n, ∀ q (_ : q < ins.length), (m (args[q] + j * steps[q])).1 = cTypeOf ins[q]) →
            (∀ j < n, ∀ j' < n, j < j' → ∀ q (_ : q < ins.length), pout + j * so ≠ args[q] + j' * steps[q]) →
            ∃ m', run M lib loop (args ++ [pout]) n (steps ++ [so]) m = some m'
              ∧ (∀ j < n, m' (pout + j * so) = (cTypeOf out,
                  lib f.cxxname (cTypeOf out) (ins.map cTypeOf) ((List.zipWith (fun p s => p + (j : Int) * s) args steps).map fun p => (m p).2)))
              ∧ ∀ a, (∀ j < n, a ≠ pout + j * so) → m' a = m a := by
  obtain ⟨M, hM, hnc, hnl, hmem, hu⟩ := generate_eq e h
  refine ⟨M, hM, ?_⟩
  intro i f hf k ins out hk
  obtain ⟨U, hU, hg⟩ := hu i f hf
  have hfm := List.mem_of_getElem? hf
  obtain ⟨U', hg', h1, h2, h3, h4, h5⟩ := genUfunc_eq f (h.entries f hfm) ins out k hk
  obtain rfl : U = U' := by rw [hg] at hg'; exact Option.some.inj hg'
  refine ⟨U, hU, h1, h2, h3, h4, by rw [h5, h2]; simp, loopName f.ufuncname (sig ins out), by rw [h5]; simp [hk], ?_⟩
  intro V lib args steps pout so n m hl hs hn hso ht hna
  obtain ⟨hc, hlp⟩ := hmem f hfm ins out (List.mem_of_getElem? hk)
  have hone := theOnly_of_nodup Loop.name M.loops hnl _ hlp
  obtain ⟨m', hm', hfr, hv⟩ := iterate_eq lib M.concretes hnc f ins out hc args steps pout so hl hs hso m n hn ht hna n 0 (by omega) m
    (fun a _ => rfl) (fun i hi => absurd hi (by omega))
  refine ⟨m', ?_, ?_, hfr⟩
  · rw [run]
    change (theOnly (fun l => l.name == (theLoop f ins out).name) M.loops).bind _ = _
    rw [hone, Option.bind_some]
    have hp : ((theLoop f ins out).ptrs.mapM fun k => (args ++ [pout])[k]?) = some args := by
      simp only [theLoop]; rw [← hl]; exact mapM_range_append args [pout]
    have ho : (args ++ [pout])[(theLoop f ins out).outArg]? = some pout := by
      simp only [theLoop]; rw [← hl]; simp
    rw [hp, Option.bind_some, ho, Option.bind_some, ← hm']
    congr 1
    · apply List.ext_getElem
      · simp [at_, hl, hs]
      · intro i h1 h2; simp [at_]
    · simp
  · intro j hj
    exact hv j hj

/-- The generator refuses every other type character, a signature that does not consist of input
characters, one arrow and one output character, a signature without inputs, and an entry without
signatures. -/
theorem C75_rejects (e : ExtMod) (M : Module) (h : generate e = some M) :
    ∀ f ∈ e.allFuncs, f.types ≠ [] ∧ ∀ s ∈ f.types, ∃ n, 0 < n ∧ FloatSig n s := by
  rw [generate] at h
  obtain ⟨cs, hcs, h⟩ := Option.bind_eq_some_iff.1 h
  obtain ⟨ls, hls, h⟩ := Option.bind_eq_some_iff.1 h
  obtain ⟨us, hus, h⟩ := Option.bind_eq_some_iff.1 h
  intro f hf
  refine ⟨?_, ?_⟩
  · obtain ⟨U, hU⟩ := mapM_some_mem _ _ _ hus f hf
    intro hn
    rw [genUfunc, hn] at hU
    simp at hU
  · intro s hs
    obtain ⟨l, hl⟩ := mapM_some_mem _ _ _ hls (f, s) (mem_pairs.2 ⟨hf, hs⟩)
    exact floatSig_of_genLoop f s l hl

/-- The loop counter is an `int`: no generated loop completes 2³¹ or more iterations. -/
theorem C75_long_loop_violated (M : Module) {V : Type} (lib : List Char → List Char → List (List Char) → List V → V)
    (loop : List Char) (args : List Int) (n : Nat) (hn : 2 ^ 31 ≤ n) (steps : List Int) (m : Mem (Cell V)) :
    run M lib loop args n steps m = none := by
  rw [run, Option.bind_eq_none_iff]
  intro l _
  rw [Option.bind_eq_none_iff]
  intro ptrs _
  rw [Option.bind_eq_none_iff]
  intro pout _
  have := iterate_overflow lib M.concretes l steps n hn (n + 1) 0 (by norm_num) ptrs pout m
  exact this

/-- An entry whose signatures have different numbers of inputs is accepted, and NumPy then reads the
wrong types: the number of inputs is taken from the first signature. -/
theorem C75_mixed_arity_violated :
    ∃ e : ExtMod, (∀ f ∈ e.allFuncs, f.types = ["f->f".toList, "dd->d".toList])
      ∧ (generate e).map (fun M => M.ufuncs.map fun U => (U.nin, loopTypes U 1))
        = some [(1, ["NPY_DOUBLE".toList, "NPY_DOUBLE".toList])] := by
  refine ⟨⟨"m".toList, [("m.h".toList, [⟨"foo".toList, "foo".toList, ["f->f".toList, "dd->d".toList], []⟩])]⟩, ?_, ?_⟩
  · intro f hf
    simp [ExtMod.allFuncs] at hf
    rw [hf]; rfl
  · decide +kernel

/-! ### Docstrings -/

/-- A docstring without double quotes and backslashes is what the macro expands to, line breaks
included. -/
theorem C75_docstring_partial (name doc : List Char) (hn : ∀ c ∈ name, c ∈ identChars) (h1 : '"' ∉ doc) (h2 : '\\' ∉ doc) :
    macroString (cdefDocstring name doc) (upper name ++ "_DOCSTRING".toList) = some doc :=
  macroString_cdef name doc hn h1 h2

/-- A docstring with a double quote gives a macro that is not a string; one with a backslash followed
by `n` gives another string. -/
theorem C75_docstring_violated :
    macroString (cdefDocstring "foo".toList "the \"norm\"".toList) "FOO_DOCSTRING".toList = none
    ∧ macroString (cdefDocstring "foo".toList "\\nu".toList) "FOO_DOCSTRING".toList = some "\nu".toList := by
  constructor <;> decide +kernel

/-- Two ufuncs whose names differ in case only share one docstring macro. -/
theorem C75_docstring_name_violated :
    ∃ e, Config e ∧ ∃ f ∈ e.allFuncs, ∃ g ∈ e.allFuncs, f.docstring ≠ g.docstring ∧ upper f.ufuncname = upper g.ufuncname := by
  refine ⟨⟨"m".toList, [("m.h".toList, [⟨"foo".toList, "foo".toList, ["f->f".toList], "a".toList⟩, ⟨"foo".toList, "Foo".toList, ["f->f".toList], "b".toList⟩])]⟩,
    config_of_check _ (by decide +kernel), _, List.mem_cons_self, _, List.mem_cons_of_mem _ List.mem_cons_self, ?_, ?_⟩
  · decide +kernel
  · decide +kernel

/-! ### File names -/

/-- The files for a header in the current directory. -/
theorem C75_header (root x : List Char) (hr : '/' ∉ root) (hd : ∃ c ∈ root, c ≠ '.')
    (hx : x ∈ ["h".toList, "hh".toList, "hpp".toList, "h++".toList]) :
    headerToConcrete (root ++ '.' :: x) = some (root ++ "_concrete.h".toList, root ++ "_concrete.cxx".toList) :=
  headerToConcrete_eq root x hr hd hx

/-- The files for a header in another directory are next to it. -/
theorem C75_header_dir (dir root x : List Char) (hr : '/' ∉ root) (hd : ∃ c ∈ root, c ≠ '.')
    (hx : x ∈ ["h".toList, "hh".toList, "hpp".toList, "h++".toList]) :
    headerToConcrete (dir ++ '/' :: (root ++ '.' :: x))
      = some (dir ++ '/' :: (root ++ "_concrete.h".toList), dir ++ '/' :: (root ++ "_concrete.cxx".toList)) :=
  headerToConcrete_dir dir root x hr hd hx

/-- A name that consists of an extension only, such as `src/.h`, is refused. -/
theorem C75_header_hidden (dir root x : List Char) (hr : ∀ c ∈ root, c = '.') (hd : '.' ∉ x) (hx : '/' ∉ x) :
    headerToConcrete (dir ++ '/' :: (root ++ '.' :: x)) = none :=
  headerToConcrete_dots dir root x hr hd hx

example : headerToConcrete "src/my.file.hpp".toList = some ("src/my.file_concrete.h".toList, "src/my.file_concrete.cxx".toList) := by
  decide +kernel

example : headerToConcrete "src/.h".toList = none := by decide +kernel

/-- A header with another extension is refused. -/
theorem C75_header_rejects (root x : List Char) (hx : '.' ∉ x) (hx' : '/' ∉ x)
    (h : x ∉ ["h".toList, "hh".toList, "hpp".toList, "h++".toList]) : headerToConcrete (root ++ '.' :: x) = none :=
  headerToConcrete_none root x hx hx' h

/-- Two headers can get the same files: the second silently replaces those of the first. -/
theorem C75_header_collision_violated :
    headerToConcrete "foo.h".toList = headerToConcrete "foo.hpp".toList ∧ (headerToConcrete "foo.h".toList).isSome := by
  constructor <;> decide +kernel

/-! ### The shipped configurations -/

/-- The signatures for float, double and long double with `n` inputs. -/
def fdg (n : Nat) : List (List Char) := ['f', 'd', 'g'].map fun c => sig (List.replicate n c) c

/-- An entry of a configuration file; docstrings left out. -/
def ent (cxx name : String) (types : List (List Char)) : Func := ⟨cxx.toList, name.toList, types, []⟩

/-- The files src/*/define_cxxgen_extmods.py. -/
def shipped : List ExtMod :=
  [⟨"_abs_squared".toList, [("abs_squared.h".toList, [ent "abs_squared" "abs_squared"
      ["f->f".toList, "d->d".toList, "g->g".toList, "F->f".toList, "D->d".toList, "G->g".toList]])]⟩,
   ⟨"_deadzone".toList, [("deadzone.h".toList, [ent "deadzone" "deadzone" (fdg 3)])]⟩,
   ⟨"_expint1".toList, [("expint1.h".toList, [ent "expint1" "expint1" (fdg 1), ent "logexpint1" "logexpint1" (fdg 1)])]⟩,
   ⟨"_hypot3".toList, [("hypot3.h".toList, [ent "hypot3" "hypot3" (fdg 3)])]⟩,
   ⟨"_logistic".toList, [("logistic.h".toList, [ent "logistic" "logistic" (fdg 1), ent "logistic_deriv" "logistic_deriv" (fdg 1),
      ent "log_logistic" "log_logistic" (fdg 1), ent "swish" "swish" (fdg 2)])]⟩,
   ⟨"_nan_to_num".toList, [("nan_to_num.h".toList, [ent "nan_to_num" "nan_to_num" (fdg 2)])]⟩,
   ⟨"_next".toList, [("next.h".toList, [ent "NextFunctions::next_greater" "next_greater" (fdg 1),
      ent "NextFunctions::next_less" "next_less" (fdg 1)])]⟩,
   ⟨"normal".toList, [("normal.h".toList, [ent "normal_cdf" "cdf" (fdg 1), ent "normal_logcdf" "logcdf" (fdg 1),
      ent "normal_sf" "sf" (fdg 1), ent "normal_logsf" "logsf" (fdg 1)]),
      ("erfcx_funcs.h".toList, [ent "erfcx" "erfcx" (fdg 1)])]⟩,
   ⟨"_pow1pm1".toList, [("pow1pm1.h".toList, [ent "pow1pm1" "pow1pm1" (fdg 2)])]⟩,
   ⟨"_ramp".toList, [("ramp.h".toList, [ent "hyperbolic_ramp" "hyperbolic_ramp" (fdg 2),
      ent "exponential_ramp" "exponential_ramp" (fdg 2)])]⟩,
   ⟨"semivar".toList, [("semivar.h".toList, [ent "semivar_exponential" "exponential" (fdg 4), ent "semivar_linear" "linear" (fdg 4),
      ent "semivar_spherical" "spherical" (fdg 4), ent "semivar_parabolic" "parabolic" (fdg 4)])]⟩,
   ⟨"_step".toList, [("step.h".toList, [ent "StepFunctions::step" "step" (fdg 5), ent "StepFunctions::linearstep" "linearstep" (fdg 5),
      ent "StepFunctions::smoothstep3" "smoothstep3" (fdg 5), ent "StepFunctions::invsmoothstep3" "invsmoothstep3" (fdg 5),
      ent "StepFunctions::smoothstep5" "smoothstep5" (fdg 5)])]⟩,
   ⟨"_trapezoid_pulse".toList, [("trapezoid_pulse.h".toList, [ent "trapezoid_pulse" "trapezoid_pulse" (fdg 6)])]⟩,
   ⟨"_yeo_johnson".toList, [("yeo_johnson.h".toList, [ent "yeo_johnson" "yeo_johnson" (fdg 2),
      ent "inv_yeo_johnson" "inv_yeo_johnson" (fdg 2)])]⟩]

/-- Every shipped configuration is one to which `C75_dispatch` applies; the generated ufuncs of the
project are right. -/
theorem C75_shipped : ∀ e ∈ shipped, Config e := by
  have : ∀ e ∈ shipped, configCheck e = true := by decide +kernel
  exact fun e he => config_of_check e (this e he)

example : fdg 2 = ["ff->f".toList, "dd->d".toList, "gg->g".toList] := by decide +kernel

/-- Part of the logistic module. -/
def someLogistic : ExtMod :=
  ⟨"_logistic".toList, [("logistic.h".toList, [ent "logistic" "logistic" (fdg 1), ent "swish" "swish" (fdg 2)])]⟩

/-- `swish` has three loops with two inputs. -/
example : (generate someLogistic).map (fun M => M.ufuncs.map fun U => (U.nin, U.ntypes)) = some [(1, 3), (2, 3)] := by decide +kernel

/-- Its second loop works on doubles. -/
example : (generate someLogistic).map (fun M => M.ufuncs.map fun U => (U.funcs.getD 1 [], loopTypes U 1))
    = some [("logistic_d_d_loop".toList, ["NPY_DOUBLE".toList, "NPY_DOUBLE".toList]),
        ("swish_dd_d_loop".toList, ["NPY_DOUBLE".toList, "NPY_DOUBLE".toList, "NPY_DOUBLE".toList])] := by
  decide +kernel

/-- That loop run on two elements, with a library in which `swish(x, b)` on doubles is `x - 10*b`: the
inputs are 7, 8 at 0, 8 and 1 at 100 with stride 0, the output goes to 200, 208. -/
example : ((generate someLogistic).bind fun M =>
      (run M (fun _ _ _ v => v.getD 0 0 - 10 * v.getD 1 0) "swish_dd_d_loop".toList [0, 100, 200] 2 [8, 0, 8]
        (fun a => ("double".toList, if a = 0 then (7 : Int) else if a = 8 then 8 else 1))).map
      fun m => [(m 200).2, (m 208).2, (m 216).2])
    = some [-3, -2, 1] := by decide +kernel

/-- A docstring of two lines. -/
example : macroString (cdefDocstring "swish".toList "Swish.\nSee x*logistic(beta*x).".toList) "SWISH_DOCSTRING".toList
    = some "Swish.\nSee x*logistic(beta*x).".toList := by decide +kernel

end Ufunclab.UfuncGen

import Verif.Spec.Build
import Verif.Model.UfuncGen
/-!
# Model of the build: meson.build, ufunclab/meson.build and the scripts that it runs

The generated texts are a parameter (they are the subject of Model/UfuncGen, Model/GufuncGen and Model/ConvTemplate).  What is
modelled is which files are written, in which order, what makes a script stop, and when a script is run again.
-/
namespace Ufunclab.Build
variable {σ α : Type}

/-- What a script does to the build directory: it writes a file, or it stops with an exception if a file exists. -/
inductive Step where
  | write (file : String)
  | absent (file : String)
deriving DecidableEq

def Step.file : Step → String
  | .write f => f
  | .absent f => f

/-- A step; `none` is the `RuntimeError`. -/
def Step.exec (text : String → α) : Step → Dir α → Option (Dir α)
  | .write f, d => some (d.put f (text f))
  | .absent f, d => if (d f).isSome then none else some d

/-- Running a script: the directory that it leaves, and whether it ended without an exception. -/
def run (text : String → α) : List Step → Dir α → Dir α × Bool
  | [], d => (d, true)
  | s :: rest, d => match s.exec text d with
    | some d' => run text rest d'
    | none => (d, false)

/-- A `custom_target`: the files in its `input` and `output`, the files of the source tree that the script reads (itself, the
modules that it imports and the files that it opens) and what the script does. -/
structure Target where
  inputs : List String
  reads : List String
  outputs : List String
  steps : List Step

/-- The files that the script writes. -/
def Target.files (t : Target) : List String := t.steps.filterMap fun | .write f => some f | .absent _ => none

/-- ufunclab/meson.build lines 75-99 and `generate_gufunc`, tools/cxxgen/generate_gufunc.py lines 6-20; the headers are
read in tools/cxxgen/gufuncgen.py lines 596-597.  `module` and `headers` come from `define_cxx_gufunc_extmod.py`. -/
def gufuncTarget (dir module : String) (headers : List String) : Target where
  inputs := ["tools/cxxgen/generate_gufunc.py", "src/" ++ dir ++ "/define_cxx_gufunc_extmod.py", "src/" ++ dir ++ "/" ++ dir ++ "_gufunc.h"]
  reads := ["tools/cxxgen/generate_gufunc.py", "tools/cxxgen/gufuncgen.py", "tools/cxxgen/generate_utils.py", "tools/cxxgen/ufunc_config_types.py",
    "src/" ++ dir ++ "/define_cxx_gufunc_extmod.py"] ++ headers.map fun h => "src/" ++ dir ++ "/" ++ h
  outputs := ["_" ++ dir ++ ".cxx"]
  steps := .write (module ++ ".cxx") :: headers.map .write

/-- The names of the concrete files of a header (tools/cxxgen/generate_utils.py lines 60-80; Model/UfuncGen, `headerToConcrete`). -/
def concrete (header : String) : String × String :=
  match UfuncGen.headerToConcrete header.toList with
  | some (h, c) => (String.ofList h, String.ofList c)
  | none => ("", "")

/-- `generate`, tools/cxxgen/generate_ufuncs.py lines 9-24, with `generate_concrete_cfuncs` (tools/cxxgen/generate_concrete_cfuncs.py lines 41-48) and
`generate_ufunc_extmod` (tools/cxxgen/generate_ufunc_extmod.py lines 151-167, with the check of lines 162-163). -/
def ufuncSteps (module : String) (headers extra : List String) : List Step :=
  headers.flatMap (fun h => [.write (concrete h).2, .write (concrete h).1, .write h]) ++
    [.absent (module ++ ".cxx"), .write (module ++ ".cxx")] ++ extra.map .write

/-- The modules of tools/cxxgen that generate_ufuncs.py imports. -/
def ufuncTools : List String := ["tools/cxxgen/generate_ufuncs.py", "tools/cxxgen/generate_concrete_cfuncs.py",
  "tools/cxxgen/generate_ufunc_extmod.py", "tools/cxxgen/generate_utils.py", "tools/cxxgen/ufunc_config_types.py"]

/-- ufunclab/meson.build lines 126-159. -/
def ufuncTarget (dir module : String) : Target where
  inputs := ["tools/cxxgen/generate_ufuncs.py", "src/" ++ dir ++ "/define_cxxgen_extmods.py", "src/" ++ dir ++ "/" ++ dir ++ ".h"]
  reads := ufuncTools ++ ["src/" ++ dir ++ "/define_cxxgen_extmods.py", "src/" ++ dir ++ "/" ++ dir ++ ".h"]
  outputs := [(if dir = "semivar" then dir else "_" ++ dir) ++ ".cxx", dir ++ ".h", dir ++ "_concrete.h", dir ++ "_concrete.cxx"]
  steps := ufuncSteps module [dir ++ ".h"] []

/-- ufunclab/meson.build lines 168-182; the headers and the extra source are those of src/normal/define_cxxgen_extmods.py lines 65-68. -/
def normalTarget : Target where
  inputs := ["tools/cxxgen/generate_ufuncs.py", "src/normal/define_cxxgen_extmods.py", "src/normal/erfcx_funcs.cxx", "src/normal/erfcx_funcs.h", "src/normal/normal.h"]
  reads := ufuncTools ++ ["src/normal/define_cxxgen_extmods.py", "src/normal/normal.h", "src/normal/erfcx_funcs.h", "src/normal/erfcx_funcs.cxx"]
  outputs := ["erfcx_funcs_concrete.cxx", "erfcx_funcs_concrete.h", "erfcx_funcs.cxx", "erfcx_funcs.h", "normal_concrete.cxx", "normal_concrete.h", "normal.cxx", "normal.h"]
  steps := ufuncSteps "normal" ["normal.h", "erfcx_funcs.h"] ["erfcx_funcs.cxx"]

/-- ufunclab/meson.build lines 213-238 and 251-276 (`kind` is `gufunc` or `ufunc`), and `main`, tools/conv_template.py lines 323-337. -/
def templateTarget (dir kind : String) : Target where
  inputs := ["tools/conv_template.py", "src/" ++ dir ++ "/" ++ dir ++ "_" ++ kind ++ ".c.src"]
  reads := ["tools/conv_template.py", "src/" ++ dir ++ "/" ++ dir ++ "_" ++ kind ++ ".c.src"]
  outputs := [dir ++ "_" ++ kind ++ ".c"]
  steps := [.write (dir ++ "_" ++ kind ++ ".c")]

/-- `gufunc_cxx_src_dirs`, ufunclab/meson.build lines 48-73, with the module and the headers of each `define_cxx_gufunc_extmod.py`. -/
def gufuncConfigs : List (String × String × List String) := [
  ("all_same", "_all_same", ["all_same_gufunc.h"]),
  ("bincount", "_bincount", ["bincount_gufunc.h"]),
  ("backlash", "_backlash", ["backlash_gufunc.h"]),
  ("convert_to_base", "_convert_to_base", ["convert_to_base_gufunc.h"]),
  ("corr", "_corr", ["corr_gufunc.h"]),
  ("cross", "_cross", ["cross_gufunc.h"]),
  ("fillnan1d", "_fillnan1d", ["fillnan1d_gufunc.h"]),
  ("first", "_first", ["first_gufunc.h"]),
  ("hysteresis_relay", "_hysteresis_relay", ["hysteresis_relay_gufunc.h"]),
  ("kbnsum", "_kbnsum", ["kbnsum_gufunc.h"]),
  ("mad", "_mad", ["mad_gufunc.h"]),
  ("meanvar", "_meanvar", ["meanvar_gufunc.h"]),
  ("minmax", "_minmax", ["minmax_gufunc.h"]),
  ("multivariate_logbeta", "_multivariate_logbeta", ["multivariate_logbeta_gufunc.h"]),
  ("nextn", "_nextn", ["nextn_gufunc.h"]),
  ("one_hot", "_one_hot", ["one_hot_gufunc.h"]),
  ("ordered", "_ordered", ["ordered_gufunc.h"]),
  ("percentileofscore", "_percentileofscore", ["percentileofscore_gufunc.h"]),
  ("softmax", "_softmax", ["softmax_gufunc.h"]),
  ("sosfilter", "_sosfilter", ["sosfilter_gufunc.h"]),
  ("tri_area", "_tri_area", ["tri_area_gufunc.h"]),
  ("unwrap", "_unwrap", ["unwrap_gufunc.h"]),
  ("vnorm", "_vnorm", ["vnorm_gufunc.h"]),
  ("wjaccard", "_wjaccard", ["wjaccard_gufunc.h"])]

/-- `ufunc_cxx_src_dirs_simple`, ufunclab/meson.build lines 109-124, with the module of each `define_cxxgen_extmods.py` (each has one header, `dir.h`, and no extra sources). -/
def ufuncConfigs : List (String × String) := [
  ("abs_squared", "_abs_squared"), ("deadzone", "_deadzone"), ("expint1", "_expint1"), ("hypot3", "_hypot3"), ("logistic", "_logistic"),
  ("nan_to_num", "_nan_to_num"), ("next", "_next"), ("pow1pm1", "_pow1pm1"), ("ramp", "_ramp"), ("semivar", "semivar"), ("step", "_step"),
  ("trapezoid_pulse", "_trapezoid_pulse"), ("yeo_johnson", "_yeo_johnson")]

/-- ufunclab/meson.build lines 206-211 and 247-249. -/
def templateConfigs : List (String × String) := [
  ("linear_interp1d", "gufunc"), ("means", "gufunc"), ("peaktopeak", "gufunc"), ("searchsorted", "gufunc"), ("issnan", "ufunc")]

def gufuncTargets : List Target := gufuncConfigs.map fun (d, m, hs) => gufuncTarget d m hs
def ufuncTargets : List Target := ufuncConfigs.map (fun (d, m) => ufuncTarget d m) ++ [normalTarget]
def templateTargets : List Target := templateConfigs.map fun (d, k) => templateTarget d k

/-- The targets of the build that write into the directory `ufunclab`. -/
def targets : List Target := gufuncTargets ++ ufuncTargets ++ templateTargets

/-- The extension modules (`py3.extension_module`) of ufunclab/meson.build, lines 90-97, 150-157, 184-192, 228-236, 266-274, 282-315 and 321-338. -/
def extensionModules : List String :=
  gufuncConfigs.map (fun c => "_" ++ c.1) ++ ufuncConfigs.map (fun c => if c.1 = "semivar" then c.1 else "_" ++ c.1) ++ ["normal"] ++
    templateConfigs.map (fun c => "_" ++ c.1) ++ ["_debye1", "_log1p", "_logfact", "_loggamma1p", "_gendot", "_ufunc_inspector", "_abssq"]

/-- The Python modules that are installed: ufunclab/meson.build lines 342-348 (without the package itself), meson.build lines 22-29. -/
def pythonModules : List String := ["_gendot_wrap", "_wrapped", "_version"]

/-! ## Running the targets at the same time -/

/-- A script that is running (with what it still has to do), or that has failed. -/
abbrev Job := Option (List Step)

/-- The next step of job `i`, if there is one. -/
def tick (text : String → α) (i : Nat) (w : List Job × Dir α) : List Job × Dir α :=
  match w.1[i]? with
  | some (some (s :: rest)) => match s.exec text w.2 with
    | some d => (w.1.set i (some rest), d)
    | none => (w.1.set i none, w.2)
  | _ => w

/-- Ninja runs the targets in parallel: a schedule is the list of the numbers of the jobs in the order of their steps. -/
def parallel (text : String → α) (sched : List Nat) (w : List Job × Dir α) : List Job × Dir α :=
  sched.foldl (fun w i => tick text i w) w

/-- Every job has ended. -/
def Ended (w : List Job × Dir α) : Prop := ∀ j ∈ w.1, j = none ∨ j = some []

/-! ## Building again -/

/-- What ninja knows of a target (the sources of its last run, if that run ended well), and the directory. -/
structure St (σ α : Type) where
  last : Option (String → σ)
  dir : Dir α

/-- Ninja runs a target again when its last run did not end well, or when a file in its `input` is not as it was then.  (Ninja compares times;
here the texts are compared.  Ninja does not delete outputs before a run.) -/
def build [DecidableEq σ] (gen : (String → σ) → String → α) (t : Target) (s : String → σ) (st : St σ α) : St σ α × Bool :=
  if st.last.any (fun l => t.inputs.all fun p => l p = s p) then (st, true)
  else
    let r := run (gen s) t.steps st.dir
    (⟨if r.2 then some s else none, r.1⟩, r.2)

/-- The script is killed after `k` steps, in the middle of writing the next file if `junk` is given. -/
def killed [DecidableEq σ] (gen : (String → σ) → String → α) (t : Target) (s : String → σ) (k : Nat) (junk : Option α) (st : St σ α) : St σ α :=
  if st.last.any (fun l => t.inputs.all fun p => l p = s p) then st
  else
    let r := run (gen s) (t.steps.take k) st.dir
    if r.2 then
      match t.steps[k]?, junk with
      | some (.write f), some g => ⟨none, r.1.put f g⟩
      | _, _ => ⟨none, r.1⟩
    else ⟨none, r.1⟩

/-- What happens between two looks at the build directory: a build, a build that is killed, or the deletion of the build tree; each with the sources of that time. -/
inductive Event (σ α : Type) where
  | build (s : String → σ)
  | kill (s : String → σ) (k : Nat) (junk : Option α)
  | clean

def Event.apply [DecidableEq σ] (gen : (String → σ) → String → α) (t : Target) : Event σ α → St σ α → St σ α
  | .build s, st => (Build.build gen t s st).1
  | .kill s k junk, st => killed gen t s k junk st
  | .clean, _ => ⟨none, fun _ => none⟩

/-- A new build tree, after a history of events. -/
def history [DecidableEq σ] (gen : (String → σ) → String → α) (t : Target) (es : List (Event σ α)) : St σ α :=
  es.foldl (fun st e => e.apply gen t st) ⟨none, fun _ => none⟩

/-! ## The version file -/

/-- The last line that _build_utils/make_version_file.py line 34 prints. -/
def versionLine (version : List Char) : List Char := "__version__ = \"".toList ++ version ++ ['"', '\n']

end Ufunclab.Build

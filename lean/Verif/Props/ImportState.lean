import Verif.Model.ImportState
import Mathlib.Data.List.Basic
/-! # C116: the package gives the same objects in every history of imports and attribute accesses -/
namespace Ufunclab.ImportState
open Ufunclab.LazyImport

def allMods : List String := moduleDefs.map Prod.fst

/-- Only names of existing submodules are bound in the package. -/
def Inv (W : World) : Prop := (∀ n ∈ W.pkg.getD [], ∃ m ∈ allMods, n = attrOf m)

theorem deps_mem : ∀ m ∈ allMods, ∀ d ∈ deps m, d ∈ allMods := by decide +kernel

theorem load_inv {can : String → Bool} {m : String} {W : World} (h : Inv W) : Inv (load can m W).1 := by
  rw [load]
  split_ifs with h1 h2
  · exact h
  · intro n hn
    cases hp : W.pkg with
    | none => simp [hp] at hn
    | some b =>
      simp only [hp, Option.map_some, Option.getD_some, List.mem_append, List.mem_map] at hn
      have hm : m ∈ allMods := by
        rw [Bool.and_eq_true, Option.isSome_iff_exists] at h2
        obtain ⟨-, d, hd⟩ := h2
        have := List.lookup_eq_some_iff.1 hd
        obtain ⟨l1, l2, e, -⟩ := this
        rw [allMods, e]; simp
      rcases hn with ⟨x, hx, rfl⟩ | hn
      · rcases List.mem_cons.1 hx with rfl | hx
        · exact ⟨x, hm, rfl⟩
        · exact ⟨x, deps_mem m hm x hx, rfl⟩
      · exact h n (by simpa [hp] using hn)
  · exact h

theorem access_inv {can : String → Bool} {name : String} {W : World} (h : Inv W) : Inv (access can name W).1 := by
  rw [access]
  split
  · exact h
  · split_ifs
    · exact h
    · have := load_inv (can := can) (m := "." ++ name) h
      generalize load can ("." ++ name) W = r at this
      obtain ⟨W', _ | _⟩ := r <;> exact this
    · split
      · exact h
      · rename_i m _
        have := load_inv (can := can) (m := m) h
        generalize load can m W = r at this
        obtain ⟨W', _ | _⟩ := r <;> exact this

theorem accesses_inv : ∀ (hist : List (String × (String → Bool))) (W : World), Inv W → Inv (accesses hist W) := by
  intro hist
  induction hist with
  | nil => intro W h; exact h
  | cons a rest ih => intro W h; exact ih _ (access_inv h)

/-- The names of submodules that are bound in the package are private, but for `normal` and `semivar`. -/
theorem bound_private : ∀ m ∈ allMods, attrOf m = "normal" ∨ attrOf m = "semivar" ∨ (attrOf m).toList.head? = some '_' ∧ nameToModule.lookup (attrOf m) = none := by
  decide +kernel

/-- A name that a user uses: it does not begin with an underscore, or it is `__version__`. -/
def Public (name : String) : Prop := name.toList.head? ≠ some '_' ∨ name = "__version__"

theorem table_mods : ∀ e ∈ nameToModule, (moduleDefs.lookup e.2).isSome := by decide +kernel

theorem lookup_some_mem {name m : String} (h : nameToModule.lookup name = some m) : (name, m) ∈ nameToModule := by
  obtain ⟨l1, l2, e, -⟩ := List.lookup_eq_some_iff.1 h
  rw [e]; simp

theorem importPkg_inv {can : String → Bool} {W : World} (h : W.pkg = none) : Inv (importPkg can W).1 := by
  have h0 : Inv ({ W with pkg := some [] }) := by intro n hn; simp at hn
  rw [importPkg, h]
  simp only
  have : Inv (exec can { W with pkg := some [] }).1 := by
    rw [exec]
    have h1 := load_inv (can := can) (m := ".normal") h0
    generalize load can ".normal" { W with pkg := some [] } = r at h1
    obtain ⟨W1, _ | _⟩ := r
    · exact h1
    · simp only
      split_ifs
      · have h2 := load_inv (can := can) (m := "._first") (W := { W1 with erfcx := false }) h1
        generalize load can "._first" { W1 with erfcx := false } = r2 at h2
        obtain ⟨W2, _ | _⟩ := r2
        · exact h2
        · exact load_inv h2
      · exact h1
  generalize exec can { W with pkg := some [] } = r at this
  obtain ⟨W', _ | _⟩ := r
  · intro n hn; simp at hn
  · exact this

/-- C116: the first `import ufunclab` in a new interpreter succeeds if its three submodules can be loaded. -/
theorem C116_first_import (can : String → Bool) (h : can ".normal" ∧ can "._first" ∧ can "._percentileofscore") :
    (importPkg can start).2 = true ∧ (importPkg can start).1.pkg ≠ none := by
  obtain ⟨h1, h2, h3⟩ := h
  have d1 : (moduleDefs.lookup ".normal").isSome = true := by decide +kernel
  have d2 : (moduleDefs.lookup "._first").isSome = true := by decide +kernel
  have d3 : (moduleDefs.lookup "._percentileofscore").isSome = true := by decide +kernel
  have e : exec can ⟨[], false, some []⟩ =
      (⟨["._percentileofscore", "._first", ".normal"], false, some [attrOf "._percentileofscore", attrOf "._first", attrOf ".normal"]⟩, true) := by
    simp [exec, load, h1, h2, h3, d1, d2, d3, deps]
  constructor <;> simp [importPkg, start, e]

/-- C116: after the import, and after any history of attribute accesses in any order, some of which may have failed because a submodule could not be loaded at that time, a public
name gives what the table of the package says (the object of that name in its module, or AttributeError for unknown names), or ImportError if its submodule cannot be loaded now; if it
can, the access succeeds: earlier failures leave no trace. -/
theorem C116_history (can0 can : String → Bool) (hist : List (String × (String → Bool))) (name : String) (hp : Public name) :
    let W := accesses hist (importPkg can0 start).1
    ((access can name W).2 = resolve name ∨ (access can name W).2 = .importError) ∧ ((∀ m, can m) → (access can name W).2 = resolve name) := by
  intro W
  have hI : Inv W := accesses_inv hist _ (importPkg_inv rfl)
  rw [access, resolve]
  cases he : eager.lookup name with
  | some a => exact ⟨Or.inl rfl, fun _ => rfl⟩
  | none =>
    simp only
    split_ifs with hb hs
    · obtain ⟨m, hm, rfl⟩ := hI name hb
      have ne : attrOf m ≠ "normal" := by
        intro e; rw [e] at he
        have : eager.lookup "normal" ≠ none := by decide +kernel
        exact this he
      rcases bound_private m hm with e | e | ⟨e, e'⟩
      · exact absurd e ne
      · have : getattr "semivar" = .module ".semivar" := by decide +kernel
        have e2 : ("." ++ "semivar" : String) = ".semivar" := by decide +kernel
        rw [e, this, e2]; exact ⟨Or.inl rfl, fun _ => rfl⟩
      · rcases hp with hp | hp
        · exact absurd e hp
        · rw [hp] at e'
          have : nameToModule.lookup "__version__" ≠ none := by decide +kernel
          exact absurd e' this
    · subst hs
      have hg : getattr "semivar" = .module ("." ++ "semivar") := by decide +kernel
      have hl : (∀ m, can m) → (load can ("." ++ "semivar") W).2 = true := by
        intro hc
        rw [load]; split_ifs with h1 h2
        · rfl
        · rfl
        · rw [hc] at h2
          have : (moduleDefs.lookup ("." ++ "semivar")).isSome = true := by decide +kernel
          rw [this] at h2; simp at h2
      rw [hg]
      generalize load can ("." ++ "semivar") W = r at hl
      obtain ⟨W', _ | _⟩ := r
      · exact ⟨Or.inr rfl, fun hc => by have := hl hc; simp at this⟩
      · exact ⟨Or.inl rfl, fun _ => rfl⟩
    · rw [getattr, if_neg hs]
      cases ht : nameToModule.lookup name with
      | none => exact ⟨Or.inl rfl, fun _ => rfl⟩
      | some m =>
        simp only
        have hl : (∀ m, can m) → (load can m W).2 = true := by
          intro hc
          rw [load]; split_ifs with h1 h2
          · rfl
          · rfl
          · rw [hc, table_mods _ (lookup_some_mem ht)] at h2; simp at h2
        generalize load can m W = r at hl
        obtain ⟨W', _ | _⟩ := r
        · exact ⟨Or.inr rfl, fun hc => by have := hl hc; simp at this⟩
        · exact ⟨Or.inl rfl, fun _ => rfl⟩

/-- C116, on public names only: a private name can change from AttributeError to a submodule, `ufunclab._step` for instance after `ufunclab.step`. -/
example : (access (fun _ => true) "_step" (importPkg (fun _ => true) start).1).2 = .attributeError ∧
    (access (fun _ => true) "_step" (accesses [("step", fun _ => true)] (importPkg (fun _ => true) start).1)).2 = .module "._step" := by decide +kernel

/-- `.normal` is loaded and its attribute `erfcx` is gone. -/
def Spent (W : World) : Prop := ".normal" ∈ W.loaded ∧ W.erfcx = false

theorem exec_spent {can : String → Bool} {W : World} (h : Spent W) : exec can W = (W, false) := by
  simp [exec, load, h.1, h.2]

theorem load_spent {can : String → Bool} {m : String} {W : World} (hm : m ≠ ".normal") (h : Spent W) : Spent (load can m W).1 := by
  rw [load]
  split_ifs
  · exact h
  · exact ⟨by simp [h.1], by simp [h.2, hm]⟩
  · exact h

theorem load_mem {can : String → Bool} {m : String} {W : World} (h : (load can m W).2 = true) : m ∈ (load can m W).1.loaded := by
  rw [load] at h ⊢
  split_ifs at h ⊢ with h1 h2
  · exact h1
  · simp

theorem exec_true (can : String → Bool) (W : World) (h : (exec can W).2 = true) : Spent (exec can W).1 := by
  rw [exec] at h ⊢
  have h1 := load_mem (can := can) (m := ".normal") (W := W)
  generalize load can ".normal" W = r at h h1
  obtain ⟨W1, _ | _⟩ := r
  · simp at h
  · simp only at h ⊢
    split_ifs at h ⊢
    have s1 : Spent { W1 with erfcx := false } := ⟨h1 rfl, rfl⟩
    have s2 := load_spent (can := can) (m := "._first") (by decide) s1
    generalize load can "._first" { W1 with erfcx := false } = r2 at h s2
    obtain ⟨W2, _ | _⟩ := r2
    · simp at h
    · exact load_spent (by decide) s2

/-- C116 is violated by `importlib.reload(ufunclab)`: after every successful import, it fails (ImportError: cannot import name 'erfcx'), because the first run of the body has
deleted `normal.erfcx`. -/
theorem C116_reload_violated (can can' : String → Bool) (h : (importPkg can start).2 = true) : (reload can' (importPkg can start).1).2 = false := by
  have key : Spent (importPkg can start).1 := by
    rw [importPkg] at h ⊢
    simp only [start] at h ⊢
    have := exec_true can ⟨[], false, some []⟩
    generalize exec can ⟨[], false, some []⟩ = r at this h
    obtain ⟨W', _ | _⟩ := r
    · simp at h
    · exact this rfl
  rw [reload, exec_spent key]

/-- C116 is violated by a second attempt: if `import ufunclab` fails once after the deletion (because `_first` or `_percentileofscore` cannot be loaded, say for lack of memory), every later
`import ufunclab` in the process fails, even if everything can be loaded then. -/
theorem C116_retry_violated (can : String → Bool) (h : can ".normal") (hf : ¬(can "._first" ∧ can "._percentileofscore")) :
    (importPkg can start).2 = false ∧ ∀ can', (importPkg can' (importPkg can start).1).2 = false := by
  have d1 : (moduleDefs.lookup ".normal").isSome = true := by decide +kernel
  have d2 : (moduleDefs.lookup "._first").isSome = true := by decide +kernel
  have key : (importPkg can start).2 = false ∧ Spent (importPkg can start).1 ∧ (importPkg can start).1.pkg = none := by
    rw [importPkg]
    simp only [start]
    rw [exec]
    by_cases h2 : can "._first"
    · have h3 : can "._percentileofscore" = false := by
        cases hc : can "._percentileofscore" with
        | false => rfl
        | true => exact absurd ⟨h2, hc⟩ hf
      simp [load, h, d1, d2, h2, h3, deps, Spent]
    · simp [load, h, d1, h2, deps, Spent]
  refine ⟨key.1, fun can' => ?_⟩
  rw [importPkg, key.2.2]
  simp only
  rw [exec_spent (W := { (importPkg can start).1 with pkg := some [] }) key.2.1]

example : (access (fun _ => true) "gini" (accesses [("step", fun _ => true), ("gini", fun _ => false), ("semivar", fun _ => true)] (importPkg (fun _ => true) start).1)).2 =
    .object "._mad" "gini" := by decide +kernel

end Ufunclab.ImportState

import Verif.Model.LazyImport
/-! # Property C70: the lazy import table

The table is finite, so "every name in the table" is settled completely by evaluation in the
kernel; the statements about unknown names are for all strings. -/
namespace Ufunclab.LazyImport

/-- C70: no public name is listed twice. -/
theorem C70_names_unique : all.Nodup := by decide +kernel

/-- C70: every name in `__all__` resolves to an object of that name, and lazily loaded names to the
object of the module that the table gives. -/
theorem C70_all_resolve :
    (∀ name ∈ all, ∃ m, resolve name = .object m name) ∧
    (∀ e ∈ nameToModule, resolve e.1 = .object e.2 e.1) := by
  have h1 : ∀ name ∈ all, (match resolve name with | .object _ n => n == name | _ => false) = true := by
    decide +kernel
  constructor
  · intro name hn
    have := h1 name hn
    split at this
    next m n heq => exact ⟨m, by rw [heq, eq_of_beq this]⟩
    · exact absurd this (by simp)
  · decide +kernel

/-- C70: any other name raises AttributeError, except the submodules `normal` and `semivar` and the
function `erfcx`. -/
theorem C70_unknown (name : String) (h : name ∉ all)
    (h1 : name ≠ "normal") (h2 : name ≠ "semivar") (h3 : name ≠ "erfcx") :
    resolve name = .attributeError := by
  have e1 : eager.lookup name = none := by
    rw [List.lookup_eq_none_iff]
    intro p hp
    have hk : ∀ p ∈ eager, p.1 ∈ all ∨ p.1 = "normal" ∨ p.1 = "semivar" ∨ p.1 = "erfcx" := by decide +kernel
    rw [bne_iff_ne]
    · intro he
      rcases hk p hp with h' | h' | h' | h'
      · exact h (he ▸ h')
      · exact h1 (he.trans h')
      · exact h2 (he.trans h')
      · exact h3 (he.trans h')
  have e2 : nameToModule.lookup name = none := by
    rw [List.lookup_eq_none_iff]
    intro p hp
    rw [bne_iff_ne]
    · intro he
      exact h (by rw [he, all]; exact List.mem_append_left _ (List.mem_map_of_mem hp))
  simp only [resolve, e1, getattr, h2, if_false, e2]

/-- C70: the import never fails: no attribute access raises ImportError. -/
theorem C70_no_import_error (name : String) : resolve name ≠ .importError := by
  by_cases h : name ∈ all
  · obtain ⟨m, hm⟩ := C70_all_resolve.1 name h
    rw [hm]; simp
  · by_cases h1 : name = "normal"
    · subst h1; decide +kernel
    by_cases h2 : name = "semivar"
    · subst h2; decide +kernel
    by_cases h3 : name = "erfcx"
    · subst h3; decide +kernel
    rw [C70_unknown name h h1 h2 h3]; simp

/-- C70 fails for `dir`: the public function `erfcx` and the submodules `normal` and `semivar` resolve
but are not in `__all__` (= `dir(ufunclab)`). -/
theorem C70_dir_violated : ("erfcx" ∉ all ∧ resolve "erfcx" = .object ".normal" "erfcx") ∧
    ("normal" ∉ all ∧ resolve "normal" = .module ".normal") ∧
    ("semivar" ∉ all ∧ resolve "semivar" = .module ".semivar") := by decide +kernel

example : resolve "gini" = .object "._mad" "gini" ∧ resolve "aabbcc123" = .attributeError := by decide +kernel

end Ufunclab.LazyImport

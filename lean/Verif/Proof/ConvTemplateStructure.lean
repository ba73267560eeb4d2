import Verif.Proof.ConvTemplateHeader
namespace Ufunclab.ConvTemplate
open PyStr Template

/-! ### Occurrences of a pattern -/

/-- No occurrence of `pat` in `p ++ R` starts inside `p`. -/
def NoOcc (pat p R : Str) : Prop := ∀ k < p.length, ¬ pat <+: (p ++ R).drop k

theorem NoOcc.append {pat a b R : Str} (h1 : NoOcc pat a (b ++ R)) (h2 : NoOcc pat b R) : NoOcc pat (a ++ b) R := by
  intro k hk
  by_cases hka : k < a.length
  · rw [List.append_assoc]; exact h1 k hka
  · have := h2 (k - a.length) (by simp at hk; omega)
    rwa [List.append_assoc, List.drop_append, List.drop_eq_nil_of_le (by omega), List.nil_append]

theorem NoOcc.nil (pat R : Str) : NoOcc pat [] R := by intro k hk; simp at hk

theorem NoOcc.of_head (c : Char) (pat p R : Str) (h : c ∉ p) : NoOcc (c :: pat) p R := by
  intro k hk hpre
  rw [List.drop_append_of_le_length (by omega)] at hpre
  obtain ⟨d, q, hd⟩ : ∃ d q, p.drop k = d :: q := by
    cases hq : p.drop k with
    | nil => have := congrArg List.length hq; simp at this; omega
    | cons d q => exact ⟨d, q, rfl⟩
  rw [hd, List.cons_append, List.cons_prefix_cons] at hpre
  apply h
  rw [hpre.1]
  exact List.mem_of_mem_drop (hd ▸ List.mem_cons_self)

theorem NoOcc.single (pat : Str) (c : Char) (R : Str) (h : ¬ pat <+: c :: R) : NoOcc pat [c] R := by
  intro k hk
  have : k = 0 := by simpa using hk
  subst this
  exact h

/-- Text that does not contain `base`, followed by a character that `base` has only at its start. -/
theorem NoOcc.text (c : Char) (base pat t R : Str) (hb : base <+: pat) (hc : base.head? = some c) (hc2 : c ∉ base.tail)
    (ht : ¬ base <:+: t) (hR : R = [] ∨ R.head? = some c) : NoOcc pat t R := by
  intro k hk hpre
  have h1 : base <+: t.drop k ++ R := by
    have := hb.trans hpre
    rwa [List.drop_append_of_le_length (by omega)] at this
  by_cases hl : base.length ≤ (t.drop k).length
  · have : base <+: t.drop k := List.prefix_of_prefix_length_le h1 (List.prefix_append _ _) hl
    exact ht (this.isInfix.trans (List.drop_suffix k t).isInfix)
  · obtain ⟨b', rfl⟩ := List.prefix_of_prefix_length_le (List.prefix_append _ _) h1 (by omega)
    rw [List.prefix_append_right_inj] at h1
    cases hb' : b' with
    | nil => subst hb'; simp at hl
    | cons d b'' =>
      subst hb'
      cases hR' : R with
      | nil => rw [hR'] at h1; simp at h1
      | cons e R' =>
        rw [hR', List.cons_prefix_cons] at h1
        rw [hR'] at hR
        simp at hR
        have hd : d = c := h1.1.trans hR
        obtain ⟨x, q, hx⟩ : ∃ x q, t.drop k = x :: q := by
          cases hq : t.drop k with
          | nil => have := congrArg List.length hq; simp at this; omega
          | cons x q => exact ⟨x, q, rfl⟩
        rw [hx] at hc2
        apply hc2
        rw [hd]; simp

theorem NoOcc.star_slash (q R : Str) (h : '/' ∉ q) (hR : R.head? ≠ some '/') : NoOcc "*/".toList q R := by
  intro k hk hpre
  rw [List.drop_append_of_le_length (by omega)] at hpre
  obtain ⟨d, w, hd⟩ : ∃ d w, q.drop k = d :: w := by
    cases hq : q.drop k with
    | nil => have := congrArg List.length hq; simp at this; omega
    | cons d w => exact ⟨d, w, rfl⟩
  have hmem : ∀ x ∈ q.drop k, x ∈ q := fun x hx => List.mem_of_mem_drop hx
  rw [hd] at hpre hmem
  rw [show "*/".toList = ['*', '/'] from rfl, List.cons_append, List.cons_prefix_cons] at hpre
  cases w with
  | nil =>
    cases R with
    | nil => simp at hpre
    | cons e R => simp [List.cons_prefix_cons] at hpre; simp at hR; exact hR hpre.2.symm
  | cons e w =>
    rw [List.cons_append, List.cons_prefix_cons] at hpre
    exact h (hmem '/' (by rw [hpre.2.1]; simp))

theorem find_none (sub s : Str) (hs : sub ≠ []) (h : NoOcc sub s []) : find sub s = none := by
  induction s with
  | nil => unfold find; simp [hs]
  | cons c s ih =>
    unfold find
    rw [if_neg, ih]
    · rfl
    · intro k hk hpre
      exact h (k + 1) (by simp; omega) (by simpa using hpre)
    · rw [List.isPrefixOf_iff_prefix]
      have := h 0 (by simp)
      simpa using this

theorem pyFind_eq (s P p sub R : Str) (i : Int) (hs : s = P ++ (p ++ (sub ++ R))) (hi : i = P.length) (hno : NoOcc sub p (sub ++ R)) :
    pyFind s sub i = ((P.length + p.length : Nat) : Int) := by
  unfold pyFind
  subst hs hi
  simp only []
  rw [if_neg (by omega), Int.toNat_natCast, List.drop_left' rfl, ← List.append_assoc, find_append]
  · simp
  · intro k hk
    have := hno k hk
    rwa [List.append_assoc]

theorem pyFind_none (s P p sub : Str) (i : Int) (hs : s = P ++ p) (hi : i = P.length) (hsub : sub ≠ []) (hno : NoOcc sub p []) :
    pyFind s sub i = -1 := by
  unfold pyFind
  subst hs hi
  simp only []
  rw [if_neg (by omega), Int.toNat_natCast, List.drop_left' rfl, find_none sub p hsub hno]

theorem pySlice_mid (s A B C : Str) (a b : Int) (hs : s = A ++ B ++ C) (ha : a = A.length) (hb : b = (A.length + B.length : Nat)) :
    pySlice s a b = B := by
  unfold pySlice clampIdx
  subst hs ha hb
  rw [if_neg (by omega), if_neg (by omega), Int.toNat_natCast, Int.toNat_natCast]
  rw [Nat.min_eq_left (by simp), Nat.min_eq_left (by simp)]
  rw [List.take_left' (by simp), List.drop_left' rfl]

/-! ### Markers -/

theorem loopEnd_head (l : Nat) : ∃ r, loopEnd l = '/' :: '*' :: '*' :: 'e' :: r := ⟨_, rfl⟩
theorem loopBeg_head (l : Nat) : ∃ r, loopBeg l = '/' :: '*' :: '*' :: 'b' :: r := ⟨_, rfl⟩

theorem levelStr_inj (a b : Nat) (h : levelStr a = levelStr b) : a = b := by
  unfold levelStr at h
  split_ifs at h with h1 h2 h2
  · omega
  · exact absurd h.symm (digits_ne_nil b)
  · exact absurd h (digits_ne_nil a)
  · exact toDigits_inj a b h

theorem header_rest_not_slash (l : Nat) (vars : List Var) (ind : Nat) (h : ∀ v ∈ vars, v.Ok) :
    '/' ∉ ("**begin repeat".toList ++ levelStr l ++ ['\n'] ++ (vars.map Var.render).flatten ++ blanks ind) := by
  simp only [List.mem_append, not_or]
  refine ⟨⟨⟨⟨by decide, level_not_mem l _ (by decide)⟩, by decide⟩, ?_⟩, blanks_not_mem _ _ (by decide)⟩
  intro hm
  obtain ⟨x, hx, hm⟩ := List.mem_flatten.1 hm
  obtain ⟨v, hv, rfl⟩ := List.mem_map.1 hx
  rw [var_render] at hm
  simp only [List.mem_append, List.mem_singleton] at hm
  rcases hm with ((hm | hm) | hm) | hm
  · exact blanks_not_mem _ _ (by decide) hm
  · revert hm; decide
  · exact mid_not_slash v (h v hv) hm
  · revert hm; decide

/-- Header up to the closing `*/`. -/
def headerOpen (l : Nat) (vars : List Var) (ind : Nat) : Str :=
  ['/'] ++ ("**begin repeat".toList ++ levelStr l ++ ['\n'] ++ (vars.map Var.render).flatten ++ blanks ind)

theorem header_eq (l : Nat) (vars : List Var) (ind : Nat) : renderHeader l vars ind = headerOpen l vars ind ++ "*/\n".toList := by
  unfold renderHeader headerOpen
  rw [level_eq]
  simp

theorem noOcc_end_header (L l : Nat) (vars : List Var) (ind : Nat) (h : ∀ v ∈ vars, v.Ok) (R : Str) :
    NoOcc (loopEnd L) (renderHeader l vars ind) R := by
  obtain ⟨r, hr⟩ := loopEnd_head L
  rw [header_eq, headerOpen, show "*/\n".toList = ['*'] ++ (['/'] ++ ['\n']) from rfl, hr]
  refine NoOcc.append (NoOcc.append ?_ ?_) (NoOcc.append ?_ (NoOcc.append ?_ ?_))
  · apply NoOcc.single
    rw [show "**begin repeat".toList = '*' :: '*' :: 'b' :: "egin repeat".toList from rfl]
    simp [List.cons_prefix_cons]
  · exact NoOcc.of_head _ _ _ _ (header_rest_not_slash l vars ind h)
  · exact NoOcc.of_head _ _ _ _ (by decide)
  · apply NoOcc.single; simp [List.cons_prefix_cons]
  · exact NoOcc.of_head _ _ _ _ (by decide)

theorem noOcc_end_end (L l : Nat) (hl : l ≠ L) (R : Str) : NoOcc (loopEnd L) (loopEnd l ++ ['\n']) R := by
  obtain ⟨r, hr⟩ := loopEnd_head L
  have e : loopEnd l ++ ['\n'] = ['/'] ++ (("**end repeat".toList ++ levelStr l ++ ['*', '*']) ++ (['/'] ++ ['\n'])) := by
    unfold loopEnd; simp
  rw [e]
  refine NoOcc.append ?_ (NoOcc.append ?_ (NoOcc.append ?_ ?_))
  · apply NoOcc.single
    intro hpre
    have e2 : loopEnd L = '/' :: ("**end repeat".toList ++ (levelStr L ++ ['*', '*', '/'])) := by unfold loopEnd; simp
    rw [e2, List.cons_prefix_cons] at hpre
    have e3 : (("**end repeat".toList ++ levelStr l ++ ['*', '*']) ++ (['/'] ++ ['\n'])) ++ R =
      "**end repeat".toList ++ (levelStr l ++ '*' :: '*' :: '/' :: '\n' :: R) := by simp
    rw [e3] at hpre
    have h2 := (List.prefix_append_right_inj _).1 hpre.2
    obtain ⟨z, hz⟩ := h2
    have t1 := (takeWhile_run Char.isDigit (levelStr L) ('*' :: '*' :: '/' :: z) (level_digits L) (by intro c hc; simp at hc; rw [← hc]; rfl)).1
    have t2 := (takeWhile_run Char.isDigit (levelStr l) ('*' :: '*' :: '/' :: '\n' :: R) (level_digits l) (by intro c hc; simp at hc; rw [← hc]; rfl)).1
    have : levelStr L ++ '*' :: '*' :: '/' :: z = levelStr l ++ '*' :: '*' :: '/' :: '\n' :: R := by rw [← hz]; simp
    rw [this, t2] at t1
    exact hl (levelStr_inj _ _ t1)
  · rw [hr]
    apply NoOcc.of_head
    simp only [List.mem_append, not_or]
    exact ⟨⟨by decide, level_not_mem l _ (by decide)⟩, by decide⟩
  · rw [hr]; apply NoOcc.single; simp [List.cons_prefix_cons]
  · rw [hr]; exact NoOcc.of_head _ _ _ _ (by decide)

theorem loopEnd_base (L : Nat) : "/**end repeat".toList <+: loopEnd L := ⟨_, by unfold loopEnd; rw [List.append_assoc]⟩
theorem loopBeg_base (L : Nat) : "/**begin repeat".toList <+: loopBeg L := ⟨_, rfl⟩

theorem header_head (l : Nat) (vars : List Var) (ind : Nat) (R : Str) : (renderHeader l vars ind ++ R).head? = some '/' := rfl

theorem noOcc_end_body (L : Nat) (T : Tmpl) : ∀ l, L < l → T.Ok → ∀ R, R.head? = some '/' → NoOcc (loopEnd L) (T.render l) R := by
  induction T with
  | text t =>
    intro l hl h R hR
    exact NoOcc.text '/' _ _ _ _ (loopEnd_base L) rfl (by decide) h.2.2.2 (.inr hR)
  | loop pre vars ind body rest ih1 ih2 =>
    intro l hl h R hR
    rw [Tmpl.render]
    have e : "/**end repeat".toList ++ level l ++ "**/\n".toList = loopEnd l ++ ['\n'] := by
      unfold loopEnd; rw [level_eq, show "**/\n".toList = "**/".toList ++ ['\n'] from rfl]; simp
    rw [e]
    refine NoOcc.append (NoOcc.append (NoOcc.append (NoOcc.append ?_ ?_) ?_) ?_) ?_
    · refine NoOcc.text '/' _ _ _ _ (loopEnd_base L) rfl (by decide) h.1.2.2.2 (.inr rfl)
    · exact noOcc_end_header L l vars ind h.2.1.2.1 _
    · exact ih1 (l + 1) (by omega) h.2.2.1 _ rfl
    · exact noOcc_end_end L l (by omega) _
    · exact ih2 l hl h.2.2.2 R hR

/-! ### The spans -/

def spansOf (off nl l : Nat) : Tmpl → List Span
  | .text _ => []
  | .loop pre vars ind body rest =>
    let start := off + (renderText pre).length
    let ts := start + (renderHeader l vars ind).length
    let f1 := ts + (body.render (l + 1)).length
    let f2 := f1 + (loopEnd l).length + 1
    let line := nl + (renderText pre ++ renderHeader l vars ind).count '\n'
    ⟨start, ts, f1, f2, line⟩ :: spansOf f2 (line + (body.render (l + 1)).count '\n' + 1) l rest

def blocks : Tmpl → Nat
  | .text _ => 0
  | .loop _ _ _ _ rest => blocks rest + 1

theorem render_loop (l : Nat) (pre : List Seg) (vars : List Var) (ind : Nat) (body rest : Tmpl) :
    (Tmpl.loop pre vars ind body rest).render l =
      renderText pre ++ (renderHeader l vars ind ++ (body.render (l + 1) ++ (loopEnd l ++ (['\n'] ++ rest.render l)))) := by
  rw [Tmpl.render, level_eq]
  unfold loopEnd
  rw [show "**/\n".toList = "**/".toList ++ ['\n'] from rfl]
  simp only [List.append_assoc]

theorem loopEnd_no_newline (l : Nat) : '\n' ∉ loopEnd l := by
  unfold loopEnd
  simp only [List.mem_append, not_or]
  exact ⟨⟨by decide, level_not_mem l _ (by decide)⟩, by decide⟩

theorem structureLoop_eq (l : Nat) (T : Tmpl) : ∀ (astr P N : Str) (fuel line : Nat), T.Ok → blocks T < fuel →
    astr = P ++ (N ++ T.render l) → (N = [] ∨ N = ['\n']) →
    structureLoop astr (loopBeg l) (loopEnd l) fuel P.length line = spansOf (P.length + N.length) (line + N.count '\n') l T := by
  induction T with
  | text t =>
    intro astr P N fuel line h hf hs hN
    obtain ⟨fuel, rfl⟩ : ∃ g, fuel = g + 1 := ⟨fuel - 1, by omega⟩
    have hno : NoOcc (loopBeg l) (N ++ renderText t) [] := by
      apply NoOcc.append
      · obtain ⟨r, hr⟩ := loopBeg_head l
        rw [hr]
        rcases hN with rfl | rfl
        · exact NoOcc.nil _ _
        · exact NoOcc.of_head _ _ _ _ (by decide)
      · exact NoOcc.text '/' _ _ _ _ (loopBeg_base l) rfl (by decide) h.2.2.1 (.inl rfl)
    have hb : loopBeg l ≠ [] := by obtain ⟨r, hr⟩ := loopBeg_head l; rw [hr]; simp
    simp only [structureLoop, pyFind_none astr P (N ++ renderText t) (loopBeg l) _ hs rfl hb hno, if_true]
    rfl
  | loop pre vars ind body rest ih1 ih2 =>
    intro astr P N fuel line h hf hs hN
    obtain ⟨fuel, rfl⟩ : ∃ g, fuel = g + 1 := ⟨fuel - 1, by omega⟩
    rw [render_loop] at hs
    have hN0 : NoOcc (loopBeg l) N (renderText pre ++ (renderHeader l vars ind ++ (body.render (l + 1) ++ (loopEnd l ++ (['\n'] ++ rest.render l))))) := by
      obtain ⟨r, hr⟩ := loopBeg_head l
      rw [hr]
      rcases hN with rfl | rfl
      · exact NoOcc.nil _ _
      · exact NoOcc.of_head _ _ _ _ (by decide)
    -- the begin marker
    have f1 : pyFind astr (loopBeg l) (P.length : Int) = ((P.length + (N ++ renderText pre).length : Nat) : Int) := by
      refine pyFind_eq astr P (N ++ renderText pre) (loopBeg l) ((['\n'] ++ (vars.map Var.render).flatten ++ blanks ind ++ "*/\n".toList) ++ (body.render (l + 1) ++ (loopEnd l ++ (['\n'] ++ rest.render l)))) _ ?_ rfl ?_
      · rw [hs, header_split]; simp only [List.append_assoc]
      · apply NoOcc.append
        · rw [header_split] at hN0
          simpa only [List.append_assoc] using hN0
        · exact NoOcc.text '/' _ _ _ _ (loopBeg_base l) rfl (by decide) h.1.2.2.1 (.inr rfl)
    -- the end of the header
    have f2 : pyFind astr "*/".toList ((P.length + (N ++ renderText pre).length : Nat) : Int) =
        (((P ++ N ++ renderText pre).length + (headerOpen l vars ind).length : Nat) : Int) := by
      refine pyFind_eq astr (P ++ N ++ renderText pre) (headerOpen l vars ind) _ (['\n'] ++ (body.render (l + 1) ++ (loopEnd l ++ (['\n'] ++ rest.render l)))) _ ?_ ?_ ?_
      · rw [hs, header_eq, show "*/\n".toList = "*/".toList ++ ['\n'] from rfl]; simp only [List.append_assoc]
      · simp
      · unfold headerOpen
        apply NoOcc.append
        · exact NoOcc.of_head _ _ _ _ (by decide)
        · exact NoOcc.star_slash _ _ (header_rest_not_slash l vars ind h.2.1.2.1) (by simp)
    have f3 : pyFind astr "\n".toList (((P ++ N ++ renderText pre).length + (headerOpen l vars ind).length : Nat) : Int) =
        (((P ++ N ++ renderText pre ++ headerOpen l vars ind).length + "*/".toList.length : Nat) : Int) := by
      refine pyFind_eq astr (P ++ N ++ renderText pre ++ headerOpen l vars ind) "*/".toList _ (body.render (l + 1) ++ (loopEnd l ++ (['\n'] ++ rest.render l))) _ ?_ ?_ ?_
      · rw [hs, header_eq, show "*/\n".toList = "*/".toList ++ "\n".toList from rfl]; simp only [List.append_assoc]
      · simp only [List.length_append]
      · exact NoOcc.of_head _ _ _ _ (by decide)
    -- the end marker
    have f4 : pyFind astr (loopEnd l) (((P ++ N ++ renderText pre ++ headerOpen l vars ind).length + "*/".toList.length : Nat) : Int) =
        (((P ++ N ++ renderText pre ++ headerOpen l vars ind ++ "*/".toList).length + ("\n".toList ++ body.render (l + 1)).length : Nat) : Int) := by
      refine pyFind_eq astr (P ++ N ++ renderText pre ++ headerOpen l vars ind ++ "*/".toList) ("\n".toList ++ body.render (l + 1)) _ (['\n'] ++ rest.render l) _ ?_ ?_ ?_
      · rw [hs, header_eq, show "*/\n".toList = "*/".toList ++ "\n".toList from rfl]; simp only [List.append_assoc]
      · simp only [List.length_append]
      · apply NoOcc.append
        · obtain ⟨r, hr⟩ := loopEnd_head l
          rw [hr]
          exact NoOcc.of_head _ _ _ _ (by decide)
        · exact noOcc_end_body l body (l + 1) (by omega) h.2.2.1 _ rfl
    have f5 : pyFind astr "\n".toList (((P ++ N ++ renderText pre ++ headerOpen l vars ind ++ "*/".toList).length + ("\n".toList ++ body.render (l + 1)).length : Nat) : Int) =
        (((P ++ N ++ renderText pre ++ headerOpen l vars ind ++ "*/".toList ++ ("\n".toList ++ body.render (l + 1))).length + (loopEnd l).length : Nat) : Int) := by
      refine pyFind_eq astr (P ++ N ++ renderText pre ++ headerOpen l vars ind ++ "*/".toList ++ ("\n".toList ++ body.render (l + 1))) (loopEnd l) _ (rest.render l) _ ?_ ?_ ?_
      · rw [hs, header_eq, show "*/\n".toList = "*/".toList ++ "\n".toList from rfl]; simp only [List.append_assoc]; rfl
      · simp only [List.length_append]
      · exact NoOcc.of_head _ _ _ _ (loopEnd_no_newline l)
    have hhl : (renderHeader l vars ind).length = (headerOpen l vars ind).length + 3 := by rw [header_eq]; simp
    -- newline counts
    have c1 : pyCount astr (P.length : Int) ((((P ++ N ++ renderText pre ++ headerOpen l vars ind).length + "*/".toList.length : Nat) : Int) + 1) =
        (N ++ (renderText pre ++ renderHeader l vars ind)).count '\n' := by
      unfold pyCount
      rw [pySlice_mid astr P (N ++ (renderText pre ++ renderHeader l vars ind)) (body.render (l + 1) ++ (loopEnd l ++ (['\n'] ++ rest.render l))) _ _ ?_ rfl ?_]
      · rw [hs]; simp only [List.append_assoc]
      · simp only [List.length_append, hhl]
        simp; omega
    have c2 : pyCount astr ((((P ++ N ++ renderText pre ++ headerOpen l vars ind).length + "*/".toList.length : Nat) : Int) + 1)
        (((P ++ N ++ renderText pre ++ headerOpen l vars ind ++ "*/".toList ++ ("\n".toList ++ body.render (l + 1))).length + (loopEnd l).length : Nat) : Int) =
        (body.render (l + 1)).count '\n' := by
      unfold pyCount
      rw [pySlice_mid astr (P ++ N ++ renderText pre ++ renderHeader l vars ind) (body.render (l + 1) ++ loopEnd l) (['\n'] ++ rest.render l) _ _ ?_ ?_ ?_]
      · rw [List.count_append, List.count_eq_zero_of_not_mem (loopEnd_no_newline l)]; rfl
      · rw [hs]; simp only [List.append_assoc]
      · simp only [List.length_append, hhl]; simp; omega
      · simp only [List.length_append, hhl]; simp; omega
    simp only [structureLoop, f1, f2, f3, f4, f5, c1, c2]
    rw [if_neg (by omega)]
    have ih := ih2 astr (P ++ N ++ renderText pre ++ headerOpen l vars ind ++ "*/".toList ++ ("\n".toList ++ body.render (l + 1)) ++ loopEnd l) ['\n']
      fuel (line + (N ++ (renderText pre ++ renderHeader l vars ind)).count '\n' + (body.render (l + 1)).count '\n') h.2.2.2 (by simp only [blocks] at hf; omega) (by
        rw [hs, header_eq, show "*/\n".toList = "*/".toList ++ "\n".toList from rfl]; simp only [List.append_assoc]) (.inr rfl)
    rw [List.length_append (bs := loopEnd l)] at ih
    rw [ih]
    simp only [spansOf]
    congr 1
    · simp only [Span.mk.injEq]
      refine ⟨?_, ?_, ?_, ?_, ?_⟩
      · simp; omega
      · simp [hhl]; omega
      · simp [hhl]; omega
      · simp [hhl]; omega
      · simp only [List.count_append]; omega
    · congr 1
      · simp [hhl]; omega
      · simp only [List.count_append]; simp; omega

theorem blocks_le (l : Nat) (T : Tmpl) : blocks T ≤ (T.render l).length := by
  induction T with
  | text t => exact Nat.zero_le _
  | loop pre vars ind body rest ih1 ih2 =>
    rw [render_loop]
    simp only [blocks, List.length_append, List.length_singleton]
    omega

theorem parseStructure_eq (l : Nat) (T : Tmpl) (h : T.Ok) : parseStructure (T.render l) l = spansOf 0 0 l T := by
  have := structureLoop_eq l T (T.render l) [] [] ((T.render l).length + 2) 0 h (by have := blocks_le l T; omega) rfl (.inl rfl)
  simpa [parseStructure] using this

end Ufunclab.ConvTemplate

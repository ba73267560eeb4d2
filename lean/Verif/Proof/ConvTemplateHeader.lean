import Verif.Proof.ConvTemplate
namespace Ufunclab.ConvTemplate
open PyStr Template

/-! ### References in text -/

def segTokens : Seg → List (Str ⊕ Char)
  | .lit s => s.map .inr
  | .ref n => [.inl n]

theorem matchRef_none (T : Str) (h : T.head? ≠ some '@') : matchRef T = none := by
  unfold matchRef
  split
  · simp at h
  · rfl

theorem nameOk_isWord (n : Str) (h : NameOk n) : ∀ c ∈ n, isWord c = true := fun c hc => (isWord_iff c).2 (h.2 c hc)

theorem matches_text (t : List Seg) (h1 : ∀ s, Seg.lit s ∈ t → '@' ∉ s) (h2 : ∀ n, Seg.ref n ∈ t → NameOk n) :
    matches' matchRef (renderText t) = (t.map segTokens).flatten := by
  unfold renderText
  induction t with
  | nil => rfl
  | cons x t ih =>
    have ih := ih (fun s hs => h1 s (by simp [hs])) (fun n hn => h2 n (by simp [hn]))
    rw [List.map_cons, List.flatten_cons, List.map_cons, List.flatten_cons]
    cases x with
    | lit s =>
      rw [Seg.render, matches_prefix, ih]
      · rfl
      · intro T hT hn
        apply matchRef_none
        rw [head_append _ _ hn]
        obtain ⟨c, e1, e2⟩ := suffix_head_mem T s hT hn
        rw [e1]
        intro e
        simp only [Option.some.injEq] at e
        exact h1 s (by simp) (e ▸ e2)
    | ref n =>
      have hn := h2 n (by simp)
      rw [Seg.render, matches_match _ _ _ n (by simp), ih]
      · rfl
      · simp only [List.append_assoc, List.cons_append, List.nil_append, matchRef]
        have := takeWhile_run isWord n ('@' :: (t.map Seg.render).flatten) (nameOk_isWord n hn) (by intro c hc; simp at hc; rw [← hc]; rfl)
        rw [this.1, this.2, if_pos ⟨hn.1, rfl⟩]
        simp

theorem replaceIn_lit (env : Env) (s : Str) (t : List (Str ⊕ Char)) :
    replaceIn env (s.map .inr ++ t) = (replaceIn env t).map (s ++ ·) := by
  induction s with
  | nil => simp
  | cons c s ih =>
    simp only [List.map_cons, List.cons_append, replaceIn, ih, Option.map_map]
    rfl

def EnvEq (e e' : Env) : Prop := ∀ n, e.lookup n = e'.lookup n

theorem replaceAll_text (env env' : Env) (he : EnvEq env env') (t : List Seg) (h : TextOk t) :
    replaceAll env (renderText t) = subst env' t := by
  unfold replaceAll
  rw [matches_text t h.1 h.2.1]
  clear h
  induction t with
  | nil => rfl
  | cons x t ih =>
    cases x with
    | lit s => rw [List.map_cons, List.flatten_cons, segTokens, replaceIn_lit, ih]; rfl
    | ref n =>
      simp only [List.map_cons, List.flatten_cons, segTokens, List.cons_append, List.nil_append, replaceIn, ih, subst]
      rw [he n]

theorem lookup_append (a b : Env) (n : Str) : (a ++ b).lookup n = (a.lookup n).or (b.lookup n) := by
  induction a with
  | nil => simp
  | cons p a ih =>
    obtain ⟨k, v⟩ := p
    rw [List.cons_append, List.lookup_cons, List.lookup_cons]
    split
    · rfl
    · exact ih

theorem lookup_none (a : Env) (n : Str) (h : n ∉ a.map Prod.fst) : a.lookup n = none := by
  induction a with
  | nil => rfl
  | cons p a ih =>
    obtain ⟨k, v⟩ := p
    simp only [List.map_cons, List.mem_cons, not_or] at h
    have : (n == k) = false := by simpa using h.1
    rw [List.lookup_cons, this]
    exact ih h.2

theorem lookup_reverse (a : Env) (h : (a.map Prod.fst).Nodup) : EnvEq a.reverse a := by
  intro n
  induction a with
  | nil => rfl
  | cons p a ih =>
    obtain ⟨k, v⟩ := p
    simp only [List.map_cons, List.nodup_cons] at h
    rw [List.reverse_cons, lookup_append, ih h.2, List.lookup_cons, List.lookup_cons]
    by_cases hk : n = k
    · subst hk; rw [lookup_none a n h.1]; simp
    · have : (n == k) = false := by simpa using hk
      rw [this]; simp

theorem EnvEq.append {a a' b b' : Env} (h1 : EnvEq a a') (h2 : EnvEq b b') : EnvEq (a ++ b) (a' ++ b') := by
  intro n
  rw [lookup_append, lookup_append, h1 n, h2 n]

/-! ### Header lines -/

/-- A header line after the star and without the newline. -/
def mid (v : Var) : Str := blanks v.gap1 ++ ['#'] ++ v.name ++ blanks v.gap2 ++ ['='] ++ renderItems v.items ++ ['#']

theorem item_not_mem (c : Char) (hc : c ∉ [' ', ',', '*', '(', ')']) (hd : c.isDigit = false) (it : Item)
    (hv : ∀ v, ValueOk v → c ∉ v) (h : it.Ok) : c ∉ it.render := by
  simp only [List.mem_cons, List.not_mem_nil, or_false, not_or] at hc
  cases it with
  | plain v => exact hv v h
  | rep v n =>
    simp only [Item.render, List.mem_append, List.mem_singleton, not_or]
    exact ⟨⟨hv v h.1, hc.2.2.1⟩, digits_not_mem n c hd⟩
  | group vs n =>
    simp only [Item.render, List.mem_append, List.mem_singleton, List.mem_cons, List.not_mem_nil, or_false, not_or]
    refine ⟨⟨⟨hc.2.2.2.1, ?_⟩, hc.2.2.2.2, hc.2.2.1⟩, digits_not_mem n c hd⟩
    apply join_not_mem _ _ _ (by simpa using hc.2.1)
    intro p hp
    obtain ⟨q, hq, rfl⟩ := List.mem_map.1 hp
    exact padded_not_mem _ _ hc.1 (hv _ (h.2.1 q hq))

theorem renderItems_not_mem (c : Char) (hc : c ∉ [' ', ',', '*', '(', ')']) (hd : c.isDigit = false)
    (hv : ∀ v, ValueOk v → c ∉ v) (items : List (Nat × Item × Nat)) (h : ∀ i ∈ items, i.2.1.Ok) : c ∉ renderItems items := by
  have hc' := hc
  simp only [List.mem_cons, List.not_mem_nil, or_false, not_or] at hc'
  apply join_not_mem _ _ _ (by simpa using hc'.2.1)
  intro p hp
  obtain ⟨i, hi, rfl⟩ := List.mem_map.1 hp
  simp only [List.mem_append, not_or]
  exact ⟨⟨blanks_not_mem _ _ hc'.1, item_not_mem c hc hd _ hv (h i hi)⟩, blanks_not_mem _ _ hc'.1⟩

theorem word_ne (c d : Char) (h : word c) (hd : isWord d = false) : c ≠ d := by
  rintro rfl
  rw [(isWord_iff c).2 h] at hd
  cases hd

theorem mid_not_newline (v : Var) (h : v.Ok) : '\n' ∉ mid v := by
  unfold mid
  simp only [List.mem_append, List.mem_singleton, not_or]
  refine ⟨⟨⟨⟨⟨⟨blanks_not_mem _ _ (by decide), by decide⟩, ?_⟩, blanks_not_mem _ _ (by decide)⟩, by decide⟩, ?_⟩, by decide⟩
  · intro hm; exact word_ne _ _ (h.1.2 _ hm) (by decide) rfl
  · exact renderItems_not_mem _ (by decide) (by decide) (fun w hw => (valueOk_not_mem w hw).2.2.2.2.2.2) _ h.2.2

theorem mid_not_slash (v : Var) (h : v.Ok) : '/' ∉ mid v := by
  unfold mid
  simp only [List.mem_append, List.mem_singleton, not_or]
  refine ⟨⟨⟨⟨⟨⟨blanks_not_mem _ _ (by decide), by decide⟩, ?_⟩, blanks_not_mem _ _ (by decide)⟩, by decide⟩, ?_⟩, by decide⟩
  · intro hm; exact word_ne _ _ (h.1.2 _ hm) (by decide) rfl
  · exact renderItems_not_mem _ (by decide) (by decide) (fun w hw => (valueOk_not_mem w hw).2.2.2.2.2.1) _ h.2.2

theorem var_render (v : Var) : v.render = blanks v.indent ++ ['*'] ++ mid v ++ ['\n'] := by
  unfold Var.render mid
  simp

theorem matchAst_none (T : Str) (h : T.head? ≠ some '\n') : matchAst T = none := by
  unfold matchAst
  split
  · simp at h
  · rfl

theorem astSub_prefix (A B : Str) (h : '\n' ∉ A) : reSub matchAst (fun _ => []) (A ++ B) = A ++ reSub matchAst (fun _ => []) B := by
  apply reSub_prefix
  intro T hT hn
  apply matchAst_none
  rw [head_append _ _ hn]
  obtain ⟨c, h1, h2⟩ := suffix_head_mem T A hT hn
  rw [h1]
  intro e
  simp only [Option.some.injEq] at e
  exact h (e ▸ h2)

theorem astSub_line (n : Nat) (B : Str) :
    reSub matchAst (fun _ => []) (['\n'] ++ blanks n ++ ['*'] ++ B) = reSub matchAst (fun _ => []) B := by
  rw [reSub_match _ _ _ _ () (by simp)]
  · rfl
  · simp only [List.append_assoc, List.cons_append, List.nil_append, matchAst]
    have := takeWhile_run isSpace (blanks n) ('*' :: B) (blanks_space n) (by intro c hc; simp at hc; rw [← hc]; rfl)
    rw [this.1, this.2]
    simp only [List.head?_cons, if_true, List.length_cons, List.length_append, List.length_nil, Option.some.injEq, Prod.mk.injEq, true_and]
    omega

theorem astSub_header (vars : List Var) (h : ∀ v ∈ vars, v.Ok) (ind : Nat) :
    reSub matchAst (fun _ => []) (['\n'] ++ (vars.map Var.render).flatten ++ blanks ind ++ "*/\n".toList) =
      (vars.map mid).flatten ++ ['/'] := by
  induction vars with
  | nil =>
    have e : ['\n'] ++ (([] : List Var).map Var.render).flatten ++ blanks ind ++ "*/\n".toList = ['\n'] ++ blanks ind ++ ['*'] ++ (['/'] ++ ['\n']) := by simp
    rw [e, astSub_line, astSub_prefix _ _ (by decide)]
    rfl
  | cons v vars ih =>
    have e : ['\n'] ++ ((v :: vars).map Var.render).flatten ++ blanks ind ++ "*/\n".toList =
        ['\n'] ++ blanks v.indent ++ ['*'] ++ (mid v ++ (['\n'] ++ (vars.map Var.render).flatten ++ blanks ind ++ "*/\n".toList)) := by
      rw [List.map_cons, List.flatten_cons, var_render]; simp
    rw [e, astSub_line, astSub_prefix _ _ (mid_not_newline v (h v (by simp))), ih (fun w hw => h w (by simp [hw]))]
    simp

/-! ### Named value lists -/

theorem matchNamed_none (T : Str) (h : T.head? ≠ some '#') : matchNamed T = none := by
  unfold matchNamed
  split
  · simp at h
  · rfl

theorem findNamed_prefix (A B : Str) (h : '#' ∉ A) : findNamed (A ++ B) = findNamed B := by
  unfold findNamed
  rw [matches_prefix, List.filterMap_append]
  · have : (A.map Sum.inr).filterMap (Sum.elim some fun _ => (none : Option (Str × Str))) = [] := by
      rw [List.filterMap_map]
      simp
    rw [this]; rfl
  · intro T hT hn
    apply matchNamed_none
    rw [head_append _ _ hn]
    obtain ⟨c, h1, h2⟩ := suffix_head_mem T A hT hn
    rw [h1]
    intro e
    simp only [Option.some.injEq] at e
    exact h (e ▸ h2)

theorem findNamed_match (name vals B : Str) (n : Nat) (hname : NameOk name) (hv : '#' ∉ vals) :
    findNamed (['#'] ++ name ++ blanks n ++ ['='] ++ vals ++ ['#'] ++ B) = (name, vals) :: findNamed B := by
  unfold findNamed
  rw [matches_match _ _ _ (name, vals) (by simp)]
  · simp
  · simp only [List.append_assoc, List.cons_append, List.nil_append, matchNamed]
    obtain ⟨c0, w, e0⟩ : ∃ c w, name = c :: w := by
      cases hw : name with
      | nil => exact absurd hw hname.1
      | cons c w => exact ⟨c, w, rfl⟩
    have hc0 : isSpace c0 = false := by
      have hw := nameOk_isWord name hname c0 (by rw [e0]; simp)
      by_contra hcon
      have hs := (isSpace_iff c0).1 (by simpa using hcon)
      unfold space at hs
      simp only [List.mem_cons, List.not_mem_nil, or_false] at hs
      rcases hs with rfl | rfl | rfl | rfl | rfl | rfl <;> revert hw <;> decide
    have t1 := takeWhile_run isSpace [] (name ++ (blanks n ++ '=' :: (vals ++ '#' :: B))) (by simp) (by
      intro c hc; rw [e0] at hc; simp at hc; rw [← hc]; exact hc0)
    simp only [List.nil_append] at t1
    rw [t1.1, t1.2]
    have t2 := takeWhile_run isWord name (blanks n ++ '=' :: (vals ++ '#' :: B)) (nameOk_isWord name hname) (by
      intro c hc
      cases n with
      | zero => simp [blanks] at hc; rw [← hc]; rfl
      | succ n => simp [blanks, List.replicate_succ] at hc; rw [← hc]; rfl)
    rw [t2.1, t2.2]
    have t3 := takeWhile_run isSpace (blanks n) ('=' :: (vals ++ '#' :: B)) (blanks_space n) (by
      intro c hc; simp at hc; rw [← hc]; rfl)
    rw [t3.1, t3.2]
    have t4 := takeWhile_run (· ≠ '#') vals ('#' :: B) (fun a ha => by simp; intro e; exact hv (e ▸ ha)) (by simp)
    simp only []
    rw [t4.1, t4.2]
    simp only [List.length_cons, List.length_append, List.length_nil, Option.some.injEq, Prod.mk.injEq, true_and]
    omega

theorem findNamed_vars (vars : List Var) (h : ∀ v ∈ vars, v.Ok) :
    findNamed ((vars.map mid).flatten ++ ['/']) = vars.map fun v => (v.name, renderItems v.items) := by
  induction vars with
  | nil =>
    have := findNamed_prefix ['/'] [] (by decide)
    exact this
  | cons v vars ih =>
    have hv := h v (by simp)
    have e : ((v :: vars).map mid).flatten ++ ['/'] = blanks v.gap1 ++ (['#'] ++ v.name ++ blanks v.gap2 ++ ['='] ++ renderItems v.items ++ ['#'] ++ ((vars.map mid).flatten ++ ['/'])) := by
      rw [List.map_cons, List.flatten_cons, mid]; simp
    rw [e, findNamed_prefix _ _ (blanks_not_mem _ _ (by decide)), findNamed_match _ _ _ _ hv.1, ih (fun w hw => h w (by simp [hw]))]
    · rfl
    · exact renderItems_not_mem _ (by decide) (by decide) (fun w hw => (valueOk_not_mem w hw).2.2.2.2.1) _ hv.2.2

theorem collect_vars (vars : List Var) (h : ∀ v ∈ vars, v.Ok) (n : Nat) (hn : ∀ v ∈ vars, v.values.length = n) :
    collect (some n) (vars.map fun v => (v.name, renderItems v.items)) = some (vars.map fun v => (v.name, v.values)) := by
  induction vars with
  | nil => rfl
  | cons v vars ih =>
    have hv := h v (by simp)
    have e : parseValues (renderItems v.items) = v.values := parseValues_items _ hv.2.1 hv.2.2
    simp only [List.map_cons, collect, e]
    rw [if_neg (by simp [hn v (by simp)]), ih (fun w hw => h w (by simp [hw])) (fun w hw => hn w (by simp [hw]))]
    rfl

theorem level_eq (l : Nat) : level l = levelStr l := rfl

theorem level_digits (l : Nat) : ∀ c ∈ levelStr l, c.isDigit = true := by
  unfold levelStr
  intro c hc
  split_ifs at hc
  · simp at hc
  · exact digits_isDigit l c hc

theorem level_not_mem (l : Nat) (c : Char) (h : c.isDigit = false) : c ∉ levelStr l := by
  intro hc
  rw [level_digits l c hc] at h
  cases h

theorem header_split (l : Nat) (vars : List Var) (ind : Nat) :
    renderHeader l vars ind = loopBeg l ++ (['\n'] ++ (vars.map Var.render).flatten ++ blanks ind ++ "*/\n".toList) := by
  unfold renderHeader loopBeg
  rw [level_eq]
  simp only [List.append_assoc]

theorem loopBeg_not_mem (l : Nat) (c : Char) (h : c.isDigit = false) (h2 : c ∉ "/**begin repeat".toList) : c ∉ loopBeg l := by
  unfold loopBeg
  simp only [List.mem_append, not_or]
  exact ⟨h2, level_not_mem l c h⟩

/-- The assignments, as the dictionaries of `parse_loop_header`. -/
theorem parseLoopHeader_header (l : Nat) (vars : List Var) (ind : Nat) (h : VarsOk vars) :
    parseLoopHeader (renderHeader l vars ind) = some ((rows vars).map List.reverse) := by
  unfold parseLoopHeader
  rw [header_split, astSub_prefix _ _ (loopBeg_not_mem _ _ (by decide) (by decide)), astSub_header _ h.2.1,
    findNamed_prefix _ _ (loopBeg_not_mem _ _ (by decide) (by decide)), findNamed_vars _ h.2.1]
  cases vars with
  | nil => exact absurd rfl h.1
  | cons v vars =>
    have hv := h.2.1 v (by simp)
    have e : parseValues (renderItems v.items) = v.values := parseValues_items _ hv.2.1 hv.2.2
    have hc := collect_vars vars (fun w hw => h.2.1 w (by simp [hw])) v.values.length (fun w hw => h.2.2.2 w (by simp [hw]) v (by simp))
    simp only [List.map_cons, collect, e, hc, Option.map_some]
    simp only [rows, List.head?_cons, Option.map_some, Option.getD_some, List.map_map]
    simp [Function.comp_def]

theorem rows_envEq (vars : List Var) (h : VarsOk vars) (row : Env) (hr : row ∈ rows vars) : EnvEq row.reverse row := by
  apply lookup_reverse
  unfold rows at hr
  obtain ⟨i, _, rfl⟩ := List.mem_map.1 hr
  rw [List.map_map]
  exact h.2.2.1

end Ufunclab.ConvTemplate

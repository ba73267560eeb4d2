import Verif.Proof.ConvTemplateStructure
/-! # Property C64: conv_template expands every combination exactly once

`Template.Tmpl` (Verif/Spec/Template.lean) is the abstract syntax of templates, `Tmpl.render` its
source text and `Tmpl.expand` its meaning. -/
namespace Ufunclab.ConvTemplate
open PyStr Template

def depth : Tmpl → Nat
  | .text _ => 0
  | .loop _ _ _ body rest => max (depth body + 1) (depth rest)

theorem depth_le (l : Nat) (T : Tmpl) : depth T ≤ (T.render l).length := by
  induction T generalizing l with
  | text t => exact Nat.zero_le _
  | loop pre vars ind body rest ih1 ih2 =>
    rw [render_loop]
    have h1 := ih1 (l + 1)
    have h2 := ih2 l
    simp only [depth, List.length_append, List.length_singleton]
    omega

/-- What a body becomes. -/
def block (line : Nat) (s : Str) : Str := directive line ++ s ++ ['\n']

theorem expandEnvs_rows (rec : Env → Option Str) (f : Env → Option Str) (env env' : Env) (he : EnvEq env env') (rs : List Env)
    (hr : ∀ r ∈ rs, EnvEq r.reverse r) (hrec : ∀ e e', EnvEq e e' → rec e = f e') :
    expandEnvs rec env (rs.map List.reverse) = concatAll (rs.map fun r => f (env' ++ r)) := by
  induction rs with
  | nil => rfl
  | cons r rs ih =>
    simp only [List.map_cons, expandEnvs, concatAll]
    rw [hrec _ _ (EnvEq.append he (hr r (by simp))), ih (fun x hx => hr x (by simp [hx]))]

theorem walk_eq (l : Nat) (rec : Str → Env → Nat → Option Str) (D : Nat)
    (hrec : ∀ (B : Tmpl), B.Ok → depth B < D → ∀ (e e' : Env), EnvEq e e' → ∀ ln,
      rec (B.render (l + 1)) e ln = (B.expand (l + 1) e' ln).map (block ln)) (line : Nat) (env env' : Env) (he : EnvEq env env') (T : Tmpl) :
    ∀ (astr P : Str) (nl : Nat), T.Ok → depth T ≤ D → astr = P ++ T.render l →
      walkSpans rec astr env line (spansOf P.length nl l T) P.length = T.expand l env' (line + nl) := by
  induction T with
  | text t =>
    intro astr P nl h hd hs
    simp only [spansOf, walkSpans, Tmpl.expand]
    rw [pySlice_mid astr P (renderText t) [] _ _ (by rw [hs, Tmpl.render]; simp) rfl (by rw [hs, Tmpl.render]; simp)]
    exact replaceAll_text env env' he t h
  | loop pre vars ind body rest ih1 ih2 =>
    intro astr P nl h hd hs
    rw [render_loop] at hs
    simp only [depth] at hd
    have g1 : pySlice astr (P.length : Int) ((P.length + (renderText pre).length : Nat) : Int) = renderText pre :=
      pySlice_mid astr P (renderText pre) (renderHeader l vars ind ++ (body.render (l + 1) ++ (loopEnd l ++ (['\n'] ++ rest.render l)))) _ _
        (by rw [hs]; simp only [List.append_assoc]) rfl rfl
    have g2 : pySlice astr ((P.length + (renderText pre).length : Nat) : Int) ((P.length + (renderText pre).length + (renderHeader l vars ind).length : Nat) : Int) = renderHeader l vars ind :=
      pySlice_mid astr (P ++ renderText pre) (renderHeader l vars ind) (body.render (l + 1) ++ (loopEnd l ++ (['\n'] ++ rest.render l))) _ _
        (by rw [hs]; simp only [List.append_assoc]) (by simp) (by simp)
    have g3 : pySlice astr ((P.length + (renderText pre).length + (renderHeader l vars ind).length : Nat) : Int)
        ((P.length + (renderText pre).length + (renderHeader l vars ind).length + (body.render (l + 1)).length : Nat) : Int) = body.render (l + 1) :=
      pySlice_mid astr (P ++ renderText pre ++ renderHeader l vars ind) (body.render (l + 1)) (loopEnd l ++ (['\n'] ++ rest.render l)) _ _
        (by rw [hs]; simp only [List.append_assoc]) (by simp; omega) (by simp; omega)
    have ih := ih2 astr (P ++ (renderText pre ++ (renderHeader l vars ind ++ (body.render (l + 1) ++ (loopEnd l ++ ['\n'])))))
      (nl + (renderText pre ++ renderHeader l vars ind).count '\n' + (body.render (l + 1)).count '\n' + 1) h.2.2.2 (by omega)
      (by rw [hs]; simp only [List.append_assoc])
    have hlen : (P ++ (renderText pre ++ (renderHeader l vars ind ++ (body.render (l + 1) ++ (loopEnd l ++ ['\n']))))).length =
        P.length + (renderText pre).length + (renderHeader l vars ind).length + (body.render (l + 1)).length + (loopEnd l).length + 1 := by
      simp; omega
    rw [hlen] at ih
    simp only [spansOf, walkSpans, g1, g2, g3, parseLoopHeader_header l vars ind h.2.1, Option.bind_some]
    rw [replaceAll_text env env' he pre h.1, ih]
    rw [expandEnvs_rows _ (fun e => (body.expand (l + 1) e (line + (nl + (renderText pre ++ renderHeader l vars ind).count '\n'))).map
      (block (line + (nl + (renderText pre ++ renderHeader l vars ind).count '\n')))) env env' he _ (rows_envEq vars h.2.1)
      (fun e e' hee => hrec body h.2.2.1 (by omega) e e' hee _)]
    simp only [Tmpl.expand, Nat.add_assoc]
    rfl

theorem parseString_eq (fuel : Nat) : ∀ (l : Nat) (T : Tmpl) (env env' : Env) (line : Nat), T.Ok → depth T < fuel → EnvEq env env' →
    parseString fuel (T.render l) env l line = (T.expand l env' line).map (block line) := by
  induction fuel with
  | zero => intro l T env env' line h hd; omega
  | succ fuel ih =>
    intro l T env env' line h hd he
    have hw := walk_eq l (fun text e ln => parseString fuel text e (l + 1) ln) fuel
      (fun B hB hBd e e' hee ln => ih (l + 1) B e e' ln hB hBd hee) line env env' he T (T.render l) [] 0 h (by omega) rfl
    simp only [List.length_nil, Nat.add_zero] at hw
    have hb : ∀ s, lineDirective line ++ s ++ "\n".toList = block line s := fun s => rfl
    simp only [parseString, parseStructure_eq l T h, hb]
    congr 1
    split_ifs with hs
    · exact hw
    · have hs' : spansOf 0 0 l T = [] := by simpa using hs
      rw [hs', walkSpans] at hw
      rw [← hw, pySlice_mid (T.render l) [] (T.render l) [] ((0 : Nat) : Int) ((T.render l).length : Int) (by simp) rfl (by simp)]

/-- C64: the expansion of every well-formed template is what the template means: text is copied
with every `@name@` replaced by its value; a repeat block is copied once per assignment, in
order, the `i`-th copy using the `i`-th value of every variable, nested blocks in all
combinations, with `#line` directives that give the line number of the copied body.  An
undefined name gives ValueError. -/
theorem C64_expand (T : Tmpl) (h : T.Ok) :
    processStr (T.render 0) = (T.expand 0 [] 1).map fun s => directive 1 ++ s ++ ['\n'] := by
  unfold processStr
  exact parseString_eq _ 0 T [] [] 1 h (by have := depth_le 0 T; omega) (fun _ => rfl)

/-- C64: value lists: `v*n` stands for `n` copies of `v`, `(v1,v2,...)*n` for `n` copies of the
list, blanks around values do not matter. -/
theorem C64_values (items : List (Nat × Item × Nat)) (hne : items ≠ []) (h : ∀ i ∈ items, i.2.1.Ok) :
    parseValues (renderItems items) = (items.map fun i => i.2.1.values).flatten := parseValues_items items hne h

/-- C64: the assignments of a block header. -/
theorem C64_header (l : Nat) (vars : List Var) (ind : Nat) (h : VarsOk vars) :
    ∃ envs, parseLoopHeader (renderHeader l vars ind) = some envs ∧ envs.length = (rows vars).length ∧
      ∀ i (h1 : i < envs.length) (h2 : i < (rows vars).length), ∀ v ∈ vars, envs[i].lookup v.name = v.values[i]? := by
  refine ⟨_, parseLoopHeader_header l vars ind h, by simp, ?_⟩
  intro i h1 h2 v hv
  have e := rows_envEq vars h ((rows vars)[i]) (List.getElem_mem h2) v.name
  rw [List.getElem_map, e]
  have hlen : ∀ w ∈ vars, w.values.length = (rows vars).length := by
    intro w hw
    unfold rows
    cases hvars : vars with
    | nil => rw [hvars] at hw; simp at hw
    | cons v0 vs => simp; exact h.2.2.2 w hw v0 (by rw [hvars]; simp)
  have hi : i < v.values.length := by rw [hlen v hv]; exact h2
  have e2 : (rows vars)[i] = vars.map fun v => (v.name, v.values.getD i []) := by
    unfold rows; simp
  rw [e2, List.getElem?_eq_getElem hi]
  have : ∀ (vs : List Var), v ∈ vs → (vs.map Var.name).Nodup → (vs.map fun v => (v.name, v.values.getD i [])).lookup v.name = some (v.values.getD i []) := by
    intro vs
    induction vs with
    | nil => intro h; simp at h
    | cons w vs ih =>
      intro hm hn
      rw [List.map_cons, List.lookup_cons]
      simp only [List.map_cons, List.nodup_cons] at hn
      rcases List.mem_cons.1 hm with rfl | hm
      · simp
      · have : (v.name == w.name) = false := by
          simp only [beq_eq_false_iff_ne, ne_eq]
          intro e
          exact hn.1 (e ▸ List.mem_map_of_mem hm)
        rw [this]
        exact ih hm hn.2
  rw [this vars hv h.2.2.1]
  simp [List.getD_eq_getElem?_getD, List.getElem?_eq_getElem hi]

theorem collect_mismatch (vars : List Var) (h : ∀ v ∈ vars, v.Ok) (n : Nat) (hn : ∃ v ∈ vars, v.values.length ≠ n) :
    collect (some n) (vars.map fun v => (v.name, renderItems v.items)) = none := by
  induction vars with
  | nil => obtain ⟨v, hv, _⟩ := hn; simp at hv
  | cons v vars ih =>
    have hv := h v (by simp)
    have e : parseValues (renderItems v.items) = v.values := parseValues_items _ hv.2.1 hv.2.2
    simp only [List.map_cons, collect, e]
    by_cases hl : n = v.values.length
    · rw [if_neg (by simpa using hl)]
      obtain ⟨w, hw, hwn⟩ := hn
      rcases List.mem_cons.1 hw with rfl | hw
      · exact absurd hl.symm hwn
      · rw [ih (fun x hx => h x (by simp [hx])) ⟨w, hw, hwn⟩]; rfl
    · rw [if_pos hl]

/-- C64: value lists of different lengths, or a header without variables, raise ValueError. -/
theorem C64_mismatch (l : Nat) (vars : List Var) (ind : Nat) (h : ∀ v ∈ vars, v.Ok)
    (hbad : vars = [] ∨ ∃ v ∈ vars, ∃ w ∈ vars, v.values.length ≠ w.values.length) :
    parseLoopHeader (renderHeader l vars ind) = none := by
  unfold parseLoopHeader
  rw [header_split, astSub_prefix _ _ (loopBeg_not_mem _ _ (by decide) (by decide)), astSub_header _ h,
    findNamed_prefix _ _ (loopBeg_not_mem _ _ (by decide) (by decide)), findNamed_vars _ h]
  cases vars with
  | nil => rfl
  | cons v0 vs =>
    have hv := h v0 (by simp)
    have e : parseValues (renderItems v0.items) = v0.values := parseValues_items _ hv.2.1 hv.2.2
    have : ∃ v ∈ vs, v.values.length ≠ v0.values.length := by
      rcases hbad with hb | ⟨v, hv, w, hw, hne⟩
      · simp at hb
      · by_contra hcon
        push Not at hcon
        have : ∀ x ∈ v0 :: vs, x.values.length = v0.values.length := by
          intro x hx
          rcases List.mem_cons.1 hx with rfl | hx
          · rfl
          · exact hcon x hx
        exact hne ((this v hv).trans (this w hw).symm)
    simp only [List.map_cons, collect, e, collect_mismatch vs (fun x hx => h x (by simp [hx])) _ this, Option.map_none]

/-- C64: a name defined by an enclosing block keeps that value in an inner block that defines
the name again. -/
theorem C64_outer_wins (outer row : List (Str × Str)) (name v : Str) (h : outer.lookup name = some v) (t : List Seg) :
    subst (outer ++ row) (.ref name :: t) = (subst (outer ++ row) t).map (v ++ ·) := by
  simp [subst, lookup_append, h]

/-- C64, violated: the documented `:exclude:` line has no effect; the header with it gives the
same assignments as the header without it. -/
theorem C64_exclude_violated (l : Nat) (vars : List Var) (ind k : Nat) (excl : Str) (h : VarsOk vars) (he : '#' ∉ excl) (hn : '\n' ∉ excl) :
    parseLoopHeader (loopBeg l ++ (['\n'] ++ (blanks k ++ ['*'] ++ excl ++ ['\n']) ++ (vars.map Var.render).flatten ++ blanks ind ++ "*/\n".toList)) =
      parseLoopHeader (renderHeader l vars ind) := by
  have e : reSub matchAst (fun _ => []) (loopBeg l ++ (['\n'] ++ (blanks k ++ ['*'] ++ excl ++ ['\n']) ++ (vars.map Var.render).flatten ++ blanks ind ++ "*/\n".toList)) =
      loopBeg l ++ (excl ++ ((vars.map mid).flatten ++ ['/'])) := by
    rw [astSub_prefix _ _ (loopBeg_not_mem _ _ (by decide) (by decide))]
    have e2 : ['\n'] ++ (blanks k ++ ['*'] ++ excl ++ ['\n']) ++ (vars.map Var.render).flatten ++ blanks ind ++ "*/\n".toList =
        ['\n'] ++ blanks k ++ ['*'] ++ (excl ++ (['\n'] ++ (vars.map Var.render).flatten ++ blanks ind ++ "*/\n".toList)) := by simp
    rw [e2, astSub_line, astSub_prefix _ _ hn, astSub_header _ h.2.1]
  unfold parseLoopHeader
  rw [e, header_split, astSub_prefix _ _ (loopBeg_not_mem _ _ (by decide) (by decide)), astSub_header _ h.2.1,
    findNamed_prefix _ _ (loopBeg_not_mem _ _ (by decide) (by decide)), findNamed_prefix _ _ he,
    findNamed_prefix _ _ (loopBeg_not_mem _ _ (by decide) (by decide))]

/-- C64, violated: `v*0` stands for one empty value, not for none. -/
theorem C64_zero_violated (v : Str) (hv : ValueOk v) (hne : v ≠ []) : parseValues (v ++ ['*'] ++ Nat.toDigits 10 0) = [[]] := by
  have hm := valueOk_not_mem v hv
  have e1 : reSub matchParen parenRepl (v ++ ['*'] ++ Nat.toDigits 10 0) = v ++ ['*'] ++ Nat.toDigits 10 0 := by
    have := parenSub_prefix (v ++ ['*'] ++ Nat.toDigits 10 0) [] (by
      simp only [List.mem_append, not_or]
      exact ⟨⟨hm.2.2.1, by decide⟩, digits_not_mem _ _ (by decide)⟩)
    simpa using this
  have e2 : split [','] (v ++ ['*'] ++ Nat.toDigits 10 0) = [v ++ ['*'] ++ Nat.toDigits 10 0] := by
    have := split_join_char ',' [v ++ ['*'] ++ Nat.toDigits 10 0] (by simp) (by
      intro p hp
      rw [List.mem_singleton.1 hp]
      simp only [List.mem_append, not_or]
      exact ⟨⟨hm.1, by decide⟩, digits_not_mem _ _ (by decide)⟩)
    simpa [join] using this
  have e3 : strip (v ++ ['*'] ++ Nat.toDigits 10 0) = v ++ ['*'] ++ Nat.toDigits 10 0 := by
    have := strip_padded 0 0 (v ++ ['*'] ++ Nat.toDigits 10 0) (by
      intro c hc
      rw [List.append_assoc, head_append _ _ hne] at hc
      exact hv.2.1 c hc) (by
      intro c hc
      rw [List.getLast?_append_of_ne_nil _ (digits_ne_nil 0)] at hc
      have : c = '0' := by simpa using hc.symm
      subst this
      unfold space; decide)
    simpa [blanks] using this
  unfold parseValues
  rw [e1, e2]
  simp only [List.map_cons, List.map_nil, e3, plainSub_rep v 0 hm.2.1 hne]
  exact split_join_char ',' [[]] (by simp) (by simp)

/-- C64, violated: a loop without an end marker is not an error.  The body is then everything up
to, but not including, the last character of the source. -/
theorem C64_missing_end_violated :
    processStr "A\n/**begin repeat\n * #a = 1,2#\n */\nx@a@;\ny\n".toList =
      some "#line 1\nA\n#line 5\nx1;\ny\n#line 5\nx2;\ny\n\n".toList := by decide +kernel

/-- C64, violated: when the last end marker is not followed by a newline, the whole source is
copied once more after the expansion (`find` returns -1 and the copy of the rest starts at 0),
or the references in it raise ValueError.  With the newline, the part `r` is empty. -/
theorem C64_final_newline_violated (pre : List Seg) (vars : List Var) (ind : Nat) (body : Tmpl)
    (h : (Tmpl.loop pre vars ind body (.text [])).Ok) (src : Str)
    (hsrc : src = renderText pre ++ (renderHeader 0 vars ind ++ (body.render 1 ++ loopEnd 0))) :
    processStr src =
      ((subst [] pre).bind fun p =>
       (concatAll ((rows vars).map fun row =>
          (body.expand 1 row (1 + (renderText pre ++ renderHeader 0 vars ind).count '\n')).map
            (block (1 + (renderText pre ++ renderHeader 0 vars ind).count '\n')))).bind fun b =>
       (replaceAll [] src).map fun r => p ++ b ++ r).map (block 1) := by
  have hend : loopEnd 0 = "/**end repeat**/".toList := rfl
  have hspans : parseStructure src 0 = [⟨(renderText pre).length, ((renderText pre).length + (renderHeader 0 vars ind).length : Nat),
      ((renderText pre).length + (renderHeader 0 vars ind).length + (body.render 1).length : Nat), 0,
      (renderText pre ++ renderHeader 0 vars ind).count '\n'⟩] := by
    have f1 : pyFind src (loopBeg 0) 0 = ((([] : Str).length + (renderText pre).length : Nat) : Int) := by
      refine pyFind_eq src [] (renderText pre) (loopBeg 0) ((['\n'] ++ (vars.map Var.render).flatten ++ blanks ind ++ "*/\n".toList) ++ (body.render 1 ++ loopEnd 0)) _ ?_ rfl ?_
      · rw [hsrc, header_split]; simp only [List.append_assoc, List.nil_append]
      · exact NoOcc.text '/' _ _ _ _ (loopBeg_base 0) rfl (by decide) h.1.2.2.1 (.inr rfl)
    have f2 : pyFind src "*/".toList ((([] : Str).length + (renderText pre).length : Nat) : Int) =
        (((renderText pre).length + (headerOpen 0 vars ind).length : Nat) : Int) := by
      refine pyFind_eq src (renderText pre) (headerOpen 0 vars ind) _ (['\n'] ++ (body.render 1 ++ loopEnd 0)) _ ?_ ?_ ?_
      · rw [hsrc, header_eq, show "*/\n".toList = "*/".toList ++ ['\n'] from rfl]; simp only [List.append_assoc]
      · simp
      · unfold headerOpen
        apply NoOcc.append
        · exact NoOcc.of_head _ _ _ _ (by decide)
        · exact NoOcc.star_slash _ _ (header_rest_not_slash 0 vars ind h.2.1.2.1) (by simp)
    have f3 : pyFind src "\n".toList (((renderText pre).length + (headerOpen 0 vars ind).length : Nat) : Int) =
        (((renderText pre ++ headerOpen 0 vars ind).length + "*/".toList.length : Nat) : Int) := by
      refine pyFind_eq src (renderText pre ++ headerOpen 0 vars ind) "*/".toList _ (body.render 1 ++ loopEnd 0) _ ?_ ?_ ?_
      · rw [hsrc, header_eq, show "*/\n".toList = "*/".toList ++ "\n".toList from rfl]; simp only [List.append_assoc]
      · simp only [List.length_append]
      · exact NoOcc.of_head _ _ _ _ (by decide)
    have f4 : pyFind src (loopEnd 0) (((renderText pre ++ headerOpen 0 vars ind).length + "*/".toList.length : Nat) : Int) =
        (((renderText pre ++ headerOpen 0 vars ind ++ "*/".toList).length + ("\n".toList ++ body.render 1).length : Nat) : Int) := by
      refine pyFind_eq src (renderText pre ++ headerOpen 0 vars ind ++ "*/".toList) ("\n".toList ++ body.render 1) _ [] _ ?_ ?_ ?_
      · rw [hsrc, header_eq, show "*/\n".toList = "*/".toList ++ "\n".toList from rfl]; simp only [List.append_assoc, List.append_nil]
      · simp only [List.length_append]
      · apply NoOcc.append
        · obtain ⟨r, hr⟩ := loopEnd_head 0
          rw [hr]
          exact NoOcc.of_head _ _ _ _ (by decide)
        · exact noOcc_end_body 0 body 1 (by omega) h.2.2.1 _ rfl
    have f5 : pyFind src "\n".toList (((renderText pre ++ headerOpen 0 vars ind ++ "*/".toList).length + ("\n".toList ++ body.render 1).length : Nat) : Int) = -1 := by
      refine pyFind_none src (renderText pre ++ headerOpen 0 vars ind ++ "*/".toList ++ ("\n".toList ++ body.render 1)) (loopEnd 0) _ _ ?_ ?_ (by simp) ?_
      · rw [hsrc, header_eq, show "*/\n".toList = "*/".toList ++ "\n".toList from rfl]; simp only [List.append_assoc]
      · simp only [List.length_append]
      · exact NoOcc.of_head _ _ _ _ (loopEnd_no_newline 0)
    have hlen : src.length = (renderText pre ++ (renderHeader 0 vars ind ++ (body.render 1 ++ "/**end repeat**".toList))).length + 1 := by
      rw [hsrc, hend]; simp; omega
    have f6 : pyFind src (loopBeg 0) (-1) = -1 := by
      have hd : src.drop ((src.length : Int) + -1).toNat = ['/'] := by
        rw [show ((src.length : Int) + -1).toNat = (renderText pre ++ (renderHeader 0 vars ind ++ (body.render 1 ++ "/**end repeat**".toList))).length by omega]
        have : src = (renderText pre ++ (renderHeader 0 vars ind ++ (body.render 1 ++ "/**end repeat**".toList))) ++ ['/'] := by
          rw [hsrc, hend]; simp
        rw [this, List.drop_left' rfl]
      unfold pyFind
      simp only []
      rw [if_pos (by omega), hd]
      rfl
    have hhl : (renderHeader 0 vars ind).length = (headerOpen 0 vars ind).length + 3 := by rw [header_eq]; simp
    have c1 : pyCount src 0 ((((renderText pre ++ headerOpen 0 vars ind).length + "*/".toList.length : Nat) : Int) + 1) =
        (renderText pre ++ renderHeader 0 vars ind).count '\n' := by
      unfold pyCount
      rw [pySlice_mid src [] (renderText pre ++ renderHeader 0 vars ind) (body.render 1 ++ loopEnd 0) 0 _ ?_ rfl ?_]
      · rw [hsrc]; simp only [List.append_assoc, List.nil_append]
      · simp only [List.length_append, hhl]
        simp; omega
    unfold parseStructure
    rw [show src.length + 2 = (src.length + 1) + 1 from rfl]
    simp only [structureLoop, f1, f2, f3, f4, f5, f6, c1, if_true, Nat.zero_add]
    rw [if_neg (by omega)]
    simp only [List.cons.injEq, Span.mk.injEq, and_true]
    refine ⟨by simp, by simp [hhl]; omega, by simp [hhl]; omega, rfl⟩
  have hdepth : depth body < src.length := by
    have := depth_le 1 body
    rw [hsrc, hend]; simp; omega
  have g1 : pySlice src 0 (((renderText pre).length : Nat) : Int) = renderText pre :=
    pySlice_mid src [] (renderText pre) (renderHeader 0 vars ind ++ (body.render 1 ++ loopEnd 0)) _ _ (by rw [hsrc]; simp only [List.append_assoc, List.nil_append]) rfl (by simp)
  have g2 : pySlice src (((renderText pre).length : Nat) : Int) (((renderText pre).length + (renderHeader 0 vars ind).length : Nat) : Int) = renderHeader 0 vars ind :=
    pySlice_mid src (renderText pre) (renderHeader 0 vars ind) (body.render 1 ++ loopEnd 0) _ _ (by rw [hsrc]; simp only [List.append_assoc]) rfl rfl
  have g3 : pySlice src (((renderText pre).length + (renderHeader 0 vars ind).length : Nat) : Int)
      (((renderText pre).length + (renderHeader 0 vars ind).length + (body.render 1).length : Nat) : Int) = body.render 1 :=
    pySlice_mid src (renderText pre ++ renderHeader 0 vars ind) (body.render 1) (loopEnd 0) _ _ (by rw [hsrc]; simp only [List.append_assoc]) (by simp) (by simp)
  have g4 : pySlice src 0 (src.length : Int) = src := pySlice_mid src [] src [] _ _ (by simp) rfl (by simp)
  have hb : ∀ s, lineDirective 1 ++ s ++ "\n".toList = block 1 s := fun s => rfl
  unfold processStr
  simp only [parseString, hspans, hb]
  congr 1
  rw [if_pos (by simp)]
  simp only [walkSpans, g1, g2, g3, g4, parseLoopHeader_header 0 vars ind h.2.1, Option.bind_some]
  rw [replaceAll_text [] [] (fun _ => rfl) pre h.1]
  rw [expandEnvs_rows _ (fun e => (body.expand 1 e (1 + (renderText pre ++ renderHeader 0 vars ind).count '\n')).map
      (block (1 + (renderText pre ++ renderHeader 0 vars ind).count '\n'))) [] [] (fun _ => rfl) _ (rows_envEq vars h.2.1)
      (fun e e' hee => parseString_eq src.length 1 body e e' _ h.2.2.1 hdepth hee)]
  rfl

/-! ### Non-vacuity -/

/-- `/**begin repeat … @a@@b@ … /**begin repeat1 … @a@@c@ …`. -/
def sample : Tmpl :=
  .loop [.lit "int x;\n".toList]
    [⟨1, 1, "a".toList, 1, [(1, .plain "u".toList, 0), (1, .rep "v".toList 2, 0)]⟩,
     ⟨1, 1, "b".toList, 1, [(1, .group [(0, "p".toList, 0), (1, "q".toList, 0), (0, [], 0)] 1, 1)]⟩] 1
    (.loop [.ref "a".toList, .ref "b".toList, .lit "\n".toList] [⟨1, 1, "c".toList, 1, [(1, .plain "ted".toList, 0), (1, .plain "jim".toList, 1)]⟩] 1
      (.text [.ref "a".toList, .lit ", ".toList, .ref "c".toList, .lit "\n".toList]) (.text []))
    (.text [.lit "end\n".toList])

/-- All suffixes. -/
def suffixes : Str → List Str
  | [] => [[]]
  | c :: s => (c :: s) :: suffixes s

theorem mem_suffixes (s t : Str) (h : t <:+ s) : t ∈ suffixes s := by
  induction s with
  | nil => simp [suffixes, List.suffix_nil.1 h]
  | cons c s ih =>
    rcases List.suffix_cons_iff.1 h with rfl | h
    · simp [suffixes]
    · simp [suffixes, ih h]

theorem infix_decide (p s : Str) (h : ((suffixes s).any fun t => p.isPrefixOf t) = false) : ¬ p <:+: s := by
  intro hp
  obtain ⟨a, b, hab⟩ := hp
  have : (p ++ b) ∈ suffixes s := mem_suffixes _ _ ⟨a, by rw [← hab]; simp⟩
  have h2 : ((suffixes s).any fun t => p.isPrefixOf t) = true := List.any_eq_true.2 ⟨p ++ b, this, by
    rw [List.isPrefixOf_iff_prefix]; exact List.prefix_append _ _⟩
  rw [h] at h2; cases h2

instance (c : Char) : Decidable (space c) := by unfold space; infer_instance
instance (c : Char) : Decidable (word c) := by unfold word; infer_instance

theorem sample_ok : sample.Ok := by
  have nm : ∀ c : Char, c.isAlphanum = true → NameOk [c] := fun c h => ⟨by simp, by simp [word, h]⟩
  refine ⟨⟨by simp, by simp, infix_decide _ _ (by decide), infix_decide _ _ (by decide)⟩, ?_, ⟨⟨?_, ?_, infix_decide _ _ (by decide), infix_decide _ _ (by decide)⟩, ?_, ⟨?_, ?_, infix_decide _ _ (by decide), infix_decide _ _ (by decide)⟩, ⟨by simp, by simp, infix_decide _ _ (by decide), infix_decide _ _ (by decide)⟩⟩, ⟨by simp, by simp, infix_decide _ _ (by decide), infix_decide _ _ (by decide)⟩⟩
  · refine ⟨by simp, ?_, by decide, ?_⟩
    · intro v hv
      simp only [List.mem_cons, List.not_mem_nil, or_false] at hv
      rcases hv with rfl | rfl
      · exact ⟨nm 'a' rfl, by simp, by simp [Item.Ok, ValueOk, space]⟩
      · refine ⟨nm 'b' rfl, by simp, ?_⟩
        intro i hi
        rw [List.mem_singleton.1 hi]
        refine ⟨by simp, ?_, by decide⟩
        intro p hp
        simp only [List.mem_cons, List.not_mem_nil, or_false] at hp
        rcases hp with rfl | rfl | rfl <;> simp [ValueOk, space]
    · intro v hv w hw
      simp only [List.mem_cons, List.not_mem_nil, or_false] at hv hw
      rcases hv with rfl | rfl <;> rcases hw with rfl | rfl <;> rfl
  · simp
  · intro n hn; simp at hn; rcases hn with rfl | rfl
    · exact nm 'a' rfl
    · exact nm 'b' rfl
  · refine ⟨by simp, ?_, by decide, ?_⟩
    · intro v hv
      simp only [List.mem_cons, List.not_mem_nil, or_false] at hv
      subst hv
      exact ⟨nm 'c' rfl, by simp, by simp [Item.Ok, ValueOk, space]⟩
    · intro v hv w hw
      simp only [List.mem_cons, List.not_mem_nil, or_false] at hv hw
      subst hv hw; rfl
  · simp
  · intro n hn; simp at hn; rcases hn with rfl | rfl
    · exact nm 'a' rfl
    · exact nm 'c' rfl

example : (processStr (sample.render 0)).isSome = true := by
  rw [C64_expand sample sample_ok]; decide

end Ufunclab.ConvTemplate

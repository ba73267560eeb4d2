import Verif.Model.ConvTemplate
import Verif.Spec.Template
import Verif.Proof.PyStr
import Mathlib.Data.List.Basic
namespace Ufunclab.ConvTemplate
open PyStr Template

/-! ### Runs of characters -/

theorem takeWhile_run (p : Char → Bool) (A B : Str) (hA : ∀ a ∈ A, p a = true) (hB : ∀ c, B.head? = some c → p c = false) :
    (A ++ B).takeWhile p = A ∧ (A ++ B).dropWhile p = B := by
  induction A with
  | nil =>
    cases B with
    | nil => simp
    | cons c B => have := hB c rfl; simp [List.takeWhile_cons, List.dropWhile_cons, this]
  | cons a A ih =>
    have h1 := hA a (by simp)
    have h2 := ih (fun x hx => hA x (by simp [hx]))
    simp [List.takeWhile_cons, List.dropWhile_cons, h1, h2.1, h2.2]

/-! ### Scanning -/

variable {β : Type}

theorem scan_fuel (m : Str → Option (β × Nat)) (k : Nat) : ∀ (s : Str) (f : Nat), s.length ≤ k → k ≤ f → scan m f s = scan m k s := by
  induction k with
  | zero =>
    intro s f h1 h2
    have : s = [] := List.length_eq_zero_iff.1 (by omega)
    subst this
    cases f <;> rfl
  | succ k ih =>
    intro s f h1 h2
    obtain ⟨f, rfl⟩ : ∃ g, f = g + 1 := ⟨f - 1, by omega⟩
    cases s with
    | nil => rfl
    | cons c s =>
      have hs : s.length ≤ k := by simpa using h1
      simp only [scan]
      cases m (c :: s) with
      | none => simp only; rw [ih s f hs (by omega)]
      | some bn =>
        obtain ⟨b, n⟩ := bn
        simp only
        rw [ih (s.drop (n - 1)) f (by simp only [List.length_drop]; omega) (by omega)]

@[simp] theorem matches_nil (m : Str → Option (β × Nat)) : matches' m [] = [] := rfl

theorem matches_none (m : Str → Option (β × Nat)) (c : Char) (s : Str) (h : m (c :: s) = none) :
    matches' m (c :: s) = .inr c :: matches' m s := by
  simp only [matches', List.length_cons, scan, h]

theorem matches_some (m : Str → Option (β × Nat)) (c : Char) (s : Str) (b : β) (n : Nat) (h : m (c :: s) = some (b, n)) :
    matches' m (c :: s) = .inl b :: matches' m (s.drop (n - 1)) := by
  simp only [matches', List.length_cons, scan, h]
  rw [scan_fuel m (s.drop (n - 1)).length _ s.length (by omega) (by simp only [List.length_drop]; omega)]

theorem matches_prefix (m : Str → Option (β × Nat)) (A B : Str) (h : ∀ T, T <:+ A → T ≠ [] → m (T ++ B) = none) :
    matches' m (A ++ B) = A.map .inr ++ matches' m B := by
  induction A with
  | nil => rfl
  | cons a A ih =>
    have h0 : m (a :: (A ++ B)) = none := h (a :: A) List.suffix_rfl (by simp)
    rw [List.cons_append, matches_none _ _ _ h0, ih (fun T hT hn => h T (hT.trans (List.suffix_cons a A)) hn)]
    rfl

/-- A match that consumes exactly `A`. -/
theorem matches_match (m : Str → Option (β × Nat)) (A B : Str) (b : β) (hA : A ≠ []) (h : m (A ++ B) = some (b, A.length)) :
    matches' m (A ++ B) = .inl b :: matches' m B := by
  cases A with
  | nil => exact absurd rfl hA
  | cons a A =>
    rw [List.cons_append] at h ⊢
    rw [matches_some _ _ _ _ _ h]
    simp

theorem reSub_prefix (m : Str → Option (β × Nat)) (repl : β → Str) (A B : Str) (h : ∀ T, T <:+ A → T ≠ [] → m (T ++ B) = none) :
    reSub m repl (A ++ B) = A ++ reSub m repl B := by
  unfold reSub
  rw [matches_prefix m A B h]
  simp only [List.map_append, List.flatten_append, List.map_map]
  congr 1
  induction A with
  | nil => rfl
  | cons a A ih => simp only [List.map_cons, List.flatten_cons, Function.comp, Sum.elim_inr]
                   rw [show (List.map (Sum.elim repl (fun c => [c]) ∘ Sum.inr) A).flatten = A from ih (fun T hT hn => h T (hT.trans (List.suffix_cons a A)) hn)]
                   rfl

theorem reSub_match (m : Str → Option (β × Nat)) (repl : β → Str) (A B : Str) (b : β) (hA : A ≠ []) (h : m (A ++ B) = some (b, A.length)) :
    reSub m repl (A ++ B) = repl b ++ reSub m repl B := by
  unfold reSub
  rw [matches_match m A B b hA h]
  simp

@[simp] theorem reSub_nil (m : Str → Option (β × Nat)) (repl : β → Str) : reSub m repl [] = [] := rfl

/-! ### Numbers -/

theorem digits_ne_nil (n : Nat) : Nat.toDigits 10 n ≠ [] := Nat.toDigits_ne_nil
theorem digits_isDigit (n : Nat) (c : Char) (h : c ∈ Nat.toDigits 10 n) : c.isDigit = true :=
  Nat.isDigit_of_mem_toDigits (by omega) (by omega) h

theorem pyInt_toDigits (n : Nat) : pyInt (Nat.toDigits 10 n) = some n := by
  unfold pyInt
  rw [if_pos ⟨digits_ne_nil n, List.all_eq_true.2 (digits_isDigit n)⟩]
  congr 1
  have := Nat.ofDigitChars_ten_toDigits (n := n)
  rw [Nat.ofDigitChars_eq_foldl] at this
  conv_rhs => rw [← this]
  congr 1
  funext a c
  rw [Nat.mul_comm]

theorem toDigits_inj (a b : Nat) (h : Nat.toDigits 10 a = Nat.toDigits 10 b) : a = b := by
  have h1 := pyInt_toDigits a
  rw [h, pyInt_toDigits b] at h1
  exact (Option.some.inj h1).symm

theorem matchDigits_toDigits (n : Nat) (B : Str) (hB : ∀ c, B.head? = some c → c.isDigit = false) :
    matchDigits (Nat.toDigits 10 n ++ B) = some (n, (Nat.toDigits 10 n).length) := by
  unfold matchDigits
  rw [(takeWhile_run Char.isDigit _ B (digits_isDigit n) hB).1, pyInt_toDigits]
  rfl

/-! ### Value lists -/

theorem matchParen_none (T : Str) (h : T.head? ≠ some '(') : matchParen T = none := by
  unfold matchParen
  split
  · simp at h
  · rfl

theorem suffix_head_mem (T A : Str) (h : T <:+ A) (hn : T ≠ []) : ∃ c, T.head? = some c ∧ c ∈ A := by
  cases T with
  | nil => exact absurd rfl hn
  | cons c T => exact ⟨c, rfl, h.subset (by simp)⟩

theorem head_append (T B : Str) (hn : T ≠ []) : (T ++ B).head? = T.head? := by
  cases T with
  | nil => exact absurd rfl hn
  | cons c T => rfl

theorem parenSub_prefix (A B : Str) (h : '(' ∉ A) : reSub matchParen parenRepl (A ++ B) = A ++ reSub matchParen parenRepl B := by
  apply reSub_prefix
  intro T hT hn
  apply matchParen_none
  rw [head_append _ _ hn]
  obtain ⟨c, h1, h2⟩ := suffix_head_mem T A hT hn
  rw [h1]
  intro e
  simp only [Option.some.injEq] at e
  exact h (e ▸ h2)

theorem parenSub_group (inner : Str) (n : Nat) (B : Str) (h : ')' ∉ inner) (hB : ∀ c, B.head? = some c → c.isDigit = false) :
    reSub matchParen parenRepl (['('] ++ inner ++ [')', '*'] ++ Nat.toDigits 10 n ++ B) =
      join [','] (List.replicate n inner) ++ reSub matchParen parenRepl B := by
  rw [reSub_match _ _ _ _ (inner, n) (by simp)]
  · rfl
  · simp only [List.cons_append, List.nil_append, List.append_assoc, matchParen]
    have := takeWhile_run (· ≠ ')') inner (')' :: '*' :: (Nat.toDigits 10 n ++ B)) (fun a ha => by simp; intro e; exact h (e ▸ ha)) (by simp)
    rw [this.1, this.2]
    simp only [matchDigits_toDigits n B hB]
    simp only [Option.map_some, List.length_cons, List.length_append, Option.some.injEq, Prod.mk.injEq, true_and]
    omega

theorem matchPlain_none (s : Str) (h : '*' ∉ s) : matchPlain s = none := by
  unfold matchPlain
  split_ifs
  · rfl
  · have := takeWhile_run (· ≠ '*') s [] (fun a ha => by simp; intro e; exact h (e ▸ ha)) (by simp)
    simp only [List.append_nil] at this
    rw [this.2]

theorem plainSub_plain (s : Str) (h : '*' ∉ s) : reSub matchPlain parenRepl s = s := by
  have := reSub_prefix matchPlain parenRepl s [] (fun T hT hn => by
    rw [List.append_nil]; exact matchPlain_none T (fun hc => h (hT.subset hc)))
  simpa using this

theorem plainSub_rep (v : Str) (n : Nat) (h : '*' ∉ v) (hv : v ≠ []) :
    reSub matchPlain parenRepl (v ++ ['*'] ++ Nat.toDigits 10 n) = join [','] (List.replicate n v) := by
  have e : v ++ ['*'] ++ Nat.toDigits 10 n = (v ++ ['*'] ++ Nat.toDigits 10 n) ++ [] := by simp
  rw [e, reSub_match _ _ _ _ (v, n) (by simp)]
  · simp [parenRepl]
  · have := takeWhile_run (· ≠ '*') v ('*' :: (Nat.toDigits 10 n ++ [])) (fun a ha => by simp; intro e; exact h (e ▸ ha)) (by simp)
    simp only [List.append_assoc, List.cons_append, List.nil_append, matchPlain]
    rw [this.1, this.2, if_neg hv]
    simp only [matchDigits_toDigits n [] (by simp)]
    simp only [Option.map_some, List.length_cons, List.length_append, Option.some.injEq, Prod.mk.injEq, true_and]
    omega

/-! ### Stripping blanks -/

theorem isSpace_iff (c : Char) : isSpace c = true ↔ space c := by
  unfold isSpace space
  simp [or_assoc]

theorem isWord_iff (c : Char) : isWord c = true ↔ word c := by
  unfold isWord word
  simp

theorem blanks_space (n : Nat) (c : Char) (h : c ∈ blanks n) : isSpace c = true := by
  unfold blanks at h
  rw [List.eq_of_mem_replicate h]; rfl

theorem mem_blanks (n : Nat) (c : Char) (h : c ∈ blanks n) : c = ' ' := List.eq_of_mem_replicate h

theorem strip_padded (l r : Nat) (v : Str) (h1 : ∀ c, v.head? = some c → ¬ space c) (h2 : ∀ c, v.getLast? = some c → ¬ space c) :
    strip (blanks l ++ v ++ blanks r) = v := by
  unfold strip
  cases hv : v with
  | nil =>
    have : (blanks l ++ [] ++ blanks r) = blanks (l + r) ++ [] := by unfold blanks; simp
    rw [this, (takeWhile_run isSpace (blanks (l + r)) [] (blanks_space _) (by simp)).2]; rfl
  | cons a w =>
    rw [← hv]
    have e1 : (blanks l ++ v ++ blanks r).dropWhile isSpace = v ++ blanks r := by
      rw [List.append_assoc]
      refine (takeWhile_run isSpace (blanks l) (v ++ blanks r) (blanks_space _) ?_).2
      intro c hc
      rw [head_append _ _ (by rw [hv]; simp)] at hc
      by_contra hcon
      exact h1 c hc ((isSpace_iff c).1 (by simpa using hcon))
    rw [e1, List.reverse_append]
    have e2 : (blanks r).reverse = blanks r := by unfold blanks; simp
    rw [e2, (takeWhile_run isSpace (blanks r) v.reverse (blanks_space _) ?_).2, List.reverse_reverse]
    intro c hc
    rw [List.head?_reverse] at hc
    by_contra hcon
    exact h2 c hc ((isSpace_iff c).1 (by simpa using hcon))

/-! ### Joining -/

theorem join_append (sep : Str) (a b : List Str) (ha : a ≠ []) (hb : b ≠ []) : join sep (a ++ b) = join sep a ++ sep ++ join sep b := by
  induction a with
  | nil => exact absurd rfl ha
  | cons p r ih =>
    cases r with
    | nil => rw [List.singleton_append, join_cons _ _ _ hb]; rfl
    | cons q r =>
      rw [List.cons_append, join_cons _ _ _ (by simp), ih (by simp), join_cons _ p (q :: r) (by simp)]
      simp

theorem join_flatten (sep : Str) (xs : List (List Str)) (h : ∀ x ∈ xs, x ≠ []) : join sep (xs.map (join sep)) = join sep xs.flatten := by
  induction xs with
  | nil => rfl
  | cons x xs ih =>
    cases xs with
    | nil => simp [join]
    | cons y ys =>
      have hx := h x (by simp)
      have hy : (y :: ys).flatten ≠ [] := by
        intro e
        have := h y (by simp)
        simp at e
        exact this e.1
      rw [List.flatten_cons, join_append _ _ _ hx hy, List.map_cons, join_cons _ _ _ (by simp), ih (fun z hz => h z (by simp [hz]))]

/-- Put `l` before the first and `r` after the last piece. -/
def ends (l r : Str) : List Str → List Str
  | [] => []
  | [p] => [l ++ p ++ r]
  | p :: q :: ps => (l ++ p) :: ends [] r (q :: ps)

theorem ends_ne_nil (l r : Str) (ps : List Str) (h : ps ≠ []) : ends l r ps ≠ [] := by
  cases ps with
  | nil => exact absurd rfl h
  | cons p ps => cases ps <;> simp [ends]

theorem join_ends (sep l r : Str) (ps : List Str) (h : ps ≠ []) : join sep (ends l r ps) = l ++ join sep ps ++ r := by
  induction ps generalizing l with
  | nil => exact absurd rfl h
  | cons p ps ih =>
    cases ps with
    | nil => rfl
    | cons q ps =>
      rw [ends, join_cons _ _ _ (ends_ne_nil _ _ _ (by simp)), ih [] (by simp), join_cons _ p (q :: ps) (by simp)]
      simp

theorem ends_padded (l r : Nat) (qs : List (Nat × Str × Nat)) :
    ∃ qs' : List (Nat × Str × Nat), ends (blanks l) (blanks r) (qs.map padded) = qs'.map padded ∧ qs'.map (·.2.1) = qs.map (·.2.1) := by
  have hb : ∀ a b, blanks a ++ blanks b = blanks (a + b) := by intro a b; unfold blanks; simp
  induction qs generalizing l with
  | nil => exact ⟨[], rfl, rfl⟩
  | cons q qs ih =>
    obtain ⟨a, v, b⟩ := q
    cases qs with
    | nil =>
      refine ⟨[(l + a, v, b + r)], ?_, rfl⟩
      simp only [List.map_cons, List.map_nil, ends, padded, ← hb]
      simp
    | cons q2 qs =>
      obtain ⟨qs', h1, h2⟩ := ih 0
      refine ⟨(l + a, v, b) :: qs', ?_, ?_⟩
      · rw [List.map_cons, List.map_cons, ends, List.map_cons, ← h1]
        simp only [List.cons.injEq]
        refine ⟨?_, rfl⟩
        simp only [padded, ← hb]; simp
      · rw [List.map_cons, h2]; rfl

/-! ### `parse_values` -/

/-- The pieces of an entry between commas, after the expansion of groups. -/
def pieces (i : Nat × Item × Nat) : List Str :=
  match i.2.1 with
  | .plain v => [blanks i.1 ++ v ++ blanks i.2.2]
  | .rep v n => [blanks i.1 ++ (v ++ ['*'] ++ Nat.toDigits 10 n) ++ blanks i.2.2]
  | .group vs n => ends (blanks i.1) (blanks i.2.2) ((List.replicate n vs).flatten.map padded)

theorem blanks_not_mem (n : Nat) (c : Char) (h : c ≠ ' ') : c ∉ blanks n := fun hc => h (mem_blanks n c hc)

theorem digits_not_mem (n : Nat) (c : Char) (h : c.isDigit = false) : c ∉ Nat.toDigits 10 n := by
  intro hc
  rw [digits_isDigit n c hc] at h
  cases h

theorem padded_not_mem (p : Nat × Str × Nat) (c : Char) (h : c ≠ ' ') (hv : c ∉ p.2.1) : c ∉ padded p := by
  unfold padded
  simp only [List.mem_append, not_or]
  exact ⟨⟨blanks_not_mem _ _ h, hv⟩, blanks_not_mem _ _ h⟩

theorem valueOk_not_mem (v : Str) (h : ValueOk v) : ',' ∉ v ∧ '*' ∉ v ∧ '(' ∉ v ∧ ')' ∉ v ∧ '#' ∉ v ∧ '/' ∉ v ∧ '\n' ∉ v :=
  ⟨fun m => (h.1 _ m).1 rfl, fun m => (h.1 _ m).2.1 rfl, fun m => (h.1 _ m).2.2.1 rfl, fun m => (h.1 _ m).2.2.2.1 rfl,
   fun m => (h.1 _ m).2.2.2.2.1 rfl, fun m => (h.1 _ m).2.2.2.2.2.1 rfl, fun m => (h.1 _ m).2.2.2.2.2.2 rfl⟩

theorem replicate_ne_nil {γ : Type} (n : Nat) (vs : List γ) (hn : 0 < n) (hv : vs ≠ []) : (List.replicate n vs).flatten ≠ [] := by
  obtain ⟨n, rfl⟩ : ∃ k, n = k + 1 := ⟨n - 1, by omega⟩
  rw [List.replicate_succ, List.flatten_cons]
  simp [hv]

theorem pieces_ne_nil (i : Nat × Item × Nat) (h : i.2.1.Ok) : pieces i ≠ [] := by
  obtain ⟨l, it, r⟩ := i
  cases it with
  | plain v => simp [pieces]
  | rep v n => simp [pieces]
  | group vs n =>
    apply ends_ne_nil
    simp only [ne_eq, List.map_eq_nil_iff]
    exact replicate_ne_nil n vs h.2.2 h.1

theorem parenSub_item (i : Nat × Item × Nat) (h : i.2.1.Ok) (B : Str) (hB : ∀ c, B.head? = some c → c.isDigit = false) :
    reSub matchParen parenRepl (blanks i.1 ++ i.2.1.render ++ blanks i.2.2 ++ B) = join [','] (pieces i) ++ reSub matchParen parenRepl B := by
  obtain ⟨l, it, r⟩ := i
  cases it with
  | plain v =>
    rw [parenSub_prefix]
    · rfl
    · simp only [List.mem_append, not_or, Item.render]
      exact ⟨⟨blanks_not_mem _ _ (by decide), (valueOk_not_mem v h).2.2.1⟩, blanks_not_mem _ _ (by decide)⟩
  | rep v n =>
    rw [parenSub_prefix]
    · rfl
    · simp only [List.mem_append, not_or, Item.render]
      exact ⟨⟨blanks_not_mem _ _ (by decide), ⟨⟨(valueOk_not_mem v h.1).2.2.1, by simp⟩, digits_not_mem _ _ (by decide)⟩⟩, blanks_not_mem _ _ (by decide)⟩
  | group vs n =>
    have e : blanks l ++ Item.render (.group vs n) ++ blanks r ++ B =
        blanks l ++ (['('] ++ join [','] (vs.map padded) ++ [')', '*'] ++ Nat.toDigits 10 n ++ (blanks r ++ B)) := by
      simp [Item.render]
    simp only
    rw [e, parenSub_prefix _ _ (blanks_not_mem _ _ (by decide)), parenSub_group _ _ _ ?_ ?_, parenSub_prefix _ _ (blanks_not_mem _ _ (by decide))]
    · have hne : (List.replicate n vs).flatten.map padded ≠ [] := by
        simp only [ne_eq, List.map_eq_nil_iff]
        exact replicate_ne_nil n vs h.2.2 h.1
      simp only [pieces]
      have key : join [','] (List.replicate n (join [','] (vs.map padded))) = join [','] ((List.replicate n vs).flatten.map padded) := by
        rw [List.map_flatten, List.map_replicate, ← join_flatten, List.map_replicate]
        intro x hx
        rw [List.eq_of_mem_replicate hx]
        simpa using h.1
      rw [join_ends _ _ _ _ hne, key]
      simp
    · apply join_not_mem _ _ _ (by decide)
      intro p hp
      obtain ⟨q, hq, rfl⟩ := List.mem_map.1 hp
      exact padded_not_mem _ _ (by decide) (valueOk_not_mem _ (h.2.1 q hq)).2.2.2.1
    · intro c hc
      cases r with
      | zero => exact hB c hc
      | succ r =>
        have : (blanks (r + 1) ++ B).head? = some ' ' := by unfold blanks; simp [List.replicate_succ]
        rw [this] at hc
        simp only [Option.some.injEq] at hc
        rw [← hc]; rfl

theorem parenSub_items (items : List (Nat × Item × Nat)) (h : ∀ i ∈ items, i.2.1.Ok) :
    reSub matchParen parenRepl (renderItems items) = join [','] (items.map fun i => join [','] (pieces i)) := by
  unfold renderItems
  induction items with
  | nil => rfl
  | cons i items ih =>
    have hi := h i (by simp)
    have ih := ih (fun x hx => h x (by simp [hx]))
    cases items with
    | nil =>
      have := parenSub_item i hi [] (by simp)
      simpa [join] using this
    | cons i2 items =>
      have e2 := join_cons [','] (join [','] (pieces i)) (List.map (fun i => join [','] (pieces i)) (i2 :: items)) (by simp)
      rw [List.map_cons, join_cons _ _ _ (by simp), List.map_cons (f := fun i => join [','] (pieces i)) (a := i), e2]
      rw [List.append_assoc, parenSub_item i hi _ (by intro c hc; simp at hc; rw [← hc]; rfl), parenSub_prefix _ _ (by decide), ih]
      simp

theorem pieces_no_comma (i : Nat × Item × Nat) (h : i.2.1.Ok) : ∀ p ∈ pieces i, ',' ∉ p := by
  obtain ⟨l, it, r⟩ := i
  intro p hp
  cases it with
  | plain v =>
    simp only [pieces, List.mem_singleton] at hp
    subst hp
    simp only [List.mem_append, not_or]
    exact ⟨⟨blanks_not_mem _ _ (by decide), (valueOk_not_mem v h).1⟩, blanks_not_mem _ _ (by decide)⟩
  | rep v n =>
    simp only [pieces, List.mem_singleton] at hp
    subst hp
    simp only [List.mem_append, not_or]
    exact ⟨⟨blanks_not_mem _ _ (by decide), ⟨⟨(valueOk_not_mem v h.1).1, by simp⟩, digits_not_mem _ _ (by decide)⟩⟩, blanks_not_mem _ _ (by decide)⟩
  | group vs n =>
    simp only [pieces] at hp
    obtain ⟨qs, h1, h2⟩ := ends_padded l r (List.replicate n vs).flatten
    rw [h1] at hp
    obtain ⟨q, hq, rfl⟩ := List.mem_map.1 hp
    apply padded_not_mem _ _ (by decide)
    have : q.2.1 ∈ qs.map (·.2.1) := List.mem_map_of_mem hq
    rw [h2] at this
    obtain ⟨q2, hq2, e⟩ := List.mem_map.1 this
    obtain ⟨vs', h3, h4⟩ := List.mem_flatten.1 hq2
    rw [List.eq_of_mem_replicate h3] at h4
    rw [← e]
    exact (valueOk_not_mem _ (h.2.1 q2 h4)).1

theorem strip_plain (l r : Nat) (v : Str) (h : ValueOk v) : reSub matchPlain parenRepl (strip (blanks l ++ v ++ blanks r)) = v := by
  rw [strip_padded l r v h.2.1 h.2.2, plainSub_plain v (valueOk_not_mem v h).2.1]

theorem pieces_values (i : Nat × Item × Nat) (h : i.2.1.Ok) :
    join [','] ((pieces i).map fun x => reSub matchPlain parenRepl (strip x)) = join [','] i.2.1.values := by
  obtain ⟨l, it, r⟩ := i
  cases it with
  | plain v =>
    simp only [pieces, List.map_cons, List.map_nil, Item.values]
    rw [strip_plain l r v h]
  | rep v n =>
    simp only [pieces, List.map_cons, List.map_nil, Item.values]
    rw [strip_padded, plainSub_rep v n (valueOk_not_mem v h.1).2.1 h.2.1]
    · rfl
    · intro c hc
      rw [List.append_assoc, head_append _ _ h.2.1] at hc
      exact h.1.2.1 c hc
    · intro c hc
      rw [List.getLast?_append_of_ne_nil _ (digits_ne_nil n)] at hc
      have : c.isDigit = true := digits_isDigit n c (List.mem_of_getLast? hc)
      intro hs
      unfold space at hs
      simp only [List.mem_cons, List.not_mem_nil, or_false] at hs
      rcases hs with rfl | rfl | rfl | rfl | rfl | rfl <;> simp [Char.isDigit] at this
  | group vs n =>
    simp only [pieces, Item.values]
    obtain ⟨qs, h1, h2⟩ := ends_padded l r (List.replicate n vs).flatten
    rw [h1, ← List.map_replicate (f := fun (vs : List (Nat × Str × Nat)) => vs.map (·.2.1)), ← List.map_flatten, ← h2, List.map_map]
    congr 1
    apply List.map_congr_left
    intro q hq
    have : q.2.1 ∈ qs.map (·.2.1) := List.mem_map_of_mem hq
    rw [h2] at this
    obtain ⟨q2, hq2, e⟩ := List.mem_map.1 this
    obtain ⟨vs', h3, h4⟩ := List.mem_flatten.1 hq2
    rw [List.eq_of_mem_replicate h3] at h4
    have hv : ValueOk q.2.1 := by rw [← e]; exact h.2.1 q2 h4
    exact strip_plain _ _ _ hv

theorem values_ne_nil (it : Item) (h : it.Ok) : it.values ≠ [] := by
  cases it with
  | plain v => simp [Item.values]
  | rep v n => simp only [Item.values, ne_eq, List.replicate_eq_nil_iff]; have := h.2.2; omega
  | group vs n => exact replicate_ne_nil n _ h.2.2 (by simpa using h.1)

theorem values_ok (it : Item) (h : it.Ok) : ∀ v ∈ it.values, ValueOk v := by
  intro v hv
  cases it with
  | plain w => simp only [Item.values, List.mem_singleton] at hv; exact hv ▸ h
  | rep w n => rw [List.eq_of_mem_replicate hv]; exact h.1
  | group vs n =>
    obtain ⟨l, h1, h2⟩ := List.mem_flatten.1 hv
    rw [List.eq_of_mem_replicate h1] at h2
    obtain ⟨q, hq, rfl⟩ := List.mem_map.1 h2
    exact h.2.1 q hq

theorem parseValues_items (items : List (Nat × Item × Nat)) (hne : items ≠ []) (h : ∀ i ∈ items, i.2.1.Ok) :
    parseValues (renderItems items) = (items.map fun i => i.2.1.values).flatten := by
  unfold parseValues
  rw [parenSub_items items h]
  have e1 : (items.map fun i => join [','] (pieces i)) = (items.map pieces).map (join [',']) := by rw [List.map_map]; rfl
  have hp : ∀ x ∈ items.map pieces, x ≠ [] := by
    intro x hx
    obtain ⟨i, hi, rfl⟩ := List.mem_map.1 hx
    exact pieces_ne_nil i (h i hi)
  have hv : ∀ x ∈ items.map (fun i => i.2.1.values), x ≠ [] := by
    intro x hx
    obtain ⟨i, hi, rfl⟩ := List.mem_map.1 hx
    exact values_ne_nil _ (h i hi)
  have flat_ne : ∀ (xs : List (List Str)), xs ≠ [] → (∀ x ∈ xs, x ≠ []) → xs.flatten ≠ [] := by
    intro xs hx h e
    cases xs with
    | nil => exact hx rfl
    | cons x xs => simp at e; exact h x (by simp) e.1
  rw [e1, join_flatten _ _ hp, split_join_char _ _ (flat_ne _ (by simpa using hne) hp)]
  · have e2 : join [','] ((items.map pieces).flatten.map fun x => reSub matchPlain parenRepl (strip x)) = join [','] (items.map fun i => i.2.1.values).flatten := by
      rw [← join_flatten _ _ hv, List.map_flatten, ← join_flatten]
      · congr 1
        simp only [List.map_map]
        apply List.map_congr_left
        intro i hi
        exact pieces_values i (h i hi)
      · intro x hx
        obtain ⟨p, hp1, rfl⟩ := List.mem_map.1 hx
        simpa using hp p hp1
    rw [e2, split_join_char _ _ (flat_ne _ (by simpa using hne) hv)]
    intro p hp
    obtain ⟨x, h1, h2⟩ := List.mem_flatten.1 hp
    obtain ⟨i, hi, rfl⟩ := List.mem_map.1 h1
    exact (valueOk_not_mem _ (values_ok _ (h i hi) p h2)).1
  · intro p hp
    obtain ⟨x, h1, h2⟩ := List.mem_flatten.1 hp
    obtain ⟨i, hi, rfl⟩ := List.mem_map.1 h1
    exact pieces_no_comma i (h i hi) p h2

end Ufunclab.ConvTemplate

import Verif.Model.CodeGen
import Verif.Model.Erfcx
import Verif.Proof.ConvTemplate
import Mathlib.Tactic.Linarith
import Mathlib.Tactic.Ring
import Mathlib.Tactic.FieldSimp
/-! # The grammar is unambiguous; the generated expressions -/
namespace Ufunclab.CodeGen
variable {K : Type}

/-! ## A reader of expressions, used to show that the grammar is unambiguous -/

inductive Mode (K : Type) where
  | want (s : Option (Expr K)) (p : Option (Expr K × Bool))
  | have_ (s : Option (Expr K)) (e : Expr K)

def combP (p : Option (Expr K × Bool)) (e : Expr K) : Expr K :=
  match p with
  | none => e
  | some (a, true) => .mul a e
  | some (a, false) => .div a e

def combS (s : Option (Expr K)) (e : Expr K) : Expr K :=
  match s with
  | none => e
  | some a => .add a e

abbrev Stack (K : Type) := List (Option (Expr K) × Option (Expr K × Bool))

def readFrom : List (Tok K) → Stack K → Mode K → Option (Stack K × Mode K)
  | [], fs, m => some (fs, m)
  | .num c :: ts, fs, .want s p => readFrom ts fs (.have_ s (combP p (.lit c)))
  | .var :: ts, fs, .want s p => readFrom ts fs (.have_ s (combP p .var))
  | .lp :: ts, fs, .want s p => readFrom ts ((s, p) :: fs) (.want none none)
  | .rp :: ts, (s', p') :: fs, .have_ s e => readFrom ts fs (.have_ s' (combP p' (combS s e)))
  | .plus :: ts, fs, .have_ s e => readFrom ts fs (.want (some (combS s e)) none)
  | .times :: ts, fs, .have_ s e => readFrom ts fs (.want s (some (e, true)))
  | .div :: ts, fs, .have_ s e => readFrom ts fs (.want s (some (e, false)))
  | _, _, _ => none

def Reads : Level → List (Tok K) → Expr K → Prop
  | .primary, ts, e => ∀ us fs s p, readFrom (ts ++ us) fs (.want s p) = readFrom us fs (.have_ s (combP p e))
  | .product, ts, e => ∀ us fs s, readFrom (ts ++ us) fs (.want s none) = readFrom us fs (.have_ s e)
  | .sum, ts, e => ∃ s' e', combS s' e' = e ∧ ∀ us fs, readFrom (ts ++ us) fs (.want none none) = readFrom us fs (.have_ s' e')

theorem Parses.reads {l : Level} {ts : List (Tok K)} {e : Expr K} (h : Parses l ts e) : Reads l ts e := by
  induction h with
  | num c => intro us fs s p; simp [readFrom]
  | var => intro us fs s p; simp [readFrom]
  | paren _ ih =>
    intro us fs s p
    obtain ⟨s', e', he, h⟩ := ih
    simp [readFrom, h, he]
  | product _ ih => intro us fs s; simpa [combP] using ih us fs s none
  | mul _ _ ih1 ih2 => intro us fs s; simp [ih1 _ fs s, readFrom, ih2 us fs s, combP]
  | div _ _ ih1 ih2 => intro us fs s; simp [ih1 _ fs s, readFrom, ih2 us fs s, combP]
  | sum _ ih => exact ⟨none, _, rfl, fun us fs => ih us fs none⟩
  | @add ts us a b _ _ ih1 ih2 =>
    obtain ⟨s', e', he, h⟩ := ih1
    exact ⟨some (combS s' e'), b, by simp [combS, ← he], fun us fs => by simp [h, readFrom, ih2 us fs]⟩

/-- An expression has one syntax tree. -/
theorem Parses.unique {ts : List (Tok K)} {e e' : Expr K} (h : Parses .sum ts e) (h' : Parses .sum ts e') : e = e' := by
  obtain ⟨s1, e1, rfl, h1⟩ := h.reads
  obtain ⟨s2, e2, rfl, h2⟩ := h'.reads
  have := (h1 [] []).symm.trans (h2 [] [])
  simp [readFrom] at this
  rw [this.1, this.2]

/-! ## debye1 -/

/-- The tree of `c0 + x*(c1 + x*(...))`. -/
def nested : K → List K → Expr K
  | c, [] => .lit c
  | c, d :: ds => .add (.lit c) (.mul .var (nested d ds))

/-- The tokens up to the closing parentheses. -/
def opening : K → List K → List (Tok K)
  | c, [] => [.num c]
  | c, d :: ds => [.num c, .plus, .var, .times, .lp] ++ opening d ds

theorem parses_nested (c : K) (cs : List K) : Parses .sum (opening c cs ++ List.replicate cs.length .rp) (nested c cs) := by
  induction cs generalizing c with
  | nil => simpa [opening, nested] using Parses.sum (Parses.product (Parses.num c))
  | cons d ds ih =>
    have := Parses.add (Parses.sum (Parses.product (Parses.num c)))
      (Parses.mul (Parses.product Parses.var) (Parses.paren (ih d)))
    simpa [opening, nested, List.replicate_succ', List.append_assoc] using this

theorem polyLoop_eq (scale : Bool) (n i : Nat) (c : K) (cs : List K) (h : i + (cs.length + 1) = n) :
    polyLoop scale n i (c :: cs) = opening c cs ++ (List.replicate (n - 1) .rp ++ if scale then [.rp, .div, .var] else []) := by
  induction cs generalizing i c with
  | nil =>
    have : i = n - 1 := by simp at h; omega
    simp [polyLoop, opening, this]
  | cons d ds ih =>
    have : i ≠ n - 1 := by simp at h; omega
    rw [polyLoop, ih (i + 1) d (by simp at h ⊢; omega)]
    simp [opening, this]

/-- The tree of the expression printed by `generate_polynomial_function`; `cs` has the constant term first. -/
def polyTree (scale : Bool) : List K → Expr K
  | [] => .var
  | c :: cs => if scale then .div (nested c cs) .var else nested c cs

theorem parses_polyText (scale : Bool) (cs : List K) (h : cs ≠ []) : Parses .sum (polyText scale cs.reverse) (polyTree scale cs) := by
  obtain _ | ⟨c, cs⟩ := cs
  · exact absurd rfl h
  · have h1 := parses_nested c cs
    unfold polyText
    rw [List.reverse_reverse, polyLoop_eq scale _ 0 c cs (by simp)]
    cases scale
    · simpa [polyTree] using h1
    · have := Parses.sum (Parses.div (Parses.product (Parses.paren h1)) Parses.var)
      simpa [polyTree, List.append_assoc] using this

theorem eval_nested (val : K → ℝ) (x : ℝ) (c : K) (cs : List K) :
    (nested c cs).eval id val x = polyval ((c :: cs).map val).reverse x := by
  induction cs generalizing c with
  | nil => simp [nested, Expr.eval, polyval]
  | cons d ds ih =>
    rw [nested]
    simp only [Expr.eval, ih]
    simp [polyval, List.foldl_append]
    ring

theorem eval_nested_debye1 (rd : ℝ → ℝ) (x : ℝ) (c : ℤ × ℕ) (cs : List (ℤ × ℕ)) :
    (nested c cs).eval rd Debye1.lit x = Debye1.horner rd x (c :: cs) := by
  induction cs generalizing c with
  | nil => simp [nested, Expr.eval, Debye1.horner]
  | cons d ds ih => rw [nested]; simp only [Expr.eval, ih, Debye1.horner]

/-! ## Function names -/

theorem name_inj {i k i' k' : Nat} (h : name i k = name i' k') : i = i' ∧ k = k' := by
  unfold name at h
  rw [List.append_cancel_left_eq] at h
  have hd : ∀ (n : Nat), '_' ∉ Nat.toDigits 10 n := fun n hm => by
    have := ConvTemplate.digits_isDigit n _ hm
    simp at this
  have key : ∀ (a b c d : List Char), '_' ∉ a → '_' ∉ c → a ++ '_' :: b = c ++ '_' :: d → a = c ∧ b = d := by
    intro a
    induction a with
    | nil =>
      intro b c d _ hc h
      obtain _ | ⟨y, c⟩ := c
      · simpa using h
      · simp at h hc; exact absurd h.1 hc.1
    | cons x a ih =>
      intro b c d ha hc h
      obtain _ | ⟨y, c⟩ := c
      · simp at h ha; exact absurd h.1.symm ha.1
      · simp at h hc ha
        have := ih b c d ha.2 hc.2 h.2
        simp [h.1, this]
  obtain ⟨h1, h2⟩ := key _ _ _ _ (hd i) (hd i') h
  refine ⟨ConvTemplate.toDigits_inj _ _ h1, ?_⟩
  have hz : ∀ n : Nat, 10 ≤ n → ∀ m : Nat, Nat.toDigits 10 n ≠ '0' :: Nat.toDigits 10 m := by
    intro n hn m e
    have h3 := congrArg (Nat.ofDigitChars 10 · 0) e
    simp only [Nat.ofDigitChars_ten_toDigits] at h3
    have h4 : Nat.ofDigitChars 10 ('0' :: Nat.toDigits 10 m) 0 = m := by
      rw [Nat.ofDigitChars_cons]
      simp
    have h5 : n = m := by rw [h4] at h3; exact h3
    subst h5
    have := congrArg List.length e
    simp at this
  split_ifs at h2 with c1 c2 c2
  · simpa using ConvTemplate.toDigits_inj _ _ (by simpa using h2)
  · exact absurd h2.symm (by simpa using hz k' (by omega) k)
  · exact absurd h2 (by simpa using hz k (by omega) k')
  · exact ConvTemplate.toDigits_inj _ _ (by simpa using h2)

end Ufunclab.CodeGen

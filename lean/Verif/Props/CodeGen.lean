import Verif.Proof.CodeGen
import Verif.Proof.ErfcxOverflow
import Verif.Props.Erfcx
/-!
# C117: the code generators of debye1 and erfcx

Whatever polynomials `mpmath.chebyfit` returns and whatever intervals are configured, the generated C code evaluates the
polynomial fitted for the piece that contains the argument; the scripts' interval table with the shipped coefficients gives
the shipped function.
-/
namespace Ufunclab.CodeGen
open Ufunclab.Float
variable {K : Type}

/-! ## Expressions -/

/-- C117: the C grammar gives the printed expression one meaning, and in exact arithmetic that is the value of the fitted
polynomial, divided by `x` if asked for. -/
theorem C117_polynomial (val : K → ℝ) (scale : Bool) (coeffs : List K) (h : coeffs ≠ []) :
    ∃ e, Parses .sum (polyText scale coeffs) e ∧ (∀ e', Parses .sum (polyText scale coeffs) e' → e' = e) ∧
      ∀ x, e.eval id val x = if scale then polyval (coeffs.map val) x / x else polyval (coeffs.map val) x := by
  have h' : coeffs.reverse ≠ [] := by simpa using h
  have hp := parses_polyText scale coeffs.reverse h'
  rw [List.reverse_reverse] at hp
  refine ⟨_, hp, fun e' he => he.unique hp, fun x => ?_⟩
  obtain ⟨c, cs, hc⟩ := List.exists_cons_of_ne_nil h'
  have hc' : coeffs = (c :: cs).reverse := by rw [← hc, List.reverse_reverse]
  rw [hc, hc']
  have := eval_nested val x c cs
  rw [List.map_reverse]
  cases scale <;> simp [polyTree, Expr.eval, this]

/-- The same for a `case` of `erfcx_y100`. -/
theorem parses_caseText (val : K → ℝ) (poly : List K) (h : poly ≠ []) :
    ∃ e, Parses .sum (caseText poly) e ∧ ∀ x, e.eval id val x = polyval (poly.map val) x := by
  obtain ⟨p0, ps, rfl⟩ := List.exists_cons_of_ne_nil h
  have key : ∀ (ps : List K) (s : List (Tok K)) (e : Expr K) (v : ℝ → ℝ), Parses .sum s e → (∀ x, e.eval id val x = v x) →
      ∃ e', Parses .sum (ps.foldl (fun s c => [.num c, .plus, .lp] ++ s ++ [.rp, .times, .var]) s) e' ∧
        ∀ x, e'.eval id val x = (ps.map val).foldl (fun s c => s * x + c) (v x) := by
    intro ps
    induction ps with
    | nil => intro s e v hs hv; exact ⟨e, hs, by simpa using hv⟩
    | cons c ps ih =>
      intro s e v hs hv
      refine ih _ (.add (.lit c) (.mul e .var)) (fun x => v x * x + val c) ?_ (fun x => by simp [Expr.eval, hv, add_comm])
      have := Parses.add (Parses.sum (Parses.product (Parses.num c)))
        (Parses.mul (Parses.product (Parses.paren hs)) Parses.var)
      simpa using this
  obtain ⟨e, he, hv⟩ := key ps [.num p0] (.lit p0) (fun _ => val p0) (Parses.sum (Parses.product (Parses.num p0))) (fun x => rfl)
  exact ⟨e, he, fun x => by rw [hv]; simp [polyval]⟩

theorem C117_case (val : K → ℝ) (poly : List K) (h : poly ≠ []) :
    ∃ e, Parses .sum (caseText poly) e ∧ (∀ e', Parses .sum (caseText poly) e' → e' = e) ∧
      ∀ x, e.eval id val x = polyval (poly.map val) x := by
  obtain ⟨e, he, hv⟩ := parses_caseText val poly h
  exact ⟨e, he, fun e' he' => he'.unique he, hv⟩

/-- `polyval` of `[2, -1, 3]` is `2x² - x + 3`, and the printed text is `3 + x*(-1 + x*(2))`. -/
example (x : ℝ) : polyval [2, -1, 3] x = 2 * x ^ 2 - x + 3 := by simp [polyval]; ring
example : polyText false ([2, -1, 3] : List ℤ) =
    [.num 3, .plus, .var, .times, .lp, .num (-1), .plus, .var, .times, .lp, .num 2, .rp, .rp] := by decide
example : polyText true ([2, 3] : List ℤ) =
    [.lp, .num 3, .plus, .var, .times, .lp, .num 2, .rp, .rp, .div, .var] := by decide

/-! ## The whole of `debye1` -/

/-- The intervals join, from `a` to `b`. -/
def Chain : ℝ → List Interval → ℝ → Prop
  | a, [], b => a = b
  | a, iv :: ivs, b => iv.a = a ∧ iv.a < iv.b ∧ 0 < iv.n ∧ (iv.scale = true → 0 < iv.a) ∧ Chain iv.b ivs b

/-- The `k`-th of the points that divide an interval into `n` equal pieces (`mpmath.linspace`). -/
noncomputable def Interval.edge (iv : Interval) (k : Nat) : ℝ := iv.a + k * ((iv.b - iv.a) / iv.n)

theorem lookup_range (f : Nat → List Char) (n k : Nat) (h : k < n) :
    ((List.range n).map fun (k : Nat) => ((k : Int), f k)).lookup (k : Int) = some (f k) := by
  have key : ∀ (l : List Nat), k ∈ l → (l.map fun (k : Nat) => ((k : Int), f k)).lookup (k : Int) = some (f k) := by
    intro l
    induction l with
    | nil => simp
    | cons a l ih =>
      intro hk
      by_cases e : k = a
      · subst e; simp [List.lookup]
      · have : ((k : Int) == (a : Int)) = false := by simpa using e
        simp only [List.map_cons, List.lookup, this]
        exact ih (by simpa [e] using hk)
  exact key _ (by simpa using h)

/-- In exact arithmetic the computed index is that of the piece with `x`. -/
theorem index_exact (iv : Interval) (h : iv.a < iv.b) (hn : 0 < iv.n) {x : ℝ} (h1 : iv.a ≤ x) (h2 : x < iv.b) :
    ∃ k : Nat, k < iv.n ∧ Debye1.trunc (iv.n * ((x - iv.a) / (iv.b - iv.a))) = k ∧ iv.edge k ≤ x ∧ x < iv.edge (k + 1) := by
  have hw : 0 < iv.b - iv.a := by linarith
  have hn' : (0 : ℝ) < iv.n := by exact_mod_cast hn
  set q := iv.n * ((x - iv.a) / (iv.b - iv.a)) with hq
  have q0 : 0 ≤ q := mul_nonneg hn'.le (div_nonneg (by linarith) hw.le)
  have q1 : q < iv.n := by
    have : (x - iv.a) / (iv.b - iv.a) < 1 := by rw [div_lt_one hw]; linarith
    calc q < iv.n * 1 := mul_lt_mul_of_pos_left this hn'
      _ = iv.n := mul_one _
  have hx : x = iv.a + q * ((iv.b - iv.a) / iv.n) := by rw [hq]; field_simp; ring
  refine ⟨⌊q⌋.toNat, ?_, ?_, ?_, ?_⟩
  · have : ⌊q⌋ < iv.n := Int.floor_lt.mpr (by exact_mod_cast q1)
    have := Int.floor_nonneg.mpr q0
    omega
  · rw [Debye1.trunc, if_neg (not_lt.mpr q0), Int.toNat_of_nonneg (Int.floor_nonneg.mpr q0)]
  · have : ((⌊q⌋.toNat : ℕ) : ℝ) ≤ q := by
      have e : ((⌊q⌋.toNat : ℕ) : ℝ) = ((⌊q⌋ : ℤ) : ℝ) := by
        exact_mod_cast congrArg (Int.cast (R := ℝ)) (Int.toNat_of_nonneg (Int.floor_nonneg.mpr q0))
      rw [e]; exact Int.floor_le q
    calc iv.edge _ ≤ iv.a + q * ((iv.b - iv.a) / iv.n) := by
          unfold Interval.edge; gcongr
      _ = x := hx.symm
  · have : q < ((⌊q⌋.toNat : ℕ) : ℝ) + 1 := by
      have e : ((⌊q⌋.toNat : ℕ) : ℝ) = ((⌊q⌋ : ℤ) : ℝ) := by
        exact_mod_cast congrArg (Int.cast (R := ℝ)) (Int.toNat_of_nonneg (Int.floor_nonneg.mpr q0))
      rw [e]; exact Int.lt_floor_add_one q
    have hpos : 0 < (iv.b - iv.a) / iv.n := div_pos hw hn'
    rw [hx]
    unfold Interval.edge
    push_cast
    nlinarith

theorem select_chain (fit : Nat → Nat → List K) (ivs : List Interval) (i : Nat) (a b : ℝ) (hc : Chain a ivs b) {x : ℝ} (h1 : a ≤ x)
    (h2 : x < b) : ∃ (j : Nat) (iv : Interval) (k : Nat), ivs[j]? = some iv ∧ k < iv.n ∧ iv.edge k ≤ x ∧ x < iv.edge (k + 1) ∧ iv.a ≤ x ∧
      select id x (genFrom id fit i ivs).branches = some (name (i + j) k) := by
  induction ivs generalizing i a with
  | nil => simp only [Chain] at hc; linarith
  | cons iv ivs ih =>
    obtain ⟨ha, hab, hn, _, hc⟩ := hc
    by_cases hx : x < iv.b
    · obtain ⟨k, hk, ht, he1, he2⟩ := index_exact iv hab hn (ha ▸ h1) hx
      refine ⟨0, iv, k, rfl, hk, he1, he2, ha ▸ h1, ?_⟩
      simp only [genFrom, select, genBranch, if_pos hx, id]
      rw [ht, lookup_range (name i) iv.n k hk]
      simp
    · obtain ⟨j, iv', k, hj, hk, he1, he2, ha', hs⟩ := ih (i + 1) iv.b hc (not_lt.mp hx)
      refine ⟨j + 1, iv', k, by simpa using hj, hk, he1, he2, ha', ?_⟩
      simp only [genFrom, select, genBranch, if_neg hx]
      rw [hs]
      congr 2
      omega

theorem select_beyond (fit : Nat → Nat → List K) (ivs : List Interval) (i : Nat) (a b : ℝ) (hc : Chain a ivs b) (rd : ℝ → ℝ) {x : ℝ} (h : b ≤ x) :
    select rd x (genFrom rd fit i ivs).branches = none ∧ a ≤ x := by
  induction ivs generalizing i a with
  | nil => simp only [Chain] at hc; subst hc; exact ⟨rfl, h⟩
  | cons iv ivs ih =>
    obtain ⟨ha, hab, hn, _, hc⟩ := hc
    obtain ⟨h1, h2⟩ := ih (i + 1) iv.b hc
    exact ⟨by simp only [genFrom, select, genBranch, if_neg (not_lt.mpr h2)]; exact h1, by linarith⟩

theorem mem_funcs (rd : ℝ → ℝ) (fit : Nat → Nat → List K) (ivs : List Interval) (i : Nat) (nm : List Char) (ts : List (Tok K)) :
    (nm, ts) ∈ (genFrom rd fit i ivs).funcs ↔
      ∃ (j : Nat) (iv : Interval) (k : Nat), ivs[j]? = some iv ∧ k < iv.n ∧ nm = name (i + j) k ∧ ts = polyText iv.scale (fit (i + j) k) := by
  induction ivs generalizing i with
  | nil => simp [genFrom]
  | cons iv ivs ih =>
    simp only [genFrom, List.mem_append, ih, genFuncs, List.mem_map, List.mem_range, Prod.mk.injEq]
    constructor
    · rintro (⟨k, hk, rfl, rfl⟩ | ⟨j, iv', k, hj, hk, rfl, rfl⟩)
      · exact ⟨0, iv, k, rfl, hk, rfl, rfl⟩
      · exact ⟨j + 1, iv', k, by simpa using hj, hk, by congr 1; omega, by congr 2; omega⟩
    · rintro ⟨j, iv', k, hj, hk, rfl, rfl⟩
      obtain _ | j := j
      · simp only [List.getElem?_cons_zero, Option.some.injEq] at hj
        subst hj
        exact Or.inl ⟨k, hk, rfl, rfl⟩
      · exact Or.inr ⟨j, iv', k, by simpa using hj, hk, by congr 1; omega, by congr 2; omega⟩

theorem lookup_of_mem {α β : Type} [BEq α] [LawfulBEq α] (l : List (α × β)) (a : α) (b : β) (hm : (a, b) ∈ l) (hu : ∀ b', (a, b') ∈ l → b' = b) :
    l.lookup a = some b := by
  induction l with
  | nil => simp at hm
  | cons p l ih =>
    obtain ⟨a', b'⟩ := p
    by_cases e : a = a'
    · subst e
      simp [List.lookup, hu b' (by simp)]
    · have : (a == a') = false := by simpa using e
      simp only [List.lookup, this]
      exact ih (by simpa [e] using hm) (fun b'' h => hu b'' (List.mem_cons_of_mem _ h))

theorem lookup_funcs (rd : ℝ → ℝ) (fit : Nat → Nat → List K) (ivs : List Interval) (j : Nat) (iv : Interval) (k : Nat) (hj : ivs[j]? = some iv)
    (hk : k < iv.n) : (generate rd fit ivs).funcs.lookup (name j k) = some (polyText iv.scale (fit j k)) := by
  refine lookup_of_mem _ _ _ ((mem_funcs rd fit ivs 0 _ _).mpr ⟨j, iv, k, hj, hk, by simp, by simp⟩) fun b' hb => ?_
  obtain ⟨j', iv', k', hj', _, hnm, rfl⟩ := (mem_funcs rd fit ivs 0 _ _).mp hb
  obtain ⟨e1, e2⟩ := name_inj hnm
  simp only [Nat.zero_add] at e1
  subst e1 e2
  rw [hj] at hj'
  cases hj'
  simp

/-- C117: for every list of joining intervals and every result of the fits, the generated `debye1` returns, in exact
arithmetic, a value whose distance from the function that was fitted is at most the error of the fit on the piece that contains
`x` (divided by `x` where `x` times the function was fitted, and then at most what the script prints, `err/x0`).  The value
is unique.  `fit i k` and `err i k` are what `chebyfit` returns for piece `k` of interval `i`. -/
theorem C117_debye1 (val : K → ℝ) (asymp : ℝ) (f : ℝ → ℝ) (fit : Nat → Nat → List K) (err : Nat → Nat → ℝ) (ivs : List Interval)
    (a b : ℝ) (hc : Chain a ivs b) (h0 : 0 ≤ a)
    (hfit : ∀ (i : Nat) (iv : Interval) (k : Nat), ivs[i]? = some iv → k < iv.n → fit i k ≠ [] ∧
      ∀ t, iv.edge k ≤ t → t ≤ iv.edge (k + 1) → |polyval ((fit i k).map val) t - (if iv.scale then t * f t else f t)| ≤ err i k)
    {x : ℝ} (h1 : a ≤ x) (h2 : x < b) :
    ∃ v, Returns id val asymp (generate id fit ivs) x v ∧ (∀ v', Returns id val asymp (generate id fit ivs) x v' → v' = v) ∧
      ∃ (i : Nat) (iv : Interval) (k : Nat), ivs[i]? = some iv ∧ k < iv.n ∧ iv.edge k ≤ x ∧ x < iv.edge (k + 1) ∧
        |v - f x| ≤ if iv.scale then err i k / iv.edge k else err i k := by
  obtain ⟨i, iv, k, hi, hk, he1, he2, hax, hs⟩ := select_chain fit ivs 0 a b hc h1 h2
  rw [Nat.zero_add] at hs
  obtain ⟨hne, hf⟩ := hfit i iv k hi hk
  obtain ⟨e, he, hu, hv⟩ := C117_polynomial val iv.scale (fit i k) hne
  have hl := lookup_funcs id fit ivs i iv k hi hk
  refine ⟨e.eval id val x, ?_, ?_, i, iv, k, hi, hk, he1, he2, ?_⟩
  · unfold Returns
    rw [show (generate id fit ivs).branches = (genFrom id fit 0 ivs).branches from rfl, hs]
    exact ⟨_, e, hl, he, rfl⟩
  · intro v' hv'
    unfold Returns at hv'
    rw [show (generate id fit ivs).branches = (genFrom id fit 0 ivs).branches from rfl, hs] at hv'
    obtain ⟨ts, e', hl', he', rfl⟩ := hv'
    rw [hl] at hl'
    cases hl'
    rw [hu e' he']
  · have hb := hf x he1 he2.le
    rw [hv]
    have hscale : ∀ (ivs : List Interval) (a : ℝ) (j : Nat), Chain a ivs b → ivs[j]? = some iv → iv.scale = true → 0 < iv.a ∧ iv.a < iv.b := by
      intro ivs
      induction ivs with
      | nil => simp
      | cons iv' ivs ih =>
        intro a j hc hj hsc
        obtain ⟨_, hlt, _, hpos, hc⟩ := hc
        obtain _ | j := j
        · simp only [List.getElem?_cons_zero, Option.some.injEq] at hj
          subst hj
          exact ⟨hpos hsc, hlt⟩
        · exact ih _ j hc (by simpa using hj) hsc
    cases hsc : iv.scale
    · simpa [hsc] using hb
    · obtain ⟨hp, hlt⟩ := hscale ivs a i hc hi hsc
      have hx : 0 < x := by linarith
      have hed : 0 < iv.edge k := by
        have : 0 ≤ (k : ℝ) * ((iv.b - iv.a) / iv.n) := mul_nonneg (by positivity) (div_nonneg (by linarith) (by positivity))
        unfold Interval.edge
        linarith
      simp only [hsc, if_true] at hb ⊢
      have hb0 : 0 ≤ err i k := le_trans (abs_nonneg _) hb
      calc |polyval (List.map val (fit i k)) x / x - f x|
          = |polyval (List.map val (fit i k)) x - x * f x| / x := by
            rw [show polyval (List.map val (fit i k)) x / x - f x = (polyval (List.map val (fit i k)) x - x * f x) / x by field_simp]
            rw [abs_div, abs_of_pos hx]
        _ ≤ err i k / x := by gcongr
        _ ≤ err i k / iv.edge k := by gcongr

/-- C117: from the end of the last interval on the asymptotic formula is used, in any arithmetic. -/
theorem C117_debye1_beyond (rd : ℝ → ℝ) (val : K → ℝ) (asymp : ℝ) (fit : Nat → Nat → List K) (ivs : List Interval) (a b : ℝ) (hc : Chain a ivs b)
    {x v : ℝ} (h : b ≤ x) : Returns rd val asymp (generate rd fit ivs) x v ↔ v = rd (rd asymp / x) := by
  unfold Returns
  rw [show (generate rd fit ivs).branches = (genFrom rd fit 0 ivs).branches from rfl, (select_beyond fit ivs 0 a b hc rd h).1]

/-- The shipped intervals join from 0 to 40. -/
theorem shipped_chain : Chain 0 shipped 40 := by
  simp only [shipped, Chain]
  norm_num

theorem lookup_int (f : Nat → List Char) (n : Nat) (t : Int) :
    ((List.range n).map fun (k : Nat) => ((k : Int), f k)).lookup t = if 0 ≤ t ∧ t < n then some (f t.toNat) else none := by
  split_ifs with h
  · obtain ⟨k, rfl⟩ := Int.eq_ofNat_of_zero_le h.1
    simpa using lookup_range f n k (by omega)
  · rw [List.lookup_eq_none_iff]
    intro q hq
    obtain ⟨k, hk, rfl⟩ := List.mem_map.mp hq
    simp only [List.mem_range] at hk
    simp only [bne_iff_ne, ne_eq, beq_eq_false_iff_ne]
    omega

theorem lookup_switch (i : Nat) (T : List (List (ℤ × ℕ))) (t : Int) :
    (((List.range T.length).map fun (k : Nat) => ((k : Int), name i k)).lookup t = none ∧ Debye1.switch T t = none) ∨
      ∃ (k : Nat) (cs : List (ℤ × ℕ)), ((List.range T.length).map fun (k : Nat) => ((k : Int), name i k)).lookup t = some (name i k) ∧
        k < T.length ∧ Debye1.switch T t = some cs ∧ T[k]? = some cs := by
  rw [lookup_int]
  unfold Debye1.switch
  by_cases h0 : 0 ≤ t
  · by_cases h1 : t < T.length
    · right
      have : t.toNat < T.length := by omega
      exact ⟨t.toNat, T[t.toNat], by simp [h0, h1], this, by simp [h0, List.getElem?_eq_getElem this], List.getElem?_eq_getElem this⟩
    · left
      exact ⟨by simp [h1], by simp [h0]; omega⟩
  · left
    simp [h0]

/-- What a selected function, or none, returns. -/
def Gives (rd : ℝ → ℝ) (P : Prog (ℤ × ℕ)) (x v : ℝ) (r : Option (List Char)) : Prop :=
  match r with
  | some f => ∃ ts e, P.funcs.lookup f = some ts ∧ Parses .sum ts e ∧ v = e.eval rd Debye1.lit x
  | none => v = rd (rd (Debye1.lit Debye1.asympConst) / x)

theorem gives_step (rd : ℝ → ℝ) (P : Prog (ℤ × ℕ)) (x v w : ℝ) (i : Nat) (iv : Interval) (T : List (List (ℤ × ℕ))) (hT : T.length = iv.n)
    (hP : ∀ (k : Nat) (cs : List (ℤ × ℕ)), T[k]? = some cs → cs ≠ [] ∧ P.funcs.lookup (name i k) = some (polyText iv.scale cs.reverse))
    (rest : List Branch) (hr : Gives rd P x v (select rd x rest) ↔ v = w) :
    Gives rd P x v (select rd x (genBranch rd iv i :: rest)) ↔
      v = match (if x < iv.b then Debye1.switch T (Debye1.trunc (rd (iv.n * rd (rd (x - iv.a) / rd (iv.b - iv.a))))) else none) with
        | some cs => if iv.scale then rd (Debye1.horner rd x cs / x) else Debye1.horner rd x cs
        | none => w := by
  by_cases hx : x < iv.b
  · simp only [select, genBranch, if_pos hx, ← hT]
    obtain ⟨h1, h2⟩ | ⟨k, cs, h1, hk, h2, h3⟩ :=
      lookup_switch i T (Debye1.trunc (rd (T.length * rd (rd (x - iv.a) / rd (iv.b - iv.a)))))
    · rw [h1, h2]
      exact hr
    · rw [h1, h2]
      obtain ⟨hne, hl⟩ := hP k cs h3
      have hp := parses_polyText iv.scale cs hne
      obtain ⟨c, cs', rfl⟩ := List.exists_cons_of_ne_nil hne
      have hev : (polyTree iv.scale (c :: cs')).eval rd Debye1.lit x =
          if iv.scale then rd (Debye1.horner rd x (c :: cs') / x) else Debye1.horner rd x (c :: cs') := by
        cases iv.scale <;> simp [polyTree, Expr.eval, eval_nested_debye1]
      simp only [Gives, hl]
      rw [← hev]
      constructor
      · rintro ⟨ts, e, ht, he, rfl⟩
        cases ht
        rw [he.unique hp]
      · rintro rfl
        exact ⟨_, _, rfl, hp, rfl⟩
  · have : select rd x (genBranch rd iv i :: rest) = select rd x rest := by rw [select]; exact if_neg hx
    rw [this, if_neg hx]
    exact hr

/-- C117: run with its table of intervals and with the coefficients of the shipped debye1_generated.c, the script generates the shipped function: the same result for
every argument, whatever the rounding. -/
theorem C117_shipped (rd : ℝ → ℝ) (h10 : rd 10 = 10) (fit : Nat → Nat → List (ℤ × ℕ))
    (hfit : ∀ (i k : Nat) (cs : List (ℤ × ℕ)), [Debye1.table0, Debye1.table1, Debye1.table2, Debye1.table3][i]?.bind (·[k]?) = some cs →
      fit i k = cs.reverse) (x v : ℝ) :
    Returns rd Debye1.lit (Debye1.lit Debye1.asympConst) (generate rd fit shipped) x v ↔ v = Debye1.finNonneg rd x := by
  have hlook : ∀ (i : Nat) (iv : Interval) (T : List (List (ℤ × ℕ))), shipped[i]? = some iv →
      [Debye1.table0, Debye1.table1, Debye1.table2, Debye1.table3][i]? = some T → T.length = iv.n → (∀ cs ∈ T, cs ≠ []) →
      ∀ (k : Nat) (cs : List (ℤ × ℕ)), T[k]? = some cs →
        cs ≠ [] ∧ (generate rd fit shipped).funcs.lookup (name i k) = some (polyText iv.scale cs.reverse) := by
    intro i iv T hi hT hlen hne k cs hk
    have hk' : k < iv.n := hlen ▸ (List.getElem?_eq_some_iff.mp hk).1
    refine ⟨hne cs (List.mem_of_getElem? hk), ?_⟩
    rw [lookup_funcs rd fit shipped i iv k hi hk', hfit i k cs (by rw [hT]; exact hk)]
  have h3 := gives_step rd (generate rd fit shipped) x v _ 3 ⟨30, 40, 10, true⟩ Debye1.table3 (by decide)
    (hlook 3 _ _ rfl rfl (by decide) (by decide)) [] Iff.rfl
  have h2 := gives_step rd (generate rd fit shipped) x v _ 2 ⟨20, 30, 10, true⟩ Debye1.table2 (by decide)
    (hlook 2 _ _ rfl rfl (by decide) (by decide)) _ h3
  have h1 := gives_step rd (generate rd fit shipped) x v _ 1 ⟨10, 20, 50, true⟩ Debye1.table1 (by decide +kernel)
    (hlook 1 _ _ rfl rfl (by decide +kernel) (by decide +kernel)) _ h2
  have h0 := gives_step rd (generate rd fit shipped) x v _ 0 ⟨0, 10, 50, false⟩ Debye1.table0 (by decide +kernel)
    (hlook 0 _ _ rfl rfl (by decide +kernel) (by decide +kernel)) _ h1
  have hR : Returns rd Debye1.lit (Debye1.lit Debye1.asympConst) (generate rd fit shipped) x v ↔
      Gives rd (generate rd fit shipped) x v (select rd x (generate rd fit shipped).branches) := Iff.rfl
  rw [hR, show (generate rd fit shipped).branches = [genBranch rd ⟨0, 10, 50, false⟩ 0, genBranch rd ⟨10, 20, 50, true⟩ 1,
    genBranch rd ⟨20, 30, 10, true⟩ 2, genBranch rd ⟨30, 40, 10, true⟩ 3] from rfl, h0]
  have e1 : (10 : ℝ) - 0 = 10 := by norm_num
  have e2 : (20 : ℝ) - 10 = 10 := by norm_num
  have e3 : (30 : ℝ) - 20 = 10 := by norm_num
  have e4 : (40 : ℝ) - 30 = 10 := by norm_num
  simp only [e1, e2, e3, e4, h10, Debye1.finNonneg, Debye1.index, Nat.cast_ofNat, Nat.cast_zero, if_true, Bool.false_eq_true, if_false]
  exact Iff.rfl

/-! ## `erfcx_y100` -/

/-- C117: for every function `F`, the generated `erfcx_y100(400/(4 + x))` approximates `F x` for every `x > 0` with the error
of the fit of one of its 100 pieces. -/
theorem C117_y100 (val : K → ℝ) (F : ℝ → ℝ) (poly : Nat → List K) (err : Nat → ℝ)
    (hfit : ∀ k < 100, poly k ≠ [] ∧ ∀ t, -1 ≤ t → t ≤ 1 → |polyval ((poly k).map val) t - fitTarget F t k| ≤ err k)
    {x : ℝ} (hx : 0 < x) :
    ∃ v, CaseReturns id val poly (400 / (4 + x)) v ∧ (∀ v', CaseReturns id val poly (400 / (4 + x)) v' → v' = v) ∧
      ∃ k < 100, |v - F x| ≤ err k := by
  set y := 400 / (4 + x) with hy
  have h4 : 0 < 4 + x := by linarith
  have y0 : 0 < y := by positivity
  have y1 : y < 100 := by rw [hy, div_lt_iff₀ h4]; linarith
  have f0 := Int.floor_nonneg.mpr y0.le
  have f1 : ⌊y⌋ < 100 := Int.floor_lt.mpr (by exact_mod_cast y1)
  have hk : ⌊y⌋.toNat < 100 := by omega
  have hcast : ((⌊y⌋.toNat : ℕ) : ℝ) = ((⌊y⌋ : ℤ) : ℝ) := by
    exact_mod_cast congrArg (Int.cast (R := ℝ)) (Int.toNat_of_nonneg f0)
  have g1 : ((⌊y⌋.toNat : ℕ) : ℝ) ≤ y := by rw [hcast]; exact Int.floor_le y
  have g2 : y < ((⌊y⌋.toNat : ℕ) : ℝ) + 1 := by rw [hcast]; exact Int.lt_floor_add_one y
  obtain ⟨hne, hf⟩ := hfit _ hk
  obtain ⟨e, he, hu, hv⟩ := C117_case val (poly ⌊y⌋.toNat) hne
  refine ⟨e.eval id val (2 * y - ((2 * ⌊y⌋.toNat + 1 : ℕ) : ℝ)), ?_, ?_, ⌊y⌋.toNat, hk, ?_⟩
  · unfold CaseReturns
    rw [if_pos hk]
    exact ⟨e, he, rfl⟩
  · intro v' hv'
    unfold CaseReturns at hv'
    rw [if_pos hk] at hv'
    obtain ⟨e', he', rfl⟩ := hv'
    rw [hu e' he']
    rfl
  · rw [hv]
    have ht := hf (2 * y - ((2 * ⌊y⌋.toNat + 1 : ℕ) : ℝ)) (by push_cast; linarith) (by push_cast; linarith)
    have : fitTarget F (2 * y - ((2 * ⌊y⌋.toNat + 1 : ℕ) : ℝ)) ⌊y⌋.toNat = F x := by
      unfold fitTarget
      congr 1
      push_cast
      rw [show (2 * y - (2 * (⌊y⌋.toNat : ℝ) + 1) + 2 * (⌊y⌋.toNat : ℝ) + 1) / 2 = y by ring, hy]
      field_simp
      ring
    rwa [this] at ht

/-- C117: the text generated from the shipped coefficients is what the model of erfcx_funcs.cxx evaluates, in any arithmetic. -/
theorem C117_y100_shipped (rd : ℝ → ℝ) (V : Erfcx.Variant) (poly : Nat → List (ℤ × ℕ)) (hV : V.table.length = 100)
    (hne : ∀ (k : Nat) (cs : List (ℤ × ℕ)), V.table[k]? = some cs → cs ≠ [] ∧ poly k = cs.reverse) (y v : ℝ) :
    CaseReturns rd Erfcx.lit poly y v ↔ v = Erfcx.y100 rd V y := by
  have key : ∀ (c : ℤ × ℕ) (cs : List (ℤ × ℕ)), ∃ e, Parses .sum (caseText (c :: cs).reverse) e ∧
      ∀ t, e.eval rd Erfcx.lit t = Erfcx.horner rd t (c :: cs) := by
    intro c cs
    induction cs generalizing c with
    | nil => exact ⟨.lit c, by simpa [caseText] using Parses.sum (Parses.product (Parses.num c)), fun t => by simp [Expr.eval, Erfcx.horner]⟩
    | cons d ds ih =>
      obtain ⟨e, he, hv⟩ := ih d
      refine ⟨.add (.lit c) (.mul e .var), ?_, fun t => by simp only [Expr.eval, hv, Erfcx.horner]⟩
      have h1 : caseText (c :: d :: ds).reverse = [.num c, .plus, .lp] ++ caseText (d :: ds).reverse ++ [.rp, .times, .var] := by
        obtain ⟨p0, ps, hp⟩ := List.exists_cons_of_ne_nil (show (d :: ds).reverse ≠ [] by simp)
        rw [List.reverse_cons, hp]
        simp [caseText, List.foldl_append]
      rw [h1]
      have := Parses.add (Parses.sum (Parses.product (Parses.num c)))
        (Parses.mul (Parses.product (Parses.paren he)) Parses.var)
      simpa using this
  unfold CaseReturns Erfcx.y100
  by_cases hk : ⌊y⌋.toNat < 100
  · rw [if_pos hk]
    have hl : ⌊y⌋.toNat < V.table.length := by rw [hV]; exact hk
    have hget : V.table[⌊y⌋.toNat]? = some V.table[⌊y⌋.toNat] := List.getElem?_eq_getElem hl
    obtain ⟨h1, h2⟩ := hne _ _ hget
    rw [hget, h2]
    obtain ⟨c, cs, hcs⟩ := List.exists_cons_of_ne_nil h1
    simp only [hcs]
    obtain ⟨e, he, hv⟩ := key c cs
    constructor
    · rintro ⟨e', he', rfl⟩
      rw [he'.unique he, hv]
      push_cast
      rfl
    · rintro rfl
      exact ⟨e, he, by rw [hv]; push_cast; rfl⟩
  · rw [if_neg hk, List.getElem?_eq_none (by omega)]

/-- The three shipped tables have 100 rows without empty ones. -/
example : ∀ V ∈ [Erfcx.floatV, Erfcx.doubleV, Erfcx.longDoubleV], V.table.length = 100 ∧ ∀ cs ∈ V.table, cs ≠ [] := by decide +kernel

/-- The coefficients for `C117_shipped`. -/
example : ∃ fit : Nat → Nat → List (ℤ × ℕ), ∀ (i k : Nat) (cs : List (ℤ × ℕ)),
    [Debye1.table0, Debye1.table1, Debye1.table2, Debye1.table3][i]?.bind (·[k]?) = some cs → fit i k = cs.reverse :=
  ⟨fun i k => (([Debye1.table0, Debye1.table1, Debye1.table2, Debye1.table3][i]?.bind (·[k]?)).getD []).reverse, fun i k cs h => by
    simp only [h, Option.getD_some]⟩

/-! ## `find_lower_bound` -/

variable {p : ℕ} {emin : ℤ} {rd : ℝ → ℝ}

theorem isFloat_two_mul {y : ℝ} (h : IsFloat p emin y) : IsFloat p emin (2 * y) := by
  obtain ⟨m, e, hm, he, rfl⟩ := h
  exact ⟨m, e + 1, hm, by omega, by rw [zpow_add_one₀ (by norm_num)]; ring⟩

theorem isFloat_half (hp : emin ≤ 1 - p) {y : ℝ} (h : IsFloat p emin y) (hy : 2 ≤ |y|) : IsFloat p emin (y / 2) := by
  obtain ⟨m, e, hm, he, rfl⟩ := h
  refine ⟨m, e - 1, hm, ?_, by rw [zpow_sub_one₀ (by norm_num)]; ring⟩
  by_contra hlt
  have e1 : e ≤ 1 - p := by omega
  have h1 : |(m : ℝ)| < 2 ^ p := by exact_mod_cast hm
  rw [abs_mul, abs_two_zpow] at hy
  have h2 : (2 : ℝ) ^ e ≤ 2 ^ (1 - p : ℤ) := zpow_le_zpow_right₀ (by norm_num) e1
  have h3 : (2 : ℝ) ^ p * 2 ^ (1 - p : ℤ) = 2 := by
    rw [← zpow_natCast, ← zpow_add₀ (by norm_num)]; simp
  have h4 : |(m : ℝ)| * 2 ^ e ≤ |(m : ℝ)| * 2 ^ (1 - p : ℤ) := mul_le_mul_of_nonneg_left h2 (abs_nonneg _)
  have h5 : |(m : ℝ)| * 2 ^ (1 - p : ℤ) < 2 ^ p * 2 ^ (1 - p : ℤ) := mul_lt_mul_of_pos_right h1 (two_zpow_pos _)
  linarith

/-- The midpoint is rounded to a nearest float, although the sum is rounded before the division. -/
theorem mid_nearest (h : Nearest p emin rd) (hp : emin ≤ 1 - p) {x0 x1 : ℝ} (hs : 2 ≤ |rd (x0 + x1)|) :
    IsFloat p emin (rd (rd (x0 + x1) / 2)) ∧
      ∀ y, IsFloat p emin y → |rd (rd (x0 + x1) / 2) - (x0 + x1) / 2| ≤ |y - (x0 + x1) / 2| := by
  have hf := isFloat_half hp (h (x0 + x1)).1 hs
  rw [h.exact hf]
  refine ⟨hf, fun y hy => ?_⟩
  have := (h (x0 + x1)).2 (2 * y) (isFloat_two_mul hy)
  rw [show rd (x0 + x1) / 2 - (x0 + x1) / 2 = (rd (x0 + x1) - (x0 + x1)) / 2 by ring,
    show y - (x0 + x1) / 2 = (2 * y - (x0 + x1)) / 2 by ring, abs_div, abs_div]
  gcongr

/-- The search ends between two neighbouring floats, the lower with an infinite value and the upper one without. -/
theorem search_ends (h : Nearest p emin rd) (hp : emin ≤ 1 - p) (h2 : IsFloat p emin (-2 : ℝ)) (isinf : ℝ → Prop) (N : Nat) :
    ∀ x0 x1 : ℝ, IsFloat p emin x0 → IsFloat p emin x1 → x1 < x0 → x0 ≤ -1 → ¬ isinf x0 → isinf x1 → x0 - x1 ≤ N * 2 ^ emin →
      ∃ x y, (∀ fuel, N ≤ fuel → search rd isinf fuel x0 x1 = some x) ∧ IsFloat p emin x ∧ IsFloat p emin y ∧ y < x ∧ x1 ≤ y ∧ x ≤ x0 ∧
        ¬ isinf x ∧ isinf y ∧ ∀ z, IsFloat p emin z → ¬ (y < z ∧ z < x) := by
  induction N with
  | zero => intro x0 x1 _ _ hlt _ _ _ hN; norm_num at hN; linarith
  | succ N ih =>
    intro x0 x1 f0 f1 hlt hle i0 i1 hN
    have hs : 2 ≤ |rd (x0 + x1)| := by
      have : rd (x0 + x1) ≤ -2 := by
        by_contra hc
        have h3 := (h (x0 + x1)).2 _ h2
        rw [abs_of_pos (show 0 < rd (x0 + x1) - (x0 + x1) by linarith), abs_of_pos (show 0 < -2 - (x0 + x1) by linarith)] at h3
        linarith
      rw [abs_of_nonpos (by linarith)]
      linarith
    obtain ⟨hm, hn⟩ := mid_nearest h hp hs
    set xmid := rd (rd (x0 + x1) / 2) with hxm
    have b0 := hn x0 f0
    have b1 := hn x1 f1
    rw [abs_of_pos (show 0 < x0 - (x0 + x1) / 2 by linarith)] at b0
    have hlo : x1 ≤ xmid := by have := neg_abs_le (xmid - (x0 + x1) / 2); linarith
    have hhi : xmid ≤ x0 := by have := le_abs_self (xmid - (x0 + x1) / 2); linarith
    have step : ∀ fuel, N + 1 ≤ fuel → ∃ g, fuel = g + 1 ∧ N ≤ g := fun fuel hf => ⟨fuel - 1, by omega, by omega⟩
    have grid : ∀ u w : ℝ, IsFloat p emin u → IsFloat p emin w → u < w → 2 ^ emin ≤ w - u := by
      intro u w hu hw huw
      obtain ⟨m, hm⟩ := (hw.grid).sub hu.grid
      have hpos : (0 : ℝ) < 2 ^ emin := two_zpow_pos emin
      have : (0 : ℝ) < m := by
        by_contra hc
        have := mul_nonpos_of_nonpos_of_nonneg (not_lt.mp hc) hpos.le
        linarith
      have : (1 : ℝ) ≤ m := by exact_mod_cast this
      rw [hm]
      nlinarith
    by_cases heq : xmid = x0 ∨ xmid = x1
    · refine ⟨x0, x1, fun fuel hf => ?_, f0, f1, hlt, le_rfl, le_rfl, i0, i1, fun z hz ⟨z1, z2⟩ => ?_⟩
      · obtain ⟨g, rfl, _⟩ := step fuel hf
        simp only [search, ← hxm, if_pos heq]
      · have hz' := hn z hz
        have hd : |xmid - (x0 + x1) / 2| = (x0 - x1) / 2 := by
          obtain e | e := heq
          · rw [e, abs_of_pos (by linarith)]; ring
          · rw [e, abs_of_neg (by linarith)]; ring
        rw [hd] at hz'
        have : |z - (x0 + x1) / 2| < (x0 - x1) / 2 := abs_lt.mpr ⟨by linarith, by linarith⟩
        linarith
    · have n0 : xmid < x0 := lt_of_le_of_ne hhi fun e => heq (Or.inl e)
      have n1 : x1 < xmid := lt_of_le_of_ne hlo fun e => heq (Or.inr e.symm)
      push_cast at hN
      by_cases hi : isinf xmid
      · obtain ⟨x, y, hx, r1, r2, r3, r4, r5, r6⟩ := ih x0 xmid f0 hm n0 hle i0 hi (by have := grid _ _ f1 hm n1; linarith)
        refine ⟨x, y, fun fuel hf => ?_, r1, r2, r3, by linarith, r5, r6⟩
        obtain ⟨g, rfl, hg⟩ := step fuel hf
        simp only [search, ← hxm, if_neg heq, if_pos hi]
        exact hx g hg
      · obtain ⟨x, y, hx, r1, r2, r3, r4, r5, r6⟩ := ih xmid x1 hm f1 n1 (by linarith) hi i1 (by have := grid _ _ hm f0 n0; linarith)
        refine ⟨x, y, fun fuel hf => ?_, r1, r2, r3, r4, by linarith, r6⟩
        obtain ⟨g, rfl, hg⟩ := step fuel hf
        simp only [search, ← hxm, if_neg heq, if_neg hi]
        exact hx g hg

/-- More steps do not change the result. -/
theorem search_mono (isinf : ℝ → Prop) (fuel fuel' : Nat) (hle : fuel ≤ fuel') (x0 x1 x : ℝ) (h : search rd isinf fuel x0 x1 = some x) :
    search rd isinf fuel' x0 x1 = some x := by
  induction fuel generalizing fuel' x0 x1 with
  | zero => simp [search] at h
  | succ g ih =>
    obtain ⟨g', rfl⟩ : ∃ g', fuel' = g' + 1 := ⟨fuel' - 1, by omega⟩
    simp only [search] at h ⊢
    split_ifs at h ⊢ with c1 c2
    · exact h
    · exact ih g' (by omega) _ _ h
    · exact ih g' (by omega) _ _ h

/-- C117: for every binary format with at least 8 bits, every rounding to nearest and every test that fails at -1 and holds at -150, `find_lower_bound` ends, with exactly one result `x`: the test fails there and holds at the next lower float. -/
theorem C117_lower_bound (h : Nearest p emin rd) (hp : emin ≤ 1 - p) (hp8 : 8 ≤ p) (isinf : ℝ → Prop) (h1 : ¬ isinf (-1)) (h150 : isinf (-150)) :
    ∃ x, FindsLowerBound rd isinf x ∧ (∀ x', FindsLowerBound rd isinf x' → x' = x) ∧ IsFloat p emin x ∧ -150 ≤ x ∧ x ≤ -1 ∧ ¬ isinf x ∧
      ∃ y, IsFloat p emin y ∧ y < x ∧ isinf y ∧ ∀ z, IsFloat p emin z → ¬ (y < z ∧ z < x) := by
  have hpow : (2 : ℤ) ^ 8 ≤ 2 ^ p := pow_le_pow_right₀ (by norm_num) hp8
  have small : ∀ m : ℤ, |m| < 2 ^ 8 → IsFloat p emin (m : ℝ) := fun m hm => ⟨m, 0, lt_of_lt_of_le hm hpow, by omega, by simp⟩
  have f1 : IsFloat p emin (-1 : ℝ) := by simpa using small (-1) (by norm_num)
  have f2 : IsFloat p emin (-2 : ℝ) := by simpa using small (-2) (by norm_num)
  have f150 : IsFloat p emin (-150 : ℝ) := by simpa using small (-150) (by norm_num)
  obtain ⟨N, hN⟩ := exists_nat_ge ((149 : ℝ) / 2 ^ emin)
  obtain ⟨x, y, hx, r1, r2, r3, r4, r5, r6, r7, r8⟩ := search_ends h hp f2 isinf N (-1) (-150) f1 f150 (by norm_num) le_rfl h1 h150
    (by rw [div_le_iff₀ (two_zpow_pos emin)] at hN; linarith)
  refine ⟨x, ⟨N, ?_⟩, ?_, r1, by linarith, r5, r6, y, r2, r3, r7, r8⟩
  · rw [h.exact f1, h.exact f150]; exact hx N le_rfl
  · rintro x' ⟨fuel, hf⟩
    rw [h.exact f1, h.exact f150] at hf
    have e := search_mono isinf fuel (max fuel N) (le_max_left _ _) _ _ _ hf
    rw [hx _ (le_max_right _ _)] at e
    exact (Option.some.inj e).symm

/-- C117: if the test is monotone, the result is the lowest float in [-150, -1] at which the value is not infinite (what the
docstring promises). -/
theorem C117_lower_bound_lowest (h : Nearest p emin rd) (hp : emin ≤ 1 - p) (hp8 : 8 ≤ p) (isinf : ℝ → Prop) (h1 : ¬ isinf (-1)) (h150 : isinf (-150))
    (hmono : ∀ y z, IsFloat p emin y → IsFloat p emin z → y ≤ z → isinf z → isinf y) {x : ℝ} (hx : FindsLowerBound rd isinf x) :
    ∀ y, IsFloat p emin y → (isinf y ↔ y < x) := by
  obtain ⟨x', h1', h2', f, _, _, hni, z, fz, hzx, hiz, hno⟩ := C117_lower_bound h hp hp8 isinf h1 h150
  obtain rfl := h2' x hx
  intro y fy
  constructor
  · intro hi
    by_contra hc
    exact hni (hmono _ _ f fy (not_lt.mp hc) hi)
  · intro hlt
    by_contra hc
    refine hno y fy ⟨?_, hlt⟩
    by_contra hle
    exact hc (hmono _ _ fy fz (not_lt.mp hle) hiz)

/-- The exact test: the value of `erfcx` exceeds the largest finite number of the type. -/
def Overflows (p emax : ℕ) (x : ℝ) : Prop := Erfcx.maxFinite p emax < Erfcx.erfcxVal x

theorem overflows_mono (p emax : ℕ) (y z : ℝ) (h : y ≤ z) (hz : Overflows p emax z) : Overflows p emax y :=
  lt_of_lt_of_le hz (Erfcx.E_anti_all h)

/-- The bound found with the exact test is the lowest float with a finite value. -/
theorem exact_lowest {V : Erfcx.Variant} {emax : ℕ} {m k : ℤ} (O : Erfcx.Over V p emin emax m k) (h : Nearest p emin rd) (hp : emin ≤ 1 - p) (hp8 : 8 ≤ p)
    (h1 : (1 : ℝ) ≤ m * 2 ^ k) (h150 : emax * Real.log 2 ≤ 150 ^ 2) {x : ℝ} (hx : FindsLowerBound rd (Overflows p (emax + 1)) x) :
    IsFloat p emin x ∧ ∀ y, IsFloat p emin y → (Overflows p (emax + 1) y ↔ y < x) := by
  have n1 : ¬ Overflows p (emax + 1) (-1) := not_lt.mpr (O.not_pinf (ex := id) h (by
    rw [Ne, Erfcx.finite_pinf (O.lower_neg h), O.rd_lower h]; linarith))
  have n150 : Overflows p (emax + 1) (-150) := Erfcx.over_of_sq O.hem (by norm_num) (by rw [neg_sq]; exact h150)
  obtain ⟨x', _, hu, hf, _⟩ := C117_lower_bound h hp hp8 _ n1 n150
  rw [hu x hx]
  exact ⟨hf, C117_lower_bound_lowest h hp hp8 _ n1 n150 (fun y z _ _ => overflows_mono p _ y z) (hu x hx ▸ hx)⟩

theorem log_two_bound : Real.log 2 ≤ 1 := by
  have := Real.log_le_sub_one_of_pos (show (0 : ℝ) < 2 by norm_num)
  linarith

/-- C117: with the exact test the script finds the shipped bound of `long double`. -/
theorem C117_bound_longDouble (h : Nearest 64 (-16445) rd) {x : ℝ} (hx : FindsLowerBound rd (Overflows 64 16384) x) :
    x = rd (Erfcx.lit Erfcx.longDoubleV.lower) := by
  obtain ⟨hf, hlow⟩ := exact_lowest Erfcx.over_longDouble h (by norm_num) (by norm_num) (by norm_num) (by have := log_two_bound; push_cast; linarith) hx
  have key : ∀ y : ℝ, IsFloat 64 (-16445) y → (y < x ↔ y < rd (Erfcx.lit Erfcx.longDoubleV.lower)) := fun y hy =>
    (hlow y hy).symm.trans ((Erfcx.C74_overflow_longDouble (ex := id) h hy).symm.trans (Erfcx.finite_pinf (Erfcx.over_longDouble.lower_neg h)))
  have k1 := key x hf
  have k2 := key _ (h (Erfcx.lit Erfcx.longDoubleV.lower)).1
  exact le_antisymm (not_lt.mp fun hc => lt_irrefl _ (k2.mp hc)) (not_lt.mp fun hc => lt_irrefl _ (k1.mpr hc))

/-- With the exact test it finds the next lower `double`, not the shipped bound: the shipped constant is not what the docstring of
`find_lower_bound` promises. -/
theorem C117_bound_double_violated (h : Nearest 53 (-1074) rd) {x : ℝ} (hx : FindsLowerBound rd (Overflows 53 1024) x) :
    x = -7495322764862414 * 2 ^ (-48 : ℤ) ∧ x < rd (Erfcx.lit Erfcx.doubleV.lower) := by
  obtain ⟨hf, hlow⟩ := exact_lowest Erfcx.over_double h (by norm_num) (by norm_num) (by norm_num) (by have := log_two_bound; push_cast; linarith) hx
  have hs : IsFloat (K := ℝ) 53 (-1074) (-7495322764862414 * 2 ^ (-48 : ℤ)) :=
    ⟨-7495322764862414, -48, by norm_num, by norm_num, by push_cast; ring⟩
  have hr := Erfcx.over_double.rd_lower h
  have hlt : (-7495322764862414 * 2 ^ (-48 : ℤ) : ℝ) < rd (Erfcx.lit Erfcx.doubleV.lower) := by rw [hr]; norm_num
  have hfin : ¬ Overflows 53 1024 (-7495322764862414 * 2 ^ (-48 : ℤ)) := by
    have := Erfcx.le_maxFinite (p := 53) (by norm_num) Erfcx.finite_at_double
    refine not_lt.mpr (le_trans (le_of_eq ?_) this)
    norm_num
    rfl
  have hle : x ≤ -7495322764862414 * 2 ^ (-48 : ℤ) := not_lt.mp fun hc => hfin ((hlow _ hs).mpr hc)
  have := (Erfcx.C74_overflow_double_partial (ex := id) h hf).mp ((Erfcx.finite_pinf (Erfcx.over_double.lower_neg h)).mpr (by linarith))
  obtain hc | rfl := this
  · exact absurd ((hlow x hf).mp hc) (lt_irrefl x)
  · exact ⟨rfl, hlt⟩

theorem C117_bound_float_violated (h : Nearest 24 (-149) rd) {x : ℝ} (hx : FindsLowerBound rd (Overflows 24 128) x) :
    x = -9838174 * 2 ^ (-20 : ℤ) ∧ x < rd (Erfcx.lit Erfcx.floatV.lower) := by
  obtain ⟨hf, hlow⟩ := exact_lowest Erfcx.over_float h (by norm_num) (by norm_num) (by norm_num) (by have := log_two_bound; push_cast; linarith) hx
  have hs : IsFloat (K := ℝ) 24 (-149) (-9838174 * 2 ^ (-20 : ℤ)) :=
    ⟨-9838174, -20, by norm_num, by norm_num, by push_cast; ring⟩
  have hr := Erfcx.over_float.rd_lower h
  have hlt : (-9838174 * 2 ^ (-20 : ℤ) : ℝ) < rd (Erfcx.lit Erfcx.floatV.lower) := by rw [hr]; norm_num
  have hfin : ¬ Overflows 24 128 (-9838174 * 2 ^ (-20 : ℤ)) := by
    have := Erfcx.le_maxFinite (p := 24) (by norm_num) Erfcx.finite_at_float
    refine not_lt.mpr (le_trans (le_of_eq ?_) this)
    norm_num
    rfl
  have hle : x ≤ -9838174 * 2 ^ (-20 : ℤ) := not_lt.mp fun hc => hfin ((hlow _ hs).mpr hc)
  have := (Erfcx.C74_overflow_float_partial (ex := id) h hf).mp ((Erfcx.finite_pinf (Erfcx.over_float.lower_neg h)).mpr (by linarith))
  obtain hc | rfl := this
  · exact absurd ((hlow x hf).mp hc) (lt_irrefl x)
  · exact ⟨rfl, hlt⟩

/-- The three formats meet the conditions of `C117_lower_bound`, and there is a rounding. -/
example : ∃ rd : ℝ → ℝ, Nearest 24 (-149) rd ∧ (-149 : ℤ) ≤ 1 - (24 : ℕ) := by
  obtain ⟨rd, h⟩ := exists_nearest (K := ℝ) (p := 24) (by norm_num) (-149)
  exact ⟨rd, h, by norm_num⟩

/-- The fits of `C117_debye1` exist: for a constant function, constants. -/
example : ∀ (i : Nat) (iv : Interval) (k : Nat), shipped[i]? = some iv → k < iv.n → (fun i _ => if i = 0 then [7] else [7, 0] : Nat → Nat → List ℝ) i k ≠ [] ∧
    ∀ t, iv.edge k ≤ t → t ≤ iv.edge (k + 1) →
      |polyval (((fun i _ => if i = 0 then [7] else [7, 0] : Nat → Nat → List ℝ) i k).map id) t - (if iv.scale then t * 7 else 7)| ≤ 0 := by
  intro i iv k hi hk
  have hi4 : i < 4 := (List.getElem?_eq_some_iff.mp hi).1
  obtain rfl | rfl | rfl | rfl : i = 0 ∨ i = 1 ∨ i = 2 ∨ i = 3 := by omega
  all_goals
    cases hi
    refine ⟨by simp, fun t _ _ => ?_⟩
    simp [polyval, mul_comm]

end Ufunclab.CodeGen

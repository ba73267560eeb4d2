import Verif.Proof.CxxGen
/-! # Properties C58-C61: the gufunc code generator -/
namespace Ufunclab.CxxGen
open PyStr

theorem getD_getElem {α : Type _} (l : List α) (d : α) {i : Nat} (h : i < l.length) : l.getD i d = l[i] := by
  rw [List.getD_eq_getElem?_getD, List.getElem?_eq_getElem h]; rfl

/-! ### C58: generated loops -/

theorem mem_symbols (coreDims : List Dim) (s : List Char) : s ∈ symbols coreDims ↔ Dim.str s ∈ coreDims := by
  induction coreDims with
  | nil => simp [symbols]
  | cons d r ih => cases d <;> simp [symbols, ih]

theorem symbols_nodup (coreDims : List Dim) (h : coreDims.Nodup) : (symbols coreDims).Nodup := by
  induction coreDims with
  | nil => simp [symbols]
  | cons d r ih =>
    rw [List.nodup_cons] at h
    cases d with
    | int k => simpa [symbols] using ih h.2
    | str s => simpa [symbols, mem_symbols, h.1] using ih h.2

theorem scope_nodup (coreDims : List Dim) (shapes : List Shape) (vars : List (List Char)) (h : Names coreDims vars) :
    (genLoop coreDims shapes vars).scope.Nodup := by
  obtain ⟨_, hd2⟩ := genDecls_ok 0 (fun _ => 0) [] coreDims
  simp only [List.length_nil] at hd2
  unfold LoopCode.scope
  rw [show (genLoop coreDims shapes vars).decls = genDecls coreDims 0 from rfl, hd2,
    show (genLoop coreDims shapes vars).vars = vars from rfl]
  have hp : ∀ v : List Char, "p_".toList ++ v ∉ ["args".toList, "dimensions".toList, "steps".toList, "data".toList, "nloops".toList] := by
    intro v hv
    have e : ∀ w ∈ ["args".toList, "dimensions".toList, "steps".toList, "data".toList, "nloops".toList], w.head? ≠ some 'p' := by decide +kernel
    exact e _ hv rfl
  rw [List.append_assoc, List.append_assoc, List.nodup_append, List.nodup_append, List.nodup_append]
  refine ⟨by decide +kernel, ⟨?_, ⟨by simp, symbols_nodup _ h.dims, ?_⟩, ?_⟩, ?_⟩
  · exact h.distinct.map (fun a b e => List.append_cancel_left e)
  · intro a ha b hb
    rw [List.mem_singleton] at ha
    subst ha
    rintro rfl
    exact h.own _ ((mem_symbols _ _).1 hb) (by simp)
  · intro a ha b hb
    obtain ⟨v, hv, rfl⟩ := List.mem_map.1 ha
    rintro rfl
    rcases List.mem_append.1 hb with hb | hb
    · exact hp v (by rw [List.mem_singleton] at hb; rw [hb]; simp)
    · exact h.pointers v hv ((mem_symbols _ _).1 hb)
  · intro a ha b hb
    rintro rfl
    rcases List.mem_append.1 hb with hb | hb
    · obtain ⟨v, _, rfl⟩ := List.mem_map.1 hb
      exact hp v (List.mem_append_left ["nloops".toList] ha)
    rcases List.mem_append.1 hb with hb | hb
    · rw [List.mem_singleton] at hb
      subst hb
      revert ha; decide +kernel
    · exact h.own _ ((mem_symbols _ _).1 hb) (List.mem_append_left ["nloops".toList] ha)

/-- What the generated loop does for every signature: like `C58_calls`, but where the core dimension
`j` should be passed it passes the number of the iteration. -/
theorem exec_eq (coreDims : List Dim) (shapes : List Shape) (vars : List (List Char)) (hvars : vars.length = shapes.length)
    (hnames : Names coreDims vars) (ops : List Operand)
    (hrank : ops.map (·.core.length) = shapes.map Shape.rank) (size : Dim → Int)
    (hsize : ∀ k, Dim.int k ∈ coreDims → size (.int k) = k) (n : Nat) (hn : n < 2 ^ 31) :
    exec (genLoop coreDims shapes vars) (npArgs ops) (npDimensions n coreDims size) (npSteps ops) =
      some ((List.range n).map fun j : Nat =>
        { dims := namedSizes coreDims fun d => if d = .str ['j'] then (j : Int) else size d
          ptrs := ops.map fun o => o.base + (j : Int) * o.outer
          strides := ops.map (·.core) }) := by
  have hlen : ops.length = shapes.length := by simpa using congrArg List.length hrank
  have ha := genAsserts_ok n size [] coreDims hsize
  obtain ⟨hd1, hd2⟩ := genDecls_ok n size [] coreDims
  have hst := genStrides_ok (npSteps ops) shapes ops hrank shapes.length
    (by simp [npSteps, ← hlen])
    (by rw [npSteps, ← hlen, List.drop_left' (by simp)])
  simp only [List.length_nil, List.nil_append] at ha hd1 hd2
  have hrun := fun call => runLoop_ok call ops (ops.flatMap (·.core)) n hn (n + 1) 0 (by omega) (by omega)
  unfold exec
  rw [if_neg (not_not.2 (scope_nodup coreDims shapes vars hnames)), if_neg (by simp [genLoop, npArgs, npSteps, hlen, hvars]), if_neg]
  · rw [show (npDimensions n coreDims size)[0]? = some (n : Int) from rfl, Option.bind_some]
    rw [mapM_some _ (fun x => (x.1, size (.str x.1))) _ hd1, Option.bind_some]
    rw [mapM_some _ (fun s => (s, size (.str s))), Option.bind_some]
    · have hst' : (genLoop coreDims shapes vars).strides.mapM (StrideArg.eval (npSteps ops)) = some (ops.map (·.core)) := by
        rw [← hst]; simp [genLoop, hvars]
      rw [hst', Option.bind_some, Int.toNat_natCast]
      have := hrun (fun j ptrs => ⟨(symbols coreDims).map fun s => if s = ['j'] then j else size (.str s), ptrs, ops.map (·.core)⟩)
      simp only [Nat.cast_zero, zero_mul, add_zero, Nat.sub_zero] at this
      rw [show (npArgs ops).take (genLoop coreDims shapes vars).vars.length = ops.map (·.base) by
        rw [npArgs, List.take_of_length_le (by simp [genLoop, hlen, hvars])]]
      rw [List.range_eq_range', show (genLoop coreDims shapes vars).callDims = symbols coreDims from rfl]
      simp only [← namedSizes_eq, Dim.str.injEq, List.map_map]
      exact this
    · intro s hs
      change s ∈ symbols coreDims at hs
      rw [← hd2] at hs
      have := lookup_map ((genDecls coreDims 0).map Prod.fst) (fun s => size (.str s)) s hs
      rw [List.map_map] at this
      rw [show (genLoop coreDims shapes vars).decls = genDecls coreDims 0 from rfl]
      exact (congrArg (Option.map fun v => (s, v)) this).trans rfl
  · simp only [Bool.not_eq_false, List.all_eq_true, beq_iff_eq]
    intro x hx; exact ha x hx

/-- C58.  NumPy calls the generated loop with `n` outer iterations on operands `ops` whose core
strides have the rank of the signature.  The loop performs exactly `n` core calls; call `j`
gets, for every operand, the address `base + j * outer`, its core strides, and the sizes of the
named core dimensions in order.  Integer core dimensions have their literal size.  No core dimension
is named `j`. -/
theorem C58_calls (coreDims : List Dim) (shapes : List Shape) (vars : List (List Char)) (hvars : vars.length = shapes.length)
    (hnames : Names coreDims vars) (hj : Dim.str ['j'] ∉ coreDims) (ops : List Operand)
    (hrank : ops.map (·.core.length) = shapes.map Shape.rank) (size : Dim → Int)
    (hsize : ∀ k, Dim.int k ∈ coreDims → size (.int k) = k) (n : Nat) (hn : n < 2 ^ 31) :
    exec (genLoop coreDims shapes vars) (npArgs ops) (npDimensions n coreDims size) (npSteps ops) =
      some ((List.range n).map fun j =>
        { dims := namedSizes coreDims size
          ptrs := ops.map fun o => o.base + (j : Int) * o.outer
          strides := ops.map (·.core) }) := by
  rw [exec_eq coreDims shapes vars hvars hnames ops hrank size hsize n hn]
  congr 2
  funext j
  congr 1
  unfold namedSizes
  apply List.filterMap_congr
  intro d hd
  cases d with
  | int k => rfl
  | str s =>
    have : s ≠ ['j'] := by rintro rfl; exact hj hd
    simp [this]

/-- C58, negative part: the loop counter is called `j`, and hides a core dimension of that name.  With
signature `(j)->()` the core function is told, in iteration `i`, that the array has `i` elements. -/
theorem C58_loop_variable_violated :
    ∃ core sin sout, parse "(j)->()".toList = some (core, sin, sout) ∧ Names core ["x".toList, "out".toList] ∧
      ∀ (x out : Operand) (size : Dim → Int) (n : Nat), x.core.length = 1 → out.core.length = 0 → n < 2 ^ 31 →
        (exec (genLoop core (sin ++ sout) ["x".toList, "out".toList]) (npArgs [x, out]) (npDimensions n core size)
          (npSteps [x, out])).map (List.map CoreCall.dims) = some ((List.range n).map fun i : Nat => [(i : Int)]) := by
  refine ⟨[.str ['j']], [.one (.str ['j'])], [.one (.str [])], by decide +kernel, ⟨by simp, by decide +kernel, ?_, ?_⟩, ?_⟩
  · intro s hs
    simp only [List.mem_singleton, Dim.str.injEq] at hs
    subst hs; decide +kernel
  · intro v hv hs
    simp only [List.mem_singleton, Dim.str.injEq] at hs
    have := congrArg List.length hs
    simp at this
  · intro x out size n hx ho hn
    rw [exec_eq _ _ _ rfl ⟨by simp, by decide +kernel, ?_, ?_⟩ _ (by simp [hx, ho, Shape.rank]) size (by simp) n hn]
    · simp [namedSizes, Function.comp_def]
    · intro s hs
      simp only [List.mem_singleton, Dim.str.injEq] at hs
      subst hs; decide +kernel
    · intro v hv hs
      simp only [List.mem_singleton, Dim.str.injEq] at hs
      have := congrArg List.length hs
      simp at this

/-- C58, negative part: the loop counter is a C `int`, so with `2^31` or more outer iterations
the execution has a signed overflow (undefined behaviour). -/
theorem C58_int_counter_violated (coreDims : List Dim) (shapes : List Shape) (vars : List (List Char)) (args dimensions steps : List Int)
    (n : Nat) (hn : 2 ^ 31 ≤ n) (hd : dimensions[0]? = some (n : Int)) :
    exec (genLoop coreDims shapes vars) args dimensions steps = none := by
  unfold exec
  split_ifs
  · rfl
  · rfl
  · rw [hd, Option.bind_some]
    simp only [Option.bind_eq_none_iff]
    intro env _ dims _ str _
    exact runLoop_overflow _ _ n hn _ 0 (by omega) _
  · rfl

/-! ### C59: non-zero core dimensions -/

/-- C59: the generated check accepts iff no listed core dimension is zero; an error names a
listed dimension that is zero, and the first such.  `sizes` is NumPy's array of core
dimension sizes, in the order of `coreDims`. -/
theorem C59_check (coreDims : List Dim) (nonzero : List (List Char)) (checks : List (List Char × Nat))
    (hg : genChecks coreDims nonzero = some checks) (size : Dim → Int) :
    (processCoreDims (coreDims.map size) checks = .ok () ↔ ∀ s ∈ nonzero, size (.str s) ≠ 0) ∧
    ∀ s, processCoreDims (coreDims.map size) checks = .error s →
      s ∈ nonzero ∧ size (.str s) = 0 ∧ ∀ t ∈ nonzero, nonzero.idxOf t < nonzero.idxOf s → size (.str t) ≠ 0 := by
  induction nonzero generalizing checks with
  | nil =>
    simp [genChecks] at hg; subst hg
    exact ⟨by simp [processCoreDims], by simp [processCoreDims]⟩
  | cons a r ih =>
    simp only [genChecks, List.mapM_cons, Option.bind_eq_bind, Option.bind_eq_some_iff] at hg
    obtain ⟨x, hx, y, hy, hc⟩ := hg
    split_ifs at hx with ha
    simp only [Option.some.injEq] at hx hc
    subst hx
    have hc : checks = (a, coreDims.idxOf (.str a)) :: y := (Option.some.inj hc).symm
    subst hc
    obtain ⟨i1, i2⟩ := ih y hy
    have hsz : (coreDims.map size).getD (coreDims.idxOf (.str a)) 0 = size (.str a) := by
      have hl := List.idxOf_lt_length_of_mem ha
      rw [List.getD_eq_getElem?_getD, List.getElem?_map, List.getElem?_eq_getElem hl, List.getElem_idxOf]; rfl
    simp only [processCoreDims, hsz]
    split_ifs with h0
    · refine ⟨by simp [h0], ?_⟩
      rintro s hs
      have : a = s := by simpa using hs
      subst this
      refine ⟨by simp, h0, ?_⟩
      intro t _ ht; simp at ht
    · refine ⟨by rw [i1]; simp [h0], ?_⟩
      intro s hs
      obtain ⟨j1, j2, j3⟩ := i2 s hs
      refine ⟨by simp [j1], j2, ?_⟩
      intro t ht hlt
      by_cases hta : t = a
      · subst hta; exact h0
      · have hsa : s ≠ a := by rintro rfl; exact h0 j2
        apply j3 t (by simpa [hta] using ht)
        rw [List.idxOf_cons_ne _ (Ne.symm hta), List.idxOf_cons_ne _ (Ne.symm hsa)] at hlt
        omega

/-- C59: through the whole call: a zero listed dimension means an error and no core call, and
otherwise the loop runs and every listed dimension (of non-negative size) is at least 1. -/
theorem C59_call (coreDims : List Dim) (shapes : List Shape) (vars : List (List Char)) (nonzero : List (List Char)) (checks : List (List Char × Nat))
    (hg : genChecks coreDims nonzero = some checks) (size : Dim → Int) (hpos : ∀ d, 0 ≤ size d) (args dimensions steps : List Int) :
    ((∃ s ∈ nonzero, size (.str s) = 0) →
      ∃ s ∈ nonzero, size (.str s) = 0 ∧ callGufunc coreDims shapes vars checks (coreDims.map size) args dimensions steps = .error s) ∧
    ∀ r, callGufunc coreDims shapes vars checks (coreDims.map size) args dimensions steps = .ok r →
      r = exec (genLoop coreDims shapes vars) args dimensions steps ∧ ∀ s ∈ nonzero, 1 ≤ size (.str s) := by
  obtain ⟨h1, h2⟩ := C59_check coreDims nonzero checks hg size
  constructor
  · rintro ⟨s, hs, h0⟩
    cases hp : processCoreDims (coreDims.map size) checks with
    | ok u => exact absurd h0 (h1.1 hp s hs)
    | error e =>
      obtain ⟨a, b, _⟩ := h2 e hp
      exact ⟨e, a, b, by simp [callGufunc, hp]⟩
  · intro r hr
    unfold callGufunc at hr
    cases hp : processCoreDims (coreDims.map size) checks with
    | ok u =>
      rw [hp] at hr
      refine ⟨by simpa using hr.symm, fun s hs => ?_⟩
      have := h1.1 hp s hs
      have := hpos (.str s)
      omega
    | error e => rw [hp] at hr; simp at hr

/-! ### C60: signatures -/

/-- C60: parsing.  For a signature written from non-empty lists of input and output shapes
(names or numerals, any blanks), the parser returns these shapes, and the core dimensions
are the distinct dimensions in order of first appearance. -/
theorem C60_parse (ins outs : List (List (List Char))) (hi : ins ≠ []) (ho : outs ≠ [])
    (hti : ∀ s ∈ ins, ∀ t ∈ s, Token t) (hto : ∀ s ∈ outs, ∀ t ∈ s, Token t)
    (sig : List Char) (hsig : sig.filter (· ≠ ' ') = sigText ins outs) :
    ∃ core, parse sig = some (core, ins.map (fun s => pyShape (s.map dimOf)), outs.map (fun s => pyShape (s.map dimOf))) ∧
      core.Nodup ∧
      (∀ d, d ∈ core ↔ d ∈ ((ins ++ outs).flatten.map dimOf)) ∧
      core.Pairwise (fun a b => ((ins ++ outs).flatten.map dimOf).idxOf a < ((ins ++ outs).flatten.map dimOf).idxOf b) := by
  have hshape : ∀ (X : List (List (List Char))), (∀ s ∈ X, ∀ t ∈ s, Token t) → '-' ∉ join [','] (X.map shapeText) := by
    intro X hX
    apply join_not_mem _ _ _ (by decide)
    intro p hp
    obtain ⟨s, hs, rfl⟩ := List.mem_map.1 hp
    have := join_not_mem '-' [','] s (by decide) (fun t ht => token_not_mem (hX s hs t ht) (by decide))
    simp [shapeText, this]
  have hsplit : split ['-', '>'] (dropSpaces sig) = [join [','] (ins.map shapeText), join [','] (outs.map shapeText)] := by
    have := split_join '-' ['>'] [join [','] (ins.map shapeText)] (join [','] (outs.map shapeText))
      (by simpa using hshape ins hti) (fun t ht _ hc => hshape outs hto (ht.subset (hc.subset (by simp))))
    have e : dropSpaces sig = join ['-', '>'] ([join [','] (ins.map shapeText)] ++ [join [','] (outs.map shapeText)]) := by
      rw [dropSpaces, hsig]; simp [sigText, join]
    rw [e, this]; rfl
  have hall : ∀ t ∈ (ins ++ outs).flatten, Token t := by
    intro t ht
    obtain ⟨s, hs, hts⟩ := List.mem_flatten.1 ht
    rcases List.mem_append.1 hs with h | h
    · exact hti s h t hts
    · exact hto s h t hts
  have hne : ∀ t, Token t → dimOf t ≠ .str [] := by
    intro t ht
    unfold dimOf
    split_ifs
    · simp
    · simp [ht.1]
  have hflat : (flatten (ins.map fun s => pyShape (s.map dimOf)) ++ flatten (outs.map fun s => pyShape (s.map dimOf))).filter (· ≠ .str []) =
      (ins ++ outs).flatten.map dimOf := by
    have e : flatten (ins.map fun s => pyShape (s.map dimOf)) ++ flatten (outs.map fun s => pyShape (s.map dimOf)) =
        flatten (((ins ++ outs).map (List.map dimOf)).map pyShape) := by
      simp [flatten, List.flatMap_map]
    rw [e, flatten_pyShape, List.map_flatten]
    intro s hs d hd
    obtain ⟨s', hs', rfl⟩ := List.mem_map.1 hs
    obtain ⟨t, ht, rfl⟩ := List.mem_map.1 hd
    exact hne t (hall t (List.mem_flatten.2 ⟨s', hs', ht⟩))
  have hcol := collected ((ins ++ outs).flatten.map dimOf) (by
    intro s hs
    obtain ⟨t, ht, e⟩ := List.mem_map.1 hs
    have htok := hall t ht
    unfold dimOf at e
    split_ifs at e with hd
    simp at e; subst e
    rw [toDim_eq _ htok.1, dimOf, if_neg hd])
  refine ⟨collect ((ins ++ outs).flatten.map dimOf), ?_, hcol.nodup, ?_, hcol.order⟩
  · unfold parse
    rw [hsplit]
    simp only [splitParts_join ins hi hti, splitParts_join outs ho hto]
    rw [collect_filter, hflat]
  · intro d
    rw [hcol.mem]
    constructor
    · exact fun h => h.1
    · intro h
      obtain ⟨t, ht, rfl⟩ := List.mem_map.1 h
      exact ⟨h, hne t (hall t ht)⟩

theorem split_arrows (n : Nat) : ∀ (s acc : List Char), s.length ≤ n →
    (splitAux ['-', '>'] acc s).length = arrows s + 1 := by
  induction n with
  | zero =>
    intro s acc h
    have : s = [] := List.length_eq_zero_iff.1 (by omega)
    subst this
    simp [splitAux, arrows]
  | succ n ih =>
    intro s acc h
    match s with
    | [] => simp [splitAux, arrows]
    | [c] => simp [splitAux, arrows, List.isPrefixOf]
    | c :: d :: s =>
      rw [splitAux]
      by_cases hc : c = '-' ∧ d = '>'
      · obtain ⟨rfl, rfl⟩ := hc
        rw [if_pos (by simp [List.isPrefixOf]), List.length_cons]
        simp only [List.length_cons, List.length_nil, Nat.zero_add, Nat.reduceAdd, Nat.add_one_sub_one, List.drop_succ_cons, List.drop_zero]
        rw [ih s [] (by simp at h; omega), arrows]
      · rw [if_neg (by simp [List.isPrefixOf]; intro h1 h2; exact hc ⟨h1.symm, h2.symm⟩), ih (d :: s) (c :: acc) (by simp at h ⊢; omega)]
        have : arrows (c :: d :: s) = arrows (d :: s) := by
          rw [arrows]
          intro s' h1 h2
          simp only [List.cons.injEq] at h2
          exact hc ⟨h1, h2.1⟩
        rw [this]

/-- C60: a signature whose text does not contain exactly one arrow is rejected (ValueError), and
only such a signature. -/
theorem C60_malformed (sig : List Char) : parse sig = none ↔ arrows (sig.filter (· ≠ ' ')) ≠ 1 := by
  have h := split_arrows _ (dropSpaces sig) [] le_rfl
  rw [← show split ['-', '>'] (dropSpaces sig) = splitAux ['-', '>'] [] (dropSpaces sig) from rfl] at h
  rw [show sig.filter (· ≠ ' ') = dropSpaces sig from rfl]
  unfold parse
  split
  · rename_i l r e
    rw [e] at h
    simp at h
    simp [← h]
  · rename_i e
    simp only [true_iff]
    intro h1
    rw [h1] at h
    obtain ⟨a, b, hab⟩ := List.length_eq_two.1 h
    exact e a b hab

example : parse "(n)->(m)->()".toList = none ∧ parse "(n),()".toList = none := by
  constructor <;> exact (C60_malformed _).2 (by decide)

/-- C60: the rank of a parsed shape is the number of dimensions written, so the stride
arguments of C58 are those of the signature. -/
theorem C60_rank (toks : List (List Char)) (h : ∀ t ∈ toks, Token t) : (pyShape (toks.map dimOf)).rank = toks.length := by
  match toks, h with
  | [], _ => rfl
  | [t], h =>
    simp only [List.map_cons, List.map_nil, pyShape, List.length_singleton, dimOf]
    have := (h t (by simp)).1
    split_ifs
    · rfl
    · match t, this with
      | c :: s, _ => rfl
  | a :: b :: r, _ => simp [pyShape, Shape.rank]

/-- C58 with C60: from the signature text to the core calls.  For a signature written from
`ins` and `outs`, and operands with one core stride per dimension written, the generated loop
makes `n` calls with the right addresses and strides, and the named dimensions in order of
first appearance.  No dimension has a name the loop uses itself. -/
theorem C58_from_signature (ins outs : List (List (List Char))) (hi : ins ≠ []) (ho : outs ≠ [])
    (hti : ∀ s ∈ ins, ∀ t ∈ s, Token t) (hto : ∀ s ∈ outs, ∀ t ∈ s, Token t)
    (sig : List Char) (hsig : sig.filter (· ≠ ' ') = sigText ins outs)
    (vars : List (List Char)) (hvars : vars.length = ins.length + outs.length) (hvn : vars.Nodup)
    (hown : ∀ t ∈ (ins ++ outs).flatten,
      t ∉ ["args".toList, "dimensions".toList, "steps".toList, "data".toList, "nloops".toList, "j".toList])
    (hptr : ∀ v ∈ vars, "p_".toList ++ v ∉ (ins ++ outs).flatten)
    (ops : List Operand) (hops : ops.map (·.core.length) = (ins ++ outs).map List.length)
    (size : Dim → Int) (hsize : ∀ k, size (.int k) = k) (n : Nat) (hn : n < 2 ^ 31) :
    ∃ core sin sout, parse sig = some (core, sin, sout) ∧
      exec (genLoop core (sin ++ sout) vars) (npArgs ops) (npDimensions n core size) (npSteps ops) =
        some ((List.range n).map fun j =>
          { dims := namedSizes core size
            ptrs := ops.map fun o => o.base + (j : Int) * o.outer
            strides := ops.map (·.core) }) := by
  obtain ⟨core, h1, hnd, hmem, _⟩ := C60_parse ins outs hi ho hti hto sig hsig
  have htok : ∀ s, Dim.str s ∈ core → s ∈ (ins ++ outs).flatten := by
    intro s hs
    obtain ⟨t, ht, e⟩ := List.mem_map.1 ((hmem _).1 hs)
    unfold dimOf at e
    split_ifs at e
    simp only [Dim.str.injEq] at e
    rwa [← e]
  refine ⟨core, _, _, h1, C58_calls core _ vars (by simp [hvars]) ⟨hnd, hvn, ?_, ?_⟩ ?_ ops ?_ size (fun k _ => hsize k) n hn⟩
  · intro s hs hm
    exact hown s (htok s hs) (List.mem_append_left ["j".toList] hm)
  · exact fun v hv hs => hptr v hv (htok _ hs)
  · exact fun hs => hown _ (htok _ hs) (by simp)
  rw [hops, ← List.map_append, List.map_map]
  apply List.map_congr_left
  intro s hs
  refine (C60_rank s ?_).symm
  rcases List.mem_append.1 hs with h | h
  · exact hti s h
  · exact hto s h

/-- C60: `get_nin_nout` counts the arguments on both sides of the arrow, with any blanks. -/
theorem C60_nin_nout (ins outs : List (List (List Char)))
    (hti : ∀ s ∈ ins, ∀ t ∈ s, Token t) (hto : ∀ s ∈ outs, ∀ t ∈ s, Token t)
    (sig : List Char) (hsig : sig.filter (· ≠ ' ') = sigText ins outs) :
    ninNout sig = (ins.length, outs.length) := by
  have hblank : ∀ (s : List Char) (o : Bool) (a b : Nat), ninNoutLoop s o a b = ninNoutLoop (s.filter (· ≠ ' ')) o a b := by
    intro s
    induction s with
    | nil => intros; rfl
    | cons c s ih =>
      intro o a b
      by_cases hc : c = ' '
      · subst hc
        rw [show List.filter (fun x => decide (x ≠ ' ')) (' ' :: s) = List.filter (fun x => decide (x ≠ ' ')) s by simp, ← ih]
        simp [ninNoutLoop]
      · rw [List.filter_cons_of_pos (by simp [hc])]
        simp only [ninNoutLoop, ih]
  have hskip : ∀ (s r : List Char) (o : Bool) (a b : Nat), '-' ∉ s → '(' ∉ s → ninNoutLoop (s ++ r) o a b = ninNoutLoop r o a b := by
    intro s r
    induction s with
    | nil => intros; rfl
    | cons c s ih =>
      intro o a b h1 h2
      simp only [List.mem_cons, not_or] at h1 h2
      rw [List.cons_append, ninNoutLoop, if_neg (Ne.symm h1.1), if_neg (Ne.symm h2.1), ih _ _ _ h1.2 h2.2]
  have hside : ∀ (X : List (List (List Char))), (∀ s ∈ X, ∀ t ∈ s, Token t) → ∀ (r : List Char) (o : Bool) (a b : Nat),
      ninNoutLoop (join [','] (X.map shapeText) ++ r) o a b =
        if o then ninNoutLoop r o a (b + X.length) else ninNoutLoop r o (a + X.length) b := by
    intro X
    induction X with
    | nil => intro _ r o a b; cases o <;> simp [join]
    | cons s X ih =>
      intro hX r o a b
      have hj : ∀ c ∈ special, c ≠ ',' → c ∉ join [','] s := fun c hc hne =>
        join_not_mem c [','] s (by simp [hne]) (fun t ht => token_not_mem (hX s (by simp) t ht) hc)
      have hin : ∀ (r : List Char), ninNoutLoop (shapeText s ++ r) o a b = if o then ninNoutLoop r o a (b + 1) else ninNoutLoop r o (a + 1) b := by
        intro r
        simp only [shapeText, List.cons_append, List.append_assoc]
        rw [ninNoutLoop, if_neg (by decide), if_pos rfl]
        have e1 := fun a b => hskip (join [','] s) ([')'] ++ r) o a b (hj '-' (by decide) (by decide)) (hj '(' (by decide) (by decide))
        have e2 := fun a b => hskip [')'] r o a b (by decide) (by decide)
        cases o
        · simp only [Bool.false_eq_true, if_false]; exact (e1 _ _).trans (e2 _ _)
        · simp only [if_true]; exact (e1 _ _).trans (e2 _ _)
      cases X with
      | nil =>
        simp only [List.map_cons, List.map_nil, join, List.length_singleton]
        exact hin r
      | cons s' X =>
        rw [List.map_cons, join_cons _ _ _ (by simp), List.append_assoc, List.append_assoc, hin]
        have hc := fun a b => hskip [','] (join [','] ((s' :: X).map shapeText) ++ r) o a b (by decide) (by decide)
        have ih := ih (fun t ht => hX t (by simp [ht])) r o
        cases o
        · simp only [Bool.false_eq_true, if_false] at ih ⊢
          rw [hc, ih]; congr 1; simp; omega
        · simp only [if_true] at ih ⊢
          rw [hc, ih]; congr 1; simp; omega
  unfold ninNout
  rw [hblank, hsig, sigText, List.append_assoc, hside ins hti]
  simp only [Bool.false_eq_true, if_false, List.cons_append, List.nil_append]
  rw [ninNoutLoop, if_pos rfl]
  have := hside outs hto [] true (0 + ins.length) 0
  rw [List.append_nil] at this
  rw [ninNoutLoop, if_neg (by decide), if_neg (by decide), this]
  simp [ninNoutLoop]

/-- C60: the parameter names are those of the first docstring line `name(v1, v2, /, ...)`. -/
theorem C60_docstring (name : List Char) (vars : List (List Char)) (rest : List Char) (hv : vars ≠ [])
    (hname : '(' ∉ name ∧ ',' ∉ name)
    (hvars : ∀ v ∈ vars, v ≠ [] ∧ ∀ c ∈ v, c ∉ [' ', '(', ',', '/']) :
    docVars (name ++ ['('] ++ join [',', ' '] vars ++ [',', ' ', '/'] ++ rest) = vars := by
  have f1 : find ['('] (name ++ ['('] ++ join [',', ' '] vars ++ [',', ' ', '/'] ++ rest) = some name.length := by
    rw [List.append_assoc, List.append_assoc]
    apply find_append
    intro i hi ⟨t, ht⟩
    have h0 : (name ++ ['('] ++ (join [',', ' '] vars ++ ([',', ' ', '/'] ++ rest)))[i]? = some '(' := by
      have := congrArg (·[0]?) ht
      simp only [List.getElem?_drop, Nat.add_zero] at this
      rw [← this]; rfl
    rw [List.append_assoc, List.getElem?_append_left hi] at h0
    exact hname.1 (List.mem_of_getElem? h0)
  -- no variable list tail starts with `, /` inside `vars`
  have hin : ∀ (vs : List (List Char)), vs ≠ [] → (∀ v ∈ vs, v ≠ [] ∧ ∀ c ∈ v, c ∉ [' ', '(', ',', '/']) → ∀ (tl : List Char) i, i < (join [',', ' '] vs).length →
      ¬ [',', ' ', '/'] <+: (join [',', ' '] vs ++ tl).drop i := by
    intro vs
    induction vs with
    | nil => intro h; exact absurd rfl h
    | cons v vs ih =>
      intro _ hvs tl i hi hp
      obtain ⟨hne, hch⟩ := hvs v (by simp)
      have hcomma : (join [',', ' '] (v :: vs) ++ tl)[i]? = some ',' ∧ (join [',', ' '] (v :: vs) ++ tl)[i + 2]? = some '/' := by
        obtain ⟨t, ht⟩ := hp
        constructor
        · have := congrArg (·[0]?) ht
          simp only [List.getElem?_drop, Nat.add_zero] at this
          rw [← this]; rfl
        · have := congrArg (·[2]?) ht
          simp only [List.getElem?_drop] at this
          rw [← this]; rfl
      by_cases hiv : i < v.length
      · have h1 := hcomma.1
        have : (join [',', ' '] (v :: vs) ++ tl)[i]? = v[i]? := by
          cases vs with
          | nil => simp only [join]; rw [List.getElem?_append_left hiv]
          | cons w vs => rw [join_cons _ _ _ (by simp), List.append_assoc, List.append_assoc, List.getElem?_append_left hiv]
        rw [this] at h1
        exact hch _ (List.mem_of_getElem? h1) (by simp)
      · cases vs with
        | nil => simp only [join] at hi; omega
        | cons w vs =>
          rw [join_cons _ _ _ (by simp)] at hi hp hcomma
          obtain ⟨hwne, hwch⟩ := hvs w (by simp)
          rcases Nat.lt_or_ge i (v.length + 2) with h2 | h2
          · by_cases h3 : i = v.length
            · subst h3
              have := hcomma.2
              obtain ⟨c, w', rfl⟩ := List.exists_cons_of_ne_nil hwne
              have e : (v ++ [',', ' '] ++ join [',', ' '] ((c :: w') :: vs) ++ tl)[v.length + 2]? = some c := by
                have hl : (v ++ [',', ' ']).length = v.length + 2 := by simp
                rw [List.append_assoc, List.getElem?_append_right (by omega), hl, Nat.sub_self]
                cases vs with
                | nil => rfl
                | cons x xs => rw [join_cons _ _ _ (by simp)]; rfl
              rw [e] at this
              simp at this
              exact hwch c (by simp) (by simp [this])
            · have h4 : i = v.length + 1 := by omega
              have := hcomma.1
              rw [h4, List.append_assoc, List.append_assoc, List.getElem?_append_right (by omega)] at this
              simp at this
          · have hl : (v ++ [',', ' ']).length = v.length + 2 := by simp
            apply ih (by simp) (fun x hx => hvs x (by simp [hx])) tl (i - (v.length + 2))
            · rw [List.length_append, hl] at hi; omega
            · rw [List.append_assoc, List.drop_append, List.drop_eq_nil_of_le (by omega), List.nil_append, hl] at hp
              exact hp
  have f2 : find [',', ' ', '/'] (name ++ ['('] ++ join [',', ' '] vars ++ [',', ' ', '/'] ++ rest) =
      some (name ++ ['('] ++ join [',', ' '] vars).length := by
    apply find_append
    intro i hi hp
    have hl : (name ++ ['(']).length = name.length + 1 := by simp
    by_cases h1 : i < name.length + 1
    · obtain ⟨t, ht⟩ := hp
      have h0 : (name ++ ['('] ++ join [',', ' '] vars ++ [',', ' ', '/'] ++ rest)[i]? = some ',' := by
        have := congrArg (·[0]?) ht
        simp only [List.getElem?_drop, Nat.add_zero] at this
        rw [← this]; rfl
      rw [List.append_assoc, List.append_assoc, List.getElem?_append_left (by omega)] at h0
      have := List.mem_of_getElem? h0
      simp [hname.2] at this
    · apply hin vars hv hvars ([',', ' ', '/'] ++ rest) (i - (name.length + 1))
      · rw [List.length_append, hl] at hi; omega
      · rw [List.append_assoc, List.append_assoc, List.drop_append, List.drop_eq_nil_of_le (by omega), List.nil_append, hl] at hp
        exact hp
  unfold docVars
  rw [f1, f2]
  simp only []
  have hpar : ((name ++ ['('] ++ join [',', ' '] vars ++ [',', ' ', '/'] ++ rest).take
      (name ++ ['('] ++ join [',', ' '] vars).length).drop (name.length + 1) = join [',', ' '] vars := by
    rw [List.append_assoc _ [',', ' ', '/'] rest, List.take_left, List.drop_left' (by simp)]
  rw [hpar]
  have hds : ∀ (vs : List (List Char)), (∀ v ∈ vs, v ≠ [] ∧ ∀ c ∈ v, c ∉ [' ', '(', ',', '/']) →
      dropSpaces (join [',', ' '] vs) = join [','] vs := by
    intro vs
    induction vs with
    | nil => intro _; rfl
    | cons v vs ih =>
      intro h
      have hv : dropSpaces v = v := by
        unfold dropSpaces
        rw [List.filter_eq_self]
        intro c hc
        have := (h v (by simp)).2 c hc
        simp at this ⊢; exact this.1
      cases vs with
      | nil => exact hv
      | cons w vs =>
        have ih := ih (fun x hx => h x (by simp [hx]))
        rw [join_cons _ v _ (by simp), join_cons [','] v _ (by simp)]
        unfold dropSpaces at hv ih ⊢
        rw [List.filter_append, List.filter_append, hv, ih]; rfl
  rw [hds vars hvars, split_join_char ',' vars hv]
  intro p hp hc
  exact (hvars p hp).2 ',' hc (by simp)

/-! ### C61: type classification -/

/-- The rows are a rectangular non-empty table of `L` columns. -/
def Rect (rows : List (List Char)) (L : Nat) : Prop := rows ≠ [] ∧ ∀ r ∈ rows, r.length = L

theorem columns_length (rows : List (List Char)) (L : Nat) (h : Rect rows L) : (columns rows).length = L := by
  obtain ⟨h1, h2⟩ := h
  cases rows with
  | nil => exact absurd rfl h1
  | cons r rows => simp [columns, h2 r (by simp)]

theorem columns_getElem (rows : List (List Char)) (i : Nat) (hi : i < (columns rows).length) :
    (columns rows)[i] = rows.map fun r => r.getD i ' ' := by simp [columns]

/-- C61: structure of the classification.  With `col i` the `i`-th column of the table of type
signatures: entry `i` of the second result is the common type code iff the column is constant,
and otherwise the index of that column in the first result; the first result lists the
distinct non-constant columns in order of first appearance. -/
theorem C61_classify (rows : List (List Char)) (L : Nat) (h : Rect rows L) (i : Nat) (hi : i < L) :
    let uts := (classifyRows rows).1
    let vts := (classifyRows rows).2
    let col := fun i => rows.map fun r => r.getD i ' '
    vts.length = L ∧ uts.Nodup ∧
    (∀ c, vts[i]? = some (.code c) ↔ ∀ r ∈ rows, r.getD i ' ' = c) ∧
    (∀ k, vts[i]? = some (.idx k) → uts[k]? = some (col i)) ∧
    (∀ u, u ∈ uts ↔ (∃ j < L, u = col j) ∧ ¬ ∃ c, ∀ x ∈ u, x = c) ∧
    uts.Pairwise (fun a b => (columns rows).idxOf a < (columns rows).idxOf b) := by
  intro uts vts col
  have inv := classInv (columns rows)
  have hl := columns_length rows L h
  have hic : i < (columns rows).length := by omega
  have hcol := columns_getElem rows i hic
  have hne : (columns rows)[i] ≠ [] := by rw [hcol]; simp [h.1]
  have hv : vts[i]? = some (if IsConst (columns rows)[i] then .code ((columns rows)[i].headD ' ') else .idx (uts.idxOf (columns rows)[i])) := by
    change (List.foldl classifyStep ([], []) (columns rows)).2[i]? = _
    rw [inv.res, List.getElem?_map, List.getElem?_eq_getElem hic]; rfl
  have hne' : ∀ u ∈ columns rows, u ≠ [] := by
    intro u hu
    obtain ⟨j, hj, rfl⟩ := List.mem_iff_getElem.1 hu
    rw [columns_getElem]; simp [h.1]
  refine ⟨?_, inv.nodup, ?_, ?_, ?_, inv.order⟩
  · change (List.foldl classifyStep ([], []) (columns rows)).2.length = L
    rw [inv.res]; simp [hl]
  · intro c
    rw [hv]
    obtain ⟨r0, rr, hrows⟩ := List.exists_cons_of_ne_nil h.1
    by_cases hc : IsConst (columns rows)[i]
    · rw [if_pos hc]
      obtain ⟨d, hd⟩ := (isConst_iff _ hne).1 hc
      have hhead : (columns rows)[i].headD ' ' = d := by
        rw [hcol, hrows] at hd ⊢; simpa using hd _ (by simp)
      rw [hhead]
      simp only [Option.some.injEq, VT.code.injEq]
      rw [hcol] at hd
      constructor
      · rintro rfl r hr; exact hd _ (List.mem_map.2 ⟨r, hr, rfl⟩)
      · intro hall
        rw [← hall r0 (by simp [hrows]), hd _ (List.mem_map.2 ⟨r0, by simp [hrows], rfl⟩)]
    · rw [if_neg hc]
      simp only [Option.some.injEq, reduceCtorEq, false_iff]
      intro hall
      apply hc
      rw [isConst_iff _ hne, hcol]
      exact ⟨c, by intro x hx; obtain ⟨r, hr, rfl⟩ := List.mem_map.1 hx; exact hall r hr⟩
  · intro k hk
    rw [hv] at hk
    split_ifs at hk with hc
    · simp at hk
    · simp only [Option.some.injEq, VT.idx.injEq] at hk
      subst hk
      have hm : (columns rows)[i] ∈ uts := (inv.mem _).2 ⟨List.getElem_mem _, hc⟩
      rw [List.getElem?_eq_getElem (List.idxOf_lt_length_of_mem hm), List.getElem_idxOf, hcol]
  · intro u
    change u ∈ (List.foldl classifyStep ([], []) (columns rows)).1 ↔ _
    rw [inv.mem]
    constructor
    · rintro ⟨a, b⟩
      rw [isConst_iff _ (hne' u a)] at b
      obtain ⟨j, hj, rfl⟩ := List.mem_iff_getElem.1 a
      exact ⟨⟨j, by omega, columns_getElem rows j hj⟩, b⟩
    · rintro ⟨⟨j, hj, rfl⟩, b⟩
      have hm : (rows.map fun r => r.getD j ' ') ∈ columns rows := by
        rw [← columns_getElem rows j (by omega)]; exact List.getElem_mem _
      refine ⟨hm, ?_⟩
      rwa [isConst_iff _ (hne' _ hm)]

/-- C61: two columns get the same entry iff they are equal (given that they are not constant). -/
theorem C61_same_param (rows : List (List Char)) (L : Nat) (h : Rect rows L) (i j : Nat) (hi : i < L) (hj : j < L)
    (hc : ¬ ∃ c, ∀ r ∈ rows, r.getD i ' ' = c) :
    (classifyRows rows).2[i]? = (classifyRows rows).2[j]? ↔ ∀ r ∈ rows, r.getD i ' ' = r.getD j ' ' := by
  obtain ⟨hl, hn, h1, h2, _, _⟩ := C61_classify rows L h i hi
  obtain ⟨_, _, g1, g2, _, _⟩ := C61_classify rows L h j hj
  have hcol : ∀ a b, ((rows.map fun r => r.getD a ' ') = (rows.map fun r => r.getD b ' ')) ↔ ∀ r ∈ rows, r.getD a ' ' = r.getD b ' ' := by
    intro a b; rw [List.map_inj_left]
  have inv := classInv (columns rows)
  rw [← hcol]
  constructor
  · intro e
    cases hv : (classifyRows rows).2[i]? with
    | none => rw [List.getElem?_eq_none_iff] at hv; omega
    | some v =>
      cases v with
      | code c => exact absurd ⟨c, (h1 c).1 hv⟩ hc
      | idx k =>
        have a := h2 k hv
        have b := g2 k (by rw [← e, hv])
        rw [a] at b; simpa using b
  · intro e
    have li := columns_length rows L h
    have a : ∀ m, (hm : m < L) → (classifyRows rows).2[m]? = some (if IsConst ((columns rows)[m]'(by omega)) then .code (((columns rows)[m]'(by omega)).headD ' ') else .idx ((classifyRows rows).1.idxOf ((columns rows)[m]'(by omega)))) := by
      intro m hm
      change (List.foldl classifyStep ([], []) (columns rows)).2[m]? = _
      rw [inv.res, List.getElem?_map, List.getElem?_eq_getElem (by omega)]; rfl
    have e' : (columns rows)[i]'(by omega) = (columns rows)[j]'(by omega) := by
      rw [columns_getElem, columns_getElem]; exact e
    rw [a i hi, a j hj, e']

/-- C61: the generated loop table matches the type code table.  For distinct type signatures of
equal length, there is one concrete loop per signature, in the same order, and its argument
types are exactly those of the signature. -/
theorem C61_loops (types : List (List Char)) (L : Nat) (h : Rect (typecodeRows types) L) (hnd : (typecodeRows types).Nodup) :
    loops types = typecodeRows types := by
  set rows := typecodeRows types with hrows
  have hcl : classify types = classifyRows rows := rfl
  unfold loops
  rw [hcl]
  have key : ∀ i, i < L → _ := fun i hi => C61_classify rows L h i hi
  have inv := classInv (columns rows)
  have hlen : (classifyRows rows).2.length = L := by
    change (List.foldl classifyStep ([], []) (columns rows)).2.length = L
    rw [inv.res]; simp [columns_length rows L h]
  -- the concrete types at row `r`
  have hconc : ∀ (r : Nat) (hr : r < rows.length) (codes : List Char),
      (∀ k u, (classifyRows rows).1[k]? = some u → codes.getD k ' ' = u.getD r ' ') →
      concrete codes (classifyRows rows).2 = rows[r] := by
    intro r hr codes hcodes
    have hrl : rows[r].length = L := h.2 _ (List.getElem_mem hr)
    apply List.ext_getElem (by simp [concrete, hlen, hrl])
    intro i hi1 hi2
    have hi : i < L := by omega
    obtain ⟨_, _, h1, h2, _, _⟩ := key i hi
    simp only [concrete, List.getElem_map]
    cases hv : (classifyRows rows).2[i]'(by omega) with
    | code c =>
      simp only
      have := (h1 c).1 (by rw [List.getElem?_eq_getElem (by omega), hv]) _ (List.getElem_mem hr)
      rw [← this, getD_getElem _ _ hi2]
    | idx k =>
      simp only
      have := h2 k (by rw [List.getElem?_eq_getElem (by omega), hv])
      rw [hcodes k _ this, getD_getElem _ _ (by simpa using hr), List.getElem_map, getD_getElem _ _ hi2]
  simp only []
  rcases hu : (classifyRows rows).1 with _ | ⟨u0, us⟩
  · rw [if_pos List.length_nil]
    -- every column constant: a single row
    have hone : rows.length = 1 := by
      by_contra hne
      have hpos : 0 < rows.length := List.length_pos_iff.2 h.1
      have h2 : 1 < rows.length := by omega
      have heq : rows[0] = rows[1] := by
        have a0 := h.2 _ (List.getElem_mem hpos)
        have a1 := h.2 _ (List.getElem_mem h2)
        apply List.ext_getElem (by omega)
        intro i hi0 hi1
        obtain ⟨_, _, h1, h2', _, _⟩ := key i (by omega)
        cases hv : (classifyRows rows).2[i]? with
        | none => rw [List.getElem?_eq_none_iff] at hv; omega
        | some v =>
          cases v with
          | idx k => have := h2' k hv; rw [hu] at this; simp at this
          | code c =>
            have b0 := (h1 c).1 hv _ (List.getElem_mem hpos)
            have b1 := (h1 c).1 hv _ (List.getElem_mem h2)
            rw [getD_getElem _ _ hi0] at b0
            rw [getD_getElem _ _ hi1] at b1
            rw [b0, b1]
      have := (List.Nodup.getElem_inj_iff hnd).1 heq
      omega
    have := hconc 0 (by omega) [] (by rw [hu]; simp)
    rw [this]
    obtain ⟨r0, hr0⟩ := List.length_eq_one_iff.1 hone
    simp [hr0]
  · have hne : ¬ ((u0 :: us).length = 0) := by simp
    rw [if_neg hne, ← hu]
    have hul : ∀ u ∈ (classifyRows rows).1, u.length = rows.length := by
      intro u hum
      have : u ∈ columns rows := ((inv.mem u).1 hum).1
      obtain ⟨j, hj, rfl⟩ := List.mem_iff_getElem.1 this
      rw [columns_getElem]; simp
    have hmin : (((classifyRows rows).1.map List.length).min?.getD 0) = rows.length := by
      have : (classifyRows rows).1.map List.length = List.replicate (us.length + 1) rows.length := by
        rw [List.eq_replicate_iff]
        refine ⟨by simp [hu], ?_⟩
        intro b hb
        obtain ⟨u, hum, rfl⟩ := List.mem_map.1 hb
        exact hul u hum
      rw [this, List.min?_replicate_of_pos (by omega)]; rfl
    unfold zipStar
    rw [hmin, List.map_map]
    apply List.ext_getElem (by simp)
    intro r hr1 hr2
    simp only [List.getElem_map, List.getElem_range, Function.comp]
    apply hconc r hr2
    intro k u hk
    rw [List.getD_eq_getElem?_getD, List.getElem?_map, hk]; rfl

/-- C61: removing the arrow gives the input codes followed by the output codes. -/
theorem C61_arrow (a b : List Char) (ha : '-' ∉ a) (hb : '-' ∉ b) : typecodeRows [a ++ ['-', '>'] ++ b] = [a ++ b] := by
  simp only [typecodeRows, List.map_cons, List.map_nil]
  rw [dropArrow_sig a b ha hb]

/-- C61, negative part: a repeated signature breaks the correspondence (one loop, two rows of
type codes), and so does a source whose signatures are all dropped (one loop, no row). -/
theorem C61_duplicates_violated :
    (loops ["d->d".toList, "d->d".toList]).length = 1 ∧ (typecodeRows ["d->d".toList, "d->d".toList]).length = 2 ∧
    (loops []).length = 1 ∧ (typecodeRows []).length = 0 := by decide

/-! ### Non-vacuity -/
example : loops ["ii?->fp".toList, "ff?->fp".toList, "dd?->dp".toList] = ["ii?fp".toList, "ff?fp".toList, "dd?dp".toList] := by decide
example : classify ["ii?->fp".toList, "ff?->fp".toList, "dd?->dp".toList, "gg?->gp".toList] =
    (["ifdg".toList, "ffdg".toList], [.idx 0, .idx 0, .code '?', .idx 1, .code 'p']) := by decide
example : sigText [["m".toList, "6".toList], ["n".toList]] [["n".toList]] = "(m,6),(n)->(n)".toList := by decide
example : ∀ s ∈ [["m".toList, "6".toList], ["n".toList]], ∀ t ∈ s, Token t := by unfold Token; decide
example : dimOf "6".toList = .int 6 ∧ dimOf "n".toList = .str "n".toList := by decide
example : genChecks [.str ['n'], .int 2] [['n']] = some [(['n'], 0)] := by decide

end Ufunclab.CxxGen

import Verif.Proof.GufuncGen
/-!
# Property C78: the gufunc generator, end to end

`gen` is the model of tools/cxxgen/gufuncgen.py; what a configuration is, and how NumPy reads what is
registered, is in Verif/Spec/GufuncGen.lean and Verif/Spec/Gufunc.lean.
-/
namespace Ufunclab.GufuncGen
open PyStr CxxGen Spec
open UfuncGen (npyType upper theOnly theOnly_of_nodup flatten_slice)
open UfuncGen.Spec (identChars macroString)

/-! ### Dispatch -/

theorem same_parse {ld : Bool} {u : UFunc} {ins outs ins' outs' : List (List (List Char))} {vars vars' : List (List Char)}
    (h : UFuncOK ld u ins outs vars) (h' : UFuncOK ld u ins' outs' vars') :
    coreOf ins' outs' = coreOf ins outs ∧ ins'.length = ins.length ∧ outs'.length = outs.length ∧
      (ins' ++ outs').map List.length = (ins ++ outs).map List.length := by
  have e := h.parse
  rw [h'.parse] at e
  simp only [Option.some.injEq, Prod.mk.injEq] at e
  obtain ⟨e1, e2, e3⟩ := e
  have rank : ∀ (X Y : List (List (List Char))), (∀ s ∈ X, ∀ t ∈ s, Token t) → (∀ s ∈ Y, ∀ t ∈ s, Token t) →
      (X.map fun s => pyShape (s.map dimOf)) = (Y.map fun s => pyShape (s.map dimOf)) → X.map List.length = Y.map List.length := by
    intro X Y hX hY hXY
    have := congrArg (List.map Shape.rank) hXY
    rw [List.map_map, List.map_map] at this
    rw [show X.map List.length = X.map (Shape.rank ∘ fun s => pyShape (s.map dimOf)) from
        List.map_congr_left fun s hs => (C60_rank s (hX s hs)).symm,
      show Y.map List.length = Y.map (Shape.rank ∘ fun s => pyShape (s.map dimOf)) from
        List.map_congr_left fun s hs => (C60_rank s (hY s hs)).symm]
    exact this
  refine ⟨e1, by simpa using congrArg List.length e2, by simpa using congrArg List.length e3, ?_⟩
  rw [List.map_append, List.map_append, rank _ _ h'.tokIn h.tokIn e2, rank _ _ h'.tokOut h.tokOut e3]

theorem sources_rows (ld : Bool) (ss : List Source) : (ss.flatMap fun s => (keep ld s.types).map chars) =
    (ss.flatMap fun s => (List.range (keep ld s.types).length).map fun r => (s, r)).map fun x => chars ((keep ld x.1.types).getD x.2 []) := by
  rw [List.map_flatMap]
  rw [List.flatMap_def, List.flatMap_def]
  congr 1
  apply List.map_congr_left
  intro s _
  rw [List.map_map]
  apply List.ext_getElem
  · simp
  · intro i h1 h2
    simp at h1
    simp [h1]

/-- C78: the generated module compiles, and defines the gufuncs of the configuration in order.  Loop `k` of a gufunc is for
the `k`-th type signature, in the order in which the sources list them: NumPy reads these types for it from the registered
arrays, and when it runs the loop on `n` core operations, the loop calls the core function of that
source `n` times, instantiated for the template types of that signature, with pointers cast to its
types, to the right elements, and with the right core dimensions and strides. -/
theorem C78_dispatch (ld : Bool) (e : ExtMod) (h : Config ld e) :
    ∃ M, gen ld e = some M ∧ M.compiles = true ∧ M.name = e.modname ∧ M.ufuncs.length = e.ufuncs.length ∧
      ∀ (i : Nat) (u : UFunc), e.ufuncs[i]? = some u →
        ∃ U, M.ufuncs[i]? = some U ∧ U.name = u.name ∧ U.signature = u.signature ∧
          U.nloops = (loopsOf ld u).length ∧ U.funcs.length = U.nloops ∧
          ∀ ins outs vars, UFuncOK ld u ins outs vars →
            ninNout U.signature = (ins.length, outs.length) ∧
            U.typecodes.length = U.nloops * (ins.length + outs.length) ∧
            ∀ (k : Nat) (s : Source) (r : Nat), (loopsOf ld u)[k]? = some (s, r) →
              ∃ t, (keep ld s.types)[r]? = some t ∧ loopTypes U k = (chars t).map npyOf ∧
                ∀ (ops : List Operand) (size : Dim → Int) (n : Nat),
                  ops.map (·.core.length) = (ins ++ outs).map List.length → (∀ k, size (.int k) = k) → n < 2 ^ 31 →
                  run M (U.funcs.getD k []) (npArgs ops) (npDimensions n (coreOf ins outs) size) (npSteps ops) =
                    some ((List.range n).map fun j : Nat =>
                      { callee := s.funcname
                        templ := templateTypes (keep ld s.types) r
                        casts := (chars t).map cTypeOf
                        call :=
                          { dims := namedSizes (coreOf ins outs) size
                            ptrs := ops.map fun o => o.base + (j : Int) * o.outer
                            strides := ops.map (·.core) } }) := by
  obtain ⟨M, I, O, V, hM, hok, hname, hloops, hufuncs, _, hnd, hcomp⟩ := gen_eq ld e h
  refine ⟨M, hM, hcomp, hname, by rw [hufuncs, List.length_map], ?_⟩
  intro i u hi
  have hu : u ∈ e.ufuncs := List.mem_of_getElem? hi
  refine ⟨regOf ld u (I u) (O u), by rw [hufuncs, List.getElem?_map, hi]; rfl, rfl, rfl, rfl, List.length_map .., ?_⟩
  intro ins outs vars h'
  obtain ⟨hc, hnin, hnout, hranks⟩ := same_parse (hok u hu) h'
  have hnn : ninNout u.signature = (ins.length, outs.length) := C60_nin_nout ins outs h'.tokIn h'.tokOut u.signature h'.signature
  have hrowlen : ∀ row ∈ (loopsOf ld u).map (fun x => (chars ((keep ld x.1.types).getD x.2 [])).map npyOf),
      row.length = ins.length + outs.length := by
    intro row hrow
    obtain ⟨x, hx, rfl⟩ := List.mem_map.1 hrow
    obtain ⟨s, hs, hx⟩ := List.mem_flatMap.1 hx
    obtain ⟨r, hr, rfl⟩ := List.mem_map.1 hx
    rw [List.mem_range] at hr
    rw [List.length_map, getD_getElem _ _ hr]
    exact (rows_rect (h'.sources s hs)).2 _ (List.mem_map.2 ⟨_, List.getElem_mem hr, rfl⟩)
  have htc : (regOf ld u (I u) (O u)).typecodes =
      ((loopsOf ld u).map fun x => (chars ((keep ld x.1.types).getD x.2 [])).map npyOf).flatten := by
    simp only [regOf]
    rw [sources_rows, List.map_map]
    rfl
  refine ⟨hnn, ?_, ?_⟩
  · rw [htc, List.length_flatten]
    have : (((loopsOf ld u).map fun x => (chars ((keep ld x.1.types).getD x.2 [])).map npyOf).map List.length) =
        List.replicate (loopsOf ld u).length (ins.length + outs.length) := by
      rw [List.eq_replicate_iff]
      refine ⟨by simp, ?_⟩
      intro n hn
      obtain ⟨row, hrow, rfl⟩ := List.mem_map.1 hn
      exact hrowlen row hrow
    rw [this, List.sum_replicate_nat]
    rfl
  intro k s r hk
  have hmem : (s, r) ∈ loopsOf ld u := List.mem_of_getElem? hk
  obtain ⟨hs, hr⟩ : s ∈ u.sources ∧ r < (keep ld s.types).length := by
    obtain ⟨s', hs', hx⟩ := List.mem_flatMap.1 hmem
    obtain ⟨r', hr', e⟩ := List.mem_map.1 hx
    simp only [Prod.mk.injEq] at e
    obtain ⟨rfl, rfl⟩ := e
    exact ⟨hs', List.mem_range.1 hr'⟩
  refine ⟨(keep ld s.types)[r], List.getElem?_eq_getElem hr, ?_, ?_⟩
  · unfold loopTypes
    simp only
    rw [show (regOf ld u (I u) (O u)).signature = u.signature from rfl, hnn, htc]
    apply flatten_slice _ _ hrowlen
    rw [List.getElem?_map, hk, Option.map_some, getD_getElem _ _ hr]
  · intro ops size n hops hsize hn
    have hf : (regOf ld u (I u) (O u)).funcs.getD k [] =
        (fnOf ld (coreOf (I u) (O u)) (shapesOf (I u) (O u)) (V u ++ outNames (O u).length) s r).name := by
      simp only [regOf]
      rw [List.getD_eq_getElem?_getD, List.getElem?_map, hk]
      rfl
    have hin : fnOf ld (coreOf (I u) (O u)) (shapesOf (I u) (O u)) (V u ++ outNames (O u).length) s r ∈ M.loops := by
      rw [hloops]
      exact List.mem_flatMap.2 ⟨u, hu, List.mem_map.2 ⟨(s, r), hmem, rfl⟩⟩
    unfold run
    rw [if_neg (by rw [hcomp]; decide), hf, theOnly_of_nodup LoopFn.name M.loops hnd _ hin, Option.bind_some]
    rw [show (fnOf ld (coreOf (I u) (O u)) (shapesOf (I u) (O u)) (V u ++ outNames (O u).length) s r).code =
      genLoop (coreOf (I u) (O u)) (shapesOf (I u) (O u)) (V u ++ outNames (O u).length) from rfl]
    have hshape : (shapesOf (I u) (O u)).map Shape.rank = (I u ++ O u).map List.length := by
      rw [shapesOf, List.map_map]
      apply List.map_congr_left
      intro x hx
      refine C60_rank x fun t ht => ?_
      exact (hok u hu).token t (List.mem_flatten.2 ⟨x, hx, ht⟩)
    rw [hc]
    rw [C58_calls (coreOf (I u) (O u)) (shapesOf (I u) (O u)) (V u ++ outNames (O u).length)
      (by rw [(hok u hu).nargs, shapesOf, List.length_map, List.length_append]) (hok u hu).names
      (fun hj => (hok u hu).own _ ((hok u hu).mem_core _ hj) (by decide +kernel)) ops (by rw [hshape, ← hranks, hops]) size
      (fun k _ => hsize k) n hn, Option.map_some, List.map_map]
    congr 1
    apply List.map_congr_left
    intro j _
    simp only [Function.comp_apply, fnOf, getD_getElem _ _ hr, TypedCall.mk.injEq, true_and, and_true]
    apply List.take_of_length_le
    rw [List.length_map]
    change _ ≤ (V u ++ outNames (O u).length).length
    rw [(hok u hu).nargs]
    exact ((rows_rect ((hok u hu).sources s hs)).2 _ (List.mem_map.2 ⟨_, List.getElem_mem hr, rfl⟩)).le

/-- C78: the core dimensions declared to be nonzero are checked before the loops run, in order; the
`process_core_dims` function named in the configuration is attached otherwise. -/
theorem C78_core_dims (ld : Bool) (e : ExtMod) (h : Config ld e) (M : Module) (hM : gen ld e = some M)
    (i : Nat) (u : UFunc) (hu : e.ufuncs[i]? = some u) (U : Gufunc) (hU : M.ufuncs[i]? = some U)
    (ins outs : List (List (List Char))) (vars : List (List Char)) (hok : UFuncOK ld u ins outs vars) :
    (u.nonzero = none → U.checks = none ∧ U.process = u.process) ∧
    ∀ l, u.nonzero = some l → U.process = some (u.name ++ "_process_core_dims".toList) ∧
      ∃ cs, U.checks = some cs ∧ ∀ size : Dim → Int,
        (processCoreDims ((coreOf ins outs).map size) cs = .ok () ↔ ∀ s ∈ l, size (.str s) ≠ 0) ∧
        ∀ s, processCoreDims ((coreOf ins outs).map size) cs = .error s →
          s ∈ l ∧ size (.str s) = 0 ∧ ∀ t ∈ l, l.idxOf t < l.idxOf s → size (.str t) ≠ 0 := by
  obtain ⟨M', I, O, V, hM', hok', _, _, hufuncs, _⟩ := gen_eq ld e h
  rw [hM] at hM'
  obtain rfl := Option.some.inj hM'
  have hmem : u ∈ e.ufuncs := List.mem_of_getElem? hu
  rw [hufuncs, List.getElem?_map, hu, Option.map_some, Option.some.injEq] at hU
  subst hU
  obtain ⟨hc, _⟩ := same_parse (hok' u hmem) hok
  refine ⟨fun hn => by simp [regOf, hn], fun l hl => ⟨by simp only [regOf, hl, Option.isSome_some, if_true],
    checksOf (I u) (O u) l, by simp [regOf, hl], ?_⟩⟩
  intro size
  rw [hc]
  exact C59_check (coreOf (I u) (O u)) l _ ((hok' u hmem).checks l hl) size

/-! ### The prototype of the core function -/

/-- C78: the loops call the core function with the arguments announced in the prototype that `gen` writes
for its author, instantiated for the types of the loop; unless an argument has the shape `(1)`. -/
theorem C78_prototype_partial (ld : Bool) (nin nout : Nat) (s : Source) (h : SourceOK ld nin nout s) (hpos : 0 < nin + nout)
    (coreDims : List Dim) (shapes : List Shape) (vars : List (List Char)) (hone : ∀ sh ∈ shapes, sh ≠ .one (.int 1))
    (fns : List LoopFn) (hf : genSource ld coreDims shapes vars s = some fns) (f : LoopFn) (hm : f ∈ fns) :
    callItems f = (prototype coreDims shapes (classify (keep ld s.types)).2).map (instItem f.templ) := by
  rw [genSource_eq coreDims shapes vars h hpos] at hf
  obtain rfl := Option.some.inj hf
  obtain ⟨r, hr, rfl⟩ := List.mem_map.1 hm
  rw [List.mem_range] at hr
  unfold callItems prototype
  rw [List.map_append]
  congr 1
  · simp [fnOf, genLoop, instItem]
  · simp only [fnOf]
    rw [← vts_inst h hpos r hr]
    exact (items_eq shapes hone _ _ vars.length).symm

/-- For the signature `(1)->()` the prototype has no stride for the argument, and the call passes one:
a core function written to the prototype does not compile. -/
theorem C78_prototype_violated :
    ∃ core sin sout, parse "(1)->()".toList = some (core, sin, sout) ∧
      prototype core (sin ++ sout) (classify ["f->f".toList, "d->d".toList]).2 = [.ptr (.idx 0), .ptr (.idx 0)] ∧
      (genSource false core (sin ++ sout) ["x".toList, "out".toList] ⟨"foo".toList, ["f->f".toList, "d->d".toList]⟩).map (List.map callItems) =
        some [[.ptr "npy_float".toList, .stride, .ptr "npy_float".toList], [.ptr "npy_double".toList, .stride, .ptr "npy_double".toList]] := by
  refine ⟨[.int 1], [.one (.int 1)], [.one (.str [])], ?_, ?_, ?_⟩ <;> decide +kernel

/-! ### Docstrings -/

/-- C78: the docstring macro passed for a gufunc expands to its docstring, with the last line
terminated; if all docstrings are free of double quotes, backslashes and unusual line breaks, and the names differ when
case is ignored. -/
theorem C78_docstring_partial (ld : Bool) (e : ExtMod) (h : Config ld e) (M : Module) (hM : gen ld e = some M)
    (hplain : PlainText e.docstring ∧ ∀ u ∈ e.ufuncs, PlainText u.docstring)
    (hnames : ("MODULE".toList :: e.ufuncs.map fun u => upper u.name).Nodup) :
    (∀ (i : Nat) (u : UFunc) (U : Gufunc), e.ufuncs[i]? = some u → M.ufuncs[i]? = some U →
      expand M.docs U.docMacro = some (endLine u.docstring)) ∧
    expand M.docs "MODULE_DOCSTRING".toList = some (endLine e.docstring) := by
  obtain ⟨M', I, O, V, hM', hok, _, _, hufuncs, hdocs, _⟩ := gen_eq ld e h
  rw [hM] at hM'
  obtain rfl := Option.some.inj hM'
  have hupm : upper "MODULE".toList = "MODULE".toList := by decide +kernel
  have hmi : ∀ c ∈ "MODULE".toList, c ∈ identChars := by decide +kernel
  -- all the definitions, with their names
  have key : ∀ (all : List (List Char × List Char)) (docs : List (List Char)),
      (∀ x ∈ all, (∀ c ∈ x.1, c ∈ identChars) ∧ PlainText x.2) → docs.map some = all.map (fun x => docDef x.1 x.2) →
      ∀ name, (∀ c ∈ name, c ∈ identChars) →
        docs.filterMap (fun t => macroString t (upper name ++ "_DOCSTRING".toList)) =
          (all.filter fun x => upper name = upper x.1).map fun x => endLine x.2 := by
    intro all
    induction all with
    | nil =>
      intro docs _ hd name _
      have : docs = [] := by simpa using hd
      rw [this]; rfl
    | cons x all ih =>
      intro docs hx hd name hn
      cases docs with
      | nil => simp at hd
      | cons t docs =>
        rw [List.map_cons, List.map_cons, List.cons.injEq] at hd
        obtain ⟨h1, h2⟩ := hx x (by simp)
        obtain ⟨t', e1, e2⟩ := docDef_macro x.1 x.2 name h1 hn h2
        rw [← hd.1] at e1
        obtain rfl := Option.some.inj e1
        have ih := ih docs (fun y hy => hx y (by simp [hy])) hd.2 name hn
        rw [List.filterMap_cons, e2, ih]
        by_cases hu : upper name = upper x.1
        · simp only [hu, if_true, List.filter_cons, decide_true, List.map_cons]
        · simp only [hu, if_false, List.filter_cons, decide_false, Bool.false_eq_true]
  -- picking the only one
  have pick : ∀ (all : List (List Char × List Char)), (all.map fun x => upper x.1).Nodup → ∀ x ∈ all,
      (all.filter fun y => upper x.1 = upper y.1) = [x] := by
    intro all
    induction all with
    | nil => simp
    | cons a all ih =>
      intro hnd x hx
      rw [List.map_cons, List.nodup_cons] at hnd
      rcases List.mem_cons.1 hx with rfl | hx
      · rw [List.filter_cons_of_pos (by simp)]
        congr 1
        rw [List.filter_eq_nil_iff]
        intro y hy
        simp only [decide_eq_true_eq]
        intro e
        exact hnd.1 (List.mem_map.2 ⟨y, hy, e.symm⟩)
      · rw [List.filter_cons_of_neg, ih hnd.2 x hx]
        simp only [decide_eq_true_eq]
        intro e
        exact hnd.1 (List.mem_map.2 ⟨x, hx, e⟩)
  let all : List (List Char × List Char) := (e.ufuncs.map fun u => (u.name, u.docstring)) ++ [("MODULE".toList, e.docstring)]
  have hall : M.docs.map some = all.map fun x => docDef x.1 x.2 := by
    rw [hdocs]; simp only [all, List.map_append, List.map_map, List.map_cons, List.map_nil]; rfl
  have hx : ∀ x ∈ all, (∀ c ∈ x.1, c ∈ identChars) ∧ PlainText x.2 := by
    intro x hx
    rcases List.mem_append.1 hx with hx | hx
    · obtain ⟨u, hu, rfl⟩ := List.mem_map.1 hx
      exact ⟨(hok u hu).ident.2, hplain.2 u hu⟩
    · rw [List.mem_singleton] at hx
      subst hx
      exact ⟨hmi, hplain.1⟩
  have hnd : (all.map fun x => upper x.1).Nodup := by
    simp only [all, List.map_append, List.map_map, List.map_cons, List.map_nil, hupm]
    rw [List.nodup_append_comm]
    exact hnames
  have final : ∀ x ∈ all, expand M.docs (upper x.1 ++ "_DOCSTRING".toList) = some (endLine x.2) := by
    intro x hxm
    unfold expand
    rw [key all M.docs hx hall x.1 (hx x hxm).1, pick all hnd x hxm]
    rfl
  constructor
  · intro i u U hu hU
    have hmem : u ∈ e.ufuncs := List.mem_of_getElem? hu
    rw [hufuncs, List.getElem?_map, hu, Option.map_some, Option.some.injEq] at hU
    subst hU
    exact final (u.name, u.docstring) (List.mem_append_left _ (List.mem_map.2 ⟨u, hmem, rfl⟩))
  · have := final ("MODULE".toList, e.docstring) (List.mem_append_right _ (by simp))
    rw [hupm] at this
    rw [show "MODULE_DOCSTRING".toList = "MODULE".toList ++ "_DOCSTRING".toList by decide +kernel]
    exact this

/-- A double quote breaks the macro; two gufuncs whose names differ in case only share it, and so do a
gufunc `module` and the module; an empty docstring stops the generator. -/
theorem C78_docstring_violated :
    ((docDef "foo".toList "the \"norm\"".toList).bind fun t => macroString t "FOO_DOCSTRING".toList) = none
    ∧ (∃ t t', docDef "foo".toList "a".toList = some t ∧ docDef "Foo".toList "b".toList = some t' ∧
        expand [t, t'] "FOO_DOCSTRING".toList = none)
    ∧ (∃ t t', docDef "module".toList "a".toList = some t ∧ docDef "MODULE".toList "b".toList = some t' ∧
        expand [t, t'] "MODULE_DOCSTRING".toList = none)
    ∧ ∀ name, docDef name [] = none := by
  refine ⟨by decide +kernel, ⟨_, _, rfl, rfl, by decide +kernel⟩, ⟨_, _, rfl, rfl, by decide +kernel⟩, fun name => rfl⟩

/-! ### What the generator refuses -/

/-- C78: nothing is generated if the variables on the first line of a docstring are not as many as the
inputs of the signature, if the signature does not have one arrow, or if both ways of checking core
dimensions are used. -/
theorem C78_rejects (ld : Bool) (e : ExtMod) (u : UFunc) (hu : u ∈ e.ufuncs)
    (h : (u.nonzero.isSome ∧ u.process.isSome) ∨ arrows (u.signature.filter (· ≠ ' ')) ≠ 1 ∨
      ∃ core sin sout, parse u.signature = some (core, sin, sout) ∧ sin.length + sout.length ≠ (varnames u.docstring sout.length).length) :
    gen ld e = none := by
  have h0 : genUfunc ld u = none := by
    unfold genUfunc
    rcases h with h | h | ⟨core, sin, sout, h1, h2⟩
    · rw [if_pos h]
    · rw [(C60_malformed u.signature).2 h]
      by_cases hb : u.nonzero.isSome ∧ u.process.isSome
      · rw [if_pos hb]
      · rw [if_neg hb]
        cases docDef u.name u.docstring <;> rfl
    · rw [h1]
      by_cases hb : u.nonzero.isSome ∧ u.process.isSome
      · rw [if_pos hb]
      · rw [if_neg hb]
        cases docDef u.name u.docstring with
        | none => rfl
        | some d =>
          rw [Option.bind_some, Option.bind_some]
          simp only
          rw [if_pos h2]
  have : e.ufuncs.mapM (genUfunc ld) = none := by
    generalize e.ufuncs = us at hu
    induction us with
    | nil => simp at hu
    | cons a us ih =>
      rw [List.mapM_cons]
      rcases List.mem_cons.1 hu with rfl | hu
      · rw [h0]; rfl
      · rw [ih hu]
        cases genUfunc ld a <;> rfl
  unfold gen
  rw [this]
  rfl

/-! ### What the generator does not refuse -/

/-- A gufunc `foo(x)` with shape signature `(n)->()`. -/
def foo (sources : List Source) : UFunc :=
  { name := "foo".toList, docstring := "foo(x, /, ...)".toList, signature := "(n)->()".toList, sources := sources }

/-- A module with that gufunc. -/
def fooMod (sources : List Source) : ExtMod := ⟨"m".toList, "Module m.".toList, [foo sources]⟩

/-- Type signatures with one input too many are accepted: the module compiles, and NumPy reads the
types of the second loop from the wrong place.  It is taken for float input, and casts the pointer to
double. -/
theorem C78_signature_length_violated :
    let G := gen false (fooMod [⟨"foo_core".toList, ["ff->f".toList, "dd->d".toList]⟩])
    G.map Module.compiles = some true ∧
    G.map (fun M => M.ufuncs.map fun U => loopTypes U 1) = some [["NPY_FLOAT".toList, "NPY_DOUBLE".toList]] ∧
    G.map (fun M => M.ufuncs.map fun U => (run M (U.funcs.getD 1 []) [1000, 2000] [1, 3] [24, 8, 8]).map (List.map TypedCall.casts)) =
      some [some [["npy_double".toList, "npy_double".toList]]] := by
  intro G
  refine ⟨?_, ?_, ?_⟩ <;> decide +kernel

/-- Sources with signatures for objects and for other types give a loop whose name is not an
identifier. -/
theorem C78_object_violated :
    let G := gen false (fooMod [⟨"foo_core".toList, ["d->d".toList, "O->O".toList]⟩])
    G.map (fun M => M.loops.map LoopFn.name) = some ["loop_foo_core_double".toList, "loop_foo_core_PyObject*".toList] ∧
    G.map Module.compiles = some false := by
  intro G
  constructor <;> decide +kernel

/-- Where `long double` is `double`, a source with signatures for `long double` only gives a loop
without types: not all variables of the loop are declared. -/
theorem C78_longdouble_violated :
    let G := gen true (fooMod [⟨"foo_core".toList, ["g->g".toList]⟩])
    G.map (fun M => M.ufuncs.map Gufunc.nloops) = some [1] ∧ G.map (fun M => M.ufuncs.map Gufunc.typecodes) = some [[]] ∧
    G.map Module.compiles = some false := by
  intro G
  refine ⟨?_, ?_, ?_⟩ <;> decide +kernel

/-- A core function used in two sources (here with disjoint signatures), or two core functions of which one is
named after the other and a type, give two loops with the same name. -/
theorem C78_shared_core_violated :
    (gen false (fooMod [⟨"foo_core".toList, ["f->f".toList]⟩, ⟨"foo_core".toList, ["d->d".toList]⟩])).map Module.compiles = some false ∧
    (gen false (fooMod [⟨"foo_core".toList, ["i->i".toList, "d->d".toList]⟩, ⟨"foo_core_int".toList, ["f->f".toList]⟩])).map Module.compiles = some false := by
  constructor <;> decide +kernel

/-- A core dimension `j` is accepted; the core function gets the number of the iteration for it. -/
theorem C78_loop_variable_violated :
    let G := gen false ⟨"m".toList, "Module m.".toList, [{ foo [⟨"foo_core".toList, ["d->d".toList]⟩] with signature := "(j)->()".toList }]⟩
    G.map Module.compiles = some true ∧
    (G.bind fun M => (run M "loop_foo_core".toList [1000, 2000] [3, 5] [40, 8, 8]).map (List.map fun c => c.call.dims)) =
      some [[0], [1], [2]] := by
  intro G
  constructor <;> decide +kernel

/-- A gufunc named `loop` can collide with a core function named `data`. -/
theorem C78_name_violated :
    (gen false ⟨"m".toList, "Module m.".toList, [{ foo [⟨"data".toList, ["d->d".toList]⟩] with name := "loop".toList }]⟩).map Module.compiles = some false := by
  decide +kernel

/-! ### The shipped configurations -/

/-- The texts in a text separated by single blanks. -/
def words (s : String) : List (List Char) := split [' '] s.toList

/-- Entry of a configuration file; of the docstring, the first line only. -/
def d (name sig : String) (ins outs : List (List String)) (fname : String) (vars : List String) (rest : String)
    (sources : List (String × List String)) (nonzero : Option (List String)) (process : Option String) : Desc where
  name := name.toList
  signature := sig.toList
  ins := ins.map (List.map String.toList)
  outs := outs.map (List.map String.toList)
  fname := fname.toList
  vars := vars.map String.toList
  rest := rest.toList
  sources := sources.map fun x => ⟨x.1.toList, x.2.map String.toList⟩
  nonzero := nonzero.map (List.map String.toList)
  process := process.map String.toList

def m (name doc : String) (ufuncs : List Desc) : ModDesc := ⟨name.toList, doc.toList, ufuncs⟩

/-- The files src/*/define_cxx_gufunc_extmod.py, evaluated on a platform where `int64` is `long`. -/
def shippedDescs : List ModDesc :=
  [m "_all_same" "This extension module defines the gufunc 'all_same'." [
    d "all_same" "(n)->()" [["n"]] [[]] "all_same" ["x"] ", ...)"
      [("all_same_core", ["b->?", "B->?", "h->?", "H->?", "i->?", "I->?", "l->?", "L->?", "f->?", "d->?", "g->?"]), ("all_same_core_object", ["O->?"])] (none) (none)],
   m "_backlash" "This module defines the backlash and backlash_sum functions.\n" [
    d "backlash" "(n),(),() -> (n)" [["n"], [], []] [["n"]] "backlash" ["x", "deadband", "initial"] ", ...)"
      [("backlash_core", ["fff->f", "ddd->d", "ggg->g"])] (none) (none),
    d "backlash_sum" "(n),(m),(m),(m) -> (n),(m)" [["n"], ["m"], ["m"], ["m"]] [["n"], ["m"]] "backlash_sum" ["x", "w", "deadband", "initial"] ", ...)"
      [("backlash_sum_core", ["ffff->ff", "dddd->dd", "gggg->gg"])] (none) (none)],
   m "_bincount" "This extension module defines the gufuncs 'bincount' and 'bincountw'." [
    d "bincount" "(n)->(m)" [["n"]] [["m"]] "bincount" ["x"] ", ...)"
      [("bincount_core_calc", ["b->p", "B->p", "h->p", "H->p", "i->p", "I->p", "l->p", "L->p"])] (none) (none),
    d "bincountw" "(n),(n)->(m)" [["n"], ["n"]] [["m"]] "bincountw" ["x", "w"] ", ...)"
      [("bincountw_core_calc", ["bb->b", "bB->B", "bh->h", "bH->H", "bi->i", "bI->I", "bl->l", "bL->L", "bf->f", "bd->d", "Bb->b", "BB->B", "Bh->h", "BH->H", "Bi->i", "BI->I", "Bl->l", "BL->L", "Bf->f", "Bd->d", "hb->b", "hB->B", "hh->h", "hH->H", "hi->i", "hI->I", "hl->l", "hL->L", "hf->f", "hd->d", "Hb->b", "HB->B", "Hh->h", "HH->H", "Hi->i", "HI->I", "Hl->l", "HL->L", "Hf->f", "Hd->d", "ib->b", "iB->B", "ih->h", "iH->H", "ii->i", "iI->I", "il->l", "iL->L", "if->f", "id->d", "Ib->b", "IB->B", "Ih->h", "IH->H", "Ii->i", "II->I", "Il->l", "IL->L", "If->f", "Id->d", "lb->b", "lB->B", "lh->h", "lH->H", "li->i", "lI->I", "ll->l", "lL->L", "lf->f", "ld->d", "Lb->b", "LB->B", "Lh->h", "LH->H", "Li->i", "LI->I", "Ll->l", "LL->L", "Lf->f", "Ld->d"]), ("bincountw_complex_core_calc", ["bF->F", "bD->D", "BF->F", "BD->D", "hF->F", "hD->D", "HF->F", "HD->D", "iF->F", "iD->D", "IF->F", "ID->D", "lF->F", "lD->D", "LF->F", "LD->D"])] (none) (none)],
   m "_convert_to_base" "This extension module defines the gufunc 'convert_to_base'." [
    d "convert_to_base" "(),()->(n)" [[], []] [["n"]] "convert_to_base" ["k", "base"] ", ...)"
      [("convert_to_base_core_calc", ["bb->b", "BB->B", "hh->h", "HH->H", "ii->i", "II->I", "ll->l", "LL->L"])] (none) (none)],
   m "_corr" "This extension module defines the gufunc 'pearson_corr'." [
    d "pearson_corr" "(n),(n)->()" [["n"], ["n"]] [[]] "pearson_corr" ["x", "y"] ", *)"
      [("pearson_corr_int_core", ["bb->d", "BB->d", "hh->d", "HH->d", "ii->d", "II->d", "ll->d", "LL->d"]), ("pearson_corr_core", ["ff->f", "dd->d", "gg->g"])] (none) (some "process_core_dims")],
   m "_cross" "This extension module defines the gufuncs 'cross3' and 'cross2'." [
    d "cross3" "(3),(3)->(3)" [["3"], ["3"]] [["3"]] "cross3" ["u", "v"] ", ...)"
      [("cross3_core_calc", ["ii->i", "ll->l", "ff->f", "dd->d", "gg->g"]), ("cross3_core_calc_object", ["OO->O"])] (none) (none),
    d "cross2" "(2),(2)->()" [["2"], ["2"]] [[]] "cross2" ["u", "v"] ", ...)"
      [("cross2_core_calc", ["ii->i", "ll->l", "ff->f", "dd->d", "gg->g"]), ("cross2_core_calc_object", ["OO->O"])] (none) (none)],
   m "_fillnan1d" "This module defines the fillnan1d function.\n" [
    d "fillnan1d" "(n) -> (n)" [["n"]] [["n"]] "fillnan1d" ["x"] ", ...)"
      [("fillnan1d_core", ["f->f", "d->d", "g->g"])] (none) (none)],
   m "_first" "This extension module defines the gufuncs 'first' and 'argfirst'." [
    d "first" "(n),(),(),()->()" [["n"], [], [], []] [[]] "first" ["x", "op", "target", "otherwise"] ", ...)"
      [("first_core_calc", ["bbbb->b", "BbBB->B", "hbhh->h", "HbHH->H", "ibii->i", "IbII->I", "lbll->l", "LbLL->L", "fbff->f", "dbdd->d", "gbgg->g"]), ("first_core_calc_object", ["ObOO->O"])] (none) (none),
    d "argfirst" "(n),(),()->()" [["n"], [], []] [[]] "argfirst" ["x", "op", "target"] ", ...)"
      [("argfirst_core_calc", ["bbb->p", "BbB->p", "hbh->p", "HbH->p", "ibi->p", "IbI->p", "lbl->p", "LbL->p", "fbf->p", "dbd->p", "gbg->p"]), ("argfirst_core_calc_object", ["ObO->p"])] (none) (none)],
   m "_hysteresis_relay" "This module defines the hysteresis_relay function.\n" [
    d "hysteresis_relay" "(n),(),(),(),(),() -> (n)" [["n"], [], [], [], [], []] [["n"]] "hysteresis_relay" ["x", "low_threshold", "high_threshold", "low_value", "high_value", "init"] ", ...)"
      [("hysteresis_relay_core", ["ffffff->f", "dddddd->d", "gggggg->g"])] (none) (none)],
   m "_kbnsum" "This extension module defines the gufunc 'kbnsum'." [
    d "kbnsum" "(n)->()" [["n"]] [[]] "kbnsum" ["x"] ", ...)"
      [("kbnsum_core_calc", ["f->f", "d->d", "g->g"])] (none) (none)],
   m "_mad" "This extension module defines the gufuncs\nmad, rmad, and gini." [
    d "mad" "(n),()->()" [["n"], []] [[]] "mad" ["x", "unbiased"] ", ...)"
      [("mad_core", ["f?->f", "d?->d", "g?->g"])] (some ["n"]) (none),
    d "rmad" "(n),()->()" [["n"], []] [[]] "rmad" ["x", "unbiased"] ", ...)"
      [("rmad_core", ["f?->f", "d?->d", "g?->g"])] (some ["n"]) (none),
    d "gini" "(n),()->()" [["n"], []] [[]] "gini" ["x", "unbiased"] ", ...)"
      [("gini_core", ["f?->f", "d?->d", "g?->g"])] (some ["n"]) (none)],
   m "_meanvar" "This extension module defines the gufunc 'meanvar'." [
    d "meanvar" "(n),()->(2)" [["n"], []] [["2"]] "meanvar" ["x", "ddof"] ", ...)"
      [("meanvar_core", ["bp->d", "Bp->d", "hp->d", "Hp->d", "ip->d", "Ip->d", "lp->d", "Lp->d", "fp->f", "dp->d", "gp->g"])] (some ["n"]) (none)],
   m "_minmax" "This extension module defines the various min-max gufuncs." [
    d "argmin" "(n)->()" [["n"]] [[]] "argmin" ["x"] ", ...)"
      [("argmin_core", ["b->p", "B->p", "h->p", "H->p", "i->p", "I->p", "l->p", "L->p", "q->p", "Q->p", "f->p", "d->p", "g->p"]), ("argmin_object_core", ["O->p"])] (some ["n"]) (none),
    d "argmax" "(n)->()" [["n"]] [[]] "argmax" ["x"] ", ...)"
      [("argmax_core", ["b->p", "B->p", "h->p", "H->p", "i->p", "I->p", "l->p", "L->p", "q->p", "Q->p", "f->p", "d->p", "g->p"]), ("argmax_object_core", ["O->p"])] (some ["n"]) (none),
    d "minmax" "(n)->(2)" [["n"]] [["2"]] "minmax" ["x"] ", ...)"
      [("minmax_core", ["b->b", "B->B", "h->h", "H->H", "i->i", "I->I", "l->l", "L->L", "q->q", "Q->Q", "f->f", "d->d", "g->g"]), ("minmax_object_core", ["O->O"])] (some ["n"]) (none),
    d "argminmax" "(n)->(2)" [["n"]] [["2"]] "argminmax" ["x"] ", ...)"
      [("argminmax_core", ["b->p", "B->p", "h->p", "H->p", "i->p", "I->p", "l->p", "L->p", "q->p", "Q->p", "f->p", "d->p", "g->p"]), ("argminmax_object_core", ["O->p"])] (some ["n"]) (none),
    d "min_argmin" "(n)->(),()" [["n"]] [[], []] "min_argmin" ["x"] ", ...)"
      [("min_argmin_core", ["b->bp", "B->Bp", "h->hp", "H->Hp", "i->ip", "I->Ip", "l->lp", "L->Lp", "q->qp", "Q->Qp", "f->fp", "d->dp", "g->gp"]), ("min_argmin_object_core", ["O->Op"])] (some ["n"]) (none),
    d "max_argmax" "(n)->(),()" [["n"]] [[], []] "max_argmax" ["x"] ", ...)"
      [("max_argmax_core", ["b->bp", "B->Bp", "h->hp", "H->Hp", "i->ip", "I->Ip", "l->lp", "L->Lp", "q->qp", "Q->Qp", "f->fp", "d->dp", "g->gp"]), ("max_argmax_object_core", ["O->Op"])] (some ["n"]) (none)],
   m "_multivariate_logbeta" "This extension module defines the gufunc multivariate_logbeta." [
    d "multivariate_logbeta" "(n)->()" [["n"]] [[]] "multivariate_logebta" ["x"] ", ...)"
      [("multivariate_logbeta_core", ["f->f", "d->d", "g->g"])] (none) (none)],
   m "_nextn" "This extension module defines the gufuncs 'nextn_greater' and 'nextn_less'." [
    d "nextn_greater" "()->(n)" [[]] [["n"]] "nextn_greater" ["x"] ", ...)"
      [("nextn_greater_core_calc", ["f->f", "d->d", "g->g"])] (none) (none),
    d "nextn_less" "()->(n)" [[]] [["n"]] "nextn_less" ["x"] ", ...)"
      [("nextn_less_core_calc", ["f->f", "d->d", "g->g"])] (none) (none)],
   m "_one_hot" "This extension module defines the gufunc 'one_hot'." [
    d "one_hot" "()->(n)" [[]] [["n"]] "one_hot" ["k"] ", ...)"
      [("one_hot_core_calc", ["p->p"])] (none) (none)],
   m "_ordered" "This extension module defines the gufunc 'ordered'." [
    d "ordered" "(n),()->()" [["n"], []] [[]] "ordered" ["x", "op"] ", ...)"
      [("ordered_core", ["bb->?", "Bb->?", "hb->?", "Hb->?", "ib->?", "Ib->?", "lb->?", "Lb->?", "fb->?", "db->?", "gb->?"]), ("ordered_core_object", ["Ob->?"])] (none) (none)],
   m "_percentileofscore" "This extension module defines the gufuncs 'percentileofscore'." [
    d "percentileofscore" "(n),(),()->()" [["n"], [], []] [[]] "percentileofscore" ["x", "score", "kind"] ", ...)"
      [("percentileofscore_core_calc", ["bbp->d", "BBp->d", "hhp->d", "HHp->d", "iip->d", "IIp->d", "llp->d", "LLp->d", "ffp->d", "ddp->d"])] (none) (none)],
   m "_softmax" "This module defines the softmax function.\n" [
    d "softmax" "(n) -> (n)" [["n"]] [["n"]] "softmax" ["x"] ", ...)"
      [("softmax_core", ["f->f", "d->d", "g->g"])] (none) (none)],
   m "_sosfilter" "SOS filter implementations.\n\nThis module defines the gufuncs 'sosfilter', 'sosfilter_ic' and\n'sosfilter_ic_contig.\n" [
    d "sosfilter" "(m,6), (n) -> (n)" [["m", "6"], ["n"]] [["n"]] "sosfilter" ["sos", "x"] ", ...)"
      [("sosfilter_core", ["ff->f", "dd->d", "gg->g"])] (none) (none),
    d "sosfilter_ic" "(m,6), (n), (m,2) -> (n), (m,2)" [["m", "6"], ["n"], ["m", "2"]] [["n"], ["m", "2"]] "sosfilter_ic" ["sos", "x", "zi"] ", ...)"
      [("sosfilter_ic_core", ["fff->ff", "ddd->dd", "ggg->gg"])] (none) (none),
    d "sosfilter_ic_contig" "(m,6), (n), (m,2) -> (n), (m,2)" [["m", "6"], ["n"], ["m", "2"]] [["n"], ["m", "2"]] "sosfilter_ic_contig" ["sos", "x", "zi"] ", ...)"
      [("sosfilter_ic_contig_core", ["fff->ff", "ddd->dd", "ggg->gg"])] (none) (none)],
   m "_tri_area" "This extension module defines the gufuncs 'tri_area' and 'tri_area_indexed'." [
    d "tri_area" "(3,n)->()" [["3", "n"]] [[]] "tri_area" ["p"] ", ...)"
      [("tri_area_core_calc", ["f->f", "d->d", "g->g"])] (none) (none),
    d "tri_area_indexed" "(m,n),(3)->()" [["m", "n"], ["3"]] [[]] "tri_area_indexed" ["p", "i"] ", ...)"
      [("tri_area_indexed_core_calc", ["fp->f", "dp->d", "gp->g"])] (none) (none)],
   m "_unwrap" "This module defines the unwrap function.\n" [
    d "unwrap" "(n),() -> (n)" [["n"], []] [["n"]] "unwrap" ["x", "period"] ", ...)"
      [("unwrap_core", ["ff->f", "dd->d", "gg->g"])] (none) (none)],
   m "_vnorm" "This extension module defines the gufuncs 'vnorm', 'vdot' and 'rms'." [
    d "vnorm" "(n),()->()" [["n"], []] [[]] "vnorm" ["x", "p"] ", ...)"
      [("vnorm_core_calc", ["ff->f", "dd->d", "gg->g", "Ff->f", "Dd->d", "Gg->g"])] (none) (none),
    d "rms" "(n)->()" [["n"]] [[]] "rms" ["z"] ", ...)"
      [("rms_core_calc", ["f->f", "d->d", "g->g"]), ("crms_core_calc", ["F->f", "D->d", "G->g"])] (some ["n"]) (none),
    d "vdot" "(n),(n)->()" [["n"], ["n"]] [[]] "vdot" ["x", "y"] ", ...)"
      [("vdot_core_calc", ["ff->f", "dd->d", "gg->g"])] (none) (none)],
   m "_wjaccard" "This extension module defines the gufunc 'wjaccard'." [
    d "wjaccard" "(n),(n)->()" [["n"], ["n"]] [[]] "wjaccard" ["x", "y"] ", *)"
      [("wjaccard_core", ["bb->d", "BB->d", "hh->d", "HH->d", "ii->d", "II->d", "ll->d", "LL->d", "ff->f", "dd->d"])] (some ["n"]) (none)]]

/-- The shipped configurations. -/
def shipped : List ExtMod := shippedDescs.map ModDesc.mod

theorem config_all (ld : Bool) (l : List ModDesc) (h : l.all (ModDesc.check ld) = true) : ∀ e ∈ l.map ModDesc.mod, Config ld e := by
  intro e he
  obtain ⟨m, hm, rfl⟩ := List.mem_map.1 he
  exact ModDesc.config (List.all_eq_true.1 h m hm)

theorem shipped_check : shippedDescs.all (ModDesc.check false) = true := by decide +kernel

theorem shipped_keep : (shippedDescs.all fun m => m.ufuncs.all fun d => d.sources.all fun s => !(keep true s.types).isEmpty) = true := by
  decide +kernel

/-- C78: every shipped configuration is one to which `C78_dispatch` applies, whether or not `long double`
is `double`. -/
theorem C78_shipped (ld : Bool) : ∀ e ∈ shipped, Config ld e := by
  have h := config_all false shippedDescs shipped_check
  cases ld with
  | false => exact h
  | true =>
    intro e he
    refine config_longdouble (h e he) ?_
    obtain ⟨m, hm, rfl⟩ := List.mem_map.1 he
    intro u hu s hs
    obtain ⟨d, hd, rfl⟩ := List.mem_map.1 hu
    have := List.all_eq_true.1 (List.all_eq_true.1 (List.all_eq_true.1 shipped_keep m hm) d hd) s hs
    intro h0
    rw [h0] at this
    exact absurd this (by decide)

/-- C78: no shipped gufunc has an argument of shape `(1)`, so that `C78_prototype_partial` applies. -/
theorem C78_shipped_prototype : ∀ e ∈ shipped, ∀ u ∈ e.ufuncs, ∀ core sin sout, parse u.signature = some (core, sin, sout) →
    ∀ sh ∈ sin ++ sout, sh ≠ .one (.int 1) := by
  have key : (shipped.all fun e => e.ufuncs.all fun u =>
      (parse u.signature).all (fun x => (x.2.1 ++ x.2.2).all fun sh => decide (sh ≠ .one (.int 1)))) = true := by decide +kernel
  simp only [List.all_eq_true (p := fun e : ExtMod => _), List.all_eq_true (p := fun u : UFunc => _)] at key
  intro e he u hu core sin sout hp sh hsh
  have := key e he u hu
  rw [hp] at this
  simp only [Option.all_some, List.all_eq_true, decide_eq_true_eq] at this
  exact this sh hsh

/-! ### Examples -/

/-- `first` has twelve loops from two sources; the last is for objects. -/
example : ((shipped.flatMap ExtMod.ufuncs).filter fun u => u.name = "first".toList).map (fun u => (loopsOf false u).map fun x => (x.1.funcname, x.2)) =
    [(List.range 11).map (fun r => ("first_core_calc".toList, r)) ++ [("first_core_calc_object".toList, 0)]] := by decide +kernel

/-- A gufunc with two columns of varying types: two template parameters. -/
def meanvarMod : ExtMod :=
  ⟨"_meanvar".toList, "This extension module defines the gufunc 'meanvar'.".toList,
    [{ name := "meanvar".toList, docstring := "meanvar(x, ddof, /, ...)".toList, signature := "(n),()->(2)".toList,
       sources := [⟨"meanvar_core".toList, words "bp->d fp->f dp->d gp->g"⟩], nonzero := some ["n".toList] }]⟩

example : templateTypes (words "bp->d fp->f dp->d gp->g") 0 = ["npy_byte".toList, "npy_double".toList] := by decide +kernel

example : (gen false meanvarMod).map (fun M => M.ufuncs.map fun U => U.funcs.getD 0 []) = some ["loop_meanvar_core_byte_double".toList] := by
  decide +kernel

example : (gen false meanvarMod).map (fun M => M.ufuncs.map fun U => loopTypes U 3) =
    some [["NPY_LONGDOUBLE".toList, "NPY_INTP".toList, "NPY_LONGDOUBLE".toList]] := by
  decide +kernel

/-- Its first loop, run on two rows of five elements. -/
example : ((gen false meanvarMod).bind fun M => run M "loop_meanvar_core_byte_double".toList [1000, 2000, 3000] [2, 5, 2] [5, 0, 16, 1, 8]) =
    some [⟨"meanvar_core".toList, ["npy_byte".toList, "npy_double".toList], ["npy_byte".toList, "npy_intp".toList, "npy_double".toList],
            ⟨[5], [1000, 2000, 3000], [[1], [], [8]]⟩⟩,
          ⟨"meanvar_core".toList, ["npy_byte".toList, "npy_double".toList], ["npy_byte".toList, "npy_intp".toList, "npy_double".toList],
            ⟨[5], [1005, 2000, 3016], [[1], [], [8]]⟩⟩] := by decide +kernel

/-- Without `long double` it has three loops. -/
example : (gen true meanvarMod).map (fun M => M.ufuncs.map fun U => (U.nloops, U.typecodes.length)) = some [(3, 9)] := by decide +kernel

/-- A docstring of two lines. -/
example : ((docDef "rms".toList "rms(z, /, ...)\nRoot mean square".toList).map fun t => expand [t] "RMS_DOCSTRING".toList)
    = some (some "rms(z, /, ...)\nRoot mean square\n".toList) := by decide +kernel

example : PlainText "rms(z, /, ...)\nRoot mean square".toList := by unfold PlainText; decide +kernel

theorem toLower_eq_g (c : Char) : c.toLower = 'g' ↔ c = 'g' ∨ c = 'G' := by
  constructor
  · intro h
    unfold Char.toLower at h
    by_cases hc : c.val ≥ 'A'.val ∧ c.val ≤ 'Z'.val
    · right
      rw [dif_pos hc] at h
      have h1 : c.val + ('a'.val - 'A'.val) = 'g'.val := congrArg Char.val h
      apply Char.ext
      have h2 : c.val.toNat + 32 = 103 := by
        have := congrArg UInt32.toNat h1
        have hle : c.val.toNat ≤ 90 := hc.2
        rw [UInt32.toNat_add] at this
        have e1 : ('a'.val - 'A'.val).toNat = 32 := rfl
        have e2 : 'g'.val.toNat = 103 := rfl
        rw [e1, e2, Nat.mod_eq_of_lt (by omega)] at this
        exact this
      apply UInt32.toNat_inj.1
      have e3 : 'G'.val.toNat = 71 := rfl
      omega
    · rw [dif_neg hc] at h; exact Or.inl h
  · rintro (rfl | rfl) <;> rfl

/-- C78: where `long double` is `double`, exactly the type signatures with a real or complex `long double`
are left out, in the same order; elsewhere none. -/
theorem C78_long_double (types : List (List Char)) :
    keep false types = types ∧ keep true types = types.filter fun t => !(t.contains 'g' || t.contains 'G') := by
  refine ⟨rfl, ?_⟩
  unfold keep
  rw [if_pos rfl]
  apply List.filter_congr
  intro t _
  rw [Bool.eq_iff_iff]
  simp only [decide_eq_true_eq, List.mem_map, toLower_eq_g, Bool.not_eq_true', ← Bool.not_eq_true,
    Bool.or_eq_true, List.contains_iff_mem, not_or]
  constructor
  · intro h; exact ⟨fun hg => h ⟨_, hg, Or.inl rfl⟩, fun hg => h ⟨_, hg, Or.inr rfl⟩⟩
  · rintro ⟨h1, h2⟩ ⟨a, ha, rfl | rfl⟩
    · exact h1 ha
    · exact h2 ha

/-- Non-vacuity. -/
example : keep true ["ff->f".toList, "gg->g".toList, "GG->g".toList] = ["ff->f".toList] := by decide

end Ufunclab.GufuncGen

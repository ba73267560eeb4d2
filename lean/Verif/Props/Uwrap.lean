import Verif.Proof.Uwrap
import Mathlib.Algebra.BigOperators.Group.List.Basic
import Mathlib.Data.List.Perm.Basic
import Mathlib.Data.List.Nodup
import Mathlib.Data.List.NodupEquivFin
import Mathlib.Data.List.Dedup
/-! # Property C70: the wrapper generator (uwrap) -/
namespace Ufunclab.Uwrap
open PyStr UwrapSpec

/-! ## Line breaking -/

/-- C70: whenever `to_lines` returns, undoing the line breaks gives back the input text, every line
after the first is indented by `offset`, and no line is longer than 78 characters. -/
theorem C70_to_lines (line : Str) (offset fuel : Nat) (ls : List Str) (h : toLines fuel line offset = some ls) :
    glue offset ls = line ∧ Indented offset ls ∧ ∀ l ∈ ls, l.length ≤ 78 := by
  obtain ⟨hL, _, _, first, rest, rfl, _, hrt, hj⟩ :=
    loop_spec offset fuel 0 _ (Nat.zero_le _) ls h (split_ne_nil _ _)
  refine ⟨?_, hrt, hL⟩
  rw [join_split _ (by simp)] at hj
  simpa [glue] using hj

/-- C70: `to_lines` returns, with at most one line per piece, when every piece fits on an indented line. -/
theorem C70_to_lines_returns (line : Str) (offset : Nat)
    (h : ∀ p ∈ split [',', ' '] line, offset + p.length + 2 < 80) :
    ∃ fuel ls, toLines fuel line offset = some ls ∧ ls.length ≤ (split [',', ' '] line).length := by
  obtain ⟨p, ps, hps⟩ := List.exists_cons_of_ne_nil (split_ne_nil [',', ' '] line)
  have hs : (toLines ((split [',', ' '] line).length + 1) line offset).isSome := by
    unfold toLines
    rw [hps, linesLoop]
    simp only [Option.isSome_map]
    apply loop_terminates
    · intro q hq; exact h q (by rw [hps]; exact List.mem_of_mem_drop hq)
    · simp
  obtain ⟨ls, hls⟩ := Option.isSome_iff_exists.mp hs
  exact ⟨_, ls, hls, (loop_spec offset _ 0 _ (Nat.zero_le _) ls hls (split_ne_nil _ _)).2.2.1⟩

/-- C70: exactly when it returns: every piece that is not on the first line fits on an indented line.
(The first line takes the longest prefix of the pieces of width below 80, `fit 0 0`.) -/
theorem C70_to_lines_returns_iff (line : Str) (offset : Nat) :
    (∃ fuel ls, toLines fuel line offset = some ls) ↔
      ∀ p ∈ (split [',', ' '] line).drop (fit 0 0 (split [',', ' '] line)), offset + p.length + 2 < 80 := by
  obtain ⟨p, ps, hps⟩ := List.exists_cons_of_ne_nil (split_ne_nil [',', ' '] line)
  constructor
  · rintro ⟨fuel, ls, h⟩ q hq
    by_contra hc
    unfold toLines at h
    cases fuel with
    | zero => rw [hps, linesLoop] at h; exact absurd h (by simp)
    | succ fuel =>
      rw [hps] at h hq
      rw [linesLoop, loop_diverges offset _ q hq hc fuel] at h
      exact absurd h (by simp)
  · intro h
    refine ⟨((split [',', ' '] line).length + 1), Option.isSome_iff_exists.mp ?_⟩
    unfold toLines
    rw [hps] at h ⊢
    rw [linesLoop]
    simp only [Option.isSome_map]
    exact loop_terminates offset _ h _ (by simp)

/-- C70 fails for long pieces: with a piece of 78 or more characters `to_lines` never returns (it appends
lines for ever), whatever the rest of the text. -/
theorem C70_to_lines_diverges_violated (line : Str) (offset fuel : Nat) (p : Str) (hp : p ∈ split [',', ' '] line)
    (hlong : 78 ≤ p.length) : toLines fuel line offset = none := by
  by_contra hc
  obtain ⟨ls, hls⟩ := Option.ne_none_iff_exists'.mp hc
  have h := (C70_to_lines_returns_iff line offset).mp ⟨fuel, ls, hls⟩
  rw [← List.take_append_drop (fit 0 0 (split [',', ' '] line)) (split [',', ' '] line), List.mem_append] at hp
  rcases hp with hp | hp
  · have h0 : fit 0 0 (split [',', ' '] line) ≠ 0 := by intro h0; rw [h0] at hp; simp at hp
    have := fit_width 0 0 _ h0
    have := mem_width hp
    omega
  · have := h p hp; omega

example : toLines 5 "def f(x, *, out=None, casting='same_kind', order='K', subok=True, where=True, dtype=None, **kwargs):".toList 6
    = some ["def f(x, *, out=None, casting='same_kind', order='K', subok=True, where=True,".toList,
      "      dtype=None, **kwargs):".toList] := by decide +kernel

example (fuel : Nat) : toLines fuel (List.replicate 78 'a') 6 = none :=
  C70_to_lines_diverges_violated _ _ _ (List.replicate 78 'a') (by decide +kernel) (by simp)

/-! ## Signatures and parameters -/

/-- C70: the input items of a gufunc signature are recovered. -/
theorem C70_input_sig_strings (ins : List Str) (hne : ins ≠ []) (outs : Str) (nin : Nat)
    (h : ∀ i ∈ ins, ')' ∉ i ∧ '-' ∉ i) :
    getInputSigStrings (some ('(' :: join [')', ',', '('] ins ++ ')' :: '-' :: '>' :: outs)) nin = ins := by
  have hj : '-' ∉ join [')', ',', '('] ins := join_not_mem _ _ _ (by simp) (fun p hp => (h p hp).2)
  have hsplit : split ['-', '>'] ('(' :: join [')', ',', '('] ins ++ ')' :: '-' :: '>' :: outs)
      = ('(' :: join [')', ',', '('] ins ++ [')']) :: splitAux ['-', '>'] [] outs := by
    have := splitAux_piece '-' ['>'] [] ('(' :: join [')', ',', '('] ins ++ [')']) outs (by simp [hj])
    simpa [split] using this
  have hd : ((('(' :: join [')', ',', '('] ins ++ [')']).drop 1).dropLast) = join [')', ',', '('] ins := by simp
  simp only [getInputSigStrings]
  rw [hsplit, List.headD_cons, hd]
  obtain ⟨i, l, rfl⟩ : ∃ i l, ins = i ++ [l] := ⟨_, _, (List.dropLast_append_getLast hne).symm⟩
  apply split_join ')' [',', '('] i l (fun p hp => (h p (by simp [hp])).1)
  intro t ht _ hc
  exact (h l (by simp)).1 (ht.subset (hc.subset (by simp)))

example : getInputSigStrings (some "(m,n),(),(n)->(n),()".toList) 3 = ["m,n".toList, [], "n".toList] := by
  decide +kernel

def Param.isPos : Param → Bool
  | .pos _ => true
  | .kw _ _ => false

theorem checkLoop_spec (reserved : List Str) (ps : List Param) (args : List Str) (kwargs : List (Str × Str)) (r) :
    checkLoop reserved ps args kwargs = .ok r ↔
      (∀ p ∈ ps, p.name ∉ reserved) ∧
      (kwargs ≠ [] → ∀ p ∈ ps, p.isPos = false) ∧ PosFirst Param.isPos ps ∧
      r = (args ++ ps.filterMap (fun | .pos n => some n | .kw _ _ => none),
        kwargs ++ ps.filterMap (fun | .pos _ => none | .kw n v => some (n, v))) := by
  induction ps generalizing args kwargs with
  | nil =>
    have : PosFirst Param.isPos ([] : List Param) := ⟨[], [], rfl, by simp, by simp⟩
    simp only [checkLoop, List.not_mem_nil, false_imp_iff, implies_true, true_and, this, List.filterMap_nil,
      List.append_nil, Except.ok.injEq]
    exact eq_comm
  | cons p ps ih =>
    cases p with
    | pos n =>
      rw [checkLoop]
      by_cases hk : kwargs = []
      · subst hk
        rw [if_neg (by simp)]
        by_cases hr : n ∈ reserved
        · rw [if_pos hr]; simp [Param.name, hr]
        · rw [if_neg hr, ih]
          have hpf : PosFirst Param.isPos (.pos n :: ps) ↔ PosFirst Param.isPos ps := by
            constructor
            · rintro ⟨a, b, hab, ha, hb⟩
              cases a with
              | nil =>
                simp only [List.nil_append] at hab
                have := hb (.pos n) (by rw [← hab]; simp)
                simp [Param.isPos] at this
              | cons x a =>
                simp only [List.cons_append, List.cons.injEq] at hab
                exact ⟨a, b, hab.2, fun y hy => ha y (by simp [hy]), hb⟩
            · rintro ⟨a, b, rfl, ha, hb⟩
              exact ⟨.pos n :: a, b, rfl, by
                intro x hx; rcases List.mem_cons.mp hx with rfl | hx
                · rfl
                · exact ha x hx, hb⟩
          rw [hpf]
          simp [Param.name, hr]
      · rw [if_pos (List.length_pos_iff.mpr hk)]
        simp [hk, Param.isPos]
    | kw n v =>
      rw [checkLoop]
      by_cases hr : n ∈ reserved
      · rw [if_pos hr]; simp [Param.name, hr]
      · rw [if_neg hr, ih]
        have hpf : PosFirst Param.isPos (.kw n v :: ps) ↔ ∀ p ∈ ps, p.isPos = false := by
          constructor
          · rintro ⟨a, b, hab, ha, hb⟩
            cases a with
            | nil => simp only [List.nil_append] at hab; intro p hp; exact hb p (by rw [← hab]; simp [hp])
            | cons x a =>
              simp only [List.cons_append, List.cons.injEq] at hab
              have := ha x (by simp)
              rw [← hab.1] at this; simp [Param.isPos] at this
          · intro h
            exact ⟨[], .kw n v :: ps, rfl, by simp, by
              intro x hx; rcases List.mem_cons.mp hx with rfl | hx
              · rfl
              · exact h x hx⟩
        have hpf2 : (∀ p ∈ ps, p.isPos = false) → PosFirst Param.isPos ps := fun h => ⟨[], ps, rfl, by simp, h⟩
        rw [hpf]
        simp only [List.mem_cons, forall_eq_or_imp, Param.name, hr, not_false_eq_true, true_and, Param.isPos, ne_eq,
          List.append_eq_nil_iff, List.cons_ne_nil, and_false, forall_const, List.filterMap_cons,
          List.append_assoc, List.singleton_append]
        constructor
        · rintro ⟨h1, h2, h3, h4⟩; exact ⟨h1, fun _ => h2, h2, h4⟩
        · rintro ⟨h1, _, h3, h4⟩; exact ⟨h1, h3, hpf2 h3, h4⟩

theorem mem_allUfuncParams (nout : Nat) (s : Str) : s ∈ allUfuncParams nout ↔ Reserved nout s := by
  constructor
  · intro h
    simp only [allUfuncParams, List.mem_append, List.map_cons, List.map_nil, List.mem_cons, List.not_mem_nil, or_false] at h
    rcases h with (h | h | h | h | h | h | h | h | h | h | h) | h
    iterate 11 (subst h; constructor)
    split at h
    · simp only [List.mem_map, List.mem_range] at h
      obtain ⟨k, hk, rfl⟩ := h
      exact .outK (k + 1) (by omega) (by omega) (by omega)
    · simp at h
  · intro h
    cases h with
    | outK k h0 h1 h2 =>
      rw [allUfuncParams, if_pos (by omega)]
      refine List.mem_append_right _ (List.mem_map.2 ⟨k - 1, List.mem_range.2 (by omega), ?_⟩)
      rw [show k - 1 + 1 = k by omega]; rfl
    | _ => exact List.mem_append_left _ (by simp only [List.map_cons, List.mem_cons, true_or, or_true])

/-- C70: `check_params` succeeds exactly when the parameters without default come first and no name is
that of a ufunc parameter; it then separates the two kinds in order. -/
theorem C70_check_params (params : List Param) (nout : Nat) (r : List Str × List (Str × Str)) :
    checkParams params nout = .ok r ↔
      (∀ p ∈ params, ¬ Reserved nout p.name) ∧ PosFirst Param.isPos params ∧
      r.1 = params.filterMap (fun | .pos n => some n | .kw _ _ => none) ∧
      r.2 = params.filterMap (fun | .pos _ => none | .kw n v => some (n, v)) := by
  rw [checkParams, checkLoop_spec]
  simp [Prod.ext_iff, mem_allUfuncParams]

theorem self_assign (a : Str × Str) (h1 : '=' ∉ a.1) (h2 : '=' ∉ a.2) :
    makeSelfAssignment (assign a) = some (a.1 ++ '=' :: a.1) := by
  have : split ['='] (assign a) = [a.1, a.2] := by
    have h := split_join_char '=' [a.1, a.2] (by simp) (by simp [h1, h2])
    simpa [join, assign] using h
  simp [makeSelfAssignment, this, join]

theorem control_no_eq (u : Ufunc) : ∀ a ∈ controlArgs u, '=' ∉ a.1 ∧ '=' ∉ a.2 := by
  have hn : '=' ∉ noneTuple u.nout := by
    have : '=' ∉ join [',', ' '] (List.replicate u.nout "None".toList) :=
      join_not_mem _ _ _ (by decide) (by intro p hp; rw [List.eq_of_mem_replicate hp]; decide)
    simp only [noneTuple, List.mem_cons, List.mem_append, this, List.not_mem_nil, or_false, false_or]
    decide
  intro a ha
  simp only [controlArgs, List.mem_append, List.mem_cons, List.not_mem_nil, or_false] at ha
  rcases ha with (rfl | rfl | rfl | rfl) | ha
  · refine ⟨(by decide : '=' ∉ "out".toList), ?_⟩
    show '=' ∉ (if u.nout > 1 then noneTuple u.nout else "None".toList)
    split
    · exact hn
    · decide
  · decide
  · decide
  · decide
  · split at ha
    · split at ha
      · simp only [List.mem_singleton] at ha; subst ha; decide
      · simp at ha
    · simp only [List.mem_singleton] at ha; subst ha; decide

/-- C70: the generated `def` and call.  For acceptable parameters, the call passes the parameters
positionally in the order given, then each control argument of the `def` by its own name, in the same
order, then `**kwargs`. -/
theorem C70_signatures (u : Ufunc) (params : List Param) (hres : ∀ p ∈ params, ¬ Reserved u.nout p.name)
    (hpos : PosFirst Param.isPos params) :
    ∃ ds cs, getDefAndCallSig u params = some (.ok (ds, cs)) ∧
      cs = join ", ".toList (params.map Param.name ++
        (controlArgs u).map (fun a => a.1 ++ "=".toList ++ a.1) ++ ["**kwargs".toList]) ∧
      ds = join ", ".toList (params.filterMap (fun | .pos n => some n | .kw _ _ => none) ++ ["*".toList] ++
        params.filterMap (fun | .pos _ => none | .kw n v => some (n ++ "=".toList ++ v)) ++
        (controlArgs u).map (fun a => a.1 ++ "=".toList ++ a.2) ++ ["dtype=None".toList, "**kwargs".toList]) := by
  have hc := (C70_check_params params u.nout
    (params.filterMap (fun | .pos n => some n | .kw _ _ => none),
      params.filterMap (fun | .pos _ => none | .kw n v => some (n, v)))).mpr ⟨hres, hpos, rfl, rfl⟩
  have hself : (controlArgs u).mapM (fun a => makeSelfAssignment (assign a)) =
      some ((controlArgs u).map (fun a => a.1 ++ '=' :: a.1)) := by
    have : ∀ l : List (Str × Str), (∀ a ∈ l, '=' ∉ a.1 ∧ '=' ∉ a.2) →
        l.mapM (fun a => makeSelfAssignment (assign a)) = some (l.map (fun a => a.1 ++ '=' :: a.1)) := by
      intro l
      induction l with
      | nil => intro _; rfl
      | cons a l ih =>
        intro h
        rw [List.mapM_cons, self_assign a (h a (by simp)).1 (h a (by simp)).2, ih (fun b hb => h b (by simp [hb]))]
        rfl
    exact this _ (control_no_eq u)
  have hnames : params.map Param.name =
      params.filterMap (fun | .pos n => some n | .kw _ _ => none) ++
      (params.filterMap (fun | .pos _ => none | .kw n v => some (n, v))).map Prod.fst := by
    obtain ⟨a, b, rfl, ha, hb⟩ := hpos
    have e1 : ∀ l : List Param, (∀ x ∈ l, x.isPos = true) →
        l.filterMap (fun | .pos n => some n | .kw _ _ => none) = l.map Param.name ∧
        l.filterMap (fun | .pos _ => none | .kw n v => some (n, v)) = [] := by
      intro l
      induction l with
      | nil => simp
      | cons p l ih =>
        intro h
        have := ih (fun x hx => h x (by simp [hx]))
        have hp := h p (by simp)
        cases p with
        | pos n => simpa [Param.name] using this
        | kw n v => simp [Param.isPos] at hp
    have e2 : ∀ l : List Param, (∀ x ∈ l, x.isPos = false) →
        l.filterMap (fun | .pos n => some n | .kw _ _ => none) = [] ∧
        (l.filterMap (fun | .pos _ => none | .kw n v => some (n, v))).map Prod.fst = l.map Param.name := by
      intro l
      induction l with
      | nil => simp
      | cons p l ih =>
        intro h
        have := ih (fun x hx => h x (by simp [hx]))
        have hp := h p (by simp)
        cases p with
        | kw n v => simpa [Param.name] using this
        | pos n => simp [Param.isPos] at hp
    simp only [List.map_append, List.filterMap_append, (e1 a ha).1, (e1 a ha).2, (e2 b hb).1, (e2 b hb).2,
      List.append_nil, List.nil_append]
  refine ⟨_, _, ?_, rfl, rfl⟩
  simp only [getDefAndCallSig, hc, hself]
  congr 3
  · have e : (params.filterMap (fun | .pos _ => none | .kw n v => some (n, v))).map assign =
        params.filterMap (fun | .pos _ => none | .kw n v => some (n ++ "=".toList ++ v)) := by
      rw [List.map_filterMap]
      congr 1
      funext x
      cases x <;> simp [assign]
    have e2 : (controlArgs u).map assign = (controlArgs u).map (fun a => a.1 ++ "=".toList ++ a.2) := by
      congr 1; funext a; simp [assign]
    have e3 : ∀ X : List Str, join ", ".toList (X ++ ["dtype=None".toList, "**kwargs".toList]) =
        join [',', ' '] (X ++ ["dtype=None".toList]) ++ ", **kwargs".toList := by
      intro X
      rw [show X ++ ["dtype=None".toList, "**kwargs".toList] = (X ++ ["dtype=None".toList]) ++ ["**kwargs".toList] by simp,
        join_append' _ _ _ (by simp) (by simp), List.append_assoc]
      rfl
    rw [e, e2, e3]
    congr 2
    simp
  · rw [hnames]; simp

example : getDefAndCallSig ⟨1, true, false⟩ [.pos "x".toList, .kw "p".toList "2".toList] =
    some (.ok ("x, *, p=2, out=None, casting='same_kind', order='K', subok=True, dtype=None, **kwargs".toList,
      "x, p, out=out, casting=casting, order=order, subok=subok, **kwargs".toList)) := by decide +kernel

/-! ## Axis tuples -/

theorem insertPair_sorted (l : List (Nat × Nat)) (p : Nat × Nat) (h : ∀ q ∈ l, q.1 < p.1) :
    insertPair p l = l ++ [p] := by
  induction l with
  | nil => rfl
  | cons q l ih =>
    have := h q (by simp)
    rw [insertPair, if_neg (by omega), ih (fun r hr => h r (by simp [hr]))]
    rfl

/-- Sorting pairs whose destinations decrease reverses them. -/
theorem sort_pairs (l : List (Nat × Nat)) (h : l.Pairwise (fun a b => b.1 < a.1)) :
    l.foldr insertPair [] = l.reverse := by
  induction l with
  | nil => rfl
  | cons p l ih =>
    rw [List.pairwise_cons] at h
    rw [List.foldr_cons, ih h.2, insertPair_sorted _ _ (by intro q hq; exact h.1 q (by simpa using hq))]
    simp

theorem insert_all (pairs : List (Nat × Nat)) (order : List Nat)
    (h : ∀ i (hi : i < pairs.length), (pairs[i]).1 = order.length + i) :
    pairs.foldl (fun order p => insertAt order p.1 p.2) order = order ++ pairs.map Prod.snd := by
  induction pairs generalizing order with
  | nil => simp
  | cons p ps ih =>
    have h0 := h 0 (by simp)
    simp only [List.getElem_cons_zero, Nat.add_zero] at h0
    rw [List.foldl_cons]
    have : insertAt order p.1 p.2 = order ++ [p.2] := by simp [insertAt, h0]
    rw [this, ih]
    · simp
    · intro i hi
      have := h (i + 1) (by simpa using hi)
      simp only [List.getElem_cons_succ] at this
      rw [this]; simp; omega

theorem filter_length (ndim : Nat) (axis : List Nat) (hd : axis.Nodup) (hr : ∀ a ∈ axis, a < ndim) :
    ((List.range ndim).filter (· ∉ axis)).length = ndim - axis.length ∧ axis.length ≤ ndim := by
  have hp : ((List.range ndim).filter (· ∈ axis)).Perm axis := by
    rw [List.perm_ext_iff_of_nodup (List.nodup_range.filter _) hd]
    intro a
    simp only [List.mem_filter, List.mem_range, decide_eq_true_eq]
    exact ⟨fun h => h.2, fun h => ⟨hr a h, h⟩⟩
  have h1 := List.length_eq_length_filter_add (l := List.range ndim) (fun a => decide (a ∈ axis))
  have h2 := hp.length_eq
  simp only [List.length_range] at h1
  have h3 : (List.range ndim).filter (fun a => !decide (a ∈ axis)) = (List.range ndim).filter (· ∉ axis) := by
    apply List.filter_congr; intro a _; simp
  rw [h3] at h1
  omega

/-- C70: for a tuple of distinct valid axes, `moveaxis` puts the other axes first, in order, and the
array is then reshaped to the remaining dimensions followed by the product of the dimensions in the
tuple; so the total size is kept. -/
theorem C70_axis_tuple (shape axis : List Nat) (hd : axis.Nodup) (hr : ∀ a ∈ axis, a < shape.length) :
    processShape shape axis =
      (((List.range shape.length).filter (· ∉ axis)).map (fun a => shape.getD a 0)) ++
        [(axis.map (fun a => shape.getD a 0)).prod] ∧
    (processShape shape axis).prod = shape.prod := by
  obtain ⟨hfl, hle⟩ := filter_length shape.length axis hd hr
  have hlen : (destinations shape.length axis.length).length = axis.length := by simp [destinations]
  have hsort : ((destinations shape.length axis.length).zip axis).foldr insertPair [] =
      ((destinations shape.length axis.length).zip axis).reverse := by
    apply sort_pairs
    rw [List.pairwise_iff_getElem]
    intro i j hi hj hij
    simp only [List.getElem_zip, destinations, List.getElem_map, List.getElem_range]
    simp only [List.length_zip, hlen, Nat.min_self] at hj
    omega
  have horder : moveOrder shape.length axis (destinations shape.length axis.length) =
      (List.range shape.length).filter (· ∉ axis) ++ axis.reverse := by
    rw [moveOrder, hsort, insert_all]
    · rw [List.map_reverse, List.map_snd_zip (by rw [hlen])]
    · intro i hi
      simp only [List.length_reverse, List.length_zip, hlen, Nat.min_self] at hi
      simp only [List.getElem_reverse, List.length_zip, List.getElem_zip, destinations,
        List.getElem_map, List.getElem_range, hfl, List.length_map, List.length_range]
      omega
  have hshape : processShape shape axis =
      (((List.range shape.length).filter (· ∉ axis)).map (fun a => shape.getD a 0)) ++
        [(axis.map (fun a => shape.getD a 0)).prod] := by
    simp only [processShape, horder, List.map_append]
    rw [List.take_left' (by rw [List.length_map, hfl]), List.drop_left' (by rw [List.length_map, hfl]), List.map_reverse, List.prod_reverse]
  refine ⟨hshape, ?_⟩
  have hperm : ((List.range shape.length).filter (· ∉ axis) ++ axis).Perm (List.range shape.length) := by
    rw [List.perm_ext_iff_of_nodup]
    · intro a
      simp only [List.mem_append, List.mem_filter, List.mem_range, decide_eq_true_eq]
      constructor
      · rintro (h | h)
        · exact h.1
        · exact hr a h
      · intro h
        by_cases ha : a ∈ axis
        · exact Or.inr ha
        · exact Or.inl ⟨h, ha⟩
    · apply List.Nodup.append (List.nodup_range.filter _) hd
      intro a h1 h2
      simp only [List.mem_filter, decide_eq_true_eq] at h1
      exact h1.2 h2
    · exact List.nodup_range
  have hall : (List.range shape.length).map (fun a => shape.getD a 0) = shape := by
    apply List.ext_getElem
    · simp
    · intro i h1 h2; simp at h1 ⊢; simp [List.getElem?_eq_getElem h2]
  rw [hshape, List.prod_append, List.prod_singleton, ← List.prod_append, ← List.map_append,
    (hperm.map _).prod_eq, hall]

example : processShape [2, 3, 5, 7] [3, 1] = [2, 5, 21] := by decide

end Ufunclab.Uwrap

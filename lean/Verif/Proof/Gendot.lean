import Verif.Model.Gendot
import Mathlib.Tactic.Ring
import Mathlib.Tactic.Linarith
namespace Ufunclab.Gendot
variable {α₁ α₂ β γ : Type}

theorem load_length (m : Bytes) (p : Int) (n : Nat) : (load m p n).length = n := by simp [load]

theorem load_same (m : Bytes) (p : Int) (bs : List UInt8) : load (storeRaw m p bs) p bs.length = bs := by
  apply List.ext_getElem (by simp [load])
  intro i h1 h2
  simp only [load, List.getElem_map, List.getElem_range, storeRaw]
  rw [if_pos (by constructor <;> omega), show (p + (i : Int) - p).toNat = i by omega, List.getD_eq_getElem?_getD, List.getElem?_eq_getElem h2]; rfl

theorem load_congr (m m' : Bytes) (p : Int) (n : Nat) (h : ∀ a, p ≤ a → a < p + n → m a = m' a) : load m p n = load m' p n := by
  apply List.map_congr_left
  intro i hi
  have := List.mem_range.1 hi
  exact h _ (by omega) (by omega)

theorem storeRaw_other (m : Bytes) (p : Int) (bs : List UInt8) (a : Int) (h : a < p ∨ p + bs.length ≤ a) : storeRaw m p bs a = m a := by
  unfold storeRaw; rw [if_neg (by omega)]

theorem store_some (ok : Int → Bool) (m : Bytes) (p : Int) (bs : List UInt8) (h : ∀ a, p ≤ a → a < p + bs.length → ok a = true) :
    store ok m p bs = some (storeRaw m p bs) := by
  unfold store
  rw [if_pos]
  rw [List.all_eq_true]
  intro i hi
  have := List.mem_range.1 hi
  exact h _ (by omega) (by omega)

theorem store_none (ok : Int → Bool) (m : Bytes) (p : Int) (bs : List UInt8) (a : Int) (h1 : p ≤ a) (h2 : a < p + bs.length) (h : ok a = false) :
    store ok m p bs = none := by
  unfold store
  rw [if_neg]
  rw [List.all_eq_true]
  intro hall
  have := hall (a - p).toNat (List.mem_range.2 (by omega))
  rw [show p + ((a - p).toNat : Int) = a by omega, h] at this
  simp at this

theorem prodLoop_spec (ok : Int → Bool) (P : Codec β) (f : α₁ → α₂ → β) (rx : Int → α₁) (ry : Int → α₂) (px sx py sy : Int)
    (isz : Nat) (hP : P.size ≤ isz) (n i : Nat) (q : Int) (m : Bytes) (hok : ∀ a, q ≤ a → a < q + n * isz → ok a = true) :
    ∃ m', prodLoop ok P f rx ry px sx py sy isz n i q m = some m' ∧
      (∀ k < n, load m' (q + (k : Int) * isz) P.size = P.enc (f (rx (px + ((i + k : Nat) : Int) * sx)) (ry (py + ((i + k : Nat) : Int) * sy)))) ∧
      ∀ a, (a < q ∨ q + n * isz ≤ a) → m' a = m a := by
  induction n generalizing i q m with
  | zero => exact ⟨m, rfl, by simp, fun _ _ => rfl⟩
  | succ n ih =>
    rw [prodLoop]
    have hl := P.len (f (rx (px + (i : Int) * sx)) (ry (py + (i : Int) * sy)))
    have hsz : (((n + 1 : Nat) : Int) * (isz : Int)) = (n : Int) * isz + isz := by push_cast; ring
    have hnn : (0 : Int) ≤ (n : Int) * isz := by positivity
    rw [store_some _ _ _ _ (by intro a h1 h2; apply hok a h1; rw [hl] at h2; omega), Option.bind_some]
    obtain ⟨m', e, h1, h2⟩ := ih (i + 1) (q + isz) (storeRaw m q (P.enc (f (rx (px + (i : Int) * sx)) (ry (py + (i : Int) * sy)))))
      (by intro a a1 a2; apply hok a (by omega); omega)
    refine ⟨m', e, ?_, ?_⟩
    · intro k hk
      cases k with
      | zero =>
        rw [load_congr m' (storeRaw m q (P.enc (f (rx (px + (i : Int) * sx)) (ry (py + (i : Int) * sy))))) _ _ (by
          intro a a1 a2; apply h2; left; simp at a2; omega)]
        have := load_same m q (P.enc (f (rx (px + (i : Int) * sx)) (ry (py + (i : Int) * sy))))
        rw [hl] at this
        simpa using this
      | succ k =>
        have := h1 k (by omega)
        rw [show q + ((k + 1 : Nat) : Int) * (isz : Int) = q + isz + (k : Int) * isz by push_cast; ring, this,
          show i + 1 + k = i + (k + 1) by omega]
    · intro a ha
      rw [h2 a (by omega), storeRaw_other _ _ _ _ (by rw [hl]; omega)]

theorem prodLoop_overflow (ok : Int → Bool) (P : Codec β) (f : α₁ → α₂ → β) (rx : Int → α₁) (ry : Int → α₂) (px sx py sy : Int)
    (isz : Nat) (hP : isz < P.size) (n i : Nat) (hn : 0 < n) (q : Int) (m : Bytes) (hend : ok (q + n * isz) = false) :
    prodLoop ok P f rx ry px sx py sy isz n i q m = none := by
  induction n generalizing i q m with
  | zero => omega
  | succ n ih =>
    rw [prodLoop]
    cases n with
    | zero =>
      rw [store_none _ _ _ _ (q + isz) (by omega) (by rw [P.len]; omega) (by simpa using hend)]; rfl
    | succ n =>
      cases hs : store ok m q (P.enc (f (rx (px + (i : Int) * sx)) (ry (py + (i : Int) * sy)))) with
      | none => rfl
      | some m' =>
        rw [Option.bind_some]
        apply ih _ (by omega)
        rw [← hend]; congr 1; push_cast; ring

theorem reduceLoop_spec (ok : Int → Bool) (C : Codec β) (g : β → β → β) (tmp result : Int) (N : Nat)
    (hok : ∀ a, result ≤ a → a < result + C.size → ok a = true)
    (hdis : result + C.size ≤ tmp ∨ tmp + N * C.size ≤ result) (prods : Nat → β) (n k : Nat) (hN : k + n ≤ N) (acc : β) (m : Bytes)
    (hacc : load m result C.size = C.enc acc)
    (hp : ∀ j < N, load m (tmp + (j : Int) * C.size) C.size = C.enc (prods j)) :
    ∃ m', reduceLoop ok C C g C.size result n (tmp + (k : Int) * C.size) m = some m' ∧
      load m' result C.size = C.enc (((List.range' k n).map prods).foldl g acc) ∧
      ∀ a, (a < result ∨ result + C.size ≤ a) → m' a = m a := by
  induction n generalizing k acc m with
  | zero => exact ⟨m, rfl, by simpa using hacc, fun _ _ => rfl⟩
  | succ n ih =>
    rw [reduceLoop, hacc, hp k (by omega), C.roundtrip, C.roundtrip, store_some _ _ _ _ (by rw [C.len]; exact hok), Option.bind_some]
    have hl := C.len (g acc (prods k))
    obtain ⟨m', e, h1, h2⟩ := ih (k + 1) (by omega) (g acc (prods k)) (storeRaw m result (C.enc (g acc (prods k))))
      (by have := load_same m result (C.enc (g acc (prods k))); rwa [hl] at this)
      (by
        intro j hj
        rw [← hp j hj]
        apply load_congr
        intro a a1 a2
        apply storeRaw_other
        rw [hl]
        have hle : ((j : Int) + 1) * C.size ≤ (N : Int) * C.size := by
          apply mul_le_mul_of_nonneg_right <;> omega
        have h0 : (0 : Int) ≤ (j : Int) * C.size := by positivity
        rw [add_mul, one_mul] at hle
        omega)
    refine ⟨m', ?_, ?_, ?_⟩
    · rw [← e]; congr 1; push_cast; ring
    · rw [h1, List.range'_succ, List.map_cons, List.foldl_cons]
    · intro a ha
      rw [h2 a ha, storeRaw_other _ _ _ _ (by rw [hl]; exact ha)]

/-- What the outer loop needs to know about the application of the sum function. -/
def SumSpec (ok : Int → Bool) (P : Codec β) (S : Codec γ) (sum : SumFn β γ) (tmp : Int) (n : Nat) (V : List β → γ) : Prop :=
  ∀ (pout : Int) (m : Bytes) (prods : Nat → β),
    (∀ a, pout ≤ a → a < pout + S.size → ok a = true) →
    (pout + S.size ≤ tmp ∨ tmp + n * S.size ≤ pout) →
    (∀ k < n, load m (tmp + (k : Int) * S.size) P.size = P.enc (prods k)) →
    ∃ m', applySum ok P S sum tmp n pout m = some m' ∧ load m' pout S.size = S.enc (V ((List.range n).map prods)) ∧
      ∀ a, (a < pout ∨ pout + S.size ≤ a) → m' a = m a

/-- Left-to-right reduction of a non-empty list. -/
def reduceList (g : β → β → β) (d : β) : List β → β
  | [] => d
  | x :: xs => xs.foldl g x

theorem sumSpec_elementwise (ok : Int → Bool) (C : Codec β) (g : β → β → β) (d : β) (tmp : Int) (n : Nat) (hn : 0 < n) :
    SumSpec ok C C (.elementwise g) tmp n (reduceList g d) := by
  intro pout m prods hok hdis hp
  obtain ⟨n, rfl⟩ : ∃ k, n = k + 1 := ⟨n - 1, by omega⟩
  have h0 := hp 0 (by omega)
  rw [Nat.cast_zero, zero_mul, add_zero] at h0
  have hl := C.len (prods 0)
  unfold applySum
  simp only
  unfold reduce
  rw [if_neg (by omega), h0, store_some _ _ _ _ (by rw [hl]; exact hok), Option.bind_some]
  have hbig : (0 : Int) ≤ ((n + 1 : Nat) : Int) * C.size := by positivity
  obtain ⟨m', e, h1, h2⟩ := reduceLoop_spec ok C g tmp pout (n + 1) hok hdis prods n 1 (by omega) (prods 0)
    (storeRaw m pout (C.enc (prods 0)))
    (by have := load_same m pout (C.enc (prods 0)); rwa [hl] at this)
    (by
      intro j hj
      rw [← hp j hj]
      apply load_congr
      intro a a1 a2
      apply storeRaw_other
      rw [hl]
      have hle : ((j : Int) + 1) * C.size ≤ ((n + 1 : Nat) : Int) * C.size := by
        apply mul_le_mul_of_nonneg_right <;> omega
      have h0 : (0 : Int) ≤ (j : Int) * C.size := by positivity
      rw [add_mul, one_mul] at hle
      omega)
  have hval : reduceList g d ((List.range (n + 1)).map prods) = ((List.range' 1 n).map prods).foldl g (prods 0) := by
    rw [List.range_eq_range', List.range'_succ]; rfl
  refine ⟨m', ?_, ?_, ?_⟩
  · by_cases hn1 : n + 1 = 1
    · rw [if_pos hn1]
      have : n = 0 := by omega
      subst this
      simp only [reduceLoop, Option.some.injEq] at e
      rw [e]
    · rw [if_neg hn1, Nat.add_sub_cancel, ← e, Nat.cast_one, one_mul]
  · rw [h1, hval]
  · intro a ha
    rw [h2 a ha, storeRaw_other _ _ _ _ (by rw [hl]; exact ha)]

theorem sumSpec_gufunc (ok : Int → Bool) (P : Codec β) (S : Codec γ) (h : List β → γ) (tmp : Int) (n : Nat) :
    SumSpec ok P S (.gufunc h) tmp n h := by
  intro pout m prods hok hdis hp
  have e : ((List.range n).map fun (k : Nat) => P.dec (load m (tmp + (k : Int) * S.size) P.size)) = (List.range n).map prods := by
    apply List.map_congr_left
    intro k hk
    rw [hp k (List.mem_range.1 hk), P.roundtrip]
  have hl := S.len (h ((List.range n).map prods))
  simp only [applySum, e]
  refine ⟨_, store_some _ _ _ _ (by rw [hl]; exact hok), ?_, ?_⟩
  · have := load_same m pout (S.enc (h ((List.range n).map prods))); rwa [hl] at this
  · intro a ha; exact storeRaw_other _ _ _ _ (by rw [hl]; exact ha)

theorem outerLoop_spec (ok : Int → Bool) (P : Codec β) (S : Codec γ) (hP : P.size ≤ S.size) (f : α₁ → α₂ → β) (sum : SumFn β γ)
    (rx : Int → α₁) (ry : Int → α₂) (s0 s1 s2 s3 s4 : Int) (tmp : Int) (n : Nat) (V : List β → γ)
    (hsum : SumSpec ok P S sum tmp n V) (htmp : ∀ a, tmp ≤ a → a < tmp + n * S.size → ok a = true)
    (L : Nat) (px py pout : Int) (m : Bytes)
    (hout : ∀ j < L, (∀ a, pout + (j : Int) * s2 ≤ a → a < pout + (j : Int) * s2 + S.size → ok a = true) ∧
      (pout + (j : Int) * s2 + S.size ≤ tmp ∨ tmp + n * S.size ≤ pout + (j : Int) * s2))
    (hsep : ∀ j k, j < k → k < L → pout + (j : Int) * s2 + S.size ≤ pout + (k : Int) * s2 ∨ pout + (k : Int) * s2 + S.size ≤ pout + (j : Int) * s2) :
    ∃ m', outerLoop ok P S f sum rx ry s0 s1 s2 s3 s4 tmp n L px py pout m = some m' ∧
      (∀ j < L, load m' (pout + (j : Int) * s2) S.size =
        S.enc (V ((List.range n).map fun (k : Nat) => f (rx (px + (j : Int) * s0 + (k : Int) * s3)) (ry (py + (j : Int) * s1 + (k : Int) * s4))))) ∧
      ∀ a, (a < tmp ∨ tmp + n * S.size ≤ a) → (∀ j < L, a < pout + (j : Int) * s2 ∨ pout + (j : Int) * s2 + S.size ≤ a) → m' a = m a := by
  induction L generalizing px py pout m with
  | zero => exact ⟨m, rfl, by simp, fun _ _ _ => rfl⟩
  | succ L ih =>
    rw [outerLoop]
    obtain ⟨m1, e1, p1, f1⟩ := prodLoop_spec ok P f rx ry px s3 py s4 S.size hP n 0 tmp m htmp
    rw [e1, Option.bind_some]
    have ho := hout 0 (by omega)
    simp only [Nat.cast_zero, zero_mul, add_zero] at ho
    obtain ⟨m2, e2, v2, f2⟩ := hsum pout m1 (fun k => f (rx (px + (k : Int) * s3)) (ry (py + (k : Int) * s4))) ho.1 ho.2
      (by intro k hk; have := p1 k hk; rwa [Nat.zero_add] at this)
    rw [e2, Option.bind_some]
    have hshift : ∀ j : Nat, pout + ((j + 1 : Nat) : Int) * s2 = pout + s2 + (j : Int) * s2 := by intro j; push_cast; ring
    obtain ⟨m3, e3, v3, f3⟩ := ih (px + s0) (py + s1) (pout + s2) m2
      (by intro j hj; have := hout (j + 1) (by omega); rwa [hshift] at this)
      (by intro j k hjk hk; have := hsep (j + 1) (k + 1) (by omega) (by omega); rwa [hshift, hshift] at this)
    refine ⟨m3, e3, ?_, ?_⟩
    · intro j hj
      cases j with
      | zero =>
        simp only [Nat.cast_zero, zero_mul, add_zero]
        rw [load_congr m3 m2, v2]
        intro a a1 a2
        apply f3 a (by omega)
        intro j hj
        have := hsep 0 (j + 1) (by omega) (by omega)
        rw [hshift, Nat.cast_zero, zero_mul, add_zero] at this
        omega
      | succ j =>
        rw [hshift, v3 j (by omega)]
        congr 2
        apply List.map_congr_left
        intro k _
        congr 2 <;> push_cast <;> ring
    · intro a h1 h2
      rw [f3 a h1 (by intro j hj; have := h2 (j + 1) (by omega); rwa [hshift] at this),
        f2 a (by have := h2 0 (by omega); simpa using this), f1 a h1]

end Ufunclab.Gendot

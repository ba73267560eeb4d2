import Verif.Proof.Gendot
/-! # Property C62: gendot -/
namespace Ufunclab.Gendot
variable {α₁ α₂ β γ : Type}

/-- The memory the function owns: the temporary buffer of `n * size` bytes and the output items. -/
def Owned (ok : Int → Bool) (tmp : Int) (n size L : Nat) (pout s2 : Int) : Prop :=
  (∀ a, tmp ≤ a → a < tmp + n * size → ok a = true) ∧
  ∀ j < L, ∀ a, pout + (j : Int) * s2 ≤ a → a < pout + (j : Int) * s2 + size → ok a = true

/-- The output items do not overlap each other or the temporary buffer. -/
def Separate (tmp : Int) (n size L : Nat) (pout s2 : Int) : Prop :=
  (∀ j < L, pout + (j : Int) * s2 + size ≤ tmp ∨ tmp + n * size ≤ pout + (j : Int) * s2) ∧
  ∀ j k, j < k → k < L → pout + (j : Int) * s2 + size ≤ pout + (k : Int) * s2 ∨ pout + (k : Int) * s2 + size ≤ pout + (j : Int) * s2

/-- The products of iteration `j`. -/
def products (f : α₁ → α₂ → β) (rx : Int → α₁) (ry : Int → α₂) (s0 s1 s3 s4 px py : Int) (n j : Nat) : List β :=
  (List.range n).map fun (k : Nat) => f (rx (px + (j : Int) * s0 + (k : Int) * s3)) (ry (py + (j : Int) * s1 + (k : Int) * s4))

/-- C62, elementwise sum function whose input and output types coincide with the type of the
products: for every length `n ≥ 1` every output item is the left-to-right reduction of the
products, all writes are within owned memory, and nothing else changes.  `f`, `g` are
arbitrary functions. -/
theorem C62_elementwise (ok : Int → Bool) (C : Codec β) (f : α₁ → α₂ → β) (g : β → β → β) (identity : Option (List UInt8))
    (rx : Int → α₁) (ry : Int → α₂) (s0 s1 s2 s3 s4 tmp : Int) (L n : Nat) (hn : 0 < n) (px py pout : Int) (m : Bytes)
    (hown : Owned ok tmp n C.size L pout s2) (hsep : Separate tmp n C.size L pout s2) :
    ∃ m', gendotLoop ok C C f (.elementwise g) identity rx ry s0 s1 s2 s3 s4 tmp L n px py pout m = .done (some m') ∧
      (∀ j < L, ∃ p ps, products f rx ry s0 s1 s3 s4 px py n j = p :: ps ∧
        load m' (pout + (j : Int) * s2) C.size = C.enc (ps.foldl g p)) ∧
      ∀ a, (a < tmp ∨ tmp + n * C.size ≤ a) → (∀ j < L, a < pout + (j : Int) * s2 ∨ pout + (j : Int) * s2 + C.size ≤ a) → m' a = m a := by
  let d : β := f (rx px) (ry py)
  obtain ⟨m', e, h1, h2⟩ := outerLoop_spec ok C C le_rfl f (.elementwise g) rx ry s0 s1 s2 s3 s4 tmp n (reduceList g d)
    (sumSpec_elementwise ok C g d tmp n hn) hown.1 L px py pout m
    (fun j hj => ⟨hown.2 j hj, hsep.1 j hj⟩) hsep.2
  refine ⟨m', by unfold gendotLoop; rw [if_neg (by omega), e], ?_, h2⟩
  intro j hj
  have hv := h1 j hj
  cases hps : products f rx ry s0 s1 s3 s4 px py n j with
  | nil => have := congrArg List.length hps; simp [products] at this; omega
  | cons p ps =>
    refine ⟨p, ps, rfl, ?_⟩
    rw [hv]
    change C.enc (reduceList g d (products f rx ry s0 s1 s3 s4 px py n j)) = _
    rw [hps]; rfl

/-- C62, sum function a gufunc `(n)->()` whose output item is at least as large as the product
item: every output item is the gufunc applied to the products. -/
theorem C62_gufunc (ok : Int → Bool) (P : Codec β) (S : Codec γ) (hP : P.size ≤ S.size) (f : α₁ → α₂ → β) (h : List β → γ)
    (identity : Option (List UInt8)) (rx : Int → α₁) (ry : Int → α₂) (s0 s1 s2 s3 s4 tmp : Int) (L n : Nat) (hn : 0 < n)
    (px py pout : Int) (m : Bytes) (hown : Owned ok tmp n S.size L pout s2) (hsep : Separate tmp n S.size L pout s2) :
    ∃ m', gendotLoop ok P S f (.gufunc h) identity rx ry s0 s1 s2 s3 s4 tmp L n px py pout m = .done (some m') ∧
      (∀ j < L, load m' (pout + (j : Int) * s2) S.size = S.enc (h (products f rx ry s0 s1 s3 s4 px py n j))) ∧
      ∀ a, (a < tmp ∨ tmp + n * S.size ≤ a) → (∀ j < L, a < pout + (j : Int) * s2 ∨ pout + (j : Int) * s2 + S.size ≤ a) → m' a = m a := by
  obtain ⟨m', e, h1, h2⟩ := outerLoop_spec ok P S hP f (.gufunc h) rx ry s0 s1 s2 s3 s4 tmp n h
    (sumSpec_gufunc ok P S h tmp n) hown.1 L px py pout m (fun j hj => ⟨hown.2 j hj, hsep.1 j hj⟩) hsep.2
  exact ⟨m', by unfold gendotLoop; rw [if_neg (by omega), e], h1, h2⟩

/-- C62: empty core dimension with an identity: every output item is the identity; without:
ValueError and no write at all. -/
theorem C62_empty (ok : Int → Bool) (P : Codec β) (S : Codec γ) (f : α₁ → α₂ → β) (sum : SumFn β γ) (ident : γ)
    (rx : Int → α₁) (ry : Int → α₂) (s0 s1 s2 s3 s4 tmp : Int) (L : Nat) (px py pout : Int) (m : Bytes)
    (hown : ∀ j < L, ∀ a, pout + (j : Int) * s2 ≤ a → a < pout + (j : Int) * s2 + S.size → ok a = true)
    (hsep : ∀ j k, j < k → k < L → pout + (j : Int) * s2 + S.size ≤ pout + (k : Int) * s2 ∨ pout + (k : Int) * s2 + S.size ≤ pout + (j : Int) * s2) :
    gendotLoop ok P S f sum none rx ry s0 s1 s2 s3 s4 tmp L 0 px py pout m = .valueError m ∧
    ∃ m', gendotLoop ok P S f sum (some (S.enc ident)) rx ry s0 s1 s2 s3 s4 tmp L 0 px py pout m = .done (some m') ∧
      (∀ j < L, load m' (pout + (j : Int) * s2) S.size = S.enc ident) ∧
      ∀ a, (∀ j < L, a < pout + (j : Int) * s2 ∨ pout + (j : Int) * s2 + S.size ≤ a) → m' a = m a := by
  refine ⟨rfl, ?_⟩
  have hl := S.len ident
  suffices H : ∃ m', identityLoop ok (S.enc ident) s2 L pout m = some m' ∧ (∀ j < L, load m' (pout + (j : Int) * s2) S.size = S.enc ident) ∧
      ∀ a, (∀ j < L, a < pout + (j : Int) * s2 ∨ pout + (j : Int) * s2 + S.size ≤ a) → m' a = m a by
    obtain ⟨m', e, h1, h2⟩ := H
    exact ⟨m', by simp [gendotLoop, e], h1, h2⟩
  induction L generalizing pout m with
  | zero => exact ⟨m, rfl, by simp, fun _ _ => rfl⟩
  | succ L ih =>
    have hshift : ∀ j : Nat, pout + ((j + 1 : Nat) : Int) * s2 = pout + s2 + (j : Int) * s2 := by intro j; push_cast; ring
    have ho := hown 0 (by omega)
    simp only [Nat.cast_zero, zero_mul, add_zero] at ho
    rw [identityLoop, store_some _ _ _ _ (by rw [hl]; exact ho), Option.bind_some]
    obtain ⟨m', e, h1, h2⟩ := ih (pout + s2) (storeRaw m pout (S.enc ident))
      (by intro j hj; have := hown (j + 1) (by omega); rwa [hshift] at this)
      (by intro j k hjk hk; have := hsep (j + 1) (k + 1) (by omega) (by omega); rwa [hshift, hshift] at this)
    refine ⟨m', e, ?_, ?_⟩
    · intro j hj
      cases j with
      | zero =>
        simp only [Nat.cast_zero, zero_mul, add_zero]
        rw [load_congr m' (storeRaw m pout (S.enc ident))]
        · have := load_same m pout (S.enc ident); rwa [hl] at this
        · intro a a1 a2
          apply h2
          intro j hj
          have := hsep 0 (j + 1) (by omega) (by omega)
          rw [hshift, Nat.cast_zero, zero_mul, add_zero] at this
          omega
      | succ j => rw [hshift]; exact h1 j (by omega)
    · intro a ha
      rw [h2 a (by intro j hj; have := ha (j + 1) (by omega); rwa [hshift] at this)]
      apply storeRaw_other
      rw [hl]
      have := ha 0 (by omega)
      simpa using this

/-- C62, negative part: when the product item is larger than the output item of the sum
function (for example `gendot(np.multiply, np.logical_or)` on doubles), the products are
written past the end of the temporary buffer, for every length and every input. -/
theorem C62_buffer_overflow_violated (ok : Int → Bool) (P : Codec β) (S : Codec γ) (hP : S.size < P.size) (f : α₁ → α₂ → β) (sum : SumFn β γ)
    (identity : Option (List UInt8)) (rx : Int → α₁) (ry : Int → α₂) (s0 s1 s2 s3 s4 tmp : Int) (L n : Nat) (hn : 0 < n) (hL : 0 < L)
    (px py pout : Int) (m : Bytes) (hend : ok (tmp + n * S.size) = false) :
    gendotLoop ok P S f sum identity rx ry s0 s1 s2 s3 s4 tmp L n px py pout m = .done none := by
  unfold gendotLoop
  rw [if_neg (by omega)]
  obtain ⟨L, rfl⟩ : ∃ k, L = k + 1 := ⟨L - 1, by omega⟩
  rw [outerLoop, prodLoop_overflow ok P f rx ry px s3 py s4 S.size hP n 0 hn tmp m hend]; rfl

/-- One-byte and two-byte (little endian, high byte zero on encoding) representations. -/
def byteCodec : Codec UInt8 := ⟨1, fun b => [b], fun l => l.headD 0, fun _ => rfl, fun _ => rfl⟩
def pairCodec : Codec (UInt8 × UInt8) :=
  ⟨2, fun b => [b.1, b.2], fun l => (l.getD 0 0, l.getD 1 0), fun _ => rfl, fun _ => rfl⟩

/-- C62, negative part: with an elementwise sum function whose output type is larger than the
product type, the result for `n = 1` copies bytes of the temporary buffer that were never
written: it depends on what `malloc` returned. -/
theorem C62_uninitialised_violated : ∃ (m₁ m₂ : Bytes) (r₁ r₂ : Bytes),
    (∀ a, ¬ (0 ≤ a ∧ a < 2) → m₁ a = m₂ a) ∧
    gendotLoop (fun _ => true) byteCodec pairCodec (fun (x y : UInt8) => x * y) (.elementwise fun x y => (x, y)) none
      (fun _ => 3) (fun _ => 5) 0 0 2 1 1 0 1 1 0 0 10 m₁ = .done (some r₁) ∧
    gendotLoop (fun _ => true) byteCodec pairCodec (fun (x y : UInt8) => x * y) (.elementwise fun x y => (x, y)) none
      (fun _ => 3) (fun _ => 5) 0 0 2 1 1 0 1 1 0 0 10 m₂ = .done (some r₂) ∧
    load r₁ 10 2 ≠ load r₂ 10 2 := by
  refine ⟨fun _ => 0, fun a => if 0 ≤ a ∧ a < 2 then 7 else 0, _, _, ?_, rfl, rfl, ?_⟩
  · intro a ha; exact (if_neg ha).symm
  · decide

/-- C62: loop selection.  The pair `(i, j)` is composed iff product loop `i` involves no
object type and sum loop `j` takes exactly the output type of the product in all its inputs;
the composed type is the product's inputs and the sum's output. -/
theorem C62_selection (prodTypes sumTypes : List TypeSig) (nin i j : Nat) (t : List Char) :
    ((i, j), t) ∈ selectLoops prodTypes sumTypes nin ↔
      ∃ p s, prodTypes[i]? = some p ∧ sumTypes[j]? = some s ∧ 'O' ∉ p.ins ∧ p.out ≠ 'O' ∧
        s.ins = List.replicate nin p.out ∧ t = p.ins.take 2 ++ [s.out] := by
  unfold selectLoops
  simp only [List.mem_flatMap, Prod.exists]
  constructor
  · rintro ⟨p, i', hp, hm⟩
    rw [List.mem_zipIdx_iff_getElem?] at hp
    split_ifs at hm with hO
    · simp at hm
    · rw [List.mem_filterMap] at hm
      obtain ⟨⟨s, j'⟩, hs, he⟩ := hm
      rw [List.mem_zipIdx_iff_getElem?] at hs
      simp only at he
      split_ifs at he with hsi
      simp only [Option.some.injEq, Prod.mk.injEq] at he
      obtain ⟨⟨rfl, rfl⟩, rfl⟩ := he
      rw [not_or] at hO
      exact ⟨p, s, hp, hs, hO.1, hO.2, hsi, rfl⟩
  · rintro ⟨p, s, hp, hs, h1, h2, h3, rfl⟩
    refine ⟨p, i, List.mem_zipIdx_iff_getElem?.2 hp, ?_⟩
    rw [if_neg (by rw [not_or]; exact ⟨h1, h2⟩), List.mem_filterMap]
    exact ⟨(s, j), List.mem_zipIdx_iff_getElem?.2 hs, by simp [h3]⟩

/-- C62: the loop indices fit in the `uint8` fields, because the wrapper rejects functions with
more than 256 loops. -/
theorem C62_index_range (prodTypes sumTypes : List TypeSig) (nin : Nat) (hp : prodTypes.length ≤ 256) (hs : sumTypes.length ≤ 256) :
    ∀ x ∈ selectLoops prodTypes sumTypes nin, x.1.1 < 2 ^ 8 ∧ x.1.2 < 2 ^ 8 := by
  rintro ⟨⟨i, j⟩, t⟩ hx
  obtain ⟨p, s, h1, h2, _⟩ := (C62_selection _ _ _ _ _ _).1 hx
  obtain ⟨h1, _⟩ := List.getElem?_eq_some_iff.1 h1
  obtain ⟨h2, _⟩ := List.getElem?_eq_some_iff.1 h2
  exact ⟨by simp only; omega, by simp only; omega⟩

/-! ### Non-vacuity -/
example : Owned (fun _ => true) 0 3 8 2 100 8 ∧ Separate 0 3 8 2 100 8 := by
  refine ⟨⟨fun _ _ _ => rfl, fun _ _ _ _ _ => rfl⟩, ?_, ?_⟩
  · intro j hj; right; omega
  · intro j k h1 h2; left; omega
example : selectLoops [⟨['?', '?'], '?'⟩, ⟨['d', 'd'], '?'⟩, ⟨['O', 'O'], 'O'⟩] [⟨['?', '?'], '?'⟩, ⟨['d', 'd'], '?'⟩] 2 =
    [((0, 0), ['?', '?', '?']), ((1, 0), ['d', 'd', '?'])] := by decide

end Ufunclab.Gendot

import Verif.Lemmas.EcReduce

/-!
# C49-C54: chunked big-integer arithmetic of jaxite_ec

`Rep B n l x` says that `l` is the array of the `n` base-`B` digits of `x`: length `n`, every entry below `B`,
and Mathlib's `Nat.ofDigits B l = x`.
-/

set_option exponentiation.threshold 2000

namespace Verif.Props

open Verif.EcChunks

/-! ## C49 -/

/-- Every integer that fits is converted, to chunks below `2^base`, and converted back to itself. -/
theorem C49_round_trip (base n x : Nat) (hb : 0 < base) (hx : x < 2 ^ (base * n)) :
    ∃ l, intToArray base (some n) x = .ok l ∧ l.length = n ∧ (∀ c ∈ l, c < 2 ^ base) ∧ arrayToInt base l = x := by
  obtain ⟨l, h, hr⟩ := intToArray_ok base n x hb hx
  exact ⟨l, h, hr.len, hr.lt, by rw [arrayToInt_eq _ _ hr.lt, hr.val]⟩

/-- An integer that does not fit is refused. -/
theorem C49_rejects (base n x : Nat) (hb : 0 < base) (hx : 2 ^ (base * n) ≤ x) :
    intToArray base (some n) x = .error .assertion := by
  have h1 : 1 < 2 ^ base := Nat.one_lt_two_pow (by omega)
  have : ¬ (elements base x).length ≤ n := by
    rw [elements_eq _ _ hb, digits_len_le _ _ _ h1, ← pow_mul]
    omega
  simp only [intToArray, if_neg this]

/-- Without a size nothing is lost either. -/
theorem C49_unsized (base x : Nat) (hb : 0 < base) :
    ∃ l, intToArray base none x = .ok l ∧ (∀ c ∈ l, c < 2 ^ base) ∧ arrayToInt base l = x := by
  have h1 : 1 < 2 ^ base := Nat.one_lt_two_pow (by omega)
  have hlt : ∀ c ∈ elements base x, c < 2 ^ base := by
    intro c hc
    rw [elements_eq _ _ hb] at hc
    exact Nat.digits_lt_base h1 hc
  exact ⟨_, rfl, hlt, by rw [arrayToInt_eq _ _ hlt, elements_eq _ _ hb, Nat.ofDigits_digits]⟩

example := C49_unsized 16 (P * P) (by norm_num)

/-- Conversely an array of chunks below `2^base` is recovered from its integer: the conversion is a bijection. -/
theorem C49_inverse (base : Nat) (l : List Nat) (hb : 0 < base) (hl : ∀ c ∈ l, c < 2 ^ base) :
    intToArray base (some l.length) (arrayToInt base l) = .ok l := by
  have h1 : 1 < 2 ^ base := Nat.one_lt_two_pow (by omega)
  have hx : arrayToInt base l < 2 ^ (base * l.length) := by
    rw [arrayToInt_eq _ _ hl, pow_mul]
    exact Nat.ofDigits_lt_base_pow_length h1 hl
  obtain ⟨l', h, hr⟩ := intToArray_ok base l.length _ hb hx
  rw [h]
  congr 1
  exact hr.unique h1 ⟨rfl, hl, (arrayToInt_eq _ _ hl).symm⟩

example := C49_inverse 8 [255, 0, 17] (by norm_num) (by decide)

/-- The host-side converters of algorithm/util.py agree with those of util.py for the supported widths and refuse
every other width. -/
theorem C49_algorithm (base : Nat) (size : Option Nat) (x : Nat) :
    (base ∈ [8, 16, 32, 64] → algIntToArray base size x = intToArray base size x) ∧
    (base ∉ [8, 16, 32, 64] → algIntToArray base size x = .error .unsupported) := by
  unfold algIntToArray
  simp only [List.mem_cons, List.not_mem_nil, or_false]
  exact ⟨fun h => if_pos h, fun h => if_neg h⟩

example : ∃ l, intToArray 16 (some 24) (P - 1) = .ok l ∧ arrayToInt 16 l = P - 1 := by
  obtain ⟨l, h, _, _, h2⟩ := C49_round_trip 16 24 (P - 1) (by norm_num) (by norm_num [P])
  exact ⟨l, h, h2⟩

example : intToArray 16 (some 24) (2 ^ 384) = .error .assertion := C49_rejects 16 24 _ (by norm_num) (by norm_num)

/-! ## C50 -/

/-- The carry loop returns (the definition is total) and yields the canonical chunks of the same integer whenever
that integer fits; 16-bit chunks in 32-bit lanes, or 32-bit chunks below `2^48` in 64-bit lanes. -/
theorem C50_value (s : Nat) (hs : s = 16 ∨ s = 32) (l : List Nat) (hl : ∀ v ∈ l, v < 2 ^ (s + 16))
    (hn : 2 ≤ l.length) (hx : Nat.ofDigits (2 ^ s) l < 2 ^ (s * l.length)) :
    Rep (2 ^ s) l.length (carryLoop s l) (Nat.ofDigits (2 ^ s) l) :=
  carryLoop_rep s (by omega) l hl hn (by rwa [← pow_mul])

example := C50_value 16 (Or.inl rfl) [2 ^ 16, 2 ^ 32 - 1, 2 ^ 16 - 1, 0] (by decide) (by decide) (by decide)

/-- On every input the loop ends with no chunk above the width. -/
theorem C50_terminates (s : Nat) (hs : 0 < s) (l : List Nat) :
    ∀ v ∈ carryLoop s l, v < 2 ^ s := by
  induction hm : l.sum using Nat.strongRecOn generalizing l with
  | ind m ih =>
    rw [carryLoop]
    by_cases h : 0 < s ∧ anyCarry s l = true
    · rw [dif_pos h]
      exact ih _ (hm ▸ carryStep_sum_lt s h.1 l h.2) _ rfl
    · rw [dif_neg h]
      exact fun v hv => not_anyCarry s l (fun hc => h ⟨hs, hc⟩) v hv

/-- In general the value is kept modulo `2^(s n) - 1`: the carry out of the top chunk comes back at the bottom. -/
theorem C50_end_around (s : Nat) (hs : s = 16 ∨ s = 32) (l : List Nat) (hl : ∀ v ∈ l, v < 2 ^ (s + 16))
    (hn : 2 ≤ l.length) :
    Nat.ofDigits (2 ^ s) (carryLoop s l) ≡ Nat.ofDigits (2 ^ s) l [MOD 2 ^ (s * l.length) - 1] := by
  obtain ⟨_, _, ⟨t, h⟩, _⟩ := carryLoop_spec s (by omega) l hl hn
  rw [← pow_mul] at h
  have hp : 0 < 2 ^ (s * l.length) := by positivity
  obtain ⟨q, hq⟩ : ∃ q, 2 ^ (s * l.length) = q + 1 := ⟨2 ^ (s * l.length) - 1, by omega⟩
  rw [hq] at h ⊢
  have h2 : Nat.ofDigits (2 ^ s) (carryLoop s l) + q * t = Nat.ofDigits (2 ^ s) l := by
    have : t * (q + 1) = q * t + t := by ring
    omega
  rw [← h2]
  simp [Nat.ModEq]

example := C50_end_around 32 (Or.inr rfl) [2 ^ 48 - 1, 2 ^ 47] (by decide) (by decide)

/-- The loop on a batch, which runs until every row is done, treats each row as if it were alone. -/
theorem C50_batch (s : Nat) (hs : s = 16 ∨ s = 32) (rows : List (List Nat)) (hn : ∀ r ∈ rows, 2 ≤ r.length) :
    carryLoopBatch s rows = rows.map (carryLoop s) :=
  carryLoopBatch_eq s (by omega) rows hn

example := C50_batch 16 (Or.inl rfl) [[2 ^ 16, 2 ^ 16 - 1, 0], [1, 2 ^ 31, 7]] (by decide)

/-- `carry_add` needs `n - 1` rounds; its default of 24 is enough for 24 chunks. -/
theorem C50_carry_add (s r : Nat) (hs : s = 16 ∨ s = 32) (l : List Nat) (hl : ∀ v ∈ l, v < 2 ^ (s + 16))
    (hn : 2 ≤ l.length) (hx : Nat.ofDigits (2 ^ s) l < 2 ^ (s * l.length)) (hr : l.length ≤ r + 1) :
    Rep (2 ^ s) l.length (carryAdd s r l) (Nat.ofDigits (2 ^ s) l) :=
  carryAdd_rep s (by omega) r l hl hn (by rwa [← pow_mul]) hr

example := C50_carry_add 16 3 (Or.inl rfl) [2 ^ 16, 2 ^ 32 - 1, 2 ^ 16 - 1, 0] (by decide) (by decide) (by decide) (by decide)

/-- A ripple through every chunk: `[2^16, 2^16 - 1, 2^16 - 1, 0]` becomes `[0, 0, 0, 1]`. -/
example : carryLoop 16 [2 ^ 16, 2 ^ 16 - 1, 2 ^ 16 - 1, 0] = [0, 0, 0, 1] := by
  have h := C50_value 16 (Or.inl rfl) [2 ^ 16, 2 ^ 16 - 1, 2 ^ 16 - 1, 0] (by simp) (by simp)
    (by norm_num [Nat.ofDigits])
  exact h.unique (by norm_num) ⟨rfl, by simp, by norm_num [Nat.ofDigits]⟩

/-! ## C51 -/

/-- `compare_u16` has the sign of the difference. -/
theorem C51_compare (n x y : Nat) (a b : List Nat) (ha : Rep (2 ^ 16) n a x) (hb : Rep (2 ^ 16) n b y) :
    (0 < EcChunks.compare a b ↔ y < x) ∧ (EcChunks.compare a b = 0 ↔ x = y) ∧ (EcChunks.compare a b < 0 ↔ x < y) := by
  obtain ⟨h1, h2⟩ := compare_sign (2 ^ 16) a b (ha.len.trans hb.len.symm) ha.lt hb.lt
  rw [ha.val, hb.val] at h1 h2
  refine ⟨h1, ?_, h2⟩
  constructor
  · intro h
    rw [h] at h1 h2
    simp at h1 h2
    omega
  · intro h
    subst h
    simp at h1 h2
    omega

example := C51_compare 24 P (P - 1) _ _ P_rep (constArray_rep 16 24 (P - 1) (by norm_num) (by norm_num [P]))

/-- `add_2u16` and `add_3u16` add, whenever the sum fits. -/
theorem C51_add2 (n x y : Nat) (hn : 2 ≤ n) (a b : List Nat) (ha : Rep (2 ^ 16) n a x) (hb : Rep (2 ^ 16) n b y)
    (h : x + y < 2 ^ (16 * n)) : Rep (2 ^ 16) n (add2 a b) (x + y) :=
  add2_rep n a b x y hn ha hb (by rwa [← pow_mul])

example := C51_add2 24 P (P - 1) (by norm_num) _ _ P_rep (constArray_rep 16 24 (P - 1) (by norm_num) (by norm_num [P])) (by norm_num [P])

@[inherit_doc C51_add2]
theorem C51_add3 (n x y z : Nat) (hn : 2 ≤ n) (a b c : List Nat) (ha : Rep (2 ^ 16) n a x)
    (hb : Rep (2 ^ 16) n b y) (hc : Rep (2 ^ 16) n c z) (h : x + y + z < 2 ^ (16 * n)) :
    Rep (2 ^ 16) n (add3 a b c) (x + y + z) :=
  add3_rep n a b c x y z hn ha hb hc (by rwa [← pow_mul])

example := C51_add3 24 P 5 (P - 1) (by norm_num) _ _ _ P_rep (constArray_rep 16 24 5 (by norm_num) (by norm_num))
  (constArray_rep 16 24 (P - 1) (by norm_num) (by norm_num [P])) (by norm_num [P])

/-- `sub_2u16` subtracts for `a ≥ b`, unless the top chunk of the difference is `0xFFFF`.  Missing: that case, in
which the code is wrong (`C51_sub_off_by_one`). -/
theorem C51_sub_partial (n x y : Nat) (hn : 2 ≤ n) (a b : List Nat) (ha : Rep (2 ^ 16) n a x)
    (hb : Rep (2 ^ 16) n b y) (h : y ≤ x) (htop : (x - y) / 2 ^ (16 * (n - 1)) ≠ 2 ^ 16 - 1) :
    Rep (2 ^ 16) n (sub2 n a b) (x - y) := by
  apply sub2_rep n hn a b x y ha hb h
  have hx := ha.bound (by norm_num)
  rw [← pow_mul]
  obtain ⟨m, rfl⟩ : ∃ m, n = m + 1 := ⟨n - 1, by omega⟩
  have e1 : m + 1 - 1 = m := rfl
  rw [e1] at htop
  rw [e1, ← pow_mul]
  rw [← pow_mul] at hx
  have e : 2 ^ (16 * (m + 1)) = 65536 * 2 ^ (16 * m) := by rw [Nat.mul_add, pow_add]; norm_num; ring
  rw [e] at hx ⊢
  have hp : 0 < 2 ^ (16 * m) := by positivity
  generalize 2 ^ (16 * m) = Q at *
  by_contra hc
  apply htop
  have : x - y = (x - y - 65535 * Q) + Q * 65535 := by omega
  rw [this, Nat.add_mul_div_left _ _ hp, Nat.div_eq_of_lt (by omega)]
  norm_num

example := C51_sub_partial 24 P 5 (by norm_num) _ _ P_rep (constArray_rep 16 24 5 (by norm_num) (by norm_num)) (by norm_num [P])
  (by norm_num [P])

/-- When the top chunk of the difference is `0xFFFF`, `sub_2u16` returns one too many (modulo the array size). -/
theorem C51_sub_off_by_one (n x y : Nat) (hn : 2 ≤ n) (a b : List Nat) (ha : Rep (2 ^ 16) n a x)
    (hb : Rep (2 ^ 16) n b y) (h : y ≤ x) (htop : (x - y) / 2 ^ (16 * (n - 1)) = 2 ^ 16 - 1) :
    Rep (2 ^ 16) n (sub2 n a b) ((x - y + 1) % 2 ^ (16 * n)) := by
  have hx := ha.bound (by norm_num)
  rw [pow_mul]
  apply sub2_wrong n hn a b x y ha.len (fun c hc => lt_trans (ha.lt c hc) (by norm_num)) ha.val hb ?_ h ?_ (by omega)
  · rw [getD_top (by norm_num) (by omega) ha, getD_top (by norm_num) (by omega) hb]
    exact Nat.div_le_div_right h
  · rw [pow_mul] at htop
    obtain ⟨m, rfl⟩ : ∃ m, n = m + 1 := ⟨n - 1, by omega⟩
    have e1 : m + 1 - 1 = m := rfl
    rw [e1] at htop ⊢
    have hd := Nat.mod_add_div (x - y) ((2 ^ 16) ^ m)
    rw [htop] at hd
    have e : (2 ^ 16) ^ (m + 1) = 65536 * (2 ^ 16) ^ m := by rw [pow_succ]; norm_num; ring
    rw [e]
    generalize (2 ^ 16) ^ m = Q at *
    omega

example := C51_sub_off_by_one 24 (2 ^ 384 - 1) 5 (by norm_num) _ _ (constArray_rep 16 24 (2 ^ 384 - 1) (by norm_num) (by norm_num))
  (constArray_rep 16 24 5 (by norm_num) (by norm_num)) (by norm_num) (by norm_num)

/-- The full claim about `sub_2u16` is false: `(2^384 - 1) - 0` comes out as `0`. -/
theorem C51_sub_false :
    ∃ a b, Rep (2 ^ 16) 24 a (2 ^ 384 - 1) ∧ Rep (2 ^ 16) 24 b 0 ∧ Rep (2 ^ 16) 24 (sub2 24 a b) 0 := by
  have ha := constArray_rep 16 24 (2 ^ 384 - 1) (by norm_num) (by norm_num)
  have hb := constArray_rep 16 24 0 (by norm_num) (by norm_num)
  refine ⟨_, _, ha, hb, ?_⟩
  have h := C51_sub_off_by_one 24 _ _ (by norm_num) _ _ ha hb (by norm_num) (by norm_num)
  have e : (2 ^ 384 - 1 - 0 + 1) % 2 ^ (16 * 24) = 0 := by norm_num
  rwa [e] at h

/-- `cond_sub_mod_u16` subtracts the modulus exactly when the operand reaches it. -/
theorem C51_cond_sub_mod (n p x : Nat) (hn : 2 ≤ n) (m a : List Nat) (hm : Rep (2 ^ 16) n m p)
    (ha : Rep (2 ^ 16) n a x) (h : x < 2 ^ (16 * n) - 2 ^ (16 * (n - 1)) + p) :
    Rep (2 ^ 16) n (condSubMod n m a) (if p ≤ x then x - p else x) :=
  condSubMod_rep n hn m a p x hm ha (by rwa [← pow_mul, ← pow_mul])

example := C51_cond_sub_mod 24 P (2 * P - 1) (by norm_num) _ _ P_rep
  (constArray_rep 16 24 (2 * P - 1) (by norm_num) (by norm_num [P])) (by norm_num [P])

/-- `cond_sub_2u16` returns `a - b` modulo `p` for reduced operands. -/
theorem C51_cond_sub (n p x y : Nat) (hn : 2 ≤ n) (m a b : List Nat) (hm : Rep (2 ^ 16) n m p)
    (hp : p < 2 ^ (16 * n) - 2 ^ (16 * (n - 1))) (ha : Rep (2 ^ 16) n a x) (hb : Rep (2 ^ 16) n b y)
    (hx : x < p) (hy : y < p) :
    ∃ r, Rep (2 ^ 16) n (condSub n m a b) r ∧ r < p ∧ (r : Int) ≡ x - y [ZMOD p] := by
  have h := condSub_rep n hn m a b p x y hm ha hb (le_of_lt hy)
    (fun _ => by rw [← pow_mul, ← pow_mul]; omega) (fun _ => by rw [← pow_mul, ← pow_mul]; omega)
  refine ⟨_, h, by split <;> omega, ?_⟩
  by_cases hc : y ≤ x
  · rw [if_pos hc, Nat.cast_sub hc]
  · rw [if_neg hc, Nat.cast_sub (by omega), Nat.cast_add]
    apply Int.modEq_iff_dvd.2
    exact ⟨-1, by ring⟩

/-- The default constants meet the hypotheses: operands `3` and `5` give `p - 2`. -/
example : Rep (2 ^ 16) 24 (condSub 24 P_CHUNK (constArray 16 24 3) (constArray 16 24 5)) (P - 2) := by
  have h3 := constArray_rep 16 24 3 (by norm_num) (by norm_num)
  have h5 := constArray_rep 16 24 5 (by norm_num) (by norm_num)
  obtain ⟨r, hr, hlt, hc⟩ := C51_cond_sub 24 P 3 5 (by norm_num) _ _ _ P_rep (by norm_num [P]) h3 h5
    (by norm_num [P]) (by norm_num [P])
  have : r = P - 2 := by
    have h1 : (r : Int) % P = ((3 : Nat) - (5 : Nat) : Int) % P := hc
    rw [Int.emod_eq_of_lt (by omega) (by omega)] at h1
    have h2 : ((3 : Nat) - (5 : Nat) : Int) % P = P - 2 := by norm_num [P]
    have h3 : 2 ≤ P := by norm_num [P]
    omega
  rw [← this]; exact hr

/-! ## C52 -/

/-- `mul_2u16` returns the `2 n` chunks of the product, for operands of up to 128 chunks. -/
theorem C52_mul (n x y : Nat) (a b : List Nat) (ha : Rep (2 ^ 16) n a x) (hb : Rep (2 ^ 16) n b y)
    (h2 : 2 ≤ n) (hn : n ≤ 128) : Rep (2 ^ 16) (2 * n) (mul2 n a b) (x * y) :=
  mul2_rep n a b x y ha hb h2 hn

/-- The same with byte output, as the lazy reduction uses it. -/
theorem C52_mul_u8 (n x y : Nat) (a b : List Nat) (ha : Rep (2 ^ 16) n a x) (hb : Rep (2 ^ 16) n b y)
    (h2 : 2 ≤ n) (hn : n ≤ 128) : Rep (2 ^ 8) (4 * n) (mul2u8 n a b) (x * y) :=
  mul2u8_rep n a b x y ha hb h2 hn

example := C52_mul_u8 24 (P - 1) (P - 1) _ _ (constArray_rep 16 24 (P - 1) (by norm_num) (by norm_num [P]))
  (constArray_rep 16 24 (P - 1) (by norm_num) (by norm_num [P])) (by norm_num) (by norm_num)

/-- `mul_shift_2u16x2x1` returns the product of a double-width and a single-width operand shifted right by 95
bytes, when the quotient fits. -/
theorem C52_mul_shift (x y : Nat) (a b : List Nat) (ha : Rep (2 ^ 16) 48 a x) (hb : Rep (2 ^ 16) 24 b y)
    (h : x * y / 2 ^ 760 < 2 ^ 384) : Rep (2 ^ 16) 24 (mulShift 95 24 a b) (x * y / 2 ^ 760) := by
  have := mulShift_rep 24 48 36 95 25 a b x y ha hb (by norm_num) (by norm_num) (by norm_num)
    (by norm_num) (by norm_num) (by norm_num)
  have e : (256 : Nat) ^ 95 = 2 ^ 760 := by norm_num
  have e2 : (2 ^ 16 : Nat) ^ 24 = 2 ^ 384 := by norm_num
  rw [e, Nat.mod_eq_of_lt (by rw [e2]; exact h)] at this
  exact this

example := C52_mul_shift ((P - 1) * (P - 1)) MU _ _ (constArray_rep 16 48 ((P - 1) * (P - 1)) (by norm_num) (by norm_num [P]))
  (constArray_rep 16 24 MU (by norm_num) (by norm_num [MU])) (by norm_num [P, MU])

example : Rep (2 ^ 16) 48 (mul2 24 (constArray 16 24 (2 ^ 384 - 1)) (constArray 16 24 (2 ^ 384 - 1)))
    ((2 ^ 384 - 1) * (2 ^ 384 - 1)) :=
  C52_mul 24 _ _ _ _ (constArray_rep 16 24 _ (by norm_num) (by norm_num))
    (constArray_rep 16 24 _ (by norm_num) (by norm_num)) (by norm_num) (by norm_num)

/-! ## C53 -/

/-- The Barrett constant in util.py is the right one. -/
theorem C53_constant : MU = 2 ^ 760 / P := MU_eq

/-- `barrett_reduction_u16x2` returns the canonical residue of every `x < 2^760`. -/
theorem C53_reduction (X : Nat) (x : List Nat) (hx : Rep (2 ^ 16) 48 x X) (hX : X < 2 ^ 760) :
    Rep (2 ^ 16) 24 (barrettReduction x) (X % P) :=
  barrettReduction_rep x X hx hX

example := C53_reduction (2 ^ 760 - 1) _ (constArray_rep 16 48 (2 ^ 760 - 1) (by norm_num) (by norm_num)) (by norm_num)

/-- `mod_mul_barrett_2u16` returns the canonical residue of the product, for field elements (indeed whenever the
product is below `2^760`). -/
theorem C53_mod_mul (x y : Nat) (a b : List Nat) (ha : Rep (2 ^ 16) 24 a x) (hb : Rep (2 ^ 16) 24 b y)
    (h : x * y < 2 ^ 760) : Rep (2 ^ 16) 24 (modMulBarrett a b) (x * y % P) := by
  rw [modMulBarrett_eq]
  exact barrettReduction_rep _ _ (mul2_rep 24 a b x y ha hb (by norm_num) (by norm_num)) h

example := C53_mod_mul (2 ^ 384 - 1) 3 _ _ (constArray_rep 16 24 (2 ^ 384 - 1) (by norm_num) (by norm_num))
  (constArray_rep 16 24 3 (by norm_num) (by norm_num)) (by norm_num)

@[inherit_doc C53_mod_mul]
theorem C53_mod_mul_field (x y : Nat) (a b : List Nat) (ha : Rep (2 ^ 16) 24 a x) (hb : Rep (2 ^ 16) 24 b y)
    (hx : x < P) (hy : y < P) : Rep (2 ^ 16) 24 (modMulBarrett a b) (x * y % P) := by
  apply C53_mod_mul x y a b ha hb
  calc x * y < P * P := Nat.mul_lt_mul'' hx hy
    _ < 2 ^ 760 := by norm_num [P]

example : Rep (2 ^ 16) 24 (modMulBarrett (constArray 16 24 (P - 1)) (constArray 16 24 (P - 1))) 1 := by
  have h := constArray_rep 16 24 (P - 1) (by norm_num) (by norm_num [P])
  have := C53_mod_mul_field _ _ _ _ h h (by norm_num [P]) (by norm_num [P])
  have e : (P - 1) * (P - 1) % P = 1 := by norm_num [P]
  rwa [e] at this

/-! ## C54 -/

/-- `mod_mul_lazy_2u16` on any two 400-bit operands is congruent to the product and below `p 2^16`. -/
theorem C54_mod_mul_lazy (x y : Nat) (a b : List Nat) (ha : Rep (2 ^ 16) 25 a x) (hb : Rep (2 ^ 16) 25 b y) :
    ∃ z, Rep (2 ^ 16) 25 (modMulLazy a b) z ∧ z ≡ x * y [MOD P] ∧ z < P * 2 ^ 16 :=
  modMulLazy_rep a b x y ha hb

/-- A chain of lazy multiplications of any length stays in range and computes the product of all its factors. -/
theorem C54_chain (a : List Nat) (x : Nat) (ha : Rep (2 ^ 16) 25 a x) (l : List (List Nat)) (ys : List Nat)
    (hl : List.Forall₂ (fun b y => Rep (2 ^ 16) 25 b y) l ys) :
    ∃ z, Rep (2 ^ 16) 25 (l.foldl modMulLazy a) z ∧ z ≡ x * ys.prod [MOD P] ∧ (l ≠ [] → z < P * 2 ^ 16) := by
  induction hl generalizing a x with
  | nil => exact ⟨x, ha, by simp [Nat.ModEq], by simp⟩
  | @cons b y l ys hb hl ih =>
    obtain ⟨z, hz, hc, hlt⟩ := C54_mod_mul_lazy x y a b ha hb
    obtain ⟨w, hw, hc2, hlt2⟩ := ih (modMulLazy a b) z hz
    refine ⟨w, hw, ?_, ?_⟩
    · rw [List.prod_cons]
      calc w ≡ z * ys.prod [MOD P] := hc2
        _ ≡ x * y * ys.prod [MOD P] := Nat.ModEq.mul_right _ hc
        _ = x * (y * ys.prod) := by ring
    · intro _
      cases hl with
      | nil => rw [List.foldl_nil] at hw; rw [← hw.val, hz.val]; exact hlt
      | cons _ _ => exact hlt2 (by simp)

example := C54_chain _ _ (constArray_rep 16 25 (2 ^ 400 - 1) (by norm_num) (by norm_num)) [_, _] [P, 5]
  (.cons (constArray_rep 16 25 P (by norm_num) (by norm_num [P])) (.cons (constArray_rep 16 25 5 (by norm_num) (by norm_num)) .nil))

/-- The host-side reference `lazy_reduction_via_matrix`: for every modulus of at most 251 bytes and operands below
`p 2^16` the result is congruent to the product and below `p 2^16` again. -/
theorem C54_reference (p a b : Nat) (hp : 0 < p) (ht : byteLen p ≤ 251) (ha : a < p * 2 ^ 16) (hb : b < p * 2 ^ 16) :
    lazyReduction p a b ≡ a * b [MOD p] ∧ lazyReduction p a b < p * 2 ^ 16 :=
  lazyReduction_spec p a b hp ht ha hb

example := C54_reference P (P * 2 ^ 16 - 1) (P * 2 ^ 15) (by norm_num [P]) (by decide +kernel) (by norm_num [P]) (by norm_num [P])

example : byteLen P = 48 ∧ byteLen P ≤ 251 := by decide +kernel

example : ∃ z, Rep (2 ^ 16) 25 (modMulLazy (constArray 16 25 (2 ^ 400 - 1)) (constArray 16 25 (2 ^ 400 - 1))) z ∧
    z < P * 2 ^ 16 := by
  have h := constArray_rep 16 25 (2 ^ 400 - 1) (by norm_num) (by norm_num)
  obtain ⟨z, h1, _, h2⟩ := C54_mod_mul_lazy _ _ _ _ h h
  exact ⟨z, h1, h2⟩

end Verif.Props

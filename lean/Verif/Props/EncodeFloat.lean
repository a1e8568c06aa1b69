import Verif.Lemmas.EncodeFloatNum
import Verif.Props.Encode

/-! # C85: encoding and decoding in floating-point arithmetic -/

namespace Verif.Props
open Verif.Encode Verif.EncodeFloat Verif.CkksKeys Verif.Slots Finset

variable {A : Arith} {u w ρ η : ℝ} {big : Nat}

/-- C85: doubles with round to nearest meet the accuracy contract: relative error `2^-53` of a sum, `6 * 2^-53` of a complex
product, integers below `2^1023` convert. The table of roots is assumed to be within `ρ`. -/
theorem C85_binary64 (root : Nat → Nat → ℂ) (ρ : ℝ) (hρ : 0 ≤ ρ) (hr : ∀ m i, i < m → ‖root m i - unitRoot m ^ i‖ ≤ ρ) :
    Accurate (Arith.binary64 root) u64 (6 * u64) ρ (8 * eta64) 1023 := binary64_accurate root ρ hρ hr

/-- A table of roots all of which are wrong by `2^-50`. -/
noncomputable def offRoots (m i : Nat) : ℂ := unitRoot m ^ i + ((2⁻¹ ^ 50 : ℝ) : ℂ)

theorem offRoots_err (m i : Nat) : ‖offRoots m i - unitRoot m ^ i‖ ≤ 2⁻¹ ^ 50 := by
  unfold offRoots
  rw [add_sub_cancel_left, Complex.norm_real, Real.norm_eq_abs, abs_of_pos (by positivity)]

example : Accurate (Arith.binary64 offRoots) u64 (6 * u64) (2⁻¹ ^ 50) (8 * eta64) 1023 :=
  C85_binary64 offRoots _ (by positivity) (fun m i _ => offRoots_err m i)

/-- C85: `fft_special` evaluates at the slot points up to the claimed error. The input may itself be off by `e`. -/
theorem C85_forward (hA : Accurate A u w ρ η big) (t : Nat) (v v' : List ℂ) (hl : v.length = 2 ^ t) (hl' : v'.length = 2 ^ t)
    (e V : ℝ) (he : ∀ p, p < 2 ^ t → ‖v'.getD p 0 - v.getD p 0‖ ≤ e) (hV : ∀ p, p < 2 ^ t → ‖v'.getD p 0‖ ≤ V) :
    (fftSpecialF A v' (4 * 2 ^ t)).length = 2 ^ t ∧
    ∀ k, k < 2 ^ t →
      ‖(fftSpecialF A v' (4 * 2 ^ t)).getD k 0 - ∑ j ∈ range (2 ^ t), v.getD j 0 * unitRoot (4 * 2 ^ t) ^ (5 ^ k * j)‖ ≤
        2 ^ t * e + (2 * growth u w ρ) ^ t * (V + t * tiny u w ρ η) - 2 ^ t * V := by
  have h0 : 0 < 2 ^ t := by positivity
  have hn : Near e V v v' := by
    refine ⟨by rw [hl, hl'], fun p => ?_⟩
    by_cases hp : p < 2 ^ t
    · exact ⟨he p hp, hV p hp⟩
    · rw [List.getD_eq_default _ _ (by omega), List.getD_eq_default _ _ (by omega)]
      simp only [sub_zero, norm_zero]
      exact ⟨(norm_nonneg _).trans (he 0 h0), (norm_nonneg _).trans (hV 0 h0)⟩
  have h := fftSpecial_near hA hl hn
  refine ⟨h.1.trans (fftSpecial_length _ t v hl), fun k hk => ?_⟩
  rw [← fftSpecial_getD (unitRoot_half t) v hl k hk]
  exact (h.2 k).1

example : ∀ k, k < 2 ^ 1 → ‖(fftSpecialF (Arith.binary64 offRoots) [1, Complex.I] (4 * 2 ^ 1)).getD k 0 -
    ∑ j ∈ range (2 ^ 1), ([1, Complex.I] : List ℂ).getD j 0 * unitRoot (4 * 2 ^ 1) ^ (5 ^ k * j)‖ ≤
      2 ^ 1 * 0 + (2 * growth u64 (6 * u64) (2⁻¹ ^ 50)) ^ 1 * (1 + (1 : Nat) * tiny u64 (6 * u64) (2⁻¹ ^ 50) (8 * eta64)) - 2 ^ 1 * 1 :=
  (C85_forward (C85_binary64 offRoots _ (by positivity) (fun m i _ => offRoots_err m i)) 1 [1, Complex.I] [1, Complex.I] rfl rfl 0 1
    (by intro p _; simp) (by intro p hp; interval_cases p <;> simp)).2

/-- C85: `fft_special_inv` returns, up to the claimed error, the vector whose values at the slot points are the input. -/
theorem C85_inverse (hA : Accurate A u w ρ η big) (t : Nat) (ht : t ≤ 1000) (z : List ℂ) (hl : z.length = 2 ^ t) (B : ℝ)
    (hB : ∀ p, p < 2 ^ t → ‖z.getD p 0‖ ≤ B) :
    (fftSpecialInvF A z (4 * 2 ^ t)).length = 2 ^ t ∧
    ∃ v : Nat → ℂ, (∀ k, k < 2 ^ t → ∑ j ∈ range (2 ^ t), v j * unitRoot (4 * 2 ^ t) ^ (5 ^ k * j) = z.getD k 0) ∧
      ∀ p, p < 2 ^ t → ‖(fftSpecialInvF A z (4 * 2 ^ t)).getD p 0 - v p‖ ≤
        growth u w ρ ^ (t + 1) * (B + t * tiny u w ρ η) + η - B := by
  have hB0 : 0 ≤ B := (norm_nonneg _).trans (hB 0 (by positivity))
  have h := fftSpecialInv_near hA ht hl hB0 hB
  have hvl := fftSpecialInv_length (unitRoot (4 * 2 ^ t)) t z hl
  refine ⟨h.1.trans hvl, fun p => (fftSpecialInv (unitRoot (4 * 2 ^ t)) z (4 * 2 ^ t)).getD p 0, ?_, ?_⟩
  · intro k hk
    rw [← fftSpecial_getD (unitRoot_half t) _ hvl k hk, fft_inv two_ne_zero (unitRoot_half t) z hl]
  · intro p _
    exact (h.2 p).1

example : (fftSpecialInvF (Arith.binary64 offRoots) [1, Complex.I] (4 * 2 ^ 1)).length = 2 ^ 1 :=
  (C85_inverse (C85_binary64 offRoots _ (by positivity) (fun m i _ => offRoots_err m i)) 1 (by norm_num) [1, Complex.I] rfl 1
    (by intro p hp; interval_cases p <;> simp)).1

/-- The moduli of the instances below: one 30-bit prime, degree 4096. -/
theorem demoModuli : Moduli (11 + 1) [1073184769] :=
  ⟨by intro m hm; simp at hm; subst hm; exact (show NttPrime 12 _ from FourStep.nttPrime fourStep_64_64), by simp⟩

theorem demoArith : Accurate (Arith.binary64 offRoots) u64 (6 * u64) (2⁻¹ ^ 50) (8 * eta64) 1023 :=
  C85_binary64 offRoots _ (by positivity) (fun m i _ => offRoots_err m i)

/-- C85: what `encode` produces: in every modulus one integer polynomial with bounded coefficients whose slot values, divided
by the scale, are the slots up to the claimed error. -/
theorem C85_encode (hA : Accurate A u w ρ η big) (t : Nat) (ht : t ≤ 1000) (ms : List Nat) (h : Moduli (t + 1) ms)
    (scale : ℝ) (hsc : 0 < scale) (slots : List ℂ) (hs : slots.length ≤ 2 ^ t) (B : ℝ) (hB0 : 0 ≤ B) (hB : ∀ z ∈ slots, ‖z‖ ≤ B) :
    ∃ (pt : Plaintext) (x : Nat → ℤ), encodeF A (2 ^ (t + 1)) ms scale slots = .ok pt ∧ pt.moduli = ms ∧
      Reduced (t + 1) ms pt.data ∧
      (∀ i, i < ms.length → ringOf (t + 1) (ms.getD i 0) (pt.data i) = polyOf (t + 1) (ms.getD i 0) x) ∧
      (∀ p, p < 2 ^ (t + 1) → |(x p : ℝ)| ≤ intSize u w ρ η B scale t) ∧
      ∀ k, k < 2 ^ t → ‖slotEval (2 ^ (t + 1)) (fun j => (x j : ℝ) / scale) k - slots.getD k 0‖ ≤
        2 ^ (t + 1) * intErr u w ρ η B scale t :=
  encodeF_spec hA t ht ms h scale hsc slots hs B hB0 hB

example : ∃ pt, encodeF (Arith.binary64 offRoots) (2 ^ (11 + 1)) [1073184769] (2 ^ 16) [1, Complex.I] = .ok pt := by
  obtain ⟨pt, -, h, -⟩ := C85_encode demoArith 11 (by norm_num) [1073184769] demoModuli (2 ^ 16) (by norm_num) [1, Complex.I]
    (by simp) 1 (by norm_num) (by simp)
  exact ⟨pt, h⟩

/-- C85: `decode` returns, up to the claimed error, the values at the slot points of the integer polynomial a plaintext holds,
divided by the scale, in coefficient form and in transformed form. -/
theorem C85_decode (hA : Accurate A u w ρ η big) (t : Nat) (ms : List Nat) (hne : ms ≠ []) (hco : ms.Pairwise Nat.Coprime)
    (h : Moduli (t + 1) ms) (scale : ℝ) (hsc : 0 < scale) (numSlots : Nat) (x : Nat → ℤ) (X : ℝ)
    (hX : ∀ p, p < 2 ^ (t + 1) → |(x p : ℝ)| ≤ X) (hQ : 2 * X < ms.prod) (hbig : X < 2 ^ big) (pt : Plaintext) (hpm : pt.moduli = ms)
    (b : Bool)
    (hpt : if b then ∀ i, i < ms.length → ringOf (t + 1) (ms.getD i 0) (pt.data i) = polyOf (t + 1) (ms.getD i 0) x
      else ∀ i, i < ms.length → ∀ p, p < 2 ^ (t + 1) → (pt.data i p : ℤ) = x p % (ms.getD i 0 : ℤ)) :
    ∃ out, decodeF A (some (scale, numSlots)) (2 ^ (t + 1)) pt b = .ok out ∧ out.length = min numSlots (2 ^ t) ∧
      ∀ k, k < min numSlots (2 ^ t) →
        ‖out.getD k 0 - slotEval (2 ^ (t + 1)) (fun j => (x j : ℝ) / scale) k‖ ≤ decErr u w ρ η X scale t := by
  have hx : ∀ p, p < 2 ^ (t + 1) → -(ms.prod : ℤ) < 2 * x p ∧ 2 * x p ≤ ms.prod := by
    intro p hp
    have h1 := abs_le.1 (hX p hp)
    generalize ms.prod = Q at hQ
    constructor
    · have : (-(Q : ℤ) : ℝ) < ((2 * x p : ℤ) : ℝ) := by push_cast; linarith [h1.1]
      exact_mod_cast this
    · have : ((2 * x p : ℤ) : ℝ) ≤ ((Q : ℤ) : ℝ) := by push_cast; linarith [h1.2]
      exact_mod_cast this
  have fin := decodeCoeffsF_fun hA t hsc numSlots x hX hbig
  cases b with
  | true =>
    rw [decodeF_slots A t ms hne hco h scale numSlots x hx pt hpm (by simpa using hpt)]
    exact fin
  | false =>
    rw [decodeF_rows A t ms hne hco (fun m hm => (h.ntt m hm).prime.pos) scale numSlots x hx pt hpm (by simpa using hpt)]
    exact fin

/-- A plaintext in coefficient form that holds the constant `c`. -/
def demoPt (c : ℤ) : Plaintext := { data := fun _ p => if p = 0 then (c % 1073184769).toNat else 0, moduli := [1073184769] }

theorem demoPt_rows (c : ℤ) : ∀ i, i < [1073184769].length → ∀ p, p < 2 ^ (11 + 1) →
    ((demoPt c).data i p : ℤ) = (if p = 0 then c else 0) % (([1073184769] : List Nat).getD i 0 : ℤ) := by
  intro i hi p _
  have : i = 0 := by simpa using hi
  subst this
  have h0 : 0 ≤ c % 1073184769 := Int.emod_nonneg c (by norm_num)
  by_cases hp : p = 0
  · simp [demoPt, hp, Int.toNat_of_nonneg h0]
  · simp [demoPt, hp]

example : ∃ out, decodeF (Arith.binary64 offRoots) (some (2 ^ 16, 3)) (2 ^ (11 + 1)) (demoPt (-5)) false = .ok out ∧ out.length = 3 := by
  obtain ⟨out, h1, h2, -⟩ := C85_decode demoArith 11 [1073184769] (by simp) (by simp) demoModuli (2 ^ 16) (by norm_num) 3
    (fun p => if p = 0 then -5 else 0) 5 (by intro p _; split <;> norm_num) (by norm_num)
    (by
      have : (2 : ℝ) ^ 20 ≤ 2 ^ 1023 := pow_le_pow_right₀ (by norm_num) (by norm_num)
      refine lt_of_lt_of_le ?_ this
      norm_num) (demoPt (-5)) rfl false (demoPt_rows (-5))
  exact ⟨out, h1, h2⟩

/-- C85: decoding an encoding returns the slots up to the two errors, and zeros in the slots that were not given. -/
theorem C85_roundtrip (hA : Accurate A u w ρ η big) (t : Nat) (ht : t ≤ 1000) (ms : List Nat) (hne : ms ≠ [])
    (hco : ms.Pairwise Nat.Coprime) (h : Moduli (t + 1) ms) (scale : ℝ) (hsc : 0 < scale) (slots : List ℂ)
    (hs : slots.length ≤ 2 ^ t) (B : ℝ) (hB0 : 0 ≤ B) (hB : ∀ z ∈ slots, ‖z‖ ≤ B)
    (hQ : 2 * intSize u w ρ η B scale t < ms.prod) (hbig : intSize u w ρ η B scale t < 2 ^ big)
    (numSlots : Nat) (hn : numSlots ≤ 2 ^ t) :
    ∃ pt out, encodeF A (2 ^ (t + 1)) ms scale slots = .ok pt ∧
      decodeF A (some (scale, numSlots)) (2 ^ (t + 1)) pt true = .ok out ∧ out.length = numSlots ∧
      ∀ k, k < numSlots → ‖out.getD k 0 - slots.getD k 0‖ ≤
        2 ^ (t + 1) * intErr u w ρ η B scale t + decErr u w ρ η (intSize u w ρ η B scale t) scale t := by
  obtain ⟨pt, x, e1, e2, -, e4, e5, e6⟩ := C85_encode hA t ht ms h scale hsc slots hs B hB0 hB
  obtain ⟨out, o1, o2, o3⟩ := C85_decode hA t ms hne hco h scale hsc numSlots x _ e5 hQ hbig pt e2 true (by simpa using e4)
  rw [min_eq_left hn] at o2 o3
  refine ⟨pt, out, e1, o1, o2, fun k hk => ?_⟩
  have a := o3 k hk
  have b := e6 k (by omega)
  have e : out.getD k 0 - slots.getD k 0 = (out.getD k 0 - slotEval (2 ^ (t + 1)) (fun j => (x j : ℝ) / scale) k) +
      (slotEval (2 ^ (t + 1)) (fun j => (x j : ℝ) / scale) k - slots.getD k 0) := by ring
  rw [e]
  exact (norm_add_le _ _).trans (by linarith)

/-- The two range conditions of the round trip hold for slots of size 1 at scale `2^16`. -/
example : 2 * intSize u64 (6 * u64) (2⁻¹ ^ 50) (8 * eta64) 1 (2 ^ 16) 11 < (([1073184769] : List Nat).prod : ℝ) := by
  have h := (closed_form (u := u64) (ρ := 2⁻¹ ^ 50) (η := 8 * eta64) (B := 1) (s := 2 ^ 16) (t := 11) u64_pos
    (by unfold u64; norm_num) (by norm_num) (by positivity) (by unfold u64; norm_num) (by linarith [eta64_pos]) (by norm_num)
    (by norm_num) (by
      have : eta64 ≤ 2⁻¹ ^ 62 := by unfold eta64; exact pow_le_pow_of_le_one (by norm_num) (by norm_num) (by norm_num)
      have : u64 = 2⁻¹ ^ 53 := rfl
      norm_num at *
      linarith)).2
  have hu : u64 = 2⁻¹ ^ 53 := rfl
  rw [hu] at h ⊢
  norm_num at h ⊢
  linarith

/-- C85, in numbers: with doubles, a table of roots good to `2^-50`, at most `2^20` slots and a scale of at least 1, a round
trip returns the slots up to `N / (2 * scale)` for the rounding to integers plus `N * 80 * (t + 1) * 2^-53 * (B + 1 / scale)`
for the floating-point operations. -/
theorem C85_double (root : Nat → Nat → ℂ) (hr : ∀ m i, i < m → ‖root m i - unitRoot m ^ i‖ ≤ 2⁻¹ ^ 50) (t : Nat) (ht : t ≤ 20)
    (ms : List Nat) (hne : ms ≠ []) (hco : ms.Pairwise Nat.Coprime) (h : Moduli (t + 1) ms) (scale : ℝ) (hsc : 1 ≤ scale)
    (slots : List ℂ) (hs : slots.length ≤ 2 ^ t) (B : ℝ) (hB0 : 2⁻¹ ^ 1000 ≤ B) (hB : ∀ z ∈ slots, ‖z‖ ≤ B)
    (hQ : 2 * ((1 + 40 * (t + 1) * 2⁻¹ ^ 53) * (B * scale) + 1 / 2) < ms.prod)
    (hbig : (1 + 40 * (t + 1) * 2⁻¹ ^ 53) * (B * scale) + 1 / 2 < 2 ^ 1023) (numSlots : Nat) (hn : numSlots ≤ 2 ^ t) :
    ∃ pt out, encodeF (Arith.binary64 root) (2 ^ (t + 1)) ms scale slots = .ok pt ∧
      decodeF (Arith.binary64 root) (some (scale, numSlots)) (2 ^ (t + 1)) pt true = .ok out ∧ out.length = numSlots ∧
      ∀ k, k < numSlots → ‖out.getD k 0 - slots.getD k 0‖ ≤
        2 ^ (t + 1) * (1 / (2 * scale) + 80 * (t + 1) * 2⁻¹ ^ 53 * (B + 1 / scale)) := by
  have hu : u64 = 2⁻¹ ^ 53 := rfl
  rw [← hu] at hQ hbig ⊢
  have hBp : 0 ≤ B := le_trans (by positivity) hB0
  have hA := C85_binary64 root (2⁻¹ ^ 50) (by positivity) hr
  have hηB : 64 * (8 * eta64) ≤ u64 * B := by
    have h1 : 64 * (8 * eta64) ≤ u64 * 2⁻¹ ^ 1000 := by
      unfold eta64 u64
      rw [← pow_add]
      have : (2⁻¹ : ℝ) ^ 1075 = 2⁻¹ ^ 22 * 2⁻¹ ^ (53 + 1000) := by rw [← pow_add]
      rw [this]
      have hp : (0 : ℝ) < 2⁻¹ ^ (53 + 1000) := by positivity
      generalize (2⁻¹ : ℝ) ^ (53 + 1000) = x at hp
      norm_num
      nlinarith
    exact h1.trans (mul_le_mul_of_nonneg_left hB0 u64_pos.le)
  obtain ⟨c1, c2⟩ := closed_form (u := u64) (ρ := 2⁻¹ ^ 50) (η := 8 * eta64) (B := B) (s := scale) (t := t) u64_pos
    (by rw [hu]; norm_num) ht (by positivity) (by rw [hu]; norm_num) (by linarith [eta64_pos]) hsc hBp hηB
  have hbig' : intSize u64 (6 * u64) (2⁻¹ ^ 50) (8 * eta64) B scale t < 2 ^ 1023 := lt_of_le_of_lt c2 hbig
  obtain ⟨pt, out, o1, o2, o3, o4⟩ := C85_roundtrip hA t (by omega) ms hne hco h scale (by linarith) slots hs B hBp hB
    (by linarith) hbig' numSlots hn
  exact ⟨pt, out, o1, o2, o3, fun k hk => (o4 k hk).trans c1⟩

/-- C85: the remainder `scaled_coeffs % moduli` of an integer-valued double, of any size, by a modulus of at most 53 bits is the
integer remainder: nothing is lost after `np.round`. -/
theorem C85_remainder (x : ℤ) (m : Nat) (hm : 0 < m) (hm2 : m < 2 ^ 53) : remFloat x m = ((x % m : ℤ) : ℝ) := remFloat_eq x m hm hm2

example : remFloat (-(2 ^ 70 + 2 ^ 20)) 1073184769 = ((-(2 ^ 70 + 2 ^ 20) % 1073184769 : ℤ) : ℝ) :=
  C85_remainder _ _ (by norm_num) (by norm_num)

theorem mapM_raises (root : Nat → Nat → ℂ) (scale : ℝ) (hs : scale ≠ 0) (l : List ℤ) (h : ∃ a ∈ l, intLimit ≤ |a|) :
    l.mapM (divScale (Arith.binary64 root) scale) = .error "OverflowError" := by
  induction l with
  | nil => simp at h
  | cons a l ih =>
    rw [List.mapM_cons]
    by_cases ha : intLimit ≤ |a|
    · unfold divScale
      rw [ofInt_overflow root a ha]
      rfl
    · have hl : ∃ b ∈ l, intLimit ≤ |b| := by
        obtain ⟨b, hb, hb'⟩ := h
        rcases List.mem_cons.1 hb with rfl | hb
        · exact absurd hb' ha
        · exact ⟨b, hb, hb'⟩
      rw [ih hl]
      have : ∃ r, divScale (Arith.binary64 root) scale a = .ok r := by
        refine ⟨fl (fl a / scale), ?_⟩
        unfold divScale Arith.binary64
        dsimp only
        rw [if_pos (not_le.1 ha)]
        simp only [bind, Except.bind, pure, Except.pure]
        rw [if_neg hs]
      obtain ⟨r, hr⟩ := this
      rw [hr]
      rfl

/-- The bound of `ofInt`, in the open. -/
theorem intLimit_eq : intLimit = 2 ^ 1024 - 2 ^ 970 := rfl

/-- C85: `decode` raises if a coefficient is beyond the doubles, whatever the scale: the integer is converted before it is
divided. -/
theorem C85_overflow (root : Nat → Nat → ℂ) (t : Nat) (ms : List Nat) (hne : ms ≠ []) (hco : ms.Pairwise Nat.Coprime)
    (h : Moduli (t + 1) ms) (scale : ℝ) (hsc : scale ≠ 0) (numSlots : Nat) (x : Nat → ℤ)
    (hx : ∀ p, p < 2 ^ (t + 1) → -(ms.prod : ℤ) < 2 * x p ∧ 2 * x p ≤ ms.prod) 
    (hp : ∃ p, p < 2 ^ (t + 1) ∧ 2 ^ 1024 - 2 ^ 970 ≤ |x p|) (pt : Plaintext) (hpm : pt.moduli = ms)
    (hpt : ∀ i, i < ms.length → ringOf (t + 1) (ms.getD i 0) (pt.data i) = polyOf (t + 1) (ms.getD i 0) x) :
    decodeF (Arith.binary64 root) (some (scale, numSlots)) (2 ^ (t + 1)) pt true = .error "OverflowError" := by
  rw [decodeF_slots _ t ms hne hco h scale numSlots x hx pt hpm hpt]
  unfold decodeCoeffsF
  rw [mapM_raises root scale hsc]
  · rfl
  · obtain ⟨p, h1, h2⟩ := hp
    rw [← intLimit_eq] at h2
    exact ⟨x p, List.mem_map.2 ⟨p, List.mem_range.2 h1, rfl⟩, h2⟩

/-- The numbers below 1800 that are 1 modulo 4 and prime: together more than 1025 bits. -/
def manyPrimes : List Nat :=
  (List.range 1800).filter (fun n => n % 4 == 1 && 1 < n && (List.range 43).all (fun d => d < 2 || n ≤ d || n % d != 0))

theorem manyModuli : Moduli (0 + 1) manyPrimes := by
  have h : ∀ m ∈ manyPrimes, m < 1800 ∧ m % 4 = 1 ∧ m.Prime := by
    intro m hm
    simp only [manyPrimes, List.mem_filter, List.mem_range, Bool.and_eq_true, beq_iff_eq, decide_eq_true_eq, List.all_eq_true,
      Bool.or_eq_true, bne_iff_ne] at hm
    obtain ⟨h1, ⟨h2, h3⟩, h4⟩ := hm
    refine ⟨h1, h2, Nat.prime_def_le_sqrt.2 ⟨h3, fun d d2 ds hd => ?_⟩⟩
    have hs : d * d ≤ m := Nat.le_sqrt.1 ds
    have hd43 : d < 43 := by
      by_contra hc
      have : 43 * 43 ≤ d * d := Nat.mul_le_mul (by omega) (by omega)
      omega
    rcases h4 d hd43 with (h | h) | h
    · omega
    · nlinarith
    · exact h (Nat.mod_eq_zero_of_dvd hd)
  refine ⟨fun m hm => ⟨(h m hm).2.2, ?_⟩, fun m hm => lt_trans (h m hm).1 (by norm_num)⟩
  have := (h m hm).2.1
  omega

theorem manyProd : 2 * intLimit < (manyPrimes.prod : ℤ) := by decide +kernel

theorem limit_pos : 3 < intLimit := by decide +kernel

theorem manyPrimes_ne : manyPrimes ≠ [] := by
  intro h
  have h1 := manyProd
  have h2 := limit_pos
  rw [h, List.prod_nil] at h1
  generalize intLimit = L at h1 h2
  omega

attribute [local irreducible] manyPrimes

theorem manyCoprime : manyPrimes.Pairwise Nat.Coprime := by
  have hn : manyPrimes.Nodup := by unfold manyPrimes; exact List.Nodup.filter _ List.nodup_range
  refine List.Pairwise.imp_of_mem ?_ hn
  intro a b ha hb hab
  exact (Nat.coprime_primes (manyModuli.ntt a ha).prime (manyModuli.ntt b hb).prime).2 hab

example : ∃ pt, decodeF (Arith.binary64 offRoots) (some (2 ^ 1000, 1)) (2 ^ (0 + 1)) pt true = .error "OverflowError" := by
  have hbig := manyProd
  obtain ⟨M, -, -, m3⟩ := nttMat_ringOf manyModuli (residues manyPrimes (fun p => if p = 0 then intLimit else 0))
  have hlim := limit_pos
  refine ⟨{ data := M, moduli := manyPrimes }, C85_overflow offRoots 0 manyPrimes manyPrimes_ne manyCoprime manyModuli _ (by positivity) 1
    (fun p => if p = 0 then intLimit else 0) ?_ ⟨0, by norm_num, ?_⟩ _ rfl ?_⟩
  · intro p _
    generalize intLimit = L at *
    split
    · constructor <;> linarith
    · constructor <;> linarith
  · simp only [if_true]; rw [← intLimit_eq]; exact le_abs_self _
  · intro i hi
    rw [m3 i hi, polyOf_residues manyModuli _ hi]

/-- C85: `decode` with scale zero raises. -/
theorem C85_zero_scale (hA : Accurate A u w ρ η big) (t : Nat) (ms : List Nat) (hne : ms ≠ []) (hco : ms.Pairwise Nat.Coprime)
    (h : Moduli (t + 1) ms) (numSlots : Nat) (x : Nat → ℤ)
    (hx : ∀ p, p < 2 ^ (t + 1) → -(ms.prod : ℤ) < 2 * x p ∧ 2 * x p ≤ ms.prod) (hp : |x 0| < 2 ^ big)
    (pt : Plaintext) (hpm : pt.moduli = ms)
    (hpt : ∀ i, i < ms.length → ringOf (t + 1) (ms.getD i 0) (pt.data i) = polyOf (t + 1) (ms.getD i 0) x) :
    decodeF A (some (0, numSlots)) (2 ^ (t + 1)) pt true = .error "ZeroDivisionError" := by
  rw [decodeF_slots _ t ms hne hco h 0 numSlots x hx pt hpm hpt]
  unfold decodeCoeffsF
  obtain ⟨n, hn⟩ : ∃ n, 2 ^ (t + 1) = n + 1 := ⟨2 ^ (t + 1) - 1, by have := Nat.two_pow_pos (t + 1); omega⟩
  rw [hn, List.range_succ_eq_map, List.map_cons, List.mapM_cons]
  obtain ⟨r, hr, -⟩ := hA.ofInt (x 0) hp
  have : divScale A 0 (x 0) = .error "ZeroDivisionError" := by
    unfold divScale
    rw [hr]
    simp only [bind, Except.bind, if_true]
  rw [this]
  rfl

example : ∃ pt, decodeF (Arith.binary64 offRoots) (some (0, 1)) (2 ^ (0 + 1)) pt true = .error "ZeroDivisionError" := by
  obtain ⟨M, -, -, m3⟩ := nttMat_ringOf manyModuli (residues manyPrimes (fun p => if p = 0 then 3 else 0))
  have hQ : (6 : ℤ) < manyPrimes.prod := by
    have h1 := manyProd
    have h2 := limit_pos
    generalize intLimit = L at h1 h2
    omega
  refine ⟨{ data := M, moduli := manyPrimes }, C85_zero_scale demoArith 0 manyPrimes manyPrimes_ne manyCoprime manyModuli 1
    (fun p => if p = 0 then 3 else 0) ?_ ?_ _ rfl ?_⟩
  · intro p _
    generalize (manyPrimes.prod : ℤ) = L at *
    split
    · constructor <;> linarith
    · constructor <;> linarith
  · decide +kernel
  · intro i hi
    rw [m3 i hi, polyOf_residues manyModuli _ hi]

/-- C85: `decode` rejects an unset scale or slot number. -/
theorem C85_rejects (degree : Nat) (pt : Plaintext) (b : Bool) : decodeF A none degree pt b = .error "ValueError" := rfl

/-- The round trip of two slots in a ring of degree 4096 at scale `2^16`, with doubles and roots that are all off: at most
`0.0313`. -/
example : ∃ pt out, encodeF (Arith.binary64 offRoots) (2 ^ (11 + 1)) [1073184769] (2 ^ 16) [1, Complex.I] = .ok pt ∧
    decodeF (Arith.binary64 offRoots) (some (2 ^ 16, 2)) (2 ^ (11 + 1)) pt true = .ok out ∧ out.length = 2 ∧
    ∀ k, k < 2 → ‖out.getD k 0 - ([1, Complex.I] : List ℂ).getD k 0‖ ≤ 313 / 10000 := by
  obtain ⟨pt, out, h1, h2, h3, h4⟩ := C85_double offRoots (fun m i _ => offRoots_err m i) 11 (by norm_num) [1073184769] (by simp)
    (by simp) ⟨by intro m hm; simp at hm; subst hm; exact (show NttPrime 12 _ from FourStep.nttPrime fourStep_64_64), by simp⟩
    (2 ^ 16) (by norm_num) [1, Complex.I] (by simp) 1 (pow_le_one₀ (by norm_num) (by norm_num)) (by simp) (by norm_num)
    (by
      have : (2 : ℝ) ^ 20 ≤ 2 ^ 1023 := pow_le_pow_right₀ (by norm_num) (by norm_num)
      refine lt_of_lt_of_le ?_ this
      norm_num) 2 (by norm_num)
  refine ⟨pt, out, h1, h2, h3, fun k hk => (h4 k hk).trans ?_⟩
  norm_num

/-- A double between `2^53` and `2^54` times a power of two that needs 54 bits is rounded to 53. -/
theorem fl_54 (k : ℤ) (e : ℤ) (h1 : 2 ^ 53 ≤ k) (h2 : k < 2 ^ 54) (he : -1074 ≤ e) : fl (k * 2 ^ e) = rne (k / 2) * 2 ^ (e + 1) := by
  have hk0 : (0 : ℝ) < k := by exact_mod_cast (show (0 : ℤ) < k by have : (0 : ℤ) < 2 ^ 53 := by norm_num
                                                                   omega)
  have hx : (0 : ℝ) < k * 2 ^ e := by positivity
  have l1 : (2 : ℝ) ^ (e + 53) ≤ k * 2 ^ e := by
    rw [zpow_add₀ (by norm_num), mul_comm]
    apply mul_le_mul_of_nonneg_right _ (by positivity)
    exact_mod_cast h1
  have l2 : (k : ℝ) * 2 ^ e < 2 ^ (e + 54) := by
    rw [zpow_add₀ (by norm_num), mul_comm]
    apply mul_lt_mul_of_pos_left _ (by positivity)
    exact_mod_cast h2
  have hl : Int.log 2 |(k : ℝ) * 2 ^ e| = e + 53 := by
    rw [abs_of_pos hx]
    have a := (Int.zpow_le_iff_le_log (R := ℝ) (b := 2) (by norm_num) (x := e + 53) hx).1 (by simpa using l1)
    have b := (Int.lt_zpow_iff_log_lt (R := ℝ) (b := 2) (by norm_num) (x := e + 54) hx).1 (by simpa using l2)
    omega
  have hu : ulpExp ((k : ℝ) * 2 ^ e) = e + 1 := by unfold ulpExp; rw [hl]; omega
  unfold fl
  rw [hu]
  have : (k : ℝ) * 2 ^ e / 2 ^ (e + 1) = k / 2 := by
    rw [zpow_add₀ (by norm_num), zpow_one]; field_simp
  rw [this]

/-- C85, the limit: the bound `N / (2 * scale)` of exact arithmetic (C69) does not hold with doubles. In degree 2 the slot
`1 + 2^-52` at scale `3 * 2^60` is encoded as a polynomial that is off by 256, not by at most `1/2`. -/
theorem C85_exact_bound_false (root : Nat → Nat → ℂ) :
    ∃ x : ℤ, encodeCoeffsF (Arith.binary64 root) 2 (3 * 2 ^ 60) [((1 + 2⁻¹ ^ 52 : ℝ) : ℂ)] = [x, 0] ∧
      (x : ℝ) - (1 + 2⁻¹ ^ 52) * (3 * 2 ^ 60) = 256 := by
  have hz' : fl (1 + 2⁻¹ ^ 52) = 1 + 2⁻¹ ^ 52 := by
    have h := fl_exact (2 ^ 52 + 1) (-52) (by norm_num) (by norm_num)
    have e : (((2 ^ 52 + 1 : ℤ)) : ℝ) * 2 ^ (-52 : ℤ) = 1 + 2⁻¹ ^ 52 := by norm_num
    rw [e] at h
    exact h
  have h1 : fl (1 / ((1 : Nat) : ℝ)) = 1 := by simpa using fl_int 1 (by norm_num)
  have hm : (Arith.binary64 root).mul ((1 + 2⁻¹ ^ 52 : ℝ) : ℂ) ((Arith.binary64 root).div 1 ((1 : Nat) : ℝ) : ℝ) =
      ((1 + 2⁻¹ ^ 52 : ℝ) : ℂ) := by
    unfold Arith.binary64
    dsimp only
    rw [h1]
    apply Complex.ext
    · simp only [Complex.ofReal_re, Complex.ofReal_im, mul_one, mul_zero, fl_zero, sub_zero, hz']
    · simp only [Complex.ofReal_re, Complex.ofReal_im, mul_one, mul_zero, fl_zero, add_zero]
  have hy : fftSpecialInvF (Arith.binary64 root) [((1 + 2⁻¹ ^ 52 : ℝ) : ℂ)] 4 = [((1 + 2⁻¹ ^ 52 : ℝ) : ℂ)] := by
    unfold fftSpecialInvF
    dsimp only [List.length_cons, List.length_nil]
    rw [zero_add, invLoopF, if_neg (by norm_num), List.map_cons, List.map_nil, hm]
    rfl
  have hr : fl ((1 + 2⁻¹ ^ 52) * (3 * 2 ^ 60)) = ((3 * 2 ^ 51 + 2 : ℤ) : ℝ) * 2 ^ 9 := by
    have h := fl_54 (3 * 2 ^ 52 + 3) 8 (by norm_num) (by norm_num) (by norm_num)
    have e : (((3 * 2 ^ 52 + 3 : ℤ)) : ℝ) * 2 ^ (8 : ℤ) = (1 + 2⁻¹ ^ 52) * (3 * 2 ^ 60) := by norm_num
    have e2 : rne (((3 * 2 ^ 52 + 3 : ℤ) : ℝ) / 2) = 3 * 2 ^ 51 + 2 := by
      have f : ⌊((3 * 2 ^ 52 + 3 : ℤ) : ℝ) / 2⌋ = 3 * 2 ^ 51 + 1 := by
        rw [Int.floor_eq_iff]; constructor <;> norm_num
      have g : Int.fract (((3 * 2 ^ 52 + 3 : ℤ) : ℝ) / 2) = 1 / 2 := by
        unfold Int.fract
        rw [f]; norm_num
      unfold rne
      rw [g, f]
      norm_num
    rw [e, e2] at h
    rw [h]
    norm_num
  have hr0 : fl (0 * (3 * 2 ^ 60)) = 0 := by rw [zero_mul, fl_zero]
  refine ⟨(3 * 2 ^ 51 + 2) * 2 ^ 9, ?_, by norm_num⟩
  unfold encodeCoeffsF
  dsimp only [List.length_cons, List.length_nil]
  rw [if_neg (by norm_num), show 2 * 2 = 4 from rfl, hy]
  simp only [List.map_cons, List.map_nil, List.cons_append, List.nil_append, Complex.ofReal_re, Complex.ofReal_im]
  unfold Arith.binary64
  dsimp only
  rw [hr, hr0]
  have i1 : rne (((3 * 2 ^ 51 + 2 : ℤ) : ℝ) * 2 ^ 9) = (3 * 2 ^ 51 + 2) * 2 ^ 9 := by
    have := rne_int ((3 * 2 ^ 51 + 2) * 2 ^ 9)
    rw [← this]; congr 1; norm_num
  have i2 : rne 0 = 0 := by simpa using rne_int 0
  rw [i1, i2]

end Verif.Props

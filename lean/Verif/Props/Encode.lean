import Verif.Lemmas.Encode
import Verif.Props.CkksEncrypt
import Verif.Lemmas.CkksLift
import Mathlib.Tactic.NormNum.Prime

/-! # C68 - C70: the special transforms, encoding, and encryption of encoded slots -/

namespace Verif.Props
open Verif.Encode Verif.CkksKeys Verif.Slots Verif.CkksMul Finset

/-- C68: `fft_special` evaluates at the powers `zeta^(5^k)`: entry `k` of the output is the value there of the
polynomial whose coefficients are the entries of the input. -/
theorem C68_forward {K : Type} [Field K] (zeta : K) (t : Nat) (hz : zeta ^ 2 ^ (t + 1) = -1) (v : List K)
    (hl : v.length = 2 ^ t) :
    (fftSpecial zeta v (4 * 2 ^ t)).length = 2 ^ t ∧
    ∀ k, k < 2 ^ t → (fftSpecial zeta v (4 * 2 ^ t)).getD k 0 = ∑ j ∈ range (2 ^ t), v.getD j 0 * zeta ^ (5 ^ k * j) :=
  ⟨fftSpecial_length zeta t v hl, fun k hk => fftSpecial_getD hz v hl k hk⟩

/-- C68: `fft_special_inv` is the inverse of `fft_special`, on both sides. -/
theorem C68_inverse {K : Type} [Field K] (zeta : K) (t : Nat) (h2 : (2 : K) ≠ 0) (hz : zeta ^ 2 ^ (t + 1) = -1)
    (v : List K) (hl : v.length = 2 ^ t) :
    fftSpecialInv zeta (fftSpecial zeta v (4 * 2 ^ t)) (4 * 2 ^ t) = v ∧
    fftSpecial zeta (fftSpecialInv zeta v (4 * 2 ^ t)) (4 * 2 ^ t) = v :=
  ⟨inv_fft h2 hz v hl, fft_inv h2 hz v hl⟩

/-- C68: with the root the code uses, both for the vector the code builds: real coefficients `x`, folded as
`x_j + i x_(j + N/2)`, are taken to the values of `x` at the slot points `exp(2 pi i 5^k / (2N))`. -/
theorem C68_embedding (t : Nat) (x : Nat → ℝ) :
    fftSpecial (unitRoot (4 * 2 ^ t)) ((List.range (2 ^ t)).map (fun j => (x j : ℂ) + Complex.I * (x (2 ^ t + j) : ℂ))) (4 * 2 ^ t) =
      (List.range (2 ^ t)).map (slotEval (2 ^ (t + 1)) x) := by
  apply list_eq_of_getD (n := 2 ^ t) (fftSpecial_length _ t _ (by simp)) (by simp)
  · intro k hk
    rw [fftSpecial_getD (unitRoot_half t) _ (by simp) k hk, getD_range_map _ _ _ hk, slotEval_fold]
    apply sum_congr rfl
    intro j hj
    rw [getD_range_map _ _ _ (mem_range.1 hj), pow_mul]

/-- The hypotheses (of `C68_inverse`) are met, over the complex numbers and over a finite field. -/
example (t : Nat) : (unitRoot (4 * 2 ^ t)) ^ 2 ^ (t + 1) = -1 ∧ (2 : ℂ) ≠ 0 := ⟨unitRoot_half t, two_ne_zero⟩
instance fact_prime_17 : Fact (Nat.Prime 17) := ⟨by norm_num⟩
example : (fftSpecial (2 : ZMod 17) [1, 2] (4 * 2 ^ 1)).getD 1 0 = 1 + 2 * 2 ^ 5 := by
  rw [(C68_forward (2 : ZMod 17) 1 (by decide) [1, 2] rfl).2 1 (by norm_num)]; decide
example : (2 : ZMod 17) ^ 2 ^ (1 + 1) = -1 := by decide

/-- C69: `encode` succeeds and its plaintext holds, in every modulus, one integer polynomial `x` whose coefficients are
at most `B * scale + 1/2` and whose value at the `k`-th slot point, divided by the scale, is within `N / (2 * scale)` of
the `k`-th slot (0 for slots not given). -/
theorem C69_encode (t : Nat) (ms : List Nat) (h : Moduli (t + 1) ms) (rnd : ℝ → ℤ) (hr : ∀ x, |(rnd x : ℝ) - x| ≤ 1 / 2)
    (scale : ℝ) (hsc : 0 < scale) (slots : List ℂ) (hs : slots.length ≤ 2 ^ t) (B : ℝ) (hB0 : 0 ≤ B) (hB : ∀ z ∈ slots, ‖z‖ ≤ B) :
    ∃ (pt : Plaintext) (x : Nat → ℤ), encode rnd (2 ^ (t + 1)) ms scale slots = .ok pt ∧ pt.moduli = ms ∧
      Reduced (t + 1) ms pt.data ∧
      (∀ i, i < ms.length → ringOf (t + 1) (ms.getD i 0) (pt.data i) = polyOf (t + 1) (ms.getD i 0) x) ∧
      (∀ p, p < 2 ^ (t + 1) → |(x p : ℝ)| ≤ B * scale + 1 / 2) ∧
      ∀ k, k < 2 ^ t → ‖slotEval (2 ^ (t + 1)) (fun j => (x j : ℝ) / scale) k - slots.getD k 0‖ ≤ 2 ^ (t + 1) * (1 / 2 / scale) :=
  encode_spec t ms h rnd hr scale hsc slots hs B hB0 hB

/-- C69: `decode` returns the first `num_slots` values at the slot points of the integer polynomial a plaintext holds,
divided by the scale, in coefficient form (`is_slot_form=False`) and in transformed form, provided the coefficients are in
the range `(-Q/2, Q/2]`. -/
theorem C69_decode (t : Nat) (ms : List Nat) (hne : ms ≠ []) (hco : ms.Pairwise Nat.Coprime) (h : Moduli (t + 1) ms)
    (scale : ℝ) (numSlots : Nat) (x : Nat → ℤ) (hx : ∀ p, p < 2 ^ (t + 1) → -(ms.prod : ℤ) < 2 * x p ∧ 2 * x p ≤ ms.prod)
    (pt : Plaintext) (hpm : pt.moduli = ms) :
    ((∀ i, i < ms.length → ringOf (t + 1) (ms.getD i 0) (pt.data i) = polyOf (t + 1) (ms.getD i 0) x) →
      decode (some (scale, numSlots)) (2 ^ (t + 1)) pt true =
        .ok (((List.range (2 ^ t)).map (slotEval (2 ^ (t + 1)) (fun j => (x j : ℝ) / scale))).take numSlots)) ∧
    ((∀ i, i < ms.length → ∀ p, p < 2 ^ (t + 1) → (pt.data i p : ℤ) = x p % (ms.getD i 0 : ℤ)) →
      decode (some (scale, numSlots)) (2 ^ (t + 1)) pt false =
        .ok (((List.range (2 ^ t)).map (slotEval (2 ^ (t + 1)) (fun j => (x j : ℝ) / scale))).take numSlots)) :=
  ⟨decode_slots t ms hne hco h scale numSlots x hx pt hpm,
    decode_rows t ms hne hco (fun m hm => (h.ntt m hm).prime.pos) scale numSlots x hx pt hpm⟩

theorem slots_close {t numSlots : Nat} {slots : List ℂ} {f : Nat → ℂ} {b : ℝ} (hn : numSlots ≤ 2 ^ t)
    (h : ∀ k, k < 2 ^ t → ‖f k - slots.getD k 0‖ ≤ b) :
    (((List.range (2 ^ t)).map f).take numSlots).length = numSlots ∧
    ∀ k, k < numSlots → ‖(((List.range (2 ^ t)).map f).take numSlots).getD k 0 - slots.getD k 0‖ ≤ b := by
  have hl : (((List.range (2 ^ t)).map f).take numSlots).length = numSlots := by simp; omega
  refine ⟨hl, fun k hk => ?_⟩
  rw [List.getD_eq_getElem _ _ (by omega)]
  simp only [List.getElem_take, List.getElem_map, List.getElem_range]
  exact h k (by omega)

/-- C69: decoding an encoding returns the slots up to the rounding error `N / (2 * scale)`, and zeros up to that error in
the slots that were not given. -/
theorem C69_roundtrip (t : Nat) (ms : List Nat) (hne : ms ≠ []) (hco : ms.Pairwise Nat.Coprime) (h : Moduli (t + 1) ms)
    (rnd : ℝ → ℤ) (hr : ∀ x, |(rnd x : ℝ) - x| ≤ 1 / 2) (scale : ℝ) (hsc : 0 < scale) (slots : List ℂ)
    (hs : slots.length ≤ 2 ^ t) (B : ℝ) (hB0 : 0 ≤ B) (hB : ∀ z ∈ slots, ‖z‖ ≤ B) (hrange : 2 * (B * scale + 1 / 2) < ms.prod)
    (numSlots : Nat) (hn : numSlots ≤ 2 ^ t) :
    ∃ pt out, encode rnd (2 ^ (t + 1)) ms scale slots = .ok pt ∧
      decode (some (scale, numSlots)) (2 ^ (t + 1)) pt true = .ok out ∧ out.length = numSlots ∧
      ∀ k, k < numSlots → ‖out.getD k 0 - slots.getD k 0‖ ≤ 2 ^ (t + 1) * (1 / 2 / scale) := by
  obtain ⟨pt, x, e1, e2, -, e4, e5, e6⟩ := C69_encode t ms h rnd hr scale hsc slots hs B hB0 hB
  have hx : ∀ p, p < 2 ^ (t + 1) → -(ms.prod : ℤ) < 2 * x p ∧ 2 * x p ≤ ms.prod := by
    intro p hp
    have h1 := abs_le.1 (e5 p hp)
    generalize ms.prod = Q at hrange
    constructor
    · have : (-(Q : ℤ) : ℝ) < ((2 * x p : ℤ) : ℝ) := by push_cast; linarith [h1.1]
      exact_mod_cast this
    · have : ((2 * x p : ℤ) : ℝ) ≤ ((Q : ℤ) : ℝ) := by push_cast; linarith [h1.2]
      exact_mod_cast this
  obtain ⟨c1, c2⟩ := slots_close hn e6
  exact ⟨pt, _, e1, (C69_decode t ms hne hco h scale numSlots x hx pt e2).1 e4, c1, c2⟩

/-- C69: `decode` rejects an unset scale or slot number. -/
theorem C69_rejects (degree : Nat) (pt : Plaintext) (b : Bool) : decode none degree pt b = .error "ValueError" := rfl

/-- C69, the limit: more than `degree / 2` slots are not rejected; the result has more coefficients than the degree. -/
theorem C69_excess_slots (rnd : ℝ → ℤ) (scale : ℝ) (a b : ℂ) : (encodeCoeffs rnd 2 scale [a, b]).length = 4 := by
  have h : (fftSpecialInv (unitRoot (2 * 2)) [a, b] (2 * 2)).length = 2 := by
    unfold fftSpecialInv
    simp only
    rw [(C30_array 1 _ (by simp [invLoop, invLayer])).1]
    simp [invLoop, invLayer]
  simp [encodeCoeffs, h]

/-- C70: key generation, encoding, encryption, decryption and decoding return the slots up to
`N * (1/2 + W) / scale`, where `W` bounds the encryption noise: `N Bv Be + Be + N Be Bs` for key coefficients of magnitude
at most `Bs`, encryption randomness at most `Bv` and errors at most `Be`. -/
theorem C70_end_to_end (t : Nat) (ms : List Nat) (hco : ms.Pairwise Nat.Coprime) (h : Moduli (t + 1) ms)
    (s e : Nat → ℤ) (a : Mat) (Bs Be Bv : ℤ) (hBs0 : 0 ≤ Bs) (hBe0 : 0 ≤ Be) (hBv0 : 0 ≤ Bv)
    (hs : ∀ p, p < 2 ^ (t + 1) → |s p| ≤ Bs) (he : ∀ p, p < 2 ^ (t + 1) → |e p| ≤ Be)
    (rnd : ℝ → ℤ) (hr : ∀ x, |(rnd x : ℝ) - x| ≤ 1 / 2) (scale : ℝ) (hsc : 0 < scale) :
    ∃ pk sk, keygen (2 ^ (t + 1)) ms s e a = .ok (pk, sk) ∧
    ∀ (n : Nat), ms.take n ≠ [] → ∀ (slots : List ℂ), slots.length ≤ 2 ^ t → ∀ (B : ℝ), 0 ≤ B → (∀ z ∈ slots, ‖z‖ ≤ B) →
    ∀ (v e0 e1 : Nat → ℤ), (∀ p, p < 2 ^ (t + 1) → |v p| ≤ Bv ∧ |e0 p| ≤ Be ∧ |e1 p| ≤ Be) →
    ∀ (W : ℤ), 2 ^ (t + 1) * Bv * Be + Be + 2 ^ (t + 1) * Be * Bs ≤ W →
      2 * (B * scale + 1 / 2 + W) < (ms.take n).prod → ∀ (numSlots : Nat), numSlots ≤ 2 ^ t →
    ∃ pt ct pt' out, encode rnd (2 ^ (t + 1)) (ms.take n) scale slots = .ok pt ∧
      encrypt (2 ^ (t + 1)) pk pt v e0 e1 = .ok ct ∧ decrypt (2 ^ (t + 1)) sk ct = .ok pt' ∧
      decode (some (scale, numSlots)) (2 ^ (t + 1)) pt' false = .ok out ∧ out.length = numSlots ∧
      ∀ k, k < numSlots → ‖out.getD k 0 - slots.getD k 0‖ ≤ 2 ^ (t + 1) * ((1 / 2 + W) / scale) := by
  obtain ⟨pk, sk, k1, k2⟩ := C39_decrypt_encrypt (t + 1) ms h s e a
  refine ⟨pk, sk, k1, ?_⟩
  intro n hne slots hsl B hB0 hB v e0 e1 hv W hW hrange numSlots hn
  have hm := h.take n
  obtain ⟨pt, x, x1, x2, x3, x4, x5, x6⟩ := C69_encode t (ms.take n) hm rnd hr scale hsc slots hsl B hB0 hB
  obtain ⟨ct, pt', c1, c2, c3, c4, c5, c6, c7⟩ := k2 n pt.data v e0 e1 x3
  obtain ⟨w, hw⟩ : ∃ w : Nat → ℤ, w = fun p => imul (t + 1) v e p + e0 p + imul (t + 1) e1 s p := ⟨_, rfl⟩
  have hwB : ∀ p, p < 2 ^ (t + 1) → |w p| ≤ W := by
    intro p hp
    have b1 := imul_abs (t + 1) v e Bv Be hBv0 hBe0 (fun p hp => (hv p hp).1) he p
    have b2 := imul_abs (t + 1) e1 s Be Bs hBe0 hBs0 (fun p hp => (hv p hp).2.2) hs p
    have b3 := (hv p hp).2.1
    rw [hw]
    exact (((abs_add_le _ _).trans (add_le_add ((abs_add_le _ _).trans (add_le_add b1 b3)) b2))).trans hW
  have hptEq : ({ data := pt.data, moduli := ms.take n } : Plaintext) = pt := by rw [← x2]
  rw [hptEq] at c1
  have hx : ∀ p, p < 2 ^ (t + 1) → -((ms.take n).prod : ℤ) < 2 * (x p + w p) ∧ 2 * (x p + w p) ≤ (ms.take n).prod := by
    intro p hp
    have h1 := abs_le.1 (x5 p hp)
    have h2 := abs_le.1 (hwB p hp)
    have h3 : (-(W : ℝ) ≤ w p) ∧ ((w p : ℝ) ≤ W) := ⟨by exact_mod_cast h2.1, by exact_mod_cast h2.2⟩
    generalize (ms.take n).prod = Q at hrange
    constructor
    · have : (-(Q : ℤ) : ℝ) < ((2 * (x p + w p) : ℤ) : ℝ) := by push_cast; linarith [h1.1, h3.1]
      exact_mod_cast this
    · have : ((2 * (x p + w p) : ℤ) : ℝ) ≤ ((Q : ℤ) : ℝ) := by push_cast; linarith [h1.2, h3.2]
      exact_mod_cast this
  have hdec := (C69_decode t (ms.take n) hne (hco.sublist (List.take_sublist n ms)) hm scale numSlots (fun p => x p + w p) hx
    pt' c6).2 (by
      intro i hi p hp
      obtain ⟨d1, d2⟩ := c7 i hi
      have hgi : (ms.take n).getD i 0 = ms.getD i 0 := getD_take hi
      have r1 := x4 i hi
      rw [hgi] at r1
      have : polyOf (t + 1) (ms.getD i 0) (fun p => (pt'.data i p : Int)) = polyOf (t + 1) (ms.getD i 0) (fun p => x p + w p) := by
        rw [d2, r1, polyOf_add, hw, polyOf_add, polyOf_add, polyOf_imul, polyOf_imul]
        ring
      have r2 := polyOf_inj this p hp
      rw [hgi, ← r2]
      exact (Int.emod_eq_of_lt (by omega) (by exact_mod_cast d1 p hp)).symm)
  have hclose : ∀ k, k < 2 ^ t → ‖slotEval (2 ^ (t + 1)) (fun j => ((x j + w j : ℤ) : ℝ) / scale) k - slots.getD k 0‖ ≤
      2 ^ (t + 1) * ((1 / 2 + W) / scale) := by
    intro k hk
    have h1 := x6 k hk
    have h2 := slotEval_norm (2 ^ (t + 1)) (fun j => ((x j + w j : ℤ) : ℝ) / scale - (x j : ℝ) / scale) (W / scale) (by
      intro j hj
      have : ((x j + w j : ℤ) : ℝ) / scale - (x j : ℝ) / scale = (w j : ℝ) / scale := by push_cast; ring
      rw [this, abs_div, abs_of_pos hsc]
      exact div_le_div_of_nonneg_right (by exact_mod_cast hwB j hj) hsc.le) k
    rw [slotEval_sub] at h2
    have h3 := norm_add_le (slotEval (2 ^ (t + 1)) (fun j => ((x j + w j : ℤ) : ℝ) / scale) k -
      slotEval (2 ^ (t + 1)) (fun j => (x j : ℝ) / scale) k) (slotEval (2 ^ (t + 1)) (fun j => (x j : ℝ) / scale) k - slots.getD k 0)
    rw [sub_add_sub_cancel] at h3
    refine h3.trans ((add_le_add h2 h1).trans (le_of_eq ?_))
    push_cast
    ring
  obtain ⟨g1, g2⟩ := slots_close hn hclose
  exact ⟨pt, ct, pt', _, x1, c1, c5, hdec, g1, g2⟩

/-- The hypotheses are met: degree 4096, a 30-bit modulus, slots of magnitude at most 1, scale `2^16`, key and
randomness bits, errors of magnitude at most 1, rounding to nearest (`C69_encode`, `C69_decode`, `C69_roundtrip`, and the
sessions below). -/
example : Moduli (11 + 1) [1073184769] ∧ [1073184769].Pairwise Nat.Coprime ∧ (∀ x : ℝ, |((round x : ℤ) : ℝ) - x| ≤ 1 / 2) ∧
    (2 * ((1 : ℝ) * 2 ^ 16 + 1 / 2 + ((2 ^ 12 * 1 * 1 + 1 + 2 ^ 12 * 1 * 1 : ℤ) : ℝ)) < (([1073184769].take 1).prod : Nat)) ∧
    (∀ z ∈ ([1, Complex.I] : List ℂ), ‖z‖ ≤ 1) := by
  refine ⟨⟨by intro m hm; simp at hm; subst hm; exact (show NttPrime 12 _ from FourStep.nttPrime fourStep_64_64), by simp⟩, by simp,
    fun x => by rw [abs_sub_comm]; exact abs_sub_round x, by norm_num, ?_⟩
  intro z hz
  simp at hz
  rcases hz with rfl | rfl <;> simp

end Verif.Props

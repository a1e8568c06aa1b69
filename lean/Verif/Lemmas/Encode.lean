import Verif.Lemmas.SpecialFft
import Verif.Lemmas.CkksKeys
import Verif.Props.Crt
import Mathlib.Analysis.SpecialFunctions.Complex.Circle
import Mathlib.Analysis.Complex.Norm

/-!
# The slot points, and lemmas connecting `encode`/`decode` with them
-/

namespace Verif.Encode
open Verif.BitReversal Verif.CkksKeys Finset

/-- Specification: the value of the real polynomial with coefficients `x 0, ..., x (N-1)` at the `k`-th slot point
`exp(2 pi i 5^k / (2N))`. -/
noncomputable def slotEval (N : Nat) (x : Nat → ℝ) (k : Nat) : ℂ :=
  ∑ j ∈ range N, (x j : ℂ) * Complex.exp (2 * Real.pi * Complex.I * ((5 ^ k * j : Nat) : ℂ) / ((2 * N : Nat) : ℂ))

theorem unitRoot_pow (m n : Nat) : unitRoot m ^ n = Complex.exp (2 * Real.pi * Complex.I * (n : ℂ) / (m : ℂ)) := by
  unfold unitRoot
  rw [← Complex.exp_nat_mul]
  congr 1
  ring

theorem slotEval_eq (N : Nat) (x : Nat → ℝ) (k : Nat) :
    slotEval N x k = ∑ j ∈ range N, (x j : ℂ) * (unitRoot (2 * N) ^ 5 ^ k) ^ j := by
  unfold slotEval
  apply sum_congr rfl
  intro j _
  rw [← pow_mul, unitRoot_pow]

theorem unitRoot_quarter (t : Nat) : unitRoot (4 * 2 ^ t) ^ 2 ^ t = Complex.I := by
  rw [unitRoot_pow]
  have h : ((2 ^ t : Nat) : ℂ) ≠ 0 := by exact_mod_cast (by positivity : (2 ^ t : Nat) ≠ 0)
  have : 2 * (Real.pi : ℂ) * Complex.I * ((2 ^ t : Nat) : ℂ) / ((4 * 2 ^ t : Nat) : ℂ) = Real.pi / 2 * Complex.I := by
    rw [Nat.cast_mul]
    field_simp
    push_cast
    ring
  rw [this, Complex.exp_pi_div_two_mul_I]

theorem unitRoot_half (t : Nat) : unitRoot (4 * 2 ^ t) ^ 2 ^ (t + 1) = -1 := by
  rw [pow_succ, pow_mul, unitRoot_quarter, Complex.I_sq]

theorem unitRoot_norm (m : Nat) : ‖unitRoot m‖ = 1 := by
  unfold unitRoot
  rw [show 2 * (Real.pi : ℂ) * Complex.I / (m : ℂ) = ((2 * Real.pi / m : ℝ) : ℂ) * Complex.I by push_cast; ring]
  exact Complex.norm_exp_ofReal_mul_I _

theorem I_pow_five (k : Nat) : Complex.I ^ 5 ^ k = Complex.I := by
  induction k with
  | zero => simp
  | succ k ih => rw [pow_succ, pow_mul, ih, show 5 = 4 + 1 by norm_num, pow_succ, Complex.I_pow_four, one_mul]

/-- Folding the upper half of the coefficients into the imaginary part does not change the value. -/
theorem slotEval_fold (t : Nat) (x : Nat → ℝ) (k : Nat) :
    slotEval (2 ^ (t + 1)) x k =
      ∑ j ∈ range (2 ^ t), ((x j : ℂ) + Complex.I * (x (2 ^ t + j) : ℂ)) * (unitRoot (4 * 2 ^ t) ^ 5 ^ k) ^ j := by
  rw [slotEval_eq, show 2 * 2 ^ (t + 1) = 4 * 2 ^ t by ring, show 2 ^ (t + 1) = 2 ^ t + 2 ^ t by ring, sum_range_add,
    ← sum_add_distrib]
  apply sum_congr rfl
  intro j _
  have h : (unitRoot (4 * 2 ^ t) ^ 5 ^ k) ^ 2 ^ t = Complex.I := by
    rw [← pow_mul, mul_comm (5 ^ k) (2 ^ t), pow_mul, unitRoot_quarter, I_pow_five]
  rw [pow_add, h]
  ring

theorem fftSpecial_length {K : Type} [Field K] (zeta : K) (t : Nat) (v : List K) (hl : v.length = 2 ^ t) :
    (fftSpecial zeta v (4 * 2 ^ t)).length = 2 ^ t := by
  rw [fftSpecial_eq zeta t v hl, fwdAll_length, (Props.C30_array t v hl).1, hl]

theorem fftSpecialInv_length {K : Type} [Field K] (zeta : K) (t : Nat) (v : List K) (hl : v.length = 2 ^ t) :
    (fftSpecialInv zeta v (4 * 2 ^ t)).length = 2 ^ t := by
  rw [fftSpecialInv_eq zeta t v hl, (Props.C30_array t _ (by rw [List.length_map, invAll_length, hl])).1, List.length_map,
    invAll_length, hl]

theorem fftSpecial_getD {K : Type} [Field K] {zeta : K} {t : Nat} (hz : zeta ^ 2 ^ (t + 1) = -1) (v : List K)
    (hl : v.length = 2 ^ t) (k : Nat) (hk : k < 2 ^ t) :
    (fftSpecial zeta v (4 * 2 ^ t)).getD k 0 = ∑ j ∈ range (2 ^ t), v.getD j 0 * zeta ^ (5 ^ k * j) := by
  rw [fftSpecial_eq zeta t v hl, fwdAll_part hz v hl t le_rfl k hk]
  unfold part
  rw [Nat.sub_self, Nat.div_eq_of_lt hk, Nat.mod_eq_of_lt hk]
  apply sum_congr rfl
  intro j _
  rw [rev_zero]
  simp only [pow_zero, pow_one, zero_add, one_mul, pow_mul]

theorem bitRev_map {α β : Type} (f : α → β) (t : Nat) (l : List α) (hl : l.length = 2 ^ t) :
    bitReversalArray (l.map f) = (bitReversalArray l).map f := by
  obtain ⟨a1, a2, -⟩ := Props.C30_array t l hl
  obtain ⟨b1, b2, -⟩ := Props.C30_array t (l.map f) (by simp [hl])
  apply List.ext_getElem?
  intro i
  by_cases hi : i < 2 ^ t
  · rw [b2 i hi, List.getElem?_map, List.getElem?_map, a2 i hi]
  · rw [List.getElem?_eq_none (by simp [b1, hl]; omega), List.getElem?_eq_none (by simp [a1, hl]; omega)]

theorem inv_fft {K : Type} [Field K] {zeta : K} {t : Nat} (h2 : (2 : K) ≠ 0) (hz : zeta ^ 2 ^ (t + 1) = -1) (v : List K)
    (hl : v.length = 2 ^ t) : fftSpecialInv zeta (fftSpecial zeta v (4 * 2 ^ t)) (4 * 2 ^ t) = v := by
  obtain ⟨a1, a2, a3⟩ := Props.C30_array t v hl
  rw [fftSpecialInv_eq zeta t _ (fftSpecial_length zeta t v hl), fftSpecial_eq zeta t v hl,
    invAll_fwdAll hz t le_rfl _ (by rw [a1, hl]), List.map_map]
  have : (fun x : K => ((2 ^ t : Nat) : K)⁻¹ * x) ∘ (fun x => ((2 ^ t : Nat) : K) * x) = id := by
    funext x
    have h : ((2 ^ t : Nat) : K) ≠ 0 := by push_cast; exact pow_ne_zero _ h2
    simp only [Function.comp, id]
    field_simp
  rw [this, List.map_id, a3]

theorem fft_inv {K : Type} [Field K] {zeta : K} {t : Nat} (h2 : (2 : K) ≠ 0) (hz : zeta ^ 2 ^ (t + 1) = -1) (v : List K)
    (hl : v.length = 2 ^ t) : fftSpecial zeta (fftSpecialInv zeta v (4 * 2 ^ t)) (4 * 2 ^ t) = v := by
  have hlen : ((invAll zeta t t v).map (fun x => ((2 ^ t : Nat) : K)⁻¹ * x)).length = 2 ^ t := by
    rw [List.length_map, invAll_length, hl]
  rw [fftSpecial_eq zeta t _ (fftSpecialInv_length zeta t v hl), fftSpecialInv_eq zeta t v hl,
    (Props.C30_array t _ hlen).2.2, fwdAll_smul, fwdAll_invAll hz t le_rfl v hl, List.map_map]
  have : (fun x : K => ((2 ^ t : Nat) : K)⁻¹ * x) ∘ (fun x => ((2 ^ t : Nat) : K) * x) = id := by
    funext x
    have h : ((2 ^ t : Nat) : K) ≠ 0 := by push_cast; exact pow_ne_zero _ h2
    simp only [Function.comp, id]
    field_simp
  rw [this, List.map_id]

/-- Each inverse layer at most doubles the largest absolute value. -/
theorem invAll_norm (t s : Nat) (hs : s ≤ t) (v : List ℂ) (hl : v.length = 2 ^ t) (B : ℝ)
    (hB : ∀ p, p < 2 ^ t → ‖v.getD p 0‖ ≤ B) (p : Nat) (hp : p < 2 ^ t) :
    ‖(invAll (unitRoot (4 * 2 ^ t)) t s v).getD p 0‖ ≤ 2 ^ s * B := by
  induction s generalizing v B with
  | zero => simpa [invAll] using hB p hp
  | succ s ih =>
    rw [invAll]
    have h := ih (by omega) (invLayer (unitRoot (4 * 2 ^ t)) (2 ^ (t + 2)) (rotGroup (2 ^ (t + 2)) (2 ^ t) 5) (2 ^ (s + 1)) v)
      (by rw [invLayer_length, hl]) (2 * B) ?_
    · have e : (2 : ℝ) ^ (s + 1) = 2 ^ s * 2 := pow_succ 2 s
      rw [e]
      linarith
    · intro r hr
      rw [invLayer_getD (by omega) (unitRoot_half t) v hl r hr]
      split
      · rename_i hc
        have h1 := hB r hr
        have h2 := hB _ (block_lt (by omega) hr hc)
        exact (norm_add_le _ _).trans (by linarith)
      · have h1 := hB r hr
        have h2 := hB (r - 2 ^ s) (by omega)
        have h3 : ‖(tw (unitRoot (4 * 2 ^ t)) t s (r % 2 ^ (s + 1) - 2 ^ s))⁻¹‖ = 1 := by
          unfold tw
          rw [norm_inv, norm_pow, norm_pow, unitRoot_norm, one_pow, one_pow, inv_one]
        rw [norm_mul, h3, mul_one]
        exact (norm_sub_le _ _).trans (by linarith)

theorem fftSpecialInv_norm (t : Nat) (v : List ℂ) (hl : v.length = 2 ^ t) (B : ℝ) (hB : ∀ p, p < 2 ^ t → ‖v.getD p 0‖ ≤ B)
    (p : Nat) (hp : p < 2 ^ t) : ‖(fftSpecialInv (unitRoot (4 * 2 ^ t)) v (4 * 2 ^ t)).getD p 0‖ ≤ B := by
  rw [fftSpecialInv_eq _ t v hl, List.getD_eq_getElem?_getD, (Props.C30_array t _ (by
    rw [List.length_map, invAll_length, hl])).2.1 p hp, ← List.getD_eq_getElem?_getD, map_mul_getD, norm_mul]
  have h := invAll_norm t t le_rfl v hl B hB (bitReversal p t) (rev_lt p t)
  have hpos : (0 : ℝ) < 2 ^ t := by positivity
  have : ‖(((2 ^ t : Nat) : ℂ))⁻¹‖ = ((2 : ℝ) ^ t)⁻¹ := by
    rw [norm_inv]; simp
  rw [this, inv_mul_le_iff₀ hpos]
  exact h

/-- The coefficients seen by the decoder. -/
theorem decodeCoeffs_eq (t : Nat) (scale : ℝ) (numSlots : Nat) (c : List ℤ) (hl : c.length = 2 ^ (t + 1)) :
    decodeCoeffs (2 ^ (t + 1)) scale numSlots c =
      ((List.range (2 ^ t)).map (slotEval (2 ^ (t + 1)) (fun j => (c.getD j 0 : ℝ) / scale))).take numSlots := by
  have hn : 2 ^ (t + 1) / 2 = 2 ^ t := by rw [pow_succ]; omega
  have hm : 2 ^ (t + 1) * 2 = 4 * 2 ^ t := by ring
  have h2 : (2 : Nat) ^ (t + 1) = 2 ^ t + 2 ^ t := by ring
  unfold decodeCoeffs
  simp only
  rw [hn, hm]
  congr 1
  generalize hy : List.zipWith (fun (a b : ℝ) => (a : ℂ) + Complex.I * (b : ℂ)) _ _ = y
  have hyl : y.length = 2 ^ t := by
    rw [← hy]; simp [hl]; omega
  have hyg : ∀ j, j < 2 ^ t → y.getD j 0 = (((c.getD j 0 : ℝ) / scale : ℝ) : ℂ) +
      Complex.I * (((c.getD (2 ^ t + j) 0 : ℝ) / scale : ℝ) : ℂ) := by
    intro j hj
    rw [List.getD_eq_getElem _ _ (by omega), List.getD_eq_getElem c _ (by omega), List.getD_eq_getElem c _ (by omega)]
    subst hy
    simp
  apply list_eq_of_getD (n := 2 ^ t) (fftSpecial_length _ t y hyl) (by simp)
  intro k hk
  rw [fftSpecial_getD (unitRoot_half t) y hyl k hk, getD_range_map _ _ _ hk, slotEval_fold]
  apply sum_congr rfl
  intro j hj
  rw [hyg j (mem_range.1 hj), pow_mul]

theorem slotEval_norm (N : Nat) (x : Nat → ℝ) (B : ℝ) (hB : ∀ j, j < N → |x j| ≤ B) (k : Nat) :
    ‖slotEval N x k‖ ≤ N * B := by
  rw [slotEval_eq]
  refine (norm_sum_le _ _).trans ?_
  have : ∀ j ∈ range N, ‖(x j : ℂ) * (unitRoot (2 * N) ^ 5 ^ k) ^ j‖ ≤ B := by
    intro j hj
    rw [norm_mul, norm_pow, norm_pow, unitRoot_norm, one_pow, one_pow, mul_one, Complex.norm_real]
    exact hB j (mem_range.1 hj)
  refine (sum_le_sum this).trans ?_
  rw [sum_const, card_range, nsmul_eq_mul]

theorem slotEval_sub (N : Nat) (x y : Nat → ℝ) (k : Nat) :
    slotEval N (fun j => x j - y j) k = slotEval N x k - slotEval N y k := by
  unfold slotEval
  rw [← sum_sub_distrib]
  apply sum_congr rfl
  intro j _
  push_cast
  ring

/-- `decode` on coefficient rows that are the residues of small integers. -/
theorem decode_rows (t : Nat) (ms : List Nat) (hne : ms ≠ []) (hco : ms.Pairwise Nat.Coprime) (hpos : ∀ m ∈ ms, 0 < m)
    (scale : ℝ) (numSlots : Nat) (x : Nat → ℤ) (hx : ∀ p, p < 2 ^ (t + 1) → -(ms.prod : ℤ) < 2 * x p ∧ 2 * x p ≤ ms.prod)
    (pt : Plaintext) (hpm : pt.moduli = ms)
    (hpt : ∀ i, i < ms.length → ∀ p, p < 2 ^ (t + 1) → (pt.data i p : ℤ) = x p % (ms.getD i 0 : ℤ)) :
    decode (some (scale, numSlots)) (2 ^ (t + 1)) pt false =
      .ok (((List.range (2 ^ t)).map (slotEval (2 ^ (t + 1)) (fun j => (x j : ℝ) / scale))).take numSlots) := by
  have hrows : (List.range pt.moduli.length).map (fun i => (List.range (2 ^ (t + 1))).map (fun p => (pt.data i p : Int))) =
      ms.map (fun (m : Nat) => ((List.range (2 ^ (t + 1))).map x).map (fun x => x % (m : Int))) := by
    apply List.ext_getElem (by simp [hpm])
    intro i h1 h2
    simp only [List.length_map, List.length_range, hpm] at h1
    rw [List.getElem_map, List.getElem_map, List.getElem_range, List.map_map]
    apply List.map_congr_left
    intro p hp
    rw [hpt i h1 p (List.mem_range.1 hp), List.getD_eq_getElem _ _ h1]
    rfl
  obtain ⟨r, h1, h2⟩ := Props.C47_roundtrip ((List.range (2 ^ (t + 1))).map x) ms hne hco hpos (by
    intro y hy
    obtain ⟨p, hp, rfl⟩ := List.mem_map.1 hy
    exact hx p (List.mem_range.1 hp))
  unfold decode
  simp only [Bool.false_eq_true, if_false, bind, Except.bind, pure, Except.pure, hrows, h1]
  rw [hpm] at *
  simp only [h1, h2]
  rw [decodeCoeffs_eq t scale numSlots _ (by simp)]
  congr 2
  apply List.map_congr_left
  intro k _
  unfold slotEval
  apply sum_congr rfl
  intro j hj
  beta_reduce
  rw [List.getD_eq_getElem _ _ (by simpa using mem_range.1 hj)]
  simp

/-- `decode` on slot-form rows that hold a small integer polynomial. -/
theorem decode_slots (t : Nat) (ms : List Nat) (hne : ms ≠ []) (hco : ms.Pairwise Nat.Coprime) (h : Moduli (t + 1) ms)
    (scale : ℝ) (numSlots : Nat) (x : Nat → ℤ) (hx : ∀ p, p < 2 ^ (t + 1) → -(ms.prod : ℤ) < 2 * x p ∧ 2 * x p ≤ ms.prod)
    (pt : Plaintext) (hpm : pt.moduli = ms)
    (hpt : ∀ i, i < ms.length → Slots.ringOf (t + 1) (ms.getD i 0) (pt.data i) = Slots.polyOf (t + 1) (ms.getD i 0) x) :
    decode (some (scale, numSlots)) (2 ^ (t + 1)) pt true =
      .ok (((List.range (2 ^ t)).map (slotEval (2 ^ (t + 1)) (fun j => (x j : ℝ) / scale))).take numSlots) := by
  obtain ⟨M, m1, m2, m3⟩ := inttMat_ringOf h pt.data
  rw [← decode_rows t ms hne hco (fun m hm => (h.ntt m hm).prime.pos) scale numSlots x hx { data := M, moduli := ms } rfl]
  · unfold decode
    simp only [Bool.false_eq_true, if_false, if_true, bind, Except.bind, pure, Except.pure, hpm, m1]
  · intro i hi p hp
    have e := m3 i hi
    rw [hpt i hi] at e
    have h1 := Slots.polyOf_inj e p hp
    have h2 := m2 i hi p hp
    rw [← h1]
    exact (Int.emod_eq_of_lt (by omega) (by exact_mod_cast h2)).symm

/-- The real coefficients `encode` rounds. -/
theorem encode_coeffs (t : Nat) (slots : List ℂ) (hs : slots.length ≤ 2 ^ t) (B : ℝ) (hB : ∀ z ∈ slots, ‖z‖ ≤ B) (hB0 : 0 ≤ B) :
    ∃ c : Nat → ℝ, (∀ j, j < 2 ^ (t + 1) → |c j| ≤ B) ∧
      (∀ k, k < 2 ^ t → slotEval (2 ^ (t + 1)) c k = slots.getD k 0) ∧
      ∀ (rnd : ℝ → ℤ) (scale : ℝ), encodeCoeffs rnd (2 ^ (t + 1)) scale slots =
        (List.range (2 ^ (t + 1))).map (fun j => rnd (c j * scale)) := by
  have hn : 2 ^ (t + 1) / 2 = 2 ^ t := by rw [pow_succ]; omega
  have hm : 2 ^ (t + 1) * 2 = 4 * 2 ^ t := by ring
  have h2 : (2 : Nat) ^ (t + 1) = 2 ^ t + 2 ^ t := by ring
  obtain ⟨y, hy⟩ : ∃ y, y = (if slots.length < 2 ^ t then slots ++ List.replicate (2 ^ t - slots.length) 0 else slots) := ⟨_, rfl⟩
  have hyl : y.length = 2 ^ t := by
    rw [hy]; split
    · simp; omega
    · omega
  have hyg : ∀ k, y.getD k 0 = slots.getD k 0 := by
    intro k
    rw [hy]; split
    · rcases Nat.lt_or_ge k slots.length with hk | hk
      · rw [List.getD_append _ _ _ _ hk]
      · rw [List.getD_append_right _ _ _ _ hk, List.getD_eq_default _ _ hk, List.getD_eq_getElem?_getD, List.getElem?_replicate]
        split <;> rfl
    · rfl
  have hyB : ∀ p, p < 2 ^ t → ‖y.getD p 0‖ ≤ B := by
    intro p _
    rw [hyg]
    rcases Nat.lt_or_ge p slots.length with hk | hk
    · rw [List.getD_eq_getElem _ _ hk]; exact hB _ (List.getElem_mem hk)
    · rw [List.getD_eq_default _ _ hk, norm_zero]; exact hB0
  obtain ⟨w, hw⟩ : ∃ w, w = fftSpecialInv (unitRoot (4 * 2 ^ t)) y (4 * 2 ^ t) := ⟨_, rfl⟩
  have hwl : w.length = 2 ^ t := by rw [hw]; exact fftSpecialInv_length _ t y hyl
  have hwB : ∀ p, p < 2 ^ t → ‖w.getD p 0‖ ≤ B := by
    intro p hp
    rw [hw]
    exact fftSpecialInv_norm t y hyl B hyB p hp
  have hfw : fftSpecial (unitRoot (4 * 2 ^ t)) w (4 * 2 ^ t) = y := by
    rw [hw]; exact fft_inv two_ne_zero (unitRoot_half t) y hyl
  refine ⟨fun j => if j < 2 ^ t then (w.getD j 0).re else (w.getD (j - 2 ^ t) 0).im, ?_, ?_, ?_⟩
  · intro j hj
    beta_reduce
    split
    · exact (Complex.abs_re_le_norm _).trans (hwB j (by assumption))
    · exact (Complex.abs_im_le_norm _).trans (hwB _ (by omega))
  · intro k hk
    rw [← hyg, ← hfw, fftSpecial_getD (unitRoot_half t) w hwl k hk, slotEval_fold]
    apply sum_congr rfl
    intro j hj
    have hj' := mem_range.1 hj
    rw [if_pos hj', if_neg (by omega), pow_mul, Nat.add_sub_cancel_left, mul_comm Complex.I, Complex.re_add_im]
  · intro rnd scale
    unfold encodeCoeffs
    simp only
    rw [hn, hm, ← hy, ← hw]
    apply List.ext_getElem
    · simp [hwl]; omega
    · intro i a b
      simp only [List.length_map, List.length_append, hwl, ← h2] at a
      simp only [List.getElem_map, List.getElem_range]
      congr 2
      by_cases hi : i < 2 ^ t
      · rw [if_pos hi, List.getElem_append_left (by simpa [hwl] using hi), List.getElem_map, List.getD_eq_getElem _ _ (by omega)]
      · rw [if_neg hi, List.getElem_append_right (by simp [hwl]; omega), List.getElem_map, List.getD_eq_getElem _ _ (by omega)]
        simp [hwl]

/-- What `encode` produces. -/
theorem encode_spec (t : Nat) (ms : List Nat) (h : Moduli (t + 1) ms) (rnd : ℝ → ℤ) (hr : ∀ x, |(rnd x : ℝ) - x| ≤ 1 / 2)
    (scale : ℝ) (hsc : 0 < scale) (slots : List ℂ) (hs : slots.length ≤ 2 ^ t) (B : ℝ) (hB0 : 0 ≤ B) (hB : ∀ z ∈ slots, ‖z‖ ≤ B) :
    ∃ (pt : Plaintext) (x : Nat → ℤ), encode rnd (2 ^ (t + 1)) ms scale slots = .ok pt ∧ pt.moduli = ms ∧
      Reduced (t + 1) ms pt.data ∧
      (∀ i, i < ms.length → Slots.ringOf (t + 1) (ms.getD i 0) (pt.data i) = Slots.polyOf (t + 1) (ms.getD i 0) x) ∧
      (∀ p, p < 2 ^ (t + 1) → |(x p : ℝ)| ≤ B * scale + 1 / 2) ∧
      ∀ k, k < 2 ^ t → ‖slotEval (2 ^ (t + 1)) (fun j => (x j : ℝ) / scale) k - slots.getD k 0‖ ≤ 2 ^ (t + 1) * (1 / 2 / scale) := by
  obtain ⟨c, c1, c2, c3⟩ := encode_coeffs t slots hs B hB hB0
  obtain ⟨l, hl⟩ : ∃ l, l = encodeCoeffs rnd (2 ^ (t + 1)) scale slots := ⟨_, rfl⟩
  have hll : l.length = 2 ^ (t + 1) := by rw [hl, c3]; simp
  have hlg : ∀ p, p < 2 ^ (t + 1) → l.getD p 0 = rnd (c p * scale) := by
    intro p hp
    rw [hl, c3, List.getD_eq_getElem _ _ (by simpa using hp)]
    simp
  obtain ⟨M, m1, m2, m3⟩ := nttMat_ringOf h (residues ms (fun p => l.getD p 0))
  refine ⟨{ data := M, moduli := ms }, fun p => l.getD p 0, ?_, rfl, m2, ?_, ?_, ?_⟩
  · unfold encode
    simp only [bind, Except.bind, pure, Except.pure]
    rw [← hl, hll, m1]
  · intro i hi
    rw [m3 i hi, polyOf_residues h _ hi]
  · intro p hp
    beta_reduce
    rw [hlg p hp]
    have h1 := hr (c p * scale)
    have h2 : |c p * scale| ≤ B * scale := by
      rw [abs_mul, abs_of_pos hsc]
      exact mul_le_mul_of_nonneg_right (c1 p hp) hsc.le
    calc |(rnd (c p * scale) : ℝ)| = |c p * scale + ((rnd (c p * scale) : ℝ) - c p * scale)| := by ring_nf
      _ ≤ _ := (abs_add_le _ _).trans (add_le_add h2 h1)
  · intro k hk
    rw [← c2 k hk, ← slotEval_sub]
    refine (slotEval_norm _ _ (1 / 2 / scale) ?_ k).trans (by push_cast; exact le_rfl)
    intro j hj
    beta_reduce
    rw [hlg j hj]
    have h1 := hr (c j * scale)
    have : (rnd (c j * scale) : ℝ) / scale - c j = ((rnd (c j * scale) : ℝ) - c j * scale) / scale := by
      field_simp
    rw [this, abs_div, abs_of_pos hsc]
    exact div_le_div_of_nonneg_right h1 hsc.le

end Verif.Encode

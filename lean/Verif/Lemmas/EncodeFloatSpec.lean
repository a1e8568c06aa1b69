import Verif.Lemmas.EncodeFloat

/-! # Error bounds of `encode` and `decode` in floating-point arithmetic -/

namespace Verif.EncodeFloat
open Verif.BitReversal Verif.CkksKeys Verif.Encode Finset

variable {A : Arith} {u w ρ η : ℝ} {big : Nat}

/-- The coefficients `encode` computes, and those it should compute. -/
theorem encodeF_coeffs (hA : Accurate A u w ρ η big) (t : Nat) (ht : t ≤ 1000) (slots : List ℂ) (hs : slots.length ≤ 2 ^ t) (B : ℝ)
    (hB : ∀ z ∈ slots, ‖z‖ ≤ B) (hB0 : 0 ≤ B) :
    ∃ c d : Nat → ℝ, (∀ j, j < 2 ^ (t + 1) → |d j - c j| ≤ coeffSize u w ρ η B t - B ∧ |d j| ≤ coeffSize u w ρ η B t) ∧
      (∀ k, k < 2 ^ t → slotEval (2 ^ (t + 1)) c k = slots.getD k 0) ∧
      ∀ (scale : ℝ), encodeCoeffsF A (2 ^ (t + 1)) scale slots =
        (List.range (2 ^ (t + 1))).map (fun j => A.rint (A.rmul (d j) scale)) := by
  have hn : 2 ^ (t + 1) / 2 = 2 ^ t := by rw [pow_succ]; omega
  have hm : 2 ^ (t + 1) * 2 = 4 * 2 ^ t := by ring
  have h2 : (2 : Nat) ^ (t + 1) = 2 ^ t + 2 ^ t := by ring
  obtain ⟨y, hy⟩ : ∃ y, y = (if slots.length < 2 ^ t then slots ++ List.replicate (2 ^ t - slots.length) 0 else slots) := ⟨_, rfl⟩
  have hyl : y.length = 2 ^ t := by
    rw [hy]; split
    · simp; omega
    · omega
  have hyg : ∀ k, y.getD k 0 = slots.getD k 0 := by
    intro k
    rw [hy]; split
    · rcases Nat.lt_or_ge k slots.length with hk | hk
      · rw [List.getD_append _ _ _ _ hk]
      · rw [List.getD_append_right _ _ _ _ hk, List.getD_eq_default _ _ hk, List.getD_eq_getElem?_getD, List.getElem?_replicate]
        split <;> rfl
    · rfl
  have hyB : ∀ p, p < 2 ^ t → ‖y.getD p 0‖ ≤ B := by
    intro p _
    rw [hyg]
    rcases Nat.lt_or_ge p slots.length with hk | hk
    · rw [List.getD_eq_getElem _ _ hk]; exact hB _ (List.getElem_mem hk)
    · rw [List.getD_eq_default _ _ hk, norm_zero]; exact hB0
  have near := fftSpecialInv_near hA ht hyl hB0 hyB
  obtain ⟨v, hv⟩ : ∃ v, v = fftSpecialInv (unitRoot (4 * 2 ^ t)) y (4 * 2 ^ t) := ⟨_, rfl⟩
  obtain ⟨v', hv'⟩ : ∃ v', v' = fftSpecialInvF A y (4 * 2 ^ t) := ⟨_, rfl⟩
  rw [← hv, ← hv'] at near
  have hvl : v.length = 2 ^ t := by rw [hv]; exact fftSpecialInv_length _ t y hyl
  have hvl' : v'.length = 2 ^ t := near.1.trans hvl
  have hfw : fftSpecial (unitRoot (4 * 2 ^ t)) v (4 * 2 ^ t) = y := by
    rw [hv]; exact fft_inv two_ne_zero (unitRoot_half t) y hyl
  refine ⟨fun j => if j < 2 ^ t then (v.getD j 0).re else (v.getD (j - 2 ^ t) 0).im,
    fun j => if j < 2 ^ t then (v'.getD j 0).re else (v'.getD (j - 2 ^ t) 0).im, ?_, ?_, ?_⟩
  · intro j hj
    beta_reduce
    split
    · rw [← Complex.sub_re]
      exact ⟨(Complex.abs_re_le_norm _).trans (near.2 j).1, (Complex.abs_re_le_norm _).trans (near.2 j).2⟩
    · rw [← Complex.sub_im]
      exact ⟨(Complex.abs_im_le_norm _).trans (near.2 _).1, (Complex.abs_im_le_norm _).trans (near.2 _).2⟩
  · intro k hk
    rw [← hyg, ← hfw, fftSpecial_getD (unitRoot_half t) v hvl k hk, slotEval_fold]
    apply sum_congr rfl
    intro j hj
    have hj' := mem_range.1 hj
    rw [if_pos hj', if_neg (by omega), pow_mul, Nat.add_sub_cancel_left, mul_comm Complex.I, Complex.re_add_im]
  · intro scale
    unfold encodeCoeffsF
    simp only
    rw [hn, hm, ← hy, ← hv']
    apply List.ext_getElem
    · simp [hvl']; omega
    · intro i a b
      simp only [List.length_map, List.length_append, hvl', ← h2] at a
      simp only [List.getElem_map, List.getElem_range]
      congr 2
      by_cases hi : i < 2 ^ t
      · rw [if_pos hi, List.getElem_append_left (by simpa [hvl'] using hi), List.getElem_map, List.getD_eq_getElem _ _ (by omega)]
      · rw [if_neg hi, List.getElem_append_right (by simp [hvl']; omega), List.getElem_map, List.getD_eq_getElem _ _ (by omega)]
        simp [hvl']

/-- What `encode` produces in floating-point arithmetic. -/
theorem encodeF_spec (hA : Accurate A u w ρ η big) (t : Nat) (ht : t ≤ 1000) (ms : List Nat) (h : Moduli (t + 1) ms)
    (scale : ℝ) (hsc : 0 < scale) (slots : List ℂ) (hs : slots.length ≤ 2 ^ t) (B : ℝ) (hB0 : 0 ≤ B) (hB : ∀ z ∈ slots, ‖z‖ ≤ B) :
    ∃ (pt : Plaintext) (x : Nat → ℤ), encodeF A (2 ^ (t + 1)) ms scale slots = .ok pt ∧ pt.moduli = ms ∧
      Reduced (t + 1) ms pt.data ∧
      (∀ i, i < ms.length → Slots.ringOf (t + 1) (ms.getD i 0) (pt.data i) = Slots.polyOf (t + 1) (ms.getD i 0) x) ∧
      (∀ p, p < 2 ^ (t + 1) → |(x p : ℝ)| ≤ intSize u w ρ η B scale t) ∧
      ∀ k, k < 2 ^ t → ‖slotEval (2 ^ (t + 1)) (fun j => (x j : ℝ) / scale) k - slots.getD k 0‖ ≤
        2 ^ (t + 1) * intErr u w ρ η B scale t := by
  obtain ⟨c, d, c1, c2, c3⟩ := encodeF_coeffs hA t ht slots hs B hB hB0
  obtain ⟨l, hl⟩ : ∃ l, l = encodeCoeffsF A (2 ^ (t + 1)) scale slots := ⟨_, rfl⟩
  have hll : l.length = 2 ^ (t + 1) := by rw [hl, c3]; simp
  have hlg : ∀ p, p < 2 ^ (t + 1) → l.getD p 0 = A.rint (A.rmul (d p) scale) := by
    intro p hp
    rw [hl, c3, List.getD_eq_getElem _ _ (by simpa using hp)]
    simp
  have key : ∀ p, p < 2 ^ (t + 1) → |(l.getD p 0 : ℝ) - d p * scale| ≤ u * coeffSize u w ρ η B t * scale + η + 1 / 2 := by
    intro p hp
    rw [hlg p hp]
    have h1 := hA.rint (A.rmul (d p) scale)
    have h2 := hA.rmul (d p) scale
    have h3 : |d p * scale| ≤ coeffSize u w ρ η B t * scale := by
      rw [abs_mul, abs_of_pos hsc]; exact mul_le_mul_of_nonneg_right (c1 p hp).2 hsc.le
    have h4 := mul_le_mul_of_nonneg_left h3 hA.u0
    calc _ ≤ _ := abs_sub_le _ (A.rmul (d p) scale) _
      _ ≤ _ := by linarith
  obtain ⟨M, m1, m2, m3⟩ := nttMat_ringOf h (residues ms (fun p => l.getD p 0))
  refine ⟨{ data := M, moduli := ms }, fun p => l.getD p 0, ?_, rfl, m2, ?_, ?_, ?_⟩
  · unfold encodeF
    simp only [bind, Except.bind, pure, Except.pure]
    rw [← hl, hll, m1]
  · intro i hi
    rw [m3 i hi, polyOf_residues h _ hi]
  · intro p hp
    beta_reduce
    have h1 := key p hp
    have h3 : |d p * scale| ≤ coeffSize u w ρ η B t * scale := by
      rw [abs_mul, abs_of_pos hsc]; exact mul_le_mul_of_nonneg_right (c1 p hp).2 hsc.le
    unfold intSize
    calc |(l.getD p 0 : ℝ)| = |d p * scale + ((l.getD p 0 : ℝ) - d p * scale)| := by ring_nf
      _ ≤ _ := (abs_add_le _ _).trans (by linarith)
  · intro k hk
    rw [← c2 k hk, ← slotEval_sub]
    refine (slotEval_norm _ _ (intErr u w ρ η B scale t) ?_ k).trans (by push_cast; exact le_rfl)
    intro j hj
    beta_reduce
    have h1 := key j hj
    have h2 := (c1 j hj).1
    have e1 : (l.getD j 0 : ℝ) / scale - c j = ((l.getD j 0 : ℝ) - d j * scale) / scale + (d j - c j) := by
      field_simp; ring
    have h3 : |((l.getD j 0 : ℝ) - d j * scale) / scale| ≤ u * coeffSize u w ρ η B t + (1 / 2 + η) / scale := by
      rw [abs_div, abs_of_pos hsc, div_le_iff₀ hsc]
      have : (u * coeffSize u w ρ η B t + (1 / 2 + η) / scale) * scale = u * coeffSize u w ρ η B t * scale + η + 1 / 2 := by
        field_simp; ring
      rw [this]; exact h1
    rw [e1]
    unfold intErr
    exact (abs_add_le _ _).trans (by linarith)

theorem mapM_ok {α β : Type} (f : α → Except String β) (g : α → β) (l : List α) (h : ∀ a ∈ l, f a = .ok (g a)) :
    l.mapM f = .ok (l.map g) := by
  induction l with
  | nil => rfl
  | cons a l ih =>
    rw [List.mapM_cons, h a (by simp), ih (fun b hb => h b (by simp [hb]))]
    rfl

theorem divScale_ok (hA : Accurate A u w ρ η big) {scale : ℝ} (hsc : 0 < scale) {c : ℤ} (hc : |c| < 2 ^ big) {X : ℝ} (hX : |(c : ℝ)| ≤ X) :
    ∃ r, divScale A scale c = .ok r ∧ |r - c / scale| ≤ ((1 + u) * (1 + u) - 1) * (X / scale) + η ∧
      |r| ≤ (1 + u) * (1 + u) * (X / scale) + η := by
  obtain ⟨a, a1, a2⟩ := hA.ofInt c hc
  have hu := hA.u0
  refine ⟨A.div a scale, ?_, ?_⟩
  · unfold divScale
    rw [a1]
    simp only [bind, Except.bind, pure, Except.pure]
    rw [if_neg hsc.ne']
  · have h1 := hA.div a scale hsc.ne'
    have hX0 : 0 ≤ X := (abs_nonneg _).trans hX
    have h2 : |a| ≤ (1 + u) * X := by
      calc |a| = |(a - c) + c| := by ring_nf
        _ ≤ |a - c| + |(c : ℝ)| := abs_add_le _ _
        _ ≤ (1 + u) * X := by nlinarith
    have h3 : |a / scale| ≤ (1 + u) * (X / scale) := by
      rw [abs_div, abs_of_pos hsc, ← mul_div_assoc]
      exact div_le_div_of_nonneg_right h2 hsc.le
    have h4 : |a / scale - c / scale| ≤ u * (X / scale) := by
      rw [← sub_div, abs_div, abs_of_pos hsc, ← mul_div_assoc]
      apply div_le_div_of_nonneg_right _ hsc.le
      nlinarith
    have h5 : u * |a / scale| ≤ u * ((1 + u) * (X / scale)) := mul_le_mul_of_nonneg_left h3 hu
    constructor
    · calc _ ≤ _ := abs_sub_le _ (a / scale) _
        _ ≤ _ := by linarith
    · calc |A.div a scale| = |(A.div a scale - a / scale) + a / scale| := by ring_nf
        _ ≤ _ := (abs_add_le _ _).trans (by linarith)

/-- `decode` from the coefficients on. -/
theorem decodeCoeffsF_spec (hA : Accurate A u w ρ η big) (t : Nat) {scale : ℝ} (hsc : 0 < scale) (numSlots : Nat) (c : List ℤ)
    (hl : c.length = 2 ^ (t + 1)) {X : ℝ} (hX : ∀ a ∈ c, |(a : ℝ)| ≤ X) (hc : ∀ a ∈ c, |a| < 2 ^ big) :
    ∃ out, decodeCoeffsF A (2 ^ (t + 1)) scale numSlots c = .ok out ∧ out.length = min numSlots (2 ^ t) ∧
      ∀ k, k < min numSlots (2 ^ t) →
        ‖out.getD k 0 - slotEval (2 ^ (t + 1)) (fun j => (c.getD j 0 : ℝ) / scale) k‖ ≤ decErr u w ρ η X scale t := by
  have hn : 2 ^ (t + 1) / 2 = 2 ^ t := by rw [pow_succ]; omega
  have hm : 2 ^ (t + 1) * 2 = 4 * 2 ^ t := by ring
  have h2 : (2 : Nat) ^ (t + 1) = 2 ^ t + 2 ^ t := by ring
  have hu := hA.u0
  have hη := hA.eta0
  have hX0 : 0 ≤ X := by
    have h0 : 0 < c.length := by rw [hl]; positivity
    exact (abs_nonneg _).trans (hX _ (List.getElem_mem h0))
  have hXs : 0 ≤ X / scale := div_nonneg hX0 hsc.le
  classical
  let g : ℤ → ℝ := fun a => if h : a ∈ c then (divScale_ok hA hsc (hc a h) (hX a h)).choose else 0
  have hg : ∀ a ∈ c, divScale A scale a = .ok (g a) ∧ |g a - a / scale| ≤ ((1 + u) * (1 + u) - 1) * (X / scale) + η ∧
      |g a| ≤ (1 + u) * (1 + u) * (X / scale) + η := by
    intro a ha
    have := (divScale_ok hA hsc (hc a ha) (hX a ha)).choose_spec
    simp only [g, dif_pos ha]
    exact this
  clear_value g
  have hmap := mapM_ok (divScale A scale) g c (fun a ha => (hg a ha).1)
  obtain ⟨ys, hys⟩ : ∃ ys : List ℂ, ys = List.zipWith (fun (a b : ℝ) => (⟨a, b⟩ : ℂ)) ((c.map g).take (2 ^ t)) ((c.map g).drop (2 ^ t)) :=
    ⟨_, rfl⟩
  obtain ⟨xs, hxs⟩ : ∃ xs : List ℂ, xs = List.zipWith (fun (a b : ℝ) => (⟨a, b⟩ : ℂ))
    ((c.map (fun a : ℤ => (a : ℝ) / scale)).take (2 ^ t)) ((c.map (fun a : ℤ => (a : ℝ) / scale)).drop (2 ^ t)) := ⟨_, rfl⟩
  have hyl : ys.length = 2 ^ t := by rw [hys]; simp [hl]; omega
  have hxl : xs.length = 2 ^ t := by rw [hxs]; simp [hl]; omega
  have hyg : ∀ j (hj : j < 2 ^ t), ys.getD j 0 = ⟨g (c[j]'(by omega)), g (c[2 ^ t + j]'(by omega))⟩ := by
    intro j hj
    rw [List.getD_eq_getElem _ _ (by omega)]
    subst hys
    simp
  have hxg : ∀ j (hj : j < 2 ^ t), xs.getD j 0 = ⟨(c[j]'(by omega) : ℝ) / scale, (c[2 ^ t + j]'(by omega) : ℝ) / scale⟩ := by
    intro j hj
    rw [List.getD_eq_getElem _ _ (by omega)]
    subst hxs
    simp
  have near : Near (2 * (((1 + u) * (1 + u) - 1) * (X / scale) + η)) (pairSize u η X scale) xs ys := by
    refine ⟨by rw [hyl, hxl], fun p => ?_⟩
    by_cases hp : p < 2 ^ t
    · rw [hyg p hp, hxg p hp]
      obtain ⟨-, a1, a2⟩ := hg _ (List.getElem_mem (show p < c.length by omega))
      obtain ⟨-, b1, b2⟩ := hg _ (List.getElem_mem (show 2 ^ t + p < c.length by omega))
      constructor
      · refine (Complex.norm_le_abs_re_add_abs_im _).trans ?_
        simp only [Complex.sub_re, Complex.sub_im]
        linarith
      · refine (Complex.norm_le_abs_re_add_abs_im _).trans ?_
        unfold pairSize
        simp only
        linarith
    · rw [List.getD_eq_default _ _ (by omega), List.getD_eq_default _ _ (by omega)]
      have e1 : 0 ≤ ((1 + u) * (1 + u) - 1) * (X / scale) := mul_nonneg (by nlinarith) hXs
      have e2 : 0 ≤ (1 + u) * (1 + u) * (X / scale) := by positivity
      unfold pairSize
      simp
      constructor <;> linarith
  have fin := fftSpecial_near hA hxl near
  have hE : errAfter u w ρ η (2 * (((1 + u) * (1 + u) - 1) * (X / scale) + η)) (pairSize u η X scale) t = decErr u w ρ η X scale t := by
    unfold errAfter decErr pairSize
    ring
  rw [hE] at fin
  have hzl : (fftSpecialF A ys (4 * 2 ^ t)).length = 2 ^ t := fin.1.trans (fftSpecial_length _ t xs hxl)
  refine ⟨(fftSpecialF A ys (4 * 2 ^ t)).take numSlots, ?_, ?_, ?_⟩
  · unfold decodeCoeffsF
    rw [hmap]
    simp only [bind, Except.bind, pure, Except.pure]
    rw [hn, hm, ← hys]
  · rw [List.length_take, hzl]
  · intro k hk
    have hk2 : k < 2 ^ t := lt_of_lt_of_le hk (min_le_right _ _)
    have hk1 : k < numSlots := lt_of_lt_of_le hk (min_le_left _ _)
    have h1 := (fin.2 k).1
    rw [fftSpecial_getD (unitRoot_half t) xs hxl k hk2] at h1
    have e1 : ((fftSpecialF A ys (4 * 2 ^ t)).take numSlots).getD k 0 = (fftSpecialF A ys (4 * 2 ^ t)).getD k 0 := by
      rw [List.getD_eq_getElem _ _ (by rw [List.length_take, hzl]; exact hk), List.getElem_take, List.getD_eq_getElem _ _ (by omega)]
    have e2 : slotEval (2 ^ (t + 1)) (fun j => (c.getD j 0 : ℝ) / scale) k =
        ∑ j ∈ range (2 ^ t), xs.getD j 0 * unitRoot (4 * 2 ^ t) ^ (5 ^ k * j) := by
      rw [slotEval_fold]
      apply sum_congr rfl
      intro j hj
      have hj' := mem_range.1 hj
      rw [hxg j hj', pow_mul, List.getD_eq_getElem c _ (by omega), List.getD_eq_getElem c _ (by omega)]
      congr 1
      apply Complex.ext <;> simp
    rw [e1, e2]
    exact h1

/-- `decode` on coefficient rows that are the residues of small integers. -/
theorem decodeF_rows (A : Arith) (t : Nat) (ms : List Nat) (hne : ms ≠ []) (hco : ms.Pairwise Nat.Coprime) (hpos : ∀ m ∈ ms, 0 < m)
    (scale : ℝ) (numSlots : Nat) (x : Nat → ℤ) (hx : ∀ p, p < 2 ^ (t + 1) → -(ms.prod : ℤ) < 2 * x p ∧ 2 * x p ≤ ms.prod)
    (pt : Plaintext) (hpm : pt.moduli = ms)
    (hpt : ∀ i, i < ms.length → ∀ p, p < 2 ^ (t + 1) → (pt.data i p : ℤ) = x p % (ms.getD i 0 : ℤ)) :
    decodeF A (some (scale, numSlots)) (2 ^ (t + 1)) pt false =
      decodeCoeffsF A (2 ^ (t + 1)) scale numSlots ((List.range (2 ^ (t + 1))).map x) := by
  have hrows : (List.range pt.moduli.length).map (fun i => (List.range (2 ^ (t + 1))).map (fun p => (pt.data i p : Int))) =
      ms.map (fun (m : Nat) => ((List.range (2 ^ (t + 1))).map x).map (fun x => x % (m : Int))) := by
    apply List.ext_getElem (by simp [hpm])
    intro i h1 h2
    simp only [List.length_map, List.length_range, hpm] at h1
    rw [List.getElem_map, List.getElem_map, List.getElem_range, List.map_map]
    apply List.map_congr_left
    intro p hp
    rw [hpt i h1 p (List.mem_range.1 hp), List.getD_eq_getElem _ _ h1]
    rfl
  obtain ⟨r, h1, h2⟩ := Props.C47_roundtrip ((List.range (2 ^ (t + 1))).map x) ms hne hco hpos (by
    intro y hy
    obtain ⟨p, hp, rfl⟩ := List.mem_map.1 hy
    exact hx p (List.mem_range.1 hp))
  unfold decodeF
  simp only [Bool.false_eq_true, if_false, bind, Except.bind, pure, Except.pure, hrows, h1]
  rw [hpm] at *
  simp only [h1, h2]

/-- `decode` on slot-form rows that hold a small integer polynomial. -/
theorem decodeF_slots (A : Arith) (t : Nat) (ms : List Nat) (hne : ms ≠ []) (hco : ms.Pairwise Nat.Coprime) (h : Moduli (t + 1) ms)
    (scale : ℝ) (numSlots : Nat) (x : Nat → ℤ) (hx : ∀ p, p < 2 ^ (t + 1) → -(ms.prod : ℤ) < 2 * x p ∧ 2 * x p ≤ ms.prod)
    (pt : Plaintext) (hpm : pt.moduli = ms)
    (hpt : ∀ i, i < ms.length → Slots.ringOf (t + 1) (ms.getD i 0) (pt.data i) = Slots.polyOf (t + 1) (ms.getD i 0) x) :
    decodeF A (some (scale, numSlots)) (2 ^ (t + 1)) pt true =
      decodeCoeffsF A (2 ^ (t + 1)) scale numSlots ((List.range (2 ^ (t + 1))).map x) := by
  obtain ⟨M, m1, m2, m3⟩ := inttMat_ringOf h pt.data
  rw [← decodeF_rows A t ms hne hco (fun m hm => (h.ntt m hm).prime.pos) scale numSlots x hx { data := M, moduli := ms } rfl]
  · unfold decodeF
    simp only [Bool.false_eq_true, if_false, if_true, bind, Except.bind, pure, Except.pure, hpm, m1]
  · intro i hi p hp
    have e := m3 i hi
    rw [hpt i hi] at e
    have h1 := Slots.polyOf_inj e p hp
    have h2 := m2 i hi p hp
    rw [← h1]
    exact (Int.emod_eq_of_lt (by omega) (by exact_mod_cast h2)).symm

/-- `decodeCoeffsF_spec` for a list given by a function. -/
theorem decodeCoeffsF_fun (hA : Accurate A u w ρ η big) (t : Nat) {scale : ℝ} (hsc : 0 < scale) (numSlots : Nat) (x : Nat → ℤ)
    {X : ℝ} (hX : ∀ p, p < 2 ^ (t + 1) → |(x p : ℝ)| ≤ X) (hc : X < 2 ^ big) :
    ∃ out, decodeCoeffsF A (2 ^ (t + 1)) scale numSlots ((List.range (2 ^ (t + 1))).map x) = .ok out ∧
      out.length = min numSlots (2 ^ t) ∧
      ∀ k, k < min numSlots (2 ^ t) →
        ‖out.getD k 0 - slotEval (2 ^ (t + 1)) (fun j => (x j : ℝ) / scale) k‖ ≤ decErr u w ρ η X scale t := by
  obtain ⟨out, o1, o2, o3⟩ := decodeCoeffsF_spec hA t hsc numSlots ((List.range (2 ^ (t + 1))).map x) (by simp) (X := X)
    (by
      intro a ha
      obtain ⟨p, hp, rfl⟩ := List.mem_map.1 ha
      exact hX p (List.mem_range.1 hp))
    (by
      intro a ha
      obtain ⟨p, hp, rfl⟩ := List.mem_map.1 ha
      have := (hX p (List.mem_range.1 hp)).trans_lt hc
      exact_mod_cast this)
  refine ⟨out, o1, o2, fun k hk => ?_⟩
  have e : slotEval (2 ^ (t + 1)) (fun j => (x j : ℝ) / scale) k =
      slotEval (2 ^ (t + 1)) (fun j => ((((List.range (2 ^ (t + 1))).map x).getD j 0 : ℤ) : ℝ) / scale) k := by
    unfold slotEval
    apply sum_congr rfl
    intro j hj
    beta_reduce
    rw [List.getD_eq_getElem _ _ (by simpa using mem_range.1 hj)]
    simp
  rw [e]
  exact o3 k hk

end Verif.EncodeFloat

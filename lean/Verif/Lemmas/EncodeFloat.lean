import Verif.Model.EncodeFloatSpec
import Verif.Lemmas.Encode
import Mathlib.Tactic.Linarith
import Mathlib.Tactic.Positivity
import Mathlib.Tactic.Ring

/-! # Error bounds of the transforms of `encode.py` in floating-point arithmetic -/

namespace Verif.EncodeFloat
open Verif.BitReversal Verif.CkksKeys Verif.Encode

theorem growth_ge {u w ρ : ℝ} (hu : 0 ≤ u) (hw : 0 ≤ w) (hr : 0 ≤ ρ) :
    1 + u ≤ growth u w ρ ∧ (1 + w) * (1 + ρ) ≤ growth u w ρ ∧ 1 ≤ growth u w ρ ∧ 1 + w ≤ growth u w ρ := by
  have h1 : 0 ≤ w * ρ := mul_nonneg hw hr
  have h2 : 0 ≤ u * w := mul_nonneg hu hw
  have h3 : 0 ≤ u * ρ := mul_nonneg hu hr
  have h4 : 0 ≤ u * w * ρ := mul_nonneg h2 hr
  unfold growth
  refine ⟨by nlinarith, by nlinarith, by nlinarith, by nlinarith⟩

/-- `ys` is within `e` of `xs` in every entry and bounded by `M`. -/
def Near (e M : ℝ) (xs ys : List ℂ) : Prop :=
  ys.length = xs.length ∧ ∀ p, ‖ys.getD p 0 - xs.getD p 0‖ ≤ e ∧ ‖ys.getD p 0‖ ≤ M

theorem Near.nonneg {e M : ℝ} {xs ys : List ℂ} (h : Near e M xs ys) : 0 ≤ e ∧ 0 ≤ M :=
  ⟨(norm_nonneg _).trans (h.2 0).1, (norm_nonneg _).trans (h.2 0).2⟩

theorem index_lt {m x q : Nat} (hm : 0 < m) (hq : 0 < q) : x % q * (m / q) < m := by
  have h1 : x % q < q := Nat.mod_lt _ hq
  rcases Nat.eq_zero_or_pos (m / q) with h | h
  · rw [h, Nat.mul_zero]; exact hm
  · calc x % q * (m / q) < q * (m / q) := Nat.mul_lt_mul_of_pos_right h1 h
      _ ≤ m := Nat.mul_div_le m q

variable {A : Arith} {u w ρ η : ℝ} {big : Nat}

theorem root_norm_le (hA : Accurate A u w ρ η big) {m i : Nat} (h : i < m) : ‖A.root m i‖ ≤ 1 + ρ := by
  have h1 := hA.root m i h
  have h2 : ‖unitRoot m ^ i‖ = 1 := by rw [norm_pow, unitRoot_norm, one_pow]
  calc ‖A.root m i‖ = ‖(A.root m i - unitRoot m ^ i) + unitRoot m ^ i‖ := by ring_nf
    _ ≤ _ := (norm_add_le _ _).trans (by linarith)

/-- A computed product with a computed root. -/
theorem mul_root (hA : Accurate A u w ρ η big) {x y : ℂ} {e M : ℝ} (h1 : ‖y - x‖ ≤ e) (h2 : ‖y‖ ≤ M) {m i : Nat} (hi : i < m) :
    ‖A.mul y (A.root m i) - x * unitRoot m ^ i‖ ≤ e + ((1 + w) * (1 + ρ) - 1) * M + η ∧
    ‖A.mul y (A.root m i)‖ ≤ (1 + w) * (1 + ρ) * M + η := by
  have hM : 0 ≤ M := (norm_nonneg _).trans h2
  have hn := root_norm_le hA hi
  have hm := hA.mul y (A.root m i)
  have hr := hA.root m i hi
  have hz : ‖unitRoot m ^ i‖ = 1 := by rw [norm_pow, unitRoot_norm, one_pow]
  have p1 : ‖y‖ * ‖A.root m i‖ ≤ M * (1 + ρ) := mul_le_mul h2 hn (norm_nonneg _) hM
  have p2 : w * (‖y‖ * ‖A.root m i‖) ≤ w * (M * (1 + ρ)) := mul_le_mul_of_nonneg_left p1 hA.w0
  constructor
  · have e1 : A.mul y (A.root m i) - x * unitRoot m ^ i = (A.mul y (A.root m i) - y * A.root m i) +
        (y * (A.root m i - unitRoot m ^ i) + (y - x) * unitRoot m ^ i) := by ring
    have q1 : ‖y * (A.root m i - unitRoot m ^ i)‖ ≤ M * ρ := by
      rw [norm_mul]; exact mul_le_mul h2 hr (norm_nonneg _) hM
    have q2 : ‖(y - x) * unitRoot m ^ i‖ ≤ e := by rw [norm_mul, hz, mul_one]; exact h1
    rw [e1]
    refine (norm_add_le _ _).trans ?_
    have := norm_add_le (y * (A.root m i - unitRoot m ^ i)) ((y - x) * unitRoot m ^ i)
    nlinarith
  · have e1 : A.mul y (A.root m i) = (A.mul y (A.root m i) - y * A.root m i) + y * A.root m i := by ring
    rw [e1]
    refine (norm_add_le _ _).trans ?_
    rw [norm_mul]
    nlinarith

/-- A computed sum or difference. -/
theorem sum_near {op : ℂ} {x1 x2 y1 y2 : ℂ} {e1 e2 M1 M2 u η : ℝ} (hu : 0 ≤ u)
    (h : ‖op - (y1 + y2)‖ ≤ u * ‖y1 + y2‖ + η) (a1 : ‖y1 - x1‖ ≤ e1) (a2 : ‖y2 - x2‖ ≤ e2) (b1 : ‖y1‖ ≤ M1) (b2 : ‖y2‖ ≤ M2) :
    ‖op - (x1 + x2)‖ ≤ e1 + e2 + u * (M1 + M2) + η ∧ ‖op‖ ≤ (1 + u) * (M1 + M2) + η := by
  have hs : ‖y1 + y2‖ ≤ M1 + M2 := (norm_add_le _ _).trans (by linarith)
  have hs' : u * ‖y1 + y2‖ ≤ u * (M1 + M2) := mul_le_mul_of_nonneg_left hs hu
  constructor
  · have e : op - (x1 + x2) = (op - (y1 + y2)) + ((y1 - x1) + (y2 - x2)) := by ring
    rw [e]
    refine (norm_add_le _ _).trans ?_
    have := norm_add_le (y1 - x1) (y2 - x2)
    linarith
  · have e : op = (op - (y1 + y2)) + (y1 + y2) := by ring
    rw [e]
    refine (norm_add_le _ _).trans ?_
    linarith

theorem diff_near {op : ℂ} {x1 x2 y1 y2 : ℂ} {e1 e2 M1 M2 u η : ℝ} (hu : 0 ≤ u)
    (h : ‖op - (y1 - y2)‖ ≤ u * ‖y1 - y2‖ + η) (a1 : ‖y1 - x1‖ ≤ e1) (a2 : ‖y2 - x2‖ ≤ e2) (b1 : ‖y1‖ ≤ M1) (b2 : ‖y2‖ ≤ M2) :
    ‖op - (x1 - x2)‖ ≤ e1 + e2 + u * (M1 + M2) + η ∧ ‖op‖ ≤ (1 + u) * (M1 + M2) + η := by
  have := sum_near (op := op) (x1 := x1) (x2 := -x2) (y1 := y1) (y2 := -y2) (e1 := e1) (e2 := e2) (M1 := M1) (M2 := M2) hu
    (by simpa [sub_eq_add_neg] using h) a1 (by rw [← neg_sub, norm_neg] at a2; rwa [neg_sub_neg]) b1 (by rwa [norm_neg])
  simpa [sub_eq_add_neg] using this

theorem getD_map_range {n : Nat} (f : Nat → ℂ) (p : Nat) (hp : ¬ p < n) : ((List.range n).map f).getD p 0 = 0 :=
  List.getD_eq_default _ _ (by simpa using hp)

theorem near_of {n : Nat} {f g : Nat → ℂ} {e M : ℝ} (he : 0 ≤ e) (hM : 0 ≤ M)
    (h : ∀ p, p < n → ‖g p - f p‖ ≤ e ∧ ‖g p‖ ≤ M) : Near e M ((List.range n).map f) ((List.range n).map g) := by
  refine ⟨by simp, fun p => ?_⟩
  by_cases hp : p < n
  · rw [getD_range_map _ _ _ hp, getD_range_map _ _ _ hp]; exact h p hp
  · rw [getD_map_range _ _ hp, getD_map_range _ _ hp]; simp [he, hM]

/-- One layer of the inverse transform. -/
theorem invLayer_near (hA : Accurate A u w ρ η big) {e M : ℝ} {xs ys : List ℂ} (h : Near e M xs ys) {m : Nat} (hm : 0 < m)
    (rg : List Nat) {length : Nat} (hl : 0 < length) :
    Near (2 * e + (2 * growth u w ρ - 2) * M + tiny u w ρ η) (2 * growth u w ρ * M + tiny u w ρ η)
      (invLayer (unitRoot m) m rg length xs) (invLayerF A m rg length ys) := by
  obtain ⟨he, hM⟩ := h.nonneg
  obtain ⟨hlen, hp⟩ := h
  obtain ⟨g1, g2, g3, g4⟩ := growth_ge hA.u0 hA.w0 hA.rho0
  have hq : 0 < length <<< 2 := by rw [Nat.shiftLeft_eq]; omega
  unfold invLayer invLayerF
  dsimp only
  rw [hlen]
  have ht : 0 ≤ tiny u w ρ η := mul_nonneg (by linarith) hA.eta0
  have hη := hA.eta0
  have hu := hA.u0
  refine near_of ?_ ?_ ?_
  · have : 0 ≤ (2 * growth u w ρ - 2) * M := mul_nonneg (by linarith) hM
    linarith
  · have : 0 ≤ growth u w ρ * M := mul_nonneg (by linarith) hM
    nlinarith
  · intro p _
    split
    · obtain ⟨a1, a2⟩ := sum_near hA.u0 (hA.add _ _) (hp p).1 (hp (p + length >>> 1)).1 (hp p).2 (hp (p + length >>> 1)).2
      have k1 : u * M ≤ (growth u w ρ - 1) * M := mul_le_mul_of_nonneg_right (by linarith) hM
      have k2 : η ≤ tiny u w ρ η := by unfold tiny; nlinarith
      constructor
      · refine a1.trans ?_; nlinarith
      · refine a2.trans ?_; nlinarith
    · obtain ⟨a1, a2⟩ := diff_near hA.u0 (hA.sub _ _) (hp (p - length >>> 1)).1 (hp p).1 (hp (p - length >>> 1)).2 (hp p).2
      obtain ⟨b1, b2⟩ := mul_root hA a1 a2 (index_lt (x := length <<< 2 - rg.getD (p % length - length >>> 1) 0 % length <<< 2) hm hq)
      have e1 : (1 + w) * (1 + ρ) * ((1 + u) * (M + M) + η) + η = 2 * growth u w ρ * M + ((1 + w) * (1 + ρ) + 1) * η := by
        unfold growth; ring
      have k : ((1 + w) * (1 + ρ) + 1) * η ≤ tiny u w ρ η := mul_le_mul_of_nonneg_right (by linarith) hη
      constructor
      · refine b1.trans ?_
        linarith
      · refine b2.trans ?_
        linarith

/-- One layer of the forward transform. -/
theorem fwdLayer_near (hA : Accurate A u w ρ η big) {e M : ℝ} {xs ys : List ℂ} (h : Near e M xs ys) {m : Nat} (hm : 0 < m)
    (rg : List Nat) {length : Nat} (hl : 0 < length) :
    Near (2 * e + (2 * growth u w ρ - 2) * M + tiny u w ρ η) (2 * growth u w ρ * M + tiny u w ρ η)
      (fwdLayer (unitRoot m) m rg length xs) (fwdLayerF A m rg length ys) := by
  obtain ⟨he, hM⟩ := h.nonneg
  obtain ⟨hlen, hp⟩ := h
  obtain ⟨g1, g2, g3, g4⟩ := growth_ge hA.u0 hA.w0 hA.rho0
  have hq : 0 < length <<< 2 := by rw [Nat.shiftLeft_eq]; omega
  have hη := hA.eta0
  have hu := hA.u0
  have ht : 0 ≤ tiny u w ρ η := mul_nonneg (by linarith) hA.eta0
  have e1 : (1 + u) * (M + ((1 + w) * (1 + ρ) * M + η)) + η = (1 + u + growth u w ρ) * M + (2 + u) * η := by
    unfold growth; ring
  have k : (2 + u) * η ≤ tiny u w ρ η := mul_le_mul_of_nonneg_right (by linarith) hη
  have k' : (1 + u + growth u w ρ) * M ≤ 2 * growth u w ρ * M := mul_le_mul_of_nonneg_right (by linarith) hM
  unfold fwdLayer fwdLayerF
  dsimp only
  rw [hlen]
  refine near_of ?_ ?_ ?_
  · have : 0 ≤ (2 * growth u w ρ - 2) * M := mul_nonneg (by linarith) hM
    linarith
  · have : 0 ≤ growth u w ρ * M := mul_nonneg (by linarith) hM
    nlinarith
  · intro p _
    split
    · obtain ⟨a1, a2⟩ := mul_root hA (hp (p + length >>> 1)).1 (hp (p + length >>> 1)).2
        (index_lt (x := rg.getD (p % length) 0) hm hq)
      obtain ⟨b1, b2⟩ := sum_near hA.u0 (hA.add _ _) (hp p).1 a1 (hp p).2 a2
      exact ⟨b1.trans (by linarith), b2.trans (by linarith)⟩
    · obtain ⟨a1, a2⟩ := mul_root hA (hp p).1 (hp p).2
        (index_lt (x := rg.getD (p % length - length >>> 1) 0) hm hq)
      obtain ⟨b1, b2⟩ := diff_near hA.u0 (hA.sub _ _) (hp (p - length >>> 1)).1 a1 (hp (p - length >>> 1)).2 a2
      exact ⟨b1.trans (by linarith), b2.trans (by linarith)⟩

theorem step_after (hA : Accurate A u w ρ η big) (e : ℝ) {M : ℝ} (s : Nat) :
    sizeAfter u w ρ η (2 * growth u w ρ * M + tiny u w ρ η) s ≤ sizeAfter u w ρ η M (s + 1) ∧
    errAfter u w ρ η (2 * e + (2 * growth u w ρ - 2) * M + tiny u w ρ η) (2 * growth u w ρ * M + tiny u w ρ η) s ≤
      errAfter u w ρ η e M (s + 1) := by
  obtain ⟨-, -, g3, -⟩ := growth_ge hA.u0 hA.w0 hA.rho0
  have ht : 0 ≤ tiny u w ρ η := mul_nonneg (by linarith) hA.eta0
  have key : sizeAfter u w ρ η (2 * growth u w ρ * M + tiny u w ρ η) s ≤ sizeAfter u w ρ η M (s + 1) := by
    unfold sizeAfter
    have hp : 0 ≤ (2 * growth u w ρ) ^ s := pow_nonneg (by linarith) _
    rw [pow_succ, mul_assoc ((2 * growth u w ρ) ^ s)]
    apply mul_le_mul_of_nonneg_left _ hp
    push_cast
    have : (s + 1) * tiny u w ρ η ≤ 2 * growth u w ρ * ((s + 1) * tiny u w ρ η) := by
      have : 0 ≤ (s + 1 : ℝ) * tiny u w ρ η := by positivity
      nlinarith
    linarith
  refine ⟨key, ?_⟩
  unfold errAfter
  rw [pow_succ]
  linarith

theorem Near.mono {e M e' M' : ℝ} {xs ys : List ℂ} (h : Near e M xs ys) (he : e ≤ e') (hM : M ≤ M') : Near e' M' xs ys :=
  ⟨h.1, fun p => ⟨(h.2 p).1.trans he, (h.2 p).2.trans hM⟩⟩

theorem invLoop_near (hA : Accurate A u w ρ η big) {m : Nat} (hm : 0 < m) (rg : List Nat) (s fuel : Nat) (hf : s ≤ fuel)
    {e M : ℝ} {xs ys : List ℂ} (h : Near e M xs ys) :
    Near (errAfter u w ρ η e M s) (sizeAfter u w ρ η M s) (invLoop (unitRoot m) m rg fuel (2 ^ s) xs) (invLoopF A m rg fuel (2 ^ s) ys) := by
  induction s generalizing e M xs ys fuel with
  | zero =>
    have : Near (errAfter u w ρ η e M 0) (sizeAfter u w ρ η M 0) xs ys := by
      simpa [errAfter, sizeAfter] using h
    cases fuel with
    | zero => simpa [invLoop, invLoopF] using this
    | succ f => simpa [invLoop, invLoopF] using this
  | succ s ih =>
    obtain ⟨f, rfl⟩ : ∃ f, fuel = f + 1 := ⟨fuel - 1, by omega⟩
    have h2 : 2 ≤ 2 ^ (s + 1) := by rw [pow_succ]; have := Nat.two_pow_pos s; omega
    have hs : 2 ^ (s + 1) >>> 1 = 2 ^ s := by rw [Nat.shiftRight_eq_div_pow, pow_succ]; simp
    rw [invLoop, invLoopF, if_pos h2, if_pos h2, hs]
    have h1 := ih f (by omega) (invLayer_near hA h hm rg (length := 2 ^ (s + 1)) (by omega))
    obtain ⟨k1, k2⟩ := step_after hA e (M := M) s
    exact h1.mono k2 k1

theorem fwdLoop_near (hA : Accurate A u w ρ η big) {m : Nat} (hm : 0 < m) (rg : List Nat) (t s fuel : Nat) (hs : s ≤ t) (hf : s ≤ fuel)
    {e M : ℝ} {xs ys : List ℂ} (h : Near e M xs ys) :
    Near (errAfter u w ρ η e M s) (sizeAfter u w ρ η M s) (fwdLoop (unitRoot m) m rg (2 ^ t) fuel (2 ^ (t - s + 1)) xs)
      (fwdLoopF A m rg (2 ^ t) fuel (2 ^ (t - s + 1)) ys) := by
  induction s generalizing e M xs ys fuel with
  | zero =>
    have : Near (errAfter u w ρ η e M 0) (sizeAfter u w ρ η M 0) xs ys := by
      simpa [errAfter, sizeAfter] using h
    have hn : ¬ 2 ^ (t - 0 + 1) ≤ 2 ^ t := by
      rw [Nat.sub_zero, pow_succ]; have := Nat.two_pow_pos t; omega
    cases fuel with
    | zero => simpa [fwdLoop, fwdLoopF] using this
    | succ f => rw [fwdLoop, fwdLoopF, if_neg hn, if_neg hn]; exact this
  | succ s ih =>
    obtain ⟨f, rfl⟩ : ∃ f, fuel = f + 1 := ⟨fuel - 1, by omega⟩
    have hle : 2 ^ (t - (s + 1) + 1) ≤ 2 ^ t := Nat.pow_le_pow_right (by norm_num) (by omega)
    have hsh : 2 ^ (t - (s + 1) + 1) <<< 1 = 2 ^ (t - s + 1) := by
      rw [Nat.shiftLeft_eq, ← pow_add]; congr 1; omega
    rw [fwdLoop, fwdLoopF, if_pos hle, if_pos hle, hsh]
    have h1 := ih f (by omega) (by omega) (fwdLayer_near hA h hm rg (length := 2 ^ (t - (s + 1) + 1)) (Nat.two_pow_pos _))
    obtain ⟨k1, k2⟩ := step_after hA e (M := M) s
    exact h1.mono k2 k1

theorem bitRev_near {t : Nat} {e M : ℝ} {xs ys : List ℂ} (hl : xs.length = 2 ^ t) (h : Near e M xs ys) :
    Near e M (bitReversalArray xs) (bitReversalArray ys) := by
  obtain ⟨he, hM⟩ := h.nonneg
  obtain ⟨a1, a2, -⟩ := Props.C30_array t xs hl
  obtain ⟨b1, b2, -⟩ := Props.C30_array t ys (h.1.trans hl)
  refine ⟨by rw [a1, b1, h.1], fun p => ?_⟩
  by_cases hp : p < 2 ^ t
  · rw [List.getD_eq_getElem?_getD, List.getD_eq_getElem?_getD, a2 p hp, b2 p hp, ← List.getD_eq_getElem?_getD,
      ← List.getD_eq_getElem?_getD]
    exact h.2 _
  · rw [List.getD_eq_default (bitReversalArray xs) _ (by rw [a1, hl]; omega),
      List.getD_eq_default (bitReversalArray ys) _ (by rw [b1, h.1, hl]; omega)]
    simp [he, hM]

theorem le_two_pow (t : Nat) : t ≤ 2 ^ t := Nat.lt_two_pow_self.le

/-- `fft_special` on perturbed input. -/
theorem fftSpecial_near (hA : Accurate A u w ρ η big) {t : Nat} {e M : ℝ} {xs ys : List ℂ} (hl : xs.length = 2 ^ t)
    (h : Near e M xs ys) :
    Near (errAfter u w ρ η e M t) (sizeAfter u w ρ η M t) (fftSpecial (unitRoot (4 * 2 ^ t)) xs (4 * 2 ^ t))
      (fftSpecialF A ys (4 * 2 ^ t)) := by
  unfold fftSpecial fftSpecialF
  dsimp only
  rw [h.1, hl]
  have := fwdLoop_near hA (m := 4 * 2 ^ t) (by positivity) (rotGroup (4 * 2 ^ t) (2 ^ t) 5) t t (2 ^ t) le_rfl (le_two_pow t)
    (bitRev_near hl h)
  rwa [Nat.sub_self, zero_add, pow_one] at this

theorem mul_recip (hA : Accurate A u w ρ η big) {x y : ℂ} {e M : ℝ} (h1 : ‖y - x‖ ≤ e) (h2 : ‖y‖ ≤ M) {t : Nat} (ht : t ≤ 1000) :
    ‖A.mul y (A.div 1 ((2 ^ t : Nat) : ℝ) : ℝ) - x * (1 / ((2 ^ t : Nat) : ℂ))‖ ≤ (e + (growth u w ρ - 1) * M) / 2 ^ t + η ∧
    ‖A.mul y (A.div 1 ((2 ^ t : Nat) : ℝ) : ℝ)‖ ≤ growth u w ρ * M / 2 ^ t + η := by
  have hM : 0 ≤ M := (norm_nonneg _).trans h2
  obtain ⟨-, -, -, g4⟩ := growth_ge hA.u0 hA.w0 hA.rho0
  have hw := hA.w0
  rw [hA.recip t ht]
  have hc : ((1 / 2 ^ t : ℝ) : ℂ) = 1 / ((2 ^ t : Nat) : ℂ) := by push_cast; ring
  obtain ⟨r, hr⟩ : ∃ r : ℝ, r = 1 / 2 ^ t := ⟨_, rfl⟩
  have hr0 : 0 < r := by rw [hr]; positivity
  have hn : ‖((r : ℝ) : ℂ)‖ = r := by rw [Complex.norm_real, Real.norm_eq_abs, abs_of_pos hr0]
  rw [← hc, ← hr, div_eq_mul_one_div, ← hr, div_eq_mul_one_div, ← hr]
  have hm := hA.mul y (r : ℂ)
  rw [hn] at hm
  have p1 : ‖y‖ * r ≤ M * r := mul_le_mul_of_nonneg_right h2 hr0.le
  have p2 : w * (‖y‖ * r) ≤ w * (M * r) := mul_le_mul_of_nonneg_left p1 hw
  have p3 : w * (M * r) ≤ (growth u w ρ - 1) * (M * r) := mul_le_mul_of_nonneg_right (by linarith) (by positivity)
  constructor
  · have e1 : A.mul y (r : ℂ) - x * (r : ℂ) = (A.mul y (r : ℂ) - y * (r : ℂ)) + (y - x) * (r : ℂ) := by ring
    have q2 : ‖(y - x) * (r : ℂ)‖ ≤ e * r := by rw [norm_mul, hn]; exact mul_le_mul_of_nonneg_right h1 hr0.le
    rw [e1]
    refine (norm_add_le _ _).trans ?_
    linarith
  · have e1 : A.mul y (r : ℂ) = (A.mul y (r : ℂ) - y * (r : ℂ)) + y * (r : ℂ) := by ring
    rw [e1]
    refine (norm_add_le _ _).trans ?_
    rw [norm_mul, hn]
    linarith

theorem invLoop_length (m : Nat) (rg : List Nat) (fuel len : Nat) (xs : List ℂ) :
    (invLoop (unitRoot m) m rg fuel len xs).length = xs.length := by
  induction fuel generalizing len xs with
  | zero => rfl
  | succ f ih =>
    rw [invLoop]
    split
    · rw [ih]; simp [invLayer]
    · rfl

/-- `fft_special_inv` on exact input. -/
theorem fftSpecialInv_near (hA : Accurate A u w ρ η big) {t : Nat} (ht : t ≤ 1000) {B : ℝ} {xs : List ℂ}
    (hl : xs.length = 2 ^ t) (hB : 0 ≤ B) (hx : ∀ p, p < 2 ^ t → ‖xs.getD p 0‖ ≤ B) :
    Near (coeffSize u w ρ η B t - B) (coeffSize u w ρ η B t) (fftSpecialInv (unitRoot (4 * 2 ^ t)) xs (4 * 2 ^ t))
      (fftSpecialInvF A xs (4 * 2 ^ t)) := by
  have h0 : Near 0 B xs xs := by
    refine ⟨rfl, fun p => ⟨by simp, ?_⟩⟩
    by_cases hp : p < 2 ^ t
    · exact hx p hp
    · rw [List.getD_eq_default _ _ (by omega)]; simpa using hB
  unfold fftSpecialInv fftSpecialInvF
  dsimp only
  rw [hl]
  have h1 := invLoop_near hA (m := 4 * 2 ^ t) (by positivity) (rotGroup (4 * 2 ^ t) (2 ^ t) 5) t (2 ^ t) (le_two_pow t) h0
  apply bitRev_near (t := t)
  · rw [List.length_map, invLoop_length, hl]
  · obtain ⟨k1, k2⟩ := h1.nonneg
    obtain ⟨-, -, g3, -⟩ := growth_ge hA.u0 hA.w0 hA.rho0
    have hη := hA.eta0
    have htt : 0 ≤ tiny u w ρ η := mul_nonneg (by linarith) hA.eta0
    have hp2 : (0 : ℝ) < 2 ^ t := by positivity
    have s1 : (errAfter u w ρ η 0 B t + (growth u w ρ - 1) * sizeAfter u w ρ η B t) / 2 ^ t + η = coeffSize u w ρ η B t - B := by
      unfold errAfter sizeAfter coeffSize
      rw [mul_pow, pow_succ]
      field_simp
      ring
    have s2 : growth u w ρ * sizeAfter u w ρ η B t / 2 ^ t + η = coeffSize u w ρ η B t := by
      unfold sizeAfter coeffSize
      rw [mul_pow, pow_succ]
      field_simp
    have n1 : 0 ≤ coeffSize u w ρ η B t - B := by
      rw [← s1]
      have : 0 ≤ (growth u w ρ - 1) * sizeAfter u w ρ η B t := mul_nonneg (by linarith) k2
      positivity
    have n2 : 0 ≤ coeffSize u w ρ η B t := by linarith
    refine ⟨by simp [h1.1], fun p => ?_⟩
    rcases Nat.lt_or_ge p (invLoop (unitRoot (4 * 2 ^ t)) (4 * 2 ^ t) (rotGroup (4 * 2 ^ t) (2 ^ t) 5) (2 ^ t) (2 ^ t) xs).length with hp | hp
    · have hp' := hp
      rw [← h1.1] at hp'
      obtain ⟨a1, a2⟩ := h1.2 p
      rw [List.getD_eq_getElem _ _ hp', List.getD_eq_getElem _ _ hp] at a1
      rw [List.getD_eq_getElem _ _ hp'] at a2
      rw [List.getD_eq_getElem _ _ (by simpa using hp'), List.getD_eq_getElem _ _ (by simpa using hp), List.getElem_map,
        List.getElem_map]
      obtain ⟨b1, b2⟩ := mul_recip hA a1 a2 ht
      rw [s1] at b1
      rw [s2] at b2
      exact ⟨b1, b2⟩
    · have hp' := hp
      rw [← h1.1] at hp'
      rw [List.getD_eq_default _ _ (by simpa using hp'), List.getD_eq_default _ _ (by simpa using hp)]
      simp [n1, n2]

end Verif.EncodeFloat

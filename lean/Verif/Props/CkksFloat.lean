import Verif.Model.CkksFloat
import Verif.Lemmas.CkksFloatNum
import Verif.Props.EncodeFloat
import Verif.Props.CkksCircuit

/-!
# Property C87: a CKKS session in floating-point arithmetic, from slots to slots

The bounds `intErr`, `intSize` and `decErr` of encoding and decoding are those of C85, `budget`, `Fits` and `eval` those
of C79.
-/

namespace Verif.Props
open Verif.Barrett Verif.NttBat Verif.Slots Verif.CkksKeys Verif.CkksMul Verif.CkksRotate Verif.Crt Verif.Encode
open Verif.CkksCircuit Verif.CkksSession Verif.Automorphism Verif.EncodeFloat Verif.CkksFloat Verif.Helpers

variable {A : Arith} {u w ρ η : ℝ} {big : Nat} {σ : Type}

/-- What is known of an encoded item. -/
noncomputable def plainBudget (u w ρ η : ℝ) (t : Nat) (ms : List Nat) (x : Item) : Budget :=
  ⟨ms.take x.level, x.scale, x.mag, 2 ^ (t + 1) * intErr u w ρ η x.mag x.scale t, intSize u w ρ η x.mag x.scale t⟩

/-- What is known of a fresh encryption of an item, with noise at most `W`. -/
noncomputable def freshBudget (u w ρ η : ℝ) (t : Nat) (W : Int) (ms : List Nat) (x : Item) : Budget :=
  ⟨ms.take x.level, x.scale, x.mag, 2 ^ (t + 1) * (intErr u w ρ η x.mag x.scale t + W / x.scale),
    intSize u w ρ η x.mag x.scale t + W⟩

/-- An item fits the ring and respects its bound. -/
structure ItemOk (t : Nat) (x : Item) : Prop where
  len : x.slots.length ≤ 2 ^ t
  scale : 0 < x.scale
  mag0 : 0 ≤ x.mag
  mag : ∀ z ∈ x.slots, ‖z‖ ≤ x.mag

theorem item_mag {t : Nat} {x : Item} (h : ItemOk t x) (j : Nat) : ‖x.slots.getD j 0‖ ≤ x.mag := by
  by_cases hj : j < x.slots.length
  · rw [List.getD_eq_getElem _ _ hj]; exact h.mag _ (List.getElem_mem _)
  · rw [List.getD_eq_default _ _ (by omega), norm_zero]; exact h.mag0

/-- C87: a plaintext encoded in floating-point arithmetic carries its slots. -/
theorem C87_encode (hA : Accurate A u w ρ η big) (t : Nat) (ht : t ≤ 1000) (ms : List Nat) (h : Moduli (t + 1) ms) (x : Item)
    (hx : ItemOk t x) :
    ∃ pt, encodeF A (2 ^ (t + 1)) (ms.take x.level) x.scale x.slots = .ok pt ∧
      PlainCarries (t + 1) t (plainBudget u w ρ η t ms x) (fun j => x.slots.getD j 0) pt := by
  obtain ⟨pt, y, q1, q2, q3, q4, q5, q6⟩ := C85_encode hA t ht (ms.take x.level) (h.take x.level) x.scale hx.scale x.slots hx.len
    x.mag hx.mag0 hx.mag
  exact ⟨pt, q1, hx.scale, fun j _ => item_mag hx j, q2, q3, y, q4, q5, q6⟩

/-- C87: encryption of a plaintext that carries slots gives a ciphertext that carries them, with the noise added to the
budget. -/
theorem C87_encrypt (t : Nat) (ms : List Nat) (h : Moduli (t + 1) ms)
    (s e : Nat → ℤ) (a : Mat) (Bs Be Bv : ℤ) (hBs0 : 0 ≤ Bs) (hBe0 : 0 ≤ Be) (hBv0 : 0 ≤ Bv)
    (hs : ∀ p, p < 2 ^ (t + 1) → |s p| ≤ Bs) (he : ∀ p, p < 2 ^ (t + 1) → |e p| ≤ Be) :
    ∃ pk sk, keygen (2 ^ (t + 1)) ms s e a = .ok (pk, sk) ∧ HoldsKey (t + 1) ms s sk ∧
    ∀ (n : Nat) (b : Budget) (z : Nat → ℂ) (pt : Plaintext), b.q = ms.take n → PlainCarries (t + 1) t b z pt →
    ∀ (v e0 e1 : Nat → ℤ), (∀ p, p < 2 ^ (t + 1) → |v p| ≤ Bv ∧ |e0 p| ≤ Be ∧ |e1 p| ≤ Be) →
    ∀ (W : ℤ), 2 ^ (t + 1) * Bv * Be + Be + 2 ^ (t + 1) * Be * Bs ≤ W →
    ∃ ct, encrypt (2 ^ (t + 1)) pk pt v e0 e1 = .ok ct ∧
      Carries (t + 1) t s ⟨b.q, b.scale, b.mag, b.err + 2 ^ (t + 1) * (W / b.scale), b.bnd + W⟩ z ct := by
  obtain ⟨pk, sk, k1, k3, k4⟩ := encrypt_holds (t + 1) t rfl ms h s e a Bs Be Bv hBs0 hBe0 hBv0 hs he
  refine ⟨pk, sk, k1, k3, ?_⟩
  intro n b z pt hq hc v e0 e1 hv W hW
  obtain ⟨p1, p2, p3, p4, x, p5, p6, p7⟩ := hc
  rw [hq] at p3 p4 p5
  obtain ⟨ct, m, c1, c2, c3, c4⟩ := k4 n pt x p3 p4 p5 v e0 e1 hv W hW
  exact ⟨ct, c1, p1, p2, m, hq ▸ c2, c3 _ p6, fun j hj => c4 b.scale p1 j _ _ (p7 j hj)⟩

theorem slotsOf_rescale (N : Nat) (m : Nat → Int) (a b : ℝ) (ha : a ≠ 0) (hb : b ≠ 0) (j : Nat) :
    slotsOf N m b j = ((a / b : ℝ) : ℂ) * slotsOf N m a j := by
  unfold slotsOf slotEval
  rw [Finset.mul_sum]
  apply Finset.sum_congr rfl
  intro i _
  push_cast
  have ha' : (a : ℂ) ≠ 0 := by exact_mod_cast ha
  have hb' : (b : ℂ) ≠ 0 := by exact_mod_cast hb
  field_simp

/-- C87: decryption and decoding in floating-point arithmetic of what carries `z`. The scale given to the decoder may
differ from the scale of the ciphertext by a relative `δ`. -/
theorem C87_decode (hA : Accurate A u w ρ η big) (t : Nat) (s : Nat → Int) (b : Budget) (z : Nat → ℂ) (ct : Ciphertext)
    (hct : Carries (t + 1) t s b z ct) (ms : List Nat) (h : Moduli (t + 1) ms) (hnd : ms.Nodup) (n : Nat) (hn : b.q = ms.take n)
    (hne : b.q ≠ []) (sk : SecretKey) (hsk : HoldsKey (t + 1) ms s sk) (hrange : 2 * b.bnd < b.q.prod) (hbig : b.bnd < 2 ^ big)
    (scale δ : ℝ) (hsc : 0 < scale) (hδ : |b.scale / scale - 1| ≤ δ) (numSlots : Nat) (hs : numSlots ≤ 2 ^ t) :
    ∃ pt out, decrypt (2 ^ (t + 1)) sk ct = .ok pt ∧ decodeF A (some (scale, numSlots)) (2 ^ (t + 1)) pt false = .ok out ∧
      out.length = numSlots ∧
      ∀ j, j < numSlots → ‖out.getD j 0 - z j‖ ≤ decErr u w ρ η b.bnd scale t + (1 + δ) * b.err + δ * b.mag := by
  obtain ⟨hbs, hmag, m, h1, h2, h3⟩ := hct
  rw [hn] at h1 hne hrange
  obtain ⟨pt, p1, p2, p3⟩ := decrypt_holds (t + 1) t rfl ms h s sk hsk n ct m h1
  have ht := h.take n
  obtain ⟨out, o1, o2, o3⟩ := C85_decode hA t (ms.take n) hne (moduli_coprime ht (hnd.sublist (List.take_sublist n ms))) ht scale hsc
    numSlots m b.bnd h2 hrange hbig pt p2 false p3
  rw [Nat.min_eq_left hs] at o2 o3
  refine ⟨pt, out, p1, o1, o2, fun j hj => ?_⟩
  have hjt : j < 2 ^ t := by omega
  have e1 := o3 j hj
  have e2 := h3 j hjt
  have e3 := hmag j hjt
  have e4 : slotEval (2 ^ (t + 1)) (fun j => (m j : ℝ) / scale) j = ((b.scale / scale : ℝ) : ℂ) * slotsOf (2 ^ (t + 1)) m b.scale j :=
    slotsOf_rescale _ m b.scale scale hbs.ne' hsc.ne' j
  rw [e4] at e1
  generalize slotsOf (2 ^ (t + 1)) m b.scale j = S at e1 e2
  generalize b.scale / scale = r at e1 hδ
  have hr1 : |r| ≤ 1 + δ := by
    have := abs_le.1 hδ
    rw [abs_le]
    constructor <;> linarith
  have hδ0 : 0 ≤ δ := (abs_nonneg _).trans hδ
  have : out.getD j 0 - z j = (out.getD j 0 - (r : ℂ) * S) + (r : ℂ) * (S - z j) + ((r - 1 : ℝ) : ℂ) * z j := by push_cast; ring
  rw [this]
  refine (norm_add_le _ _).trans (add_le_add ((norm_add_le _ _).trans (add_le_add e1 ?_)) ?_)
  · rw [norm_mul, Complex.norm_real, Real.norm_eq_abs]
    exact mul_le_mul hr1 e2 (norm_nonneg _) (by linarith)
  · rw [norm_mul, Complex.norm_real, Real.norm_eq_abs]
    exact mul_le_mul hδ e3 (norm_nonneg _) hδ0

theorem encodeAllF_ok (hA : Accurate A u w ρ η big) (t : Nat) (ht : t ≤ 1000) (ms : List Nat) (h : Moduli (t + 1) ms) (xs : List Item)
    (hx : ∀ x ∈ xs, ItemOk t x) :
    ∃ pts, encodeAll A (2 ^ (t + 1)) ms xs = .ok pts ∧ pts.length = xs.length ∧
      ∀ i (hi : i < xs.length), ∃ pt, pts[i]? = some pt ∧
        PlainCarries (t + 1) t (plainBudget u w ρ η t ms xs[i]) (fun j => xs[i].slots.getD j 0) pt := by
  induction xs with
  | nil => exact ⟨[], rfl, rfl, fun i hi => by simp at hi⟩
  | cons x xs ih =>
    obtain ⟨pt, p1, p2⟩ := C87_encode hA t ht ms h x (hx x (by simp))
    obtain ⟨pts, q1, q2, q3⟩ := ih fun y hy => hx y (by simp [hy])
    refine ⟨pt :: pts, ?_, by simp [q2], ?_⟩
    · unfold encodeAll
      rw [p1, q1]
      rfl
    · intro i hi
      cases i with
      | zero => exact ⟨pt, rfl, p2⟩
      | succ i => exact q3 i (by simpa using hi)

theorem encryptAllF_ok {rng : Rng σ} {B : Int} (hr : RngOk rng B) (t : Nat) (ms : List Nat) (pk : PublicKey) (hpk : pk.moduli = ms)
    (P : Plaintext → Ciphertext → Prop) (pts : List Plaintext) (hm : ∀ pt ∈ pts, ∃ n, pt.moduli = ms.take n)
    (hP : ∀ pt ∈ pts, ∀ (v e0 e1 : Nat → ℤ), (∀ p, p < 2 ^ (t + 1) → |v p| ≤ 1 ∧ |e0 p| ≤ B ∧ |e1 p| ≤ B) →
      ∃ ct, encrypt (2 ^ (t + 1)) pk pt v e0 e1 = .ok ct ∧ P pt ct) (st : σ) :
    ∃ cts st', encryptAll rng (2 ^ (t + 1)) pk pts st = .ok (cts, st') ∧
      ∀ (i : Nat) (pt : Plaintext), pts[i]? = some pt → ∃ ct, cts[i]? = some ct ∧ P pt ct := by
  induction pts generalizing st with
  | nil => exact ⟨[], st, rfl, fun i pt h => by simp at h⟩
  | cons pt pts ih =>
    obtain ⟨n, hn⟩ := hm pt (by simp)
    obtain ⟨v, e0, e1, st1, hv, he0, he1, henc⟩ := encryptRandom_ok hr (t + 1) pk pt (by rw [hn, hpk]; exact prefix_take ms n) st
    obtain ⟨ct, c1, c2⟩ := hP pt (by simp) v e0 e1 fun p _ => ⟨binary_abs hv p, he0 p, he1 p⟩
    obtain ⟨cts, st2, d1, d2⟩ := ih (fun y hy => hm y (by simp [hy])) (fun y hy => hP y (by simp [hy])) st1
    refine ⟨ct :: cts, st2, ?_, ?_⟩
    · unfold encryptAll
      rw [bindOk _ _ _ _ _ (henc ct c1), bindOk _ _ _ _ _ d1]
      rfl
    · intro i y hy
      cases i with
      | zero =>
        obtain rfl : pt = y := by simpa using hy
        exact ⟨ct, rfl, c2⟩
      | succ i => simpa using d2 i y (by simpa using hy)

/-- C87: a whole session in floating-point arithmetic. For every behaviour of the generator key generation succeeds; then,
for every program that fits the moduli and keys, encoding, encrypting, running the program, decrypting and decoding
succeed, and every slot of the result is within the stated bound of the value of the program on the given slots. -/
theorem C87_session (hA : Accurate A u w ρ η big) (rng : Rng σ) (B : Int) (hB0 : 0 ≤ B) (hr : RngOk rng B) (t : Nat) (ht : t ≤ 1000)
    (ms : List Nat) (h : Moduli (t + 1) ms) (hnd : ms.Nodup) (hw : Option Nat) (hwt : ∀ w, hw = some w → w ≤ 2 ^ (t + 1)) (st : σ) :
    ∃ pk sk st' s, keygenRandom rng (2 ^ (t + 1)) ms hw st = .ok ((pk, sk), st') ∧ Binary s ∧ HoldsKey (t + 1) ms s sk ∧
    ∀ (T : Tools), T.kr + T.kc = t + 1 → ∀ (inputs plains : List Item), (∀ x ∈ inputs, ItemOk t x) → (∀ x ∈ plains, ItemOk t x) →
    ∀ (b : Budget) (e : Expr),
      b = budget T B (inputs.map (freshBudget u w ρ η t (freshNoise (t + 1) B) ms)) (plains.map (plainBudget u w ρ η t ms)) e →
      Fits T s B (inputs.map (freshBudget u w ρ η t (freshNoise (t + 1) B) ms)) (plains.map (plainBudget u w ρ η t ms)) e →
    ∀ (n : Nat), b.q = ms.take n → b.q ≠ [] → 2 * b.bnd < b.q.prod → b.bnd < 2 ^ big →
    ∀ (scale δ : ℝ), 0 < scale → |b.scale / scale - 1| ≤ δ → ∀ (numSlots : Nat), numSlots ≤ 2 ^ t → ∀ st1 : σ,
    ∃ out st2, session A rng T (2 ^ (t + 1)) ms pk sk inputs plains e scale numSlots st1 = .ok (out, st2) ∧ out.length = numSlots ∧
      ∀ j, j < numSlots →
        ‖out.getD j 0 - eval t (inputs.map fun x j => x.slots.getD j 0) (plains.map fun x j => x.slots.getD j 0) e j‖ ≤
          decErr u w ρ η b.bnd scale t + (1 + δ) * b.err + δ * b.mag := by
  obtain ⟨s, er, a, st', hs, he, hsw, hgen⟩ := keygenRandom_ok hr (t + 1) ms h hw hwt st
  obtain ⟨pk, sk, k1, k2, k3⟩ := C87_encrypt t ms h s er a 1 B 1 (by norm_num) hB0 (by norm_num)
    (fun p _ => binary_abs hs p) (fun p _ => he p)
  obtain ⟨pk', sk', k1', hpkm, -⟩ := keygen_spec (t + 1) ms h s er a
  obtain ⟨rfl, rfl⟩ := Prod.mk.inj (Except.ok.inj (k1.symm.trans k1'))
  refine ⟨pk, sk, st', s, hgen pk sk k1, hs, k2, ?_⟩
  intro T hT inputs plains hin hpl b e hb hfit n hn hne hrange hbig scale δ hsc hδ numSlots hns st1
  obtain ⟨ptsIn, i1, i2, i3⟩ := encodeAllF_ok hA t ht ms h inputs hin
  obtain ⟨pts, p1, p2, p3⟩ := encodeAllF_ok hA t ht ms h plains hpl
  obtain ⟨cts, st2, c1, c2⟩ := encryptAllF_ok hr t ms pk hpkm
    (fun pt ct => ∀ (x : Item), PlainCarries (t + 1) t (plainBudget u w ρ η t ms x) (fun j => x.slots.getD j 0) pt →
      Carries (t + 1) t s (freshBudget u w ρ η t (freshNoise (t + 1) B) ms x) (fun j => x.slots.getD j 0) ct) ptsIn
    (by
      intro pt hpt
      obtain ⟨i, hi, rfl⟩ := List.mem_iff_getElem.1 hpt
      obtain ⟨pt, e1, e2⟩ := i3 i (by omega)
      rw [List.getElem?_eq_getElem hi] at e1
      obtain rfl := Option.some.inj e1
      exact ⟨_, e2.moduli⟩)
    (by
      intro pt hpt v e0 e1 hv
      obtain ⟨i, hi, rfl⟩ := List.mem_iff_getElem.1 hpt
      obtain ⟨pt, x1, x2⟩ := i3 i (by omega)
      rw [List.getElem?_eq_getElem hi] at x1
      obtain rfl := Option.some.inj x1
      obtain ⟨ct, y1, -⟩ := k3 _ _ _ _ rfl x2 v e0 e1 hv (freshNoise (t + 1) B) (by unfold freshNoise; linarith)
      refine ⟨ct, y1, fun x hx => ?_⟩
      obtain ⟨ct', z1, z2⟩ := k3 _ _ _ _ rfl hx v e0 e1 hv (freshNoise (t + 1) B) (by unfold freshNoise; linarith)
      obtain rfl := Except.ok.inj (y1.symm.trans z1)
      simp only [freshBudget, plainBudget] at z2 ⊢
      rwa [mul_add]) st1
  obtain ⟨ct, r1, r2⟩ := C79_circuit T t hT s hs B hB0 (inputs.map (freshBudget u w ρ η t (freshNoise (t + 1) B) ms))
    (plains.map (plainBudget u w ρ η t ms)) cts pts (inputs.map fun x j => x.slots.getD j 0) (plains.map fun x j => x.slots.getD j 0)
    (by
      intro i hi
      rw [List.length_map] at hi
      obtain ⟨pt, x1, x2⟩ := i3 i hi
      obtain ⟨ct, y1, y2⟩ := c2 i pt x1
      refine ⟨ct, y1, ?_⟩
      rw [hT, List.getD_eq_getElem _ _ (by simpa using hi), List.getD_eq_getElem _ _ (by simpa using hi), List.getElem_map,
        List.getElem_map]
      exact y2 _ x2)
    (by
      intro i hi
      rw [List.length_map] at hi
      obtain ⟨pt, x1, x2⟩ := p3 i hi
      refine ⟨pt, x1, ?_⟩
      rw [hT, List.getD_eq_getElem _ _ (by simpa using hi), List.getD_eq_getElem _ _ (by simpa using hi), List.getElem_map,
        List.getElem_map]
      exact x2) e hfit
  rw [hT, ← hb] at r2
  obtain ⟨pt, out, d1, d2, d3, d4⟩ := C87_decode hA t s b _ ct r2 ms h hnd n hn hne sk k2 hrange hbig scale δ hsc hδ numSlots hns
  refine ⟨out, st2, ?_, d3, d4⟩
  unfold session
  rw [bindOk _ _ _ _ _ (ofExceptOk _ _ i1 _), bindOk _ _ _ _ _ c1, bindOk _ _ _ _ _ (ofExceptOk _ _ p1 _),
    bindOk _ _ _ _ _ (ofExceptOk _ _ r1 _), bindOk _ _ _ _ _ (ofExceptOk _ _ d1 _)]
  exact ofExceptOk _ _ d2 _

theorem freshNoise_nonneg (k : Nat) {B : Int} (hB : 0 ≤ B) : 0 ≤ freshNoise k B := by unfold freshNoise; positivity

theorem eta64_small : 70 * (8 * eta64) ≤ 2⁻¹ ^ 1060 := by
  unfold eta64
  have : (2⁻¹ : ℝ) ^ 1075 = 2⁻¹ ^ 15 * 2⁻¹ ^ 1060 := by rw [← pow_add]
  rw [this]
  have hp : (0 : ℝ) < 2⁻¹ ^ 1060 := by positivity
  generalize (2⁻¹ : ℝ) ^ 1060 = x at hp
  norm_num
  nlinarith

theorem intSize_nonneg {u w ρ η B s : ℝ} (hu : 0 ≤ u) (hw : 0 ≤ w) (hρ : 0 ≤ ρ) (hη : 0 ≤ η) (hB : 0 ≤ B) (hs : 0 ≤ s) (t : Nat) :
    0 ≤ intSize u w ρ η B s t := by
  unfold intSize coeffSize tiny growth
  positivity

theorem intErr_nonneg {u w ρ η B s : ℝ} (hu : 0 ≤ u) (hw : 0 ≤ w) (hρ : 0 ≤ ρ) (hη : 0 ≤ η) (hB : 0 ≤ B) (hs : 0 ≤ s) (t : Nat) :
    0 ≤ intErr u w ρ η B s t := by
  have h1 : 1 ≤ growth u w ρ := by
    unfold growth
    exact one_le_mul_of_one_le_of_one_le (one_le_mul_of_one_le_of_one_le (by linarith) (by linarith)) (by linarith)
  have h2 : 0 ≤ t * tiny u w ρ η := by unfold tiny; positivity
  have h3 : B ≤ coeffSize u w ρ η B t := by
    unfold coeffSize
    have : 1 * (B + 0) ≤ growth u w ρ ^ (t + 1) * (B + t * tiny u w ρ η) :=
      mul_le_mul (one_le_pow₀ h1) (by linarith) (by linarith) (by positivity)
    linarith
  have h4 : 1 * coeffSize u w ρ η B t ≤ (1 + u) * coeffSize u w ρ η B t := mul_le_mul_of_nonneg_right (by linarith) (by linarith)
  have h5 : 0 ≤ (1 / 2 + η) / s := by positivity
  unfold intErr
  linarith

/-- The bounds of encoding and decoding with doubles and a table of roots good to `2^-50`. -/
theorem double_bounds (t : Nat) (ht : t ≤ 20) (B scale : ℝ) (hB : 0 ≤ B) (hsc : 1 ≤ scale) (hsc2 : scale ≤ 2 ^ 1000) :
    intErr u64 (6 * u64) (2⁻¹ ^ 50) (8 * eta64) B scale t ≤ 38 * (t + 1) * u64 * B + 1 / 2 / scale + 2⁻¹ ^ 1060 ∧
    intSize u64 (6 * u64) (2⁻¹ ^ 50) (8 * eta64) B scale t ≤ (1 + 38 * (t + 1) * u64) * (B * scale) + 1 := by
  obtain ⟨h1, h2⟩ := enc_bound (u := u64) (ρ := 2⁻¹ ^ 50) (η := 8 * eta64) (B := B) (s := scale) (t := t) u64_pos
    (by unfold u64; norm_num) ht (by positivity) (by unfold u64; norm_num) (by linarith [eta64_pos]) hsc hB
  have h3 := eta64_small
  refine ⟨h1.trans (add_le_add le_rfl h3), h2.trans ?_⟩
  have h4 : 70 * (8 * eta64) * scale ≤ 2⁻¹ ^ 1060 * 2 ^ 1000 := mul_le_mul h3 hsc2 (by linarith) (by positivity)
  have h5 : (2⁻¹ : ℝ) ^ 1060 * 2 ^ 1000 ≤ 1 / 2 := by
    have : (2⁻¹ : ℝ) ^ 1060 = 2⁻¹ ^ 60 * 2⁻¹ ^ 1000 := by rw [← pow_add]
    have h6 : (2⁻¹ : ℝ) ^ 1000 * 2 ^ 1000 = 1 := by rw [← mul_pow]; simp
    rw [this, mul_assoc, h6]
    norm_num
  have h6 := h4.trans h5
  generalize 70 * (8 * eta64) * scale = y at h6
  clear h1 h2 h3 h4 h5
  linarith

theorem double_dec (t : Nat) (ht : t ≤ 20) (X scale : ℝ) (hX : 0 ≤ X) (hsc : 0 < scale) :
    decErr u64 (6 * u64) (2⁻¹ ^ 50) (8 * eta64) X scale t ≤ 2 ^ (t + 1) * (36 * (t + 1) * u64 * (X / scale) + 2⁻¹ ^ 1060) := by
  have h1 := dec_bound (u := u64) (ρ := 2⁻¹ ^ 50) (η := 8 * eta64) (X := X) (s := scale) (t := t) u64_pos
    (by unfold u64; norm_num) ht (by positivity) (by unfold u64; norm_num) (by linarith [eta64_pos]) hsc hX
  refine h1.trans ?_
  have h3 := eta64_small
  apply mul_le_mul_of_nonneg_left _ (by positivity)
  linarith

/-- C87, in numbers: with doubles, a table of roots good to `2^-50`, at most `2^20` slots and a scale of at least 1, encoding,
encrypting, decrypting and decoding return the slots up to `N ((1/2 + W) / scale)` for the rounding and the encryption
noise `W`, increased by the relative error `80 (t + 1) 2^-53` and `N 80 (t + 1) 2^-53 B` for the floating-point
operations. -/
theorem C87_double (root : Nat → Nat → ℂ) (hroot : ∀ m i, i < m → ‖root m i - unitRoot m ^ i‖ ≤ 2⁻¹ ^ 50) (rng : Rng σ) (B : Int)
    (hB0 : 0 ≤ B) (hr : RngOk rng B) (t : Nat) (ht : t ≤ 20) (ms : List Nat) (h : Moduli (t + 1) ms) (hnd : ms.Nodup)
    (hw : Option Nat) (hwt : ∀ w, hw = some w → w ≤ 2 ^ (t + 1)) (st : σ) :
    ∃ pk sk st' s, keygenRandom rng (2 ^ (t + 1)) ms hw st = .ok ((pk, sk), st') ∧ Binary s ∧ HoldsKey (t + 1) ms s sk ∧
    ∀ (T : Tools), T.kr + T.kc = t + 1 → ∀ (x : Item), ItemOk t x → 1 ≤ x.scale → x.scale ≤ 2 ^ 1000 → ms.take x.level ≠ [] →
      2 * ((1 + 40 * (t + 1) * 2⁻¹ ^ 53) * (x.mag * x.scale) + 1 + freshNoise (t + 1) B) < (ms.take x.level).prod →
      (1 + 40 * (t + 1) * 2⁻¹ ^ 53) * (x.mag * x.scale) + 1 + freshNoise (t + 1) B < 2 ^ 1023 →
    ∀ (numSlots : Nat), numSlots ≤ 2 ^ t → ∀ st1 : σ,
    ∃ out st2, session (Arith.binary64 root) rng T (2 ^ (t + 1)) ms pk sk [x] [] (.input 0) x.scale numSlots st1 = .ok (out, st2) ∧
      out.length = numSlots ∧
      ∀ j, j < numSlots → ‖out.getD j 0 - x.slots.getD j 0‖ ≤
        2 ^ (t + 1) * ((1 + 80 * (t + 1) * 2⁻¹ ^ 53) * ((1 + freshNoise (t + 1) B) / x.scale) + 80 * (t + 1) * 2⁻¹ ^ 53 * x.mag +
          2⁻¹ ^ 1000) := by
  have hu : u64 = 2⁻¹ ^ 53 := rfl
  rw [← hu]
  have hA := C85_binary64 root (2⁻¹ ^ 50) (by positivity) hroot
  obtain ⟨pk, sk, st', s, k1, k2, k3, k4⟩ := C87_session hA rng B hB0 hr t (by omega) ms h hnd hw hwt st
  refine ⟨pk, sk, st', s, k1, k2, k3, ?_⟩
  intro T hT x hx hs1 hs2 hne hrange hbig numSlots hns st1
  obtain ⟨q1, q2⟩ := double_bounds t ht x.mag x.scale hx.mag0 hs1 hs2
  have hW : (0 : ℝ) ≤ freshNoise (t + 1) B := by exact_mod_cast freshNoise_nonneg (t + 1) hB0
  have hms : 0 ≤ x.mag * x.scale := mul_nonneg hx.mag0 (by linarith)
  have hTu0 : 0 ≤ ((t : ℝ) + 1) * u64 := mul_nonneg (by positivity) u64_pos.le
  have hTum : 0 ≤ ((t : ℝ) + 1) * u64 * (x.mag * x.scale) := mul_nonneg hTu0 hms
  obtain ⟨W, hWd⟩ : ∃ W : ℝ, W = freshNoise (t + 1) B := ⟨_, rfl⟩
  have hle : intSize u64 (6 * u64) (2⁻¹ ^ 50) (8 * eta64) x.mag x.scale t + W ≤
      (1 + 40 * (t + 1) * u64) * (x.mag * x.scale) + 1 + W := by linarith
  obtain ⟨out, st2, o1, o2, o3⟩ := k4 T hT [x] [] (by simpa using hx) (by simp)
    (freshBudget u64 (6 * u64) (2⁻¹ ^ 50) (8 * eta64) t (freshNoise (t + 1) B) ms x) (.input 0) rfl (by show 0 < 1; norm_num)
    x.level rfl hne
    (by simp only [freshBudget]; rw [← hWd] at hrange ⊢; linarith)
    (by simp only [freshBudget]; rw [← hWd] at hbig ⊢; exact lt_of_le_of_lt hle hbig)
    x.scale 0 hx.scale (by simp only [freshBudget]; rw [div_self hx.scale.ne']; simp) numSlots hns st1
  refine ⟨out, st2, o1, o2, fun j hj => ?_⟩
  have e := o3 j hj
  simp only [eval, List.map_cons, List.map_nil, List.getD_cons_zero, freshBudget] at e
  refine e.trans ?_
  rw [← hWd] at hW ⊢
  have hX0 : 0 ≤ intSize u64 (6 * u64) (2⁻¹ ^ 50) (8 * eta64) x.mag x.scale t + W := by
    exact add_nonneg (intSize_nonneg u64_pos.le (mul_nonneg (by norm_num) u64_pos.le) (pow_nonneg (by norm_num) _)
      (mul_nonneg (by norm_num) eta64_pos.le) hx.mag0 hx.scale.le t) hW
  have d := double_dec t ht _ x.scale hX0 hx.scale
  refine (add_le_add_left (add_le_add_left d _) _).trans ?_
  have hp : (0 : ℝ) < 2 ^ (t + 1) := by positivity
  have f1 : (intSize u64 (6 * u64) (2⁻¹ ^ 50) (8 * eta64) x.mag x.scale t + W) / x.scale ≤
      (1 + 38 * (t + 1) * u64) * x.mag + (1 + W) / x.scale := by
    rw [div_le_iff₀ hx.scale]
    have : ((1 + 38 * (t + 1) * u64) * x.mag + (1 + W) / x.scale) * x.scale =
        (1 + 38 * (t + 1) * u64) * (x.mag * x.scale) + 1 + W := by
      have := hx.scale.ne'
      field_simp
      ring
    rw [this]
    linarith
  have f2 : ((t : ℝ) + 1) * u64 ≤ 1 / 2 ^ 48 := by
    have h1 : (t : ℝ) ≤ 20 := by exact_mod_cast ht
    have : ((t : ℝ) + 1) * u64 ≤ 21 * (1 / 2 ^ 53) := mul_le_mul (by linarith) (by rw [hu]; norm_num) u64_pos.le (by norm_num)
    refine this.trans (by norm_num)
  obtain ⟨v, hv⟩ : ∃ v, v = ((t : ℝ) + 1) * u64 := ⟨_, rfl⟩
  have f3 : v * ((intSize u64 (6 * u64) (2⁻¹ ^ 50) (8 * eta64) x.mag x.scale t + W) / x.scale) ≤
      v * ((1 + 38 * v) * x.mag + (1 + W) / x.scale) := by
    apply mul_le_mul_of_nonneg_left _ (by rw [hv]; exact hTu0)
    rw [hv, ← mul_assoc]; exact f1
  have f4 : v * v * x.mag ≤ 1 / 2 ^ 48 * (v * x.mag) := by
    rw [mul_assoc]
    exact mul_le_mul_of_nonneg_right (by rw [hv]; exact f2) (mul_nonneg (by rw [hv]; exact hTu0) hx.mag0)
  have f5 : 0 ≤ v * x.mag := mul_nonneg (by rw [hv]; exact hTu0) hx.mag0
  have f6 : 0 ≤ v * ((1 + W) / x.scale) := mul_nonneg (by rw [hv]; exact hTu0) (div_nonneg (add_nonneg zero_le_one hW) hx.scale.le)
  have f7 : (2⁻¹ : ℝ) ^ 1060 + 2⁻¹ ^ 1060 ≤ 2⁻¹ ^ 1000 := by
    have : (2⁻¹ : ℝ) ^ 1060 = 2⁻¹ ^ 60 * 2⁻¹ ^ 1000 := by rw [← pow_add]
    rw [this]
    have hp : (0 : ℝ) < 2⁻¹ ^ 1000 := by positivity
    generalize (2⁻¹ : ℝ) ^ 1000 = x at hp
    norm_num
    nlinarith
  have f8 : 1 / 2 / x.scale + W / x.scale ≤ (1 + W) / x.scale := by
    rw [← add_div]
    apply div_le_div_of_nonneg_right _ hx.scale.le
    linarith
  have f9 : 36 * (t + 1) * u64 * ((intSize u64 (6 * u64) (2⁻¹ ^ 50) (8 * eta64) x.mag x.scale t + W) / x.scale) + 2⁻¹ ^ 1060 +
      (intErr u64 (6 * u64) (2⁻¹ ^ 50) (8 * eta64) x.mag x.scale t + W / x.scale) ≤
      (1 + 80 * (t + 1) * u64) * ((1 + W) / x.scale) + 80 * (t + 1) * u64 * x.mag + 2⁻¹ ^ 1000 := by
    have g1 : 36 * (t + 1) * u64 * ((intSize u64 (6 * u64) (2⁻¹ ^ 50) (8 * eta64) x.mag x.scale t + W) / x.scale) =
      36 * (v * ((intSize u64 (6 * u64) (2⁻¹ ^ 50) (8 * eta64) x.mag x.scale t + W) / x.scale)) := by rw [hv]; ring
    have g2 : 38 * (t + 1) * u64 * x.mag = 38 * (v * x.mag) := by rw [hv]; ring
    have g3 : 80 * (t + 1) * u64 * x.mag = 80 * (v * x.mag) := by rw [hv]; ring
    have g4 : (1 + 80 * (t + 1) * u64) * ((1 + W) / x.scale) = (1 + W) / x.scale + 80 * (v * ((1 + W) / x.scale)) := by rw [hv]; ring
    rw [g1, g3, g4]
    rw [g2] at q1
    have g5 : v * ((1 + 38 * v) * x.mag + (1 + W) / x.scale) = v * x.mag + 38 * (v * v * x.mag) + v * ((1 + W) / x.scale) := by ring
    rw [g5] at f3
    generalize (2⁻¹ : ℝ) ^ 1000 = y1 at f7 ⊢
    generalize (2⁻¹ : ℝ) ^ 1060 = y2 at f7 q1 ⊢
    norm_num at f4
    linarith
  have f10 := mul_le_mul_of_nonneg_left f9 hp.le
  refine le_trans (le_of_eq ?_) f10
  ring

/-! ## A program that meets the hypotheses -/

theorem prime_1073135617 : Nat.Prime 1073135617 :=
  PrimeCheck.prime_of_noDiv _ 15 (by norm_num) (by decide +kernel) (by norm_num)

theorem clog_30 {q : Nat} (h1 : 2 ^ 29 < q) (h2 : q ≤ 2 ^ 30) : Nat.clog 2 q = 30 := by
  apply le_antisymm
  · rw [Nat.clog_le_iff_le_pow (by norm_num)]; exact h2
  · have : 29 < Nat.clog 2 q := by rw [Nat.lt_clog_iff_pow_lt (by norm_num)]; exact h1
    exact this

theorem goodModulus_1073135617 : GoodModulus 1073135617 := by
  refine ⟨by norm_num, by norm_num, ?_⟩
  unfold ReciprocalExact
  rw [clog_30 (by norm_num) (by norm_num)]
  decide +kernel

theorem fourStep_big (m : Nat) (hm : m ∈ [1073184769, 1073135617]) : FourStep 1 1 m := by
  simp only [List.mem_cons, List.not_mem_nil, or_false] at hm
  rcases hm with rfl | rfl
  · refine ⟨prime_1073184769, by norm_num, goodModulus_1073184769, ?_, ?_, by norm_num, by norm_num⟩ <;>
      rw [clog_30 (by norm_num) (by norm_num)] <;> norm_num
  · refine ⟨prime_1073135617, by norm_num, goodModulus_1073135617, ?_, ?_, by norm_num, by norm_num⟩ <;>
      rw [clog_30 (by norm_num) (by norm_num)] <;> norm_num

theorem basis_big : Basis 1 1 [1073184769] [1073135617] := by
  refine ⟨fun m hm => fourStep_big m hm, by decide, ?_, by decide, by decide, by decide⟩
  intro m hm
  simp only [List.cons_append, List.nil_append, List.mem_cons, List.not_mem_nil, or_false] at hm
  rcases hm with rfl | rfl <;> rw [clog_30 (by norm_num) (by norm_num)] <;> norm_num

theorem moduli_big : Moduli (1 + 1) [1073184769, 1073135617] := basis_big.moduli

/-- Two inputs and a plaintext of two slots at scale `2^24`. -/
noncomputable def itemA : Item := ⟨2, 2 ^ 24, 3, [3, Complex.I]⟩
noncomputable def itemB : Item := ⟨2, 2 ^ 24, 1, [1, 1]⟩
noncomputable def itemC : Item := ⟨2, 2 ^ 24, 2, [2, 1]⟩

theorem itemA_ok : ItemOk 1 itemA := ⟨by simp [itemA], by simp [itemA], by simp [itemA], by simp [itemA]⟩
theorem itemB_ok : ItemOk 1 itemB := ⟨by simp [itemB], by simp [itemB], by simp [itemB], by simp [itemB]⟩
theorem itemC_ok : ItemOk 1 itemC := ⟨by simp [itemC], by simp [itemC], by simp [itemC], by simp [itemC]⟩

/-- The bounds of the three items. -/
theorem items_num (M : ℝ) (h0 : 0 ≤ M) (h1 : M ≤ 3) :
    (0 ≤ intErr u64 (6 * u64) (2⁻¹ ^ 50) (8 * eta64) M (2 ^ 24) 1 ∧
      intErr u64 (6 * u64) (2⁻¹ ^ 50) (8 * eta64) M (2 ^ 24) 1 ≤ 1 / 2 ^ 24) ∧
    0 ≤ intSize u64 (6 * u64) (2⁻¹ ^ 50) (8 * eta64) M (2 ^ 24) 1 ∧
      intSize u64 (6 * u64) (2⁻¹ ^ 50) (8 * eta64) M (2 ^ 24) 1 ≤ M * 2 ^ 24 + 2 := by
  have hn := intErr_nonneg u64_pos.le (w := 6 * u64) (mul_nonneg (by norm_num) u64_pos.le) (ρ := 2⁻¹ ^ 50) (pow_nonneg (by norm_num) _)
    (η := 8 * eta64) (mul_nonneg (by norm_num) eta64_pos.le) h0 (s := 2 ^ 24) (by norm_num) 1
  have hn2 := intSize_nonneg u64_pos.le (w := 6 * u64) (mul_nonneg (by norm_num) u64_pos.le) (ρ := 2⁻¹ ^ 50) (pow_nonneg (by norm_num) _)
    (η := 8 * eta64) (mul_nonneg (by norm_num) eta64_pos.le) h0 (s := 2 ^ 24) (by norm_num) 1
  obtain ⟨a, b⟩ := double_bounds 1 (by norm_num) M (2 ^ 24) h0 (by norm_num) (by
    exact pow_le_pow_right₀ (by norm_num) (by norm_num))
  have hu : u64 = 2⁻¹ ^ 53 := rfl
  have hy : (2⁻¹ : ℝ) ^ 1060 ≤ 2⁻¹ ^ 60 := pow_le_pow_of_le_one (by norm_num) (by norm_num) (by norm_num)
  generalize (2⁻¹ : ℝ) ^ 1060 = y at hy a
  generalize intErr u64 (6 * u64) (2⁻¹ ^ 50) (8 * eta64) M (2 ^ 24) 1 = E at a hn ⊢
  generalize intSize u64 (6 * u64) (2⁻¹ ^ 50) (8 * eta64) M (2 ^ 24) 1 = S at b hn2 ⊢
  rw [hu] at a b
  norm_num at a b hy ⊢
  refine ⟨⟨hn, ?_⟩, hn2, ?_⟩ <;> linarith

/-- The program `rescale (plain * (a + b))` on doubles, with roots that are all off, errors of the generator all `-1`, and a
decoding scale that is the rounded scale of the result: the slots are `8` and `1 + i` up to `1/1000`. -/
example : ∃ pk sk s, keygenRandom (constRng (-1)) (2 ^ (1 + 1)) [1073184769, 1073135617] (some 1) () = .ok ((pk, sk), ()) ∧
    HoldsKey (1 + 1) [1073184769, 1073135617] s sk ∧
    ∀ (T : Tools), T.kr = 1 → T.kc = 1 →
    ∃ out st2, session (Arith.binary64 offRoots) (constRng (-1)) T (2 ^ (1 + 1)) [1073184769, 1073135617] pk sk [itemA, itemB] [itemC]
        (.rescale 1 (.mulPlain (.add (.input 0) (.input 1)) 0)) 262292 2 () = .ok (out, st2) ∧ out.length = 2 ∧
      ‖out.getD 0 0 - 8‖ ≤ 1 / 1000 ∧ ‖out.getD 1 0 - (Complex.I + 1)‖ ≤ 1 / 1000 := by
  obtain ⟨pk, sk, st', s, k1, k2, k3, k4⟩ := C87_session (C85_binary64 offRoots _ (by positivity) (fun m i _ => offRoots_err m i))
    (constRng (-1)) 1 (by norm_num) (constRng_ok (-1)) 1 (by norm_num) [1073184769, 1073135617] moduli_big (by decide) (some 1)
    (by simp) ()
  refine ⟨pk, sk, s, k1, k3, ?_⟩
  intro T hr hc
  obtain ⟨⟨a0, a1⟩, a2, a3⟩ := items_num 3 (by norm_num) (by norm_num)
  obtain ⟨⟨b0, b1⟩, b2, b3⟩ := items_num 1 (by norm_num) (by norm_num)
  obtain ⟨⟨c0, c1⟩, c2, c3⟩ := items_num 2 (by norm_num) (by norm_num)
  obtain ⟨b, hb⟩ : ∃ b, b = budget T 1 ([itemA, itemB].map (freshBudget u64 (6 * u64) (2⁻¹ ^ 50) (8 * eta64) 1 (freshNoise (1 + 1) 1) [1073184769, 1073135617]))
      ([itemC].map (plainBudget u64 (6 * u64) (2⁻¹ ^ 50) (8 * eta64) 1 [1073184769, 1073135617]))
      (.rescale 1 (.mulPlain (.add (.input 0) (.input 1)) 0)) := ⟨_, rfl⟩
  have hq : b.q = [1073184769] := by rw [hb]; rfl
  have hW : freshNoise (1 + 1) 1 = 9 := by decide
  have hscale : b.scale = 2 ^ 48 / 1073135617 := by
    rw [hb]; simp [budget, freshBudget, plainBudget, itemA, itemB, itemC]; norm_num
  have hmag : b.mag = 8 := by
    rw [hb]; simp [budget, freshBudget, plainBudget, itemA, itemB, itemC]; norm_num
  have herr : b.err ≤ 1 / 5000 := by
    rw [hb]
    simp only [budget, freshBudget, plainBudget, itemA, itemB, itemC, List.map_cons, List.map_nil, List.getD_cons_zero,
      List.getD_cons_succ, rescaleNoise, hr, hc, hW, List.take, List.drop, List.length_cons, List.length_nil, List.prod_cons,
      List.prod_nil]
    generalize intErr u64 (6 * u64) (2⁻¹ ^ 50) (8 * eta64) 3 (2 ^ 24) 1 = EA at a0 a1 ⊢
    generalize intErr u64 (6 * u64) (2⁻¹ ^ 50) (8 * eta64) 1 (2 ^ 24) 1 = EB at b0 b1 ⊢
    generalize intErr u64 (6 * u64) (2⁻¹ ^ 50) (8 * eta64) 2 (2 ^ 24) 1 = EC at c0 c1 ⊢
    norm_num at a1 b1 c1 ⊢
    nlinarith
  have hbnd : 0 ≤ b.bnd ∧ b.bnd ≤ 2 ^ 24 := by
    rw [hb]
    simp only [budget, freshBudget, plainBudget, itemA, itemB, itemC, List.map_cons, List.map_nil, List.getD_cons_zero,
      List.getD_cons_succ, rescaleNoise, hr, hc, hW, List.take, List.drop, List.length_cons, List.length_nil, List.prod_cons,
      List.prod_nil]
    generalize intSize u64 (6 * u64) (2⁻¹ ^ 50) (8 * eta64) 3 (2 ^ 24) 1 = SA at a2 a3 ⊢
    generalize intSize u64 (6 * u64) (2⁻¹ ^ 50) (8 * eta64) 1 (2 ^ 24) 1 = SB at b2 b3 ⊢
    generalize intSize u64 (6 * u64) (2⁻¹ ^ 50) (8 * eta64) 2 (2 ^ 24) 1 = SC at c2 c3 ⊢
    constructor
    · positivity
    · have : (SA + ((9 : ℤ) : ℝ) + (SB + ((9 : ℤ) : ℝ))) * SC ≤ (4 * 2 ^ 24 + 22) * (2 * 2 ^ 24 + 2) := by
        apply mul_le_mul _ c3 c2 (by norm_num)
        push_cast
        linarith
      norm_num at this ⊢
      nlinarith
  have hfour : ∀ m ∈ [1073184769, 1073135617], FourStep T.kr T.kc m := by rw [hr, hc]; exact fourStep_big
  have hchain : Chain T.kr T.kc [1073184769, 1073135617] := ⟨hfour, by decide, by decide⟩
  obtain ⟨out, st2, o1, o2, o3⟩ := k4 T (by rw [hr, hc]) [itemA, itemB] [itemC] (by
      intro x hx
      simp only [List.mem_cons, List.not_mem_nil, or_false] at hx
      rcases hx with rfl | rfl
      · exact itemA_ok
      · exact itemB_ok) (by
      intro x hx
      simp only [List.mem_cons, List.not_mem_nil, or_false] at hx
      subst hx
      exact itemC_ok) b _ hb
    ⟨⟨⟨show 0 < 2 by norm_num, show 1 < 2 by norm_num, rfl, rfl, hfour⟩, show 0 < 1 by norm_num, rfl, hfour⟩, show 1 ≤ 2 by norm_num,
      by rw [hr, hc]; exact basis_big, hchain⟩ 1 (by rw [hq]; rfl) (by rw [hq]; simp)
    (by rw [hq]; have := hbnd.2; norm_num at this ⊢; linarith)
    (lt_of_le_of_lt hbnd.2 (pow_lt_pow_right₀ (by norm_num) (by norm_num))) 262292 (1 / 100000) (by norm_num)
    (by rw [hscale, abs_le]; constructor <;> norm_num) 2 (by norm_num) ()
  have hd : decErr u64 (6 * u64) (2⁻¹ ^ 50) (8 * eta64) b.bnd 262292 1 ≤ 1 / 10000 := by
    refine (double_dec 1 (by norm_num) b.bnd 262292 hbnd.1 (by norm_num)).trans ?_
    have hy : (2⁻¹ : ℝ) ^ 1060 ≤ 2⁻¹ ^ 60 := pow_le_pow_of_le_one (by norm_num) (by norm_num) (by norm_num)
    generalize (2⁻¹ : ℝ) ^ 1060 = y at hy ⊢
    have hu : u64 = 2⁻¹ ^ 53 := rfl
    rw [hu]
    have := hbnd.2
    norm_num at this hy ⊢
    linarith
  refine ⟨out, st2, o1, o2, ?_, ?_⟩
  · have := o3 0 (by norm_num)
    rw [hmag] at this
    simp only [eval, itemA, itemB, itemC, List.map_cons, List.map_nil, List.getD_cons_zero, List.getD_cons_succ] at this
    rw [show ((3 : ℂ) + 1) * 2 = 8 by norm_num] at this
    linarith
  · have := o3 1 (by norm_num)
    rw [hmag] at this
    simp only [eval, itemA, itemB, itemC, List.map_cons, List.map_nil, List.getD_cons_zero, List.getD_cons_succ, mul_one] at this
    linarith

/-- Instances of `C87_encode`, `C87_encrypt` and `C87_decode`: a ciphertext of `[3, i]` under a key with one non-zero
coefficient, decoded with a scale that is off by one. -/
example : ∃ pk sk pt ct pt' out, keygen (2 ^ (1 + 1)) [1073184769, 1073135617] (fun p => if p = 1 then 1 else 0) (fun _ => 1) (fun _ _ => 7) =
      .ok (pk, sk) ∧
    encodeF (Arith.binary64 offRoots) (2 ^ (1 + 1)) [1073184769, 1073135617] (2 ^ 24) [3, Complex.I] = .ok pt ∧
    encrypt (2 ^ (1 + 1)) pk pt (fun _ => 1) (fun _ => -1) (fun _ => 1) = .ok ct ∧ decrypt (2 ^ (1 + 1)) sk ct = .ok pt' ∧
    decodeF (Arith.binary64 offRoots) (some (2 ^ 24 + 1, 2)) (2 ^ (1 + 1)) pt' false = .ok out ∧ out.length = 2 := by
  have hA := C85_binary64 offRoots _ (by positivity) (fun m i _ => offRoots_err m i)
  obtain ⟨pt, e1, e2⟩ := C87_encode hA 1 (by norm_num) [1073184769, 1073135617] moduli_big itemA itemA_ok
  obtain ⟨pk, sk, k1, k2, k3⟩ := C87_encrypt 1 [1073184769, 1073135617] moduli_big (fun p => if p = 1 then 1 else 0) (fun _ => 1)
    (fun _ _ => 7) 1 1 1 (by norm_num) (by norm_num) (by norm_num) (fun p _ => by by_cases hp : p = 1 <;> simp [hp])
    (fun _ _ => by norm_num)
  obtain ⟨ct, c1, c2⟩ := k3 2 _ _ pt rfl e2 (fun _ => 1) (fun _ => -1) (fun _ => 1) (fun _ _ => by norm_num) 9 (by norm_num)
  obtain ⟨-, a2, a3⟩ := items_num 3 (by norm_num) (by norm_num)
  obtain ⟨pt', out, d1, d2, d3, -⟩ := C87_decode hA 1 _ _ _ ct c2 [1073184769, 1073135617] moduli_big (by decide) 2 rfl
    (by simp [plainBudget, itemA]) sk k2
    (by
      simp only [plainBudget, itemA, List.take, List.prod_cons, List.prod_nil]
      norm_num at a3 ⊢
      linarith)
    (by
      simp only [plainBudget, itemA]
      refine lt_of_le_of_lt (?_ : _ ≤ (2 : ℝ) ^ 30) (pow_lt_pow_right₀ (by norm_num) (by norm_num))
      norm_num at a3 ⊢
      linarith) (2 ^ 24 + 1) 1 (by norm_num) (by simp only [plainBudget, itemA]; rw [abs_le]; constructor <;> norm_num) 2 (by norm_num)
  exact ⟨pk, sk, pt, ct, pt', out, k1, e1, c1, d1, d2, d3⟩

/-- Instance of `C87_double`: the slots `[3, i]` come back up to `1/100000`. -/
example : ∃ pk sk s, keygenRandom (constRng (-1)) (2 ^ (1 + 1)) [1073184769, 1073135617] none () = .ok ((pk, sk), ()) ∧
    HoldsKey (1 + 1) [1073184769, 1073135617] s sk ∧
    ∀ (T : Tools), T.kr = 1 → T.kc = 1 →
    ∃ out st2, session (Arith.binary64 offRoots) (constRng (-1)) T (2 ^ (1 + 1)) [1073184769, 1073135617] pk sk [itemA] []
        (.input 0) (2 ^ 24) 2 () = .ok (out, st2) ∧ out.length = 2 ∧
      ∀ j, j < 2 → ‖out.getD j 0 - ([3, Complex.I] : List ℂ).getD j 0‖ ≤ 1 / 100000 := by
  obtain ⟨pk, sk, st', s, k1, k2, k3, k4⟩ := C87_double offRoots (fun m i _ => offRoots_err m i)
    (constRng (-1)) 1 (by norm_num) (constRng_ok (-1)) 1 (by norm_num) [1073184769, 1073135617] moduli_big (by decide) none
    (by simp) ()
  have hW : freshNoise (1 + 1) 1 = 9 := by decide
  rw [hW] at k4
  refine ⟨pk, sk, s, k1, k3, ?_⟩
  intro T hr hc
  obtain ⟨out, st2, o1, o2, o3⟩ := k4 T (by rw [hr, hc]) itemA itemA_ok (by simp only [itemA]; norm_num)
    (by simp only [itemA]; exact pow_le_pow_right₀ (by norm_num) (by norm_num)) (by simp [itemA])
    (by simp only [itemA, List.take, List.prod_cons, List.prod_nil]; norm_num)
    (by
      simp only [itemA]
      refine lt_of_le_of_lt (?_ : _ ≤ (2 : ℝ) ^ 30) (pow_lt_pow_right₀ (by norm_num) (by norm_num))
      norm_num) 2 (by norm_num) ()
  refine ⟨out, st2, o1, o2, fun j hj => (o3 j hj).trans ?_⟩
  have hy : (2⁻¹ : ℝ) ^ 1000 ≤ 2⁻¹ ^ 60 := pow_le_pow_of_le_one (by norm_num) (by norm_num) (by norm_num)
  generalize (2⁻¹ : ℝ) ^ 1000 = y at hy ⊢
  simp only [itemA]
  norm_num at hy ⊢
  linarith

end Verif.Props

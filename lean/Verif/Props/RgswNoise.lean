import Verif.Props.Rgsw
import Verif.Props.Bootstrap
import Verif.Lemmas.BlindRotate
import Mathlib.RingTheory.Nilpotent.Basic
import Mathlib.Algebra.Ring.GeomSum
import Mathlib.Order.Interval.Finset.Basic
import Mathlib.Data.Int.Interval

/-!
# Property C76: noise of the rows of an RGSW encryption

`rgsw.encrypt` and `gen_bootstrapping_key` draw one error per row, which is added to every coefficient.
-/

namespace Verif.Props
open Verif.Rlwe Verif.Nega Verif.MatrixUtils Verif.Arith Verif.Bootstrap Verif.Rgsw

/-- Specification: the noise polynomial of the row of polynomial `p` and level `l` of an RGSW ciphertext of
`m` under the key `s`: the RLWE phase of the row minus the message term. -/
noncomputable def rowNoise {k n : Nat} (dp : DecompositionParameters)
    (C : Fin ((k + 1) * dp.levelCount) → Fin (k + 1) → Fin n → W) (s : Fin k → Fin n → W) (m : W)
    (p : Fin (k + 1)) (l : Fin dp.levelCount) : Fin n → W :=
  coeffs (rlwePhase (C (finProdFinEquiv (p, l))) s -
    cst n (m * 2 ^ (32 - (l.val + 1) * dp.logBase)) * (if h : p.val < k then -ev (s ⟨p.val, h⟩) else 1))

theorem rowNoise_eq (be : Backend) {k n : Nat} (hn : 0 < n) (m : W) (s : Fin k → Fin n → W)
    (dp : DecompositionParameters) (a : Fin (k + 1) → Fin dp.levelCount → Fin k → Fin n → W)
    (e : Fin (k + 1) → Fin dp.levelCount → W) (p : Fin (k + 1)) (l : Fin dp.levelCount) :
    rowNoise dp (Rgsw.jitEncrypt be m s dp a e 32) s m p l = fun _ => e p l := by
  unfold rowNoise
  rw [C20_rows be hn m s dp a e p l, add_sub_cancel_right]
  exact coeffs_ev hn _

/-- C76 fails: not every noise polynomial can occur in a row, whatever the samples: for degree at least two
the noise of all coefficients is the same. -/
theorem C76_independent_noise_false (be : Backend) {k n : Nat} (hn : 2 ≤ n) (m : W) (s : Fin k → Fin n → W)
    (dp : DecompositionParameters) (p : Fin (k + 1)) (l : Fin dp.levelCount) :
    ¬ ∀ w : Fin n → W, ∃ a e, rowNoise dp (Rgsw.jitEncrypt be m s dp a e 32) s m p l = w := by
  intro h
  obtain ⟨a, e, he⟩ := h (fun c => if c.val = 0 then 1 else 0)
  rw [rowNoise_eq be (by omega)] at he
  have h0 := congrFun he ⟨0, by omega⟩
  have h1 := congrFun he ⟨1, by omega⟩
  simp only at h0 h1
  rw [h0] at h1
  norm_num at h1

/-- The hypothesis holds for the library's degree. -/
example (be : Backend) (m : W) (s : Fin 1 → Fin 512 → W) (dp : DecompositionParameters) (l : Fin dp.levelCount) :
    ¬ ∀ w : Fin 512 → W, ∃ a e, rowNoise dp (Rgsw.jitEncrypt be m s dp a e 32) s m 1 l = w :=
  C76_independent_noise_false be (by decide) m s dp 1 l

/-- C76, what holds: the errors of different rows are the drawn samples, one per row. -/
theorem C76_row_noise_partial (be : Backend) {k n : Nat} (hn : 0 < n) (m : W) (s : Fin k → Fin n → W)
    (dp : DecompositionParameters) (a : Fin (k + 1) → Fin dp.levelCount → Fin k → Fin n → W)
    (e : Fin (k + 1) → Fin dp.levelCount → W) (p : Fin (k + 1)) (l : Fin dp.levelCount) (c : Fin n) :
    rowNoise dp (Rgsw.jitEncrypt be m s dp a e 32) s m p l c = e p l :=
  congrFun (rowNoise_eq be hn m s dp a e p l) c

example (be : Backend) := C76_row_noise_partial be (k := 1) (n := 2) (by norm_num) 1 ![![1, 0]] ⟨4, 8, 32⟩
  (fun _ _ _ _ => 12345) (fun _ _ => 7) 1 3 1

/-- C76, consequence: differences of coefficients of a row of the last block are linear equations in the key
without any noise. `row` is public; `a` is its mask part. -/
theorem C76_exact_equations (be : Backend) {k n : Nat} (m : W) (s : Fin k → Fin n → W)
    (dp : DecompositionParameters) (a : Fin (k + 1) → Fin dp.levelCount → Fin k → Fin n → W)
    (e : Fin (k + 1) → Fin dp.levelCount → W) (l : Fin dp.levelCount) (c c' : Fin n) (hc : c.val ≠ 0)
    (hc' : c'.val ≠ 0) :
    let row := Rgsw.jitEncrypt be m s dp a e 32 (finProdFinEquiv (Fin.last k, l))
    row (Fin.last k) c - row (Fin.last k) c' =
      ∑ i, (Nega.mul (row i.castSucc) (s i) c - Nega.mul (row i.castSucc) (s i) c') := by
  intro row
  have hn : 0 < n := by have := c.isLt; omega
  have hph := C20_rows be hn m s dp a e (Fin.last k) l
  rw [dif_neg (by simp), mul_one] at hph
  unfold rlwePhase at hph
  have h2 : (row (Fin.last k)) = fun c => (∑ i, Nega.mul (row i.castSucc) (s i) c) + e (Fin.last k) l +
      (if c.val = 0 then m * 2 ^ (32 - (l.val + 1) * dp.logBase) else 0) := by
    apply ev_injective hn
    rw [ev_add, ev_add, ev_const hn, ev_sum]
    simp only [ev_mul]
    rw [sub_eq_iff_eq_add] at hph
    rw [hph]
    ring
  have e1 := congrFun h2 c
  have e2 := congrFun h2 c'
  rw [if_neg hc] at e1
  rw [if_neg hc'] at e2
  rw [e1, e2, Finset.sum_sub_distrib]
  ring

example (be : Backend) := C76_exact_equations be (k := 1) (n := 4) 1 ![![1, 0, 1, 1]] ⟨4, 8, 32⟩
  (fun _ _ _ _ => 12345) (fun _ _ => 7) 3 1 2 (by decide) (by decide)

theorem mask_row (be : Backend) {k n : Nat} (m : W) (s : Fin k → Fin n → W)
    (dp : DecompositionParameters) (a : Fin (k + 1) → Fin dp.levelCount → Fin k → Fin n → W)
    (e : Fin (k + 1) → Fin dp.levelCount → W) (l : Fin dp.levelCount) (i : Fin k) :
    Rgsw.jitEncrypt be m s dp a e 32 (finProdFinEquiv (Fin.last k, l)) i.castSucc = a (Fin.last k) l i := by
  funext c
  unfold Rgsw.jitEncrypt
  rw [divNat_pair, modNat_pair]
  unfold encryptAndModifyOneRow
  rw [if_neg (fun h => absurd h.1 (Fin.castSucc_lt_last i).ne)]
  unfold Rlwe.jitEncrypt
  simp only [Fin.snoc_castSucc]

theorem frobenius_mod_two {A : Type*} [CommRing A] (y : A) (t : Nat) :
    ∃ r, (y - 1) ^ 2 ^ t = y ^ 2 ^ t + 1 + 2 * r := by
  induction t with
  | zero => exact ⟨-1, by ring⟩
  | succ t ih =>
    obtain ⟨r, hr⟩ := ih
    refine ⟨y ^ 2 ^ t + 2 * r * y ^ 2 ^ t + 2 * r + 2 * r ^ 2, ?_⟩
    have h : ∀ z : A, z ^ 2 ^ (t + 1) = (z ^ 2 ^ t) ^ 2 := fun z => by rw [← pow_mul, pow_succ]
    rw [h, h, hr]
    ring

/-- A polynomial whose coefficients have an odd sum is invertible modulo `X^(2^t) + 1` and `2^32`: half of
all polynomials. -/
theorem isUnit_of_odd {t : Nat} (a : Fin (2 ^ t) → W) (hodd : (∑ i, a i).toNat % 2 = 1) :
    IsUnit (ev a) := by
  have two_nil : IsNilpotent (2 : Q W (2 ^ t)) := by
    refine ⟨32, ?_⟩
    have h : (2 : Q W (2 ^ t)) = cst (2 ^ t) (2 : W) := (map_ofNat (AdjoinRoot.of _) 2).symm
    rw [h]
    unfold cst
    rw [← map_pow, show (2 : W) ^ 32 = 0 from by decide, map_zero]
  have x_nil : IsNilpotent (x W (2 ^ t) - 1) := by
    obtain ⟨r, hr⟩ := frobenius_mod_two (x W (2 ^ t)) t
    rw [x_pow_N, neg_add_cancel, zero_add] at hr
    have : IsNilpotent ((x W (2 ^ t) - 1) ^ 2 ^ t) := by
      rw [hr]; exact Commute.isNilpotent_mul_right (Commute.all _ _) two_nil
    exact (IsNilpotent.pow_iff_pos (by positivity)).1 this
  obtain ⟨h, hh⟩ : ∃ h : W, ∑ i, a i = 1 + 2 * h := by
    refine ⟨BitVec.ofNat 32 ((∑ i, a i).toNat / 2), ?_⟩
    apply BitVec.eq_of_toNat_eq
    generalize (∑ i, a i) = c at *
    rw [BitVec.toNat_add, BitVec.toNat_mul, BitVec.toNat_ofNat]
    have := c.isLt
    show c.toNat = (1 + (2 * (c.toNat / 2 % 2 ^ 32)) % 2 ^ 32) % 2 ^ 32
    omega
  have hdvd : (x W (2 ^ t) - 1) ∣ ∑ i, cst (2 ^ t) (a i) * (x W (2 ^ t) ^ (i : ℕ) - 1) :=
    Finset.dvd_sum (fun i _ => Dvd.dvd.mul_left (by simpa using sub_dvd_pow_sub_pow (x W (2 ^ t)) 1 i.val) _)
  obtain ⟨g, hg⟩ := hdvd
  have hev : ev a = 1 + (2 * cst (2 ^ t) h + (x W (2 ^ t) - 1) * g) := by
    rw [← hg, ev_eq]
    have h1 : (1 : Q W (2 ^ t)) + 2 * cst (2 ^ t) h = ∑ i, cst (2 ^ t) (a i) := by
      have : cst (2 ^ t) (∑ i, a i) = ∑ i, cst (2 ^ t) (a i) := map_sum _ _ _
      rw [← this, hh]
      unfold cst
      rw [map_add, map_mul, map_one, map_ofNat]
    rw [← add_assoc, h1, ← Finset.sum_add_distrib]
    exact Finset.sum_congr rfl (fun i _ => by ring)
  rw [hev]
  exact IsNilpotent.isUnit_one_add (Commute.isNilpotent_add (Commute.all _ _)
    (Commute.isNilpotent_mul_right (Commute.all _ _) two_nil)
    (Commute.isNilpotent_mul_right (Commute.all _ _) x_nil))

/-- C76, consequence: the key follows from public rows. If the masks of `k` rows of the last block form an
invertible matrix over the ring, the key is a linear function of these rows, their `k` scalar errors and the
encrypted bit. -/
theorem C76_key_from_rows (be : Backend) {k n : Nat} (hn : 0 < n) (m : W) (s : Fin k → Fin n → W)
    (dp : DecompositionParameters) (a : Fin (k + 1) → Fin dp.levelCount → Fin k → Fin n → W)
    (e : Fin (k + 1) → Fin dp.levelCount → W) (rows : Fin k → Fin dp.levelCount) (U : Fin k → Fin k → Q W n) :
    let C := Rgsw.jitEncrypt be m s dp a e 32
    (∀ i i', ∑ j, U i j * ev (C (finProdFinEquiv (Fin.last k, rows j)) (Fin.castSucc i')) = if i = i' then 1 else 0) →
    ∀ i, ev (s i) = ∑ j, U i j * (ev (C (finProdFinEquiv (Fin.last k, rows j)) (Fin.last k)) -
      ev (fun _ => e (Fin.last k) (rows j)) - cst n (m * 2 ^ (32 - ((rows j).val + 1) * dp.logBase))) := by
  intro C hU i
  have hrow : ∀ j, ev (C (finProdFinEquiv (Fin.last k, rows j)) (Fin.last k)) -
      ev (fun _ => e (Fin.last k) (rows j)) - cst n (m * 2 ^ (32 - ((rows j).val + 1) * dp.logBase)) =
      ∑ i' : Fin k, ev (C (finProdFinEquiv (Fin.last k, rows j)) i'.castSucc) * ev (s i') := by
    intro j
    have hph := C20_rows be hn m s dp a e (Fin.last k) (rows j)
    rw [dif_neg (by simp), mul_one] at hph
    unfold rlwePhase at hph
    rw [sub_eq_iff_eq_add] at hph
    show ev (Rgsw.jitEncrypt be m s dp a e 32 _ _) - _ - _ = _
    rw [hph]
    ring
  simp only [hrow, Finset.mul_sum]
  rw [Finset.sum_comm]
  simp only [← mul_assoc, ← Finset.sum_mul, hU]
  simp

/-- C76, consequence: for RLWE dimension one (the test parameters) there is a fixed way to compute, from one
public row of the last block of any RGSW ciphertext of a bit, at most `2 (2B + 1)` candidates among which is
the secret key, for every key, every scalar error of magnitude at most `B` and every mask with odd coefficient
sum. -/
theorem C76_key_recovery (t : Nat) (dp : DecompositionParameters) (l : Fin dp.levelCount) (B : Nat) :
    ∃ F : (Fin 2 → Fin (2 ^ t) → W) → Finset (Fin (2 ^ t) → W), (∀ row, (F row).card ≤ 2 * (2 * B + 1)) ∧
      ∀ (be : Backend) (m : Bool) (s : Fin 1 → Fin (2 ^ t) → W)
        (a : Fin 2 → Fin dp.levelCount → Fin 1 → Fin (2 ^ t) → W) (e : Fin 2 → Fin dp.levelCount → Int),
        |e 1 l| ≤ B → (∑ c, a 1 l 0 c).toNat % 2 = 1 →
        s 0 ∈ F (Rgsw.jitEncrypt be (if m then 1 else 0) s dp a (fun p l => BitVec.ofInt 32 (e p l)) 32
          (finProdFinEquiv (1, l))) := by
  classical
  refine ⟨fun row => ((Finset.univ : Finset Bool) ×ˢ Finset.Icc (-(B : Int)) B).image (fun z =>
    coeffs (Ring.inverse (ev (row 0)) * (ev (row 1) - ev (fun _ => BitVec.ofInt 32 z.2) -
      cst (2 ^ t) ((if z.1 then 1 else 0) * 2 ^ (32 - (l.val + 1) * dp.logBase))))), ?_, ?_⟩
  · intro row
    refine le_trans Finset.card_image_le ?_
    rw [Finset.card_product, Int.card_Icc]
    simp
    omega
  · intro be m s a e he hodd
    rw [Finset.mem_image]
    refine ⟨(m, e 1 l), ?_, ?_⟩
    · rw [Finset.mem_product, Finset.mem_Icc]
      exact ⟨Finset.mem_univ _, abs_le.1 he⟩
    · have hn : 0 < 2 ^ t := by positivity
      have hmask := mask_row be (if m then 1 else 0) s dp a (fun p l => BitVec.ofInt 32 (e p l)) l 0
      have hmask' : Rgsw.jitEncrypt be (if m then 1 else 0) s dp a (fun p l => BitVec.ofInt 32 (e p l)) 32
          (finProdFinEquiv (1, l)) 0 = a 1 l 0 := hmask
      have hu := isUnit_of_odd (a 1 l 0) hodd
      have h := C76_key_from_rows be hn (if m then 1 else 0) s dp a (fun p l => BitVec.ofInt 32 (e p l))
        (fun _ => l) (fun _ _ => Ring.inverse (ev (a 1 l 0))) (by
          intro i i'
          have hi : i = i' := Subsingleton.elim _ _
          rw [if_pos hi, Fin.sum_univ_one]
          have : i' = 0 := Subsingleton.elim _ _
          rw [this]
          rw [hmask]
          exact Ring.inverse_mul_cancel _ hu) 0
      rw [Fin.sum_univ_one] at h
      simp only
      rw [hmask']
      apply ev_injective hn
      rw [ev_coeffs hn, h]
      rfl

theorem bskInputs_bit {d : Nat} (useBmmp : Bool) (lz : Fin d → Bool) (i : Nat) :
    ∃ m : Bool, bskInputs useBmmp (fun i => BitVec.ofInt 32 (bit (lz i))) i = if m then 1 else 0 := by
  have h : ∀ j, ∃ b : Bool, (if h : j < d then BitVec.ofInt 32 (bit (lz ⟨j, h⟩)) else (0 : W)) =
      if b then 1 else 0 := by
    intro j
    by_cases hj : j < d
    · exact ⟨lz ⟨j, hj⟩, by rw [dif_pos hj]; cases lz ⟨j, hj⟩ <;> rfl⟩
    · exact ⟨false, by rw [dif_neg hj]; rfl⟩
  unfold bskInputs
  simp only
  obtain ⟨b1, h1⟩ := h (2 * (i / 3))
  obtain ⟨b2, h2⟩ := h (2 * (i / 3) + 1)
  obtain ⟨b3, h3⟩ := h i
  rw [h1, h2, h3]
  split
  · split
    · exact ⟨b1 && b2, by cases b1 <;> cases b2 <;> decide⟩
    · split
      · exact ⟨b1 && !b2, by cases b1 <;> cases b2 <;> decide⟩
      · exact ⟨!b1 && b2, by cases b1 <;> cases b2 <;> decide⟩
  · exact ⟨b3, rfl⟩

/-- C76, consequence for the server's key: in a bootstrapping key made by `gen_bootstrapping_key` for RLWE
dimension one, every entry whose last-block mask at level `l` has odd coefficient sum determines the secret
RLWE key up to `2 (2B + 1)` candidates. -/
theorem C76_bootstrapping_key (t : Nat) (dp : DecompositionParameters) (l : Fin dp.levelCount) (B : Nat) :
    ∃ F : (Fin 2 → Fin (2 ^ t) → W) → Finset (Fin (2 ^ t) → W), (∀ row, (F row).card ≤ 2 * (2 * B + 1)) ∧
      ∀ (be : Backend) {d : Nat} (lz : Fin d → Bool) (s : Fin 1 → Fin (2 ^ t) → W)
        (a : Nat → Fin 2 → Fin dp.levelCount → Fin 1 → Fin (2 ^ t) → W)
        (e : Nat → Fin 2 → Fin dp.levelCount → Int) (bsk : BootstrappingKey (2 * dp.levelCount) 1 (2 ^ t)),
        genBootstrappingKey be ⟨32, fun i => BitVec.ofInt 32 (bit (lz i))⟩ ⟨32, s⟩ dp a
          (fun i p l => BitVec.ofInt 32 (e i p l)) true false = .ok bsk →
        ∀ i, i < d + d / 2 → |e i 1 l| ≤ B → (∑ c, a i 1 l 0 c).toNat % 2 = 1 →
          ∃ rows, bskAt bsk i = .ok (.words rows) ∧ s 0 ∈ F (rows (finProdFinEquiv (1, l))) := by
  obtain ⟨F, h1, h2⟩ := C76_key_recovery t dp l B
  refine ⟨F, h1, ?_⟩
  intro be d lz s a e bsk hgen i hi he hodd
  obtain ⟨-, hbat, -, hat⟩ := bskAt_gen be _ _ dp a _ true false bsk hgen
  obtain ⟨m, hm⟩ := bskInputs_bit true lz i
  have := hat i hi
  rw [hbat, hm] at this
  exact ⟨_, this, h2 be m s (a i) (e i) he hodd⟩

/-- Non-vacuity (also of `C76_key_from_rows`): a key, masks and errors as in the hypotheses, for the test parameters. -/
example : ∃ F : (Fin 2 → Fin (2 ^ 9) → W) → Finset (Fin (2 ^ 9) → W), (∀ row, (F row).card ≤ 2 * (2 * 10 + 1)) ∧
    (fun c => if c.val % 3 = 0 then 1 else 0) ∈ F (Rgsw.jitEncrypt ⟨0, fun _ u v => ∑ i, u i * v i⟩ 1
      (fun _ c => if c.val % 3 = 0 then 1 else 0) ⟨4, 8, 32⟩ (fun _ _ _ c => if c.val = 7 then 12345 else 6)
      (fun _ _ => BitVec.ofInt 32 (-9)) 32 (finProdFinEquiv (1, 3))) := by
  obtain ⟨F, h1, h2⟩ := C76_key_recovery 9 ⟨4, 8, 32⟩ 3 10
  refine ⟨F, h1, h2 ⟨0, fun _ u v => ∑ i, u i * v i⟩ true (fun _ c => if c.val % 3 = 0 then 1 else 0)
    (fun _ _ _ c => if c.val = 7 then 12345 else 6) (fun _ _ => -9) (by decide) ?_⟩
  have h : ∑ c : Fin (2 ^ 9), (if c.val = 7 then 12345 else 6 : W) =
      ∑ c : Fin (2 ^ 9), ((6 : W) + (if c = 7 then 12339 else 0)) := by
    refine Finset.sum_congr rfl (fun c _ => ?_)
    by_cases hc : c.val = 7
    · have : c = 7 := Fin.ext hc
      rw [if_pos hc, if_pos this]; decide
    · have : c ≠ 7 := fun h => hc (by rw [h]; rfl)
      rw [if_neg hc, if_neg this]; decide
  rw [h, Finset.sum_add_distrib, Finset.sum_ite_eq' Finset.univ (7 : Fin (2 ^ 9))]
  simp

end Verif.Props

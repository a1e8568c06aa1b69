import Verif.Props.RgswNoise
import Mathlib.LinearAlgebra.Matrix.NonsingularInverse
import Mathlib.RingTheory.AdjoinRoot
import Mathlib.Data.ZMod.Basic

/-!
# Property C76 for every RLWE dimension: the secret key from the bootstrapping key

The production parameters have RLWE dimension two. `k` rows whose masks form an invertible matrix determine the key up to
the `k` scalar errors and the encrypted bit. Whether the matrix is invertible can be read off the parities of the
coefficient sums.
-/

namespace Verif.Props
open Verif.Rlwe Verif.Nega Verif.MatrixUtils Verif.Arith Verif.Bootstrap Verif.Rgsw

/-- The parity of a word. -/
def parityW : W →+* ZMod 2 where
  toFun w := (w.toNat : ZMod 2)
  map_one' := by decide
  map_zero' := by decide
  map_add' a b := by
    have h : (((a.toNat + b.toNat) % 2 ^ 32 : Nat) : ZMod 2) = ((a.toNat + b.toNat : Nat) : ZMod 2) :=
      (ZMod.natCast_eq_natCast_iff' _ _ 2).2 (Nat.mod_mod_of_dvd _ (by norm_num))
    show (((a + b).toNat : Nat) : ZMod 2) = _
    rw [BitVec.toNat_add, h, Nat.cast_add]
  map_mul' a b := by
    have h : (((a.toNat * b.toNat) % 2 ^ 32 : Nat) : ZMod 2) = ((a.toNat * b.toNat : Nat) : ZMod 2) :=
      (ZMod.natCast_eq_natCast_iff' _ _ 2).2 (Nat.mod_mod_of_dvd _ (by norm_num))
    show (((a * b).toNat : Nat) : ZMod 2) = _
    rw [BitVec.toNat_mul, h, Nat.cast_mul]

theorem parityW_eq_one_iff (w : W) : parityW w = 1 ↔ w.toNat % 2 = 1 := by
  show (w.toNat : ZMod 2) = 1 ↔ _
  rw [show (1 : ZMod 2) = ((1 : Nat) : ZMod 2) from rfl, ZMod.natCast_eq_natCast_iff']

/-- The parity of the sum of the coefficients is a ring homomorphism: evaluation at one, modulo two. -/
noncomputable def parityQ (t : Nat) : Q W (2 ^ t) →+* ZMod 2 :=
  AdjoinRoot.lift parityW 1 (by
    unfold modulus
    simp only [Polynomial.eval₂_add, Polynomial.eval₂_pow, Polynomial.eval₂_X, Polynomial.eval₂_one, one_pow]
    decide)

theorem parityQ_ev {t : Nat} (a : Fin (2 ^ t) → W) : parityQ t (ev a) = parityW (∑ c, a c) := by
  rw [ev_eq, map_sum, map_sum]
  refine Finset.sum_congr rfl (fun c _ => ?_)
  have h1 : parityQ t (cst (2 ^ t) (a c)) = parityW (a c) := AdjoinRoot.lift_of _
  have h2 : parityQ t (x W (2 ^ t)) = 1 := AdjoinRoot.lift_root _
  rw [map_mul, map_pow, h1, h2, one_pow, mul_one]

/-- The specification of invertible masks: the matrix of the parities of the coefficient sums of the masks
has odd determinant. -/
def parityMatrix {k n : Nat} (M : Fin k → Fin k → Fin n → W) : Matrix (Fin k) (Fin k) (ZMod 2) :=
  Matrix.of fun j i => (((∑ c, M j i c).toNat : Nat) : ZMod 2)

/-- A matrix of polynomials is invertible if its parity matrix has odd determinant. -/
theorem isUnit_of_parity {t k : Nat} (M : Fin k → Fin k → Fin (2 ^ t) → W) (h : (parityMatrix M).det = 1) :
    IsUnit (Matrix.of fun j i => ev (M j i)).det := by
  have hn : 0 < 2 ^ t := by positivity
  have hd : parityQ t (Matrix.of fun j i => ev (M j i)).det = 1 := by
    rw [RingHom.map_det, ← h]
    congr 1
    ext j i
    exact parityQ_ev (M j i)
  rw [← ev_coeffs hn (Matrix.of fun j i => ev (M j i)).det] at hd ⊢
  refine isUnit_of_odd _ ((parityW_eq_one_iff _).1 ?_)
  rw [← parityQ_ev]
  exact hd

/-- C76, consequence for every RLWE dimension `k`: there is a fixed way to compute, from `k` public rows of the
last block of any RGSW ciphertext of a bit, at most `2 (2B + 1)^k` candidates among which is the secret key, for
every key, all scalar errors of magnitude at most `B` and all masks whose parities have odd determinant. -/
theorem C76_key_recovery_dimension (t k : Nat) (dp : DecompositionParameters) (rows : Fin k → Fin dp.levelCount)
    (B : Nat) :
    ∃ F : (Fin k → Fin (k + 1) → Fin (2 ^ t) → W) → Finset (Fin k → Fin (2 ^ t) → W),
      (∀ R, (F R).card ≤ 2 * (2 * B + 1) ^ k) ∧
      ∀ (be : Backend) (m : Bool) (s : Fin k → Fin (2 ^ t) → W)
        (a : Fin (k + 1) → Fin dp.levelCount → Fin k → Fin (2 ^ t) → W)
        (e : Fin (k + 1) → Fin dp.levelCount → Int),
        (∀ j, |e (Fin.last k) (rows j)| ≤ B) → (parityMatrix fun j => a (Fin.last k) (rows j)).det = 1 →
        s ∈ F (fun j => Rgsw.jitEncrypt be (if m then 1 else 0) s dp a (fun p l => BitVec.ofInt 32 (e p l)) 32
          (finProdFinEquiv (Fin.last k, rows j))) := by
  classical
  have hn : 0 < 2 ^ t := by positivity
  refine ⟨fun R => ((Finset.univ : Finset Bool) ×ˢ Fintype.piFinset (fun _ : Fin k =>
      Finset.Icc (-(B : Int)) B)).image (fun z i => coeffs (∑ j,
        (Matrix.of fun j i => ev (R j (Fin.castSucc i)))⁻¹ i j * (ev (R j (Fin.last k)) -
          ev (fun _ => BitVec.ofInt 32 (z.2 j)) -
          cst (2 ^ t) ((if z.1 then 1 else 0) * 2 ^ (32 - ((rows j).val + 1) * dp.logBase))))), ?_, ?_⟩
  · intro R
    refine le_trans Finset.card_image_le ?_
    rw [Finset.card_product, Fintype.card_piFinset]
    simp only [Int.card_Icc, Finset.prod_const, Finset.card_univ, Fintype.card_bool, Fintype.card_fin]
    rw [show ((B : Int) + 1 - -(B : Int)).toNat = 2 * B + 1 by omega]
  · intro be m s a e he hdet
    rw [Finset.mem_image]
    refine ⟨(m, fun j => e (Fin.last k) (rows j)), ?_, ?_⟩
    · rw [Finset.mem_product, Fintype.mem_piFinset]
      exact ⟨Finset.mem_univ _, fun j => Finset.mem_Icc.2 (abs_le.1 (he j))⟩
    · have hmask : ∀ j i, Rgsw.jitEncrypt be (if m then 1 else 0) s dp a (fun p l => BitVec.ofInt 32 (e p l)) 32
          (finProdFinEquiv (Fin.last k, rows j)) (Fin.castSucc i) = a (Fin.last k) (rows j) i := fun j i =>
        mask_row be (if m then 1 else 0) s dp a (fun p l => BitVec.ofInt 32 (e p l)) (rows j) i
      have hu := isUnit_of_parity _ hdet
      funext i
      apply ev_injective hn
      rw [ev_coeffs hn]
      refine (C76_key_from_rows be hn (if m then 1 else 0) s dp a (fun p l => BitVec.ofInt 32 (e p l)) rows
        _ ?_ i).symm
      intro i i'
      have := congrFun (congrFun (Matrix.nonsing_inv_mul _ hu) i) i'
      rw [Matrix.mul_apply, Matrix.one_apply] at this
      simp only [hmask]
      exact this

/-- C76, consequence for the server's key, for every RLWE dimension (two in production): every entry of a
bootstrapping key made by `gen_bootstrapping_key` with `k` last-block rows whose mask parities have odd determinant
determines the secret RLWE key up to `2 (2B + 1)^k` candidates. -/
theorem C76_bootstrapping_key_dimension (t k : Nat) (dp : DecompositionParameters)
    (rows : Fin k → Fin dp.levelCount) (B : Nat) :
    ∃ F : (Fin k → Fin (k + 1) → Fin (2 ^ t) → W) → Finset (Fin k → Fin (2 ^ t) → W),
      (∀ R, (F R).card ≤ 2 * (2 * B + 1) ^ k) ∧
      ∀ (be : Backend) {d : Nat} (lz : Fin d → Bool) (s : Fin k → Fin (2 ^ t) → W)
        (a : Nat → Fin (k + 1) → Fin dp.levelCount → Fin k → Fin (2 ^ t) → W)
        (e : Nat → Fin (k + 1) → Fin dp.levelCount → Int) (useBmmp : Bool)
        (bsk : BootstrappingKey ((k + 1) * dp.levelCount) k (2 ^ t)),
        genBootstrappingKey be ⟨32, fun i => BitVec.ofInt 32 (bit (lz i))⟩ ⟨32, s⟩ dp a
          (fun i p l => BitVec.ofInt 32 (e i p l)) useBmmp false = .ok bsk →
        ∀ i, i < (if useBmmp then d + d / 2 else d) → (∀ j, |e i (Fin.last k) (rows j)| ≤ B) →
          (parityMatrix fun j => a i (Fin.last k) (rows j)).det = 1 →
          ∃ C, bskAt bsk i = .ok (.words C) ∧ s ∈ F (fun j => C (finProdFinEquiv (Fin.last k, rows j))) := by
  obtain ⟨F, h1, h2⟩ := C76_key_recovery_dimension t k dp rows B
  refine ⟨F, h1, ?_⟩
  intro be d lz s a e useBmmp bsk hgen i hi he hodd
  obtain ⟨-, hbat, -, hat⟩ := bskAt_gen be _ _ dp a _ useBmmp false bsk hgen
  obtain ⟨m, hm⟩ := bskInputs_bit useBmmp lz i
  have := hat i hi
  rw [hbat, ite_self, hm] at this
  exact ⟨_, this, h2 be m s (a i) (e i) he hodd⟩

/-- The masks of the examples: the unit matrix plus even coefficients. -/
def exMask {k L n : Nat} (l : Fin L) (i : Fin k) (c : Fin n) : W :=
  if c.val = 0 then (if l.val = i.val then 12345 else 6) else 0

theorem exMask_parity {k n : Nat} {L : Nat} (rows : Fin k → Fin L) (hrows : ∀ j, (rows j).val = j.val) (hn : 0 < n) :
    (parityMatrix fun j => (exMask (rows j) : Fin k → Fin n → W)).det = 1 := by
  rw [show (parityMatrix fun j => (exMask (rows j) : Fin k → Fin n → W)) = 1 from ?_, Matrix.det_one]
  ext j i
  unfold parityMatrix
  rw [Matrix.of_apply, Matrix.one_apply, Finset.sum_eq_single (⟨0, hn⟩ : Fin n)
    (fun c _ hc => by
      unfold exMask
      exact if_neg (fun h => hc (Fin.ext h))) (fun h => absurd (Finset.mem_univ _) h)]
  unfold exMask
  simp only
  rw [if_pos True.intro, hrows j]
  by_cases h : j = i
  · rw [if_pos (by rw [h]), if_pos h]; decide
  · rw [if_neg (fun h' => h (Fin.ext h')), if_neg h]; decide

/-- Non-vacuity: the production parameters (dimension two, degree 512, six levels), errors up to ten standard
deviations, an LWE key of dimension 800: the generation succeeds and the hypotheses hold for the entry 799. -/
example : ∃ F : (Fin 2 → Fin 3 → Fin (2 ^ 9) → W) → Finset (Fin 2 → Fin (2 ^ 9) → W),
    (∀ R, (F R).card ≤ 2 * (2 * 2560 + 1) ^ 2) ∧
    ∃ (bsk : BootstrappingKey (3 * 6) 2 (2 ^ 9)) (C : Fin (3 * 6) → Fin 3 → Fin (2 ^ 9) → W),
      bskAt bsk 799 = .ok (.words C) ∧
      (fun i c => if (c.val + i.val) % 3 = 0 then 1 else 0) ∈ F (fun j =>
        C (finProdFinEquiv ((Fin.last 2 : Fin 3), (⟨j.val, by omega⟩ : Fin 6)))) := by
  obtain ⟨F, h1, h2⟩ := C76_bootstrapping_key_dimension 9 2 ⟨4, 6, 32⟩ (fun j => ⟨j.val, by
    show j.val < 6
    omega⟩) 2560
  obtain ⟨bsk, hb⟩ : ∃ bsk, genBootstrappingKey ⟨0, fun _ u v => ∑ i, u i * v i⟩
      ⟨32, fun i : Fin 800 => BitVec.ofInt 32 (bit (decide (i.val % 5 = 0)))⟩
      (⟨32, fun i c => if (c.val + i.val) % 3 = 0 then 1 else 0⟩ : RlweSecretKey 2 (2 ^ 9)) ⟨4, 6, 32⟩
      (fun _ _ l i c => exMask l i c) (fun i p l => BitVec.ofInt 32 (-2559)) true false = .ok bsk := ⟨_, rfl⟩
  obtain ⟨C, hC⟩ := h2 _ (fun i : Fin 800 => decide (i.val % 5 = 0)) _ _ (fun _ _ _ => -2559) true bsk hb 799
    (by norm_num) (fun _ => by norm_num) (exMask_parity _ (fun _ => rfl) (by norm_num))
  exact ⟨F, h1, bsk, C, hC⟩

/-- Six of the sixteen parity matrices of dimension two have odd determinant. -/
theorem parity_count : (Finset.univ.filter fun M : Matrix (Fin 2) (Fin 2) (ZMod 2) => M.det = 1).card = 6 := by
  simp only [Matrix.det_fin_two]
  decide

/-! ## The LWE key

Once the RLWE key is known the encrypted bits can be read from the rows, without error: the noise of the first two
coefficients is the same. -/

/-- The first two coefficients of the phase of a last-block row differ exactly if the bit is set. -/
theorem bit_from_row (be : Backend) {k n : Nat} (hn : 2 ≤ n) (m : Bool) (s : Fin k → Fin n → W)
    (dp : DecompositionParameters) (hlog : 0 < dp.logBase)
    (a : Fin (k + 1) → Fin dp.levelCount → Fin k → Fin n → W) (e : Fin (k + 1) → Fin dp.levelCount → W)
    (l : Fin dp.levelCount) :
    let f := coeffs (rlwePhase (Rgsw.jitEncrypt be (if m then 1 else 0) s dp a e 32
      (finProdFinEquiv (Fin.last k, l))) s)
    f ⟨0, by omega⟩ ≠ f ⟨1, by omega⟩ ↔ m = true := by
  intro f
  have hf : f = fun c => e (Fin.last k) l +
      (if c.val = 0 then (if m then 1 else 0) * 2 ^ (32 - (l.val + 1) * dp.logBase) else 0) := by
    show coeffs _ = _
    rw [C20_rows be (by omega) _ s dp a e (Fin.last k) l, dif_neg (by simp), mul_one, ← ev_const (by omega), ← ev_add,
      coeffs_ev (by omega)]
  rw [hf]
  simp only [if_pos, if_neg one_ne_zero, add_zero]
  cases m with
  | false => simp
  | true =>
    simp only [if_true, one_mul, iff_true]
    intro h
    have h0 : (2 : W) ^ (32 - (l.val + 1) * dp.logBase) = 0 := by
      have := congrArg (fun z => z - e (Fin.last k) l) h
      simpa using this
    have hx : 32 - (l.val + 1) * dp.logBase < 32 := by
      have : 0 < (l.val + 1) * dp.logBase := Nat.mul_pos (by omega) hlog
      omega
    generalize 32 - (l.val + 1) * dp.logBase = y at h0 hx
    revert h0
    interval_cases y <;> decide

/-- Bit `j` of the LWE key, none after the end. -/
def keyBit {d : Nat} (lz : Fin d → Bool) (j : Nat) : Bool := if h : j < d then lz ⟨j, h⟩ else false

theorem keyBit_word {d : Nat} (lz : Fin d → Bool) (j : Nat) :
    (if h : j < d then BitVec.ofInt 32 (bit (lz ⟨j, h⟩)) else (0 : W)) = if keyBit lz j then 1 else 0 := by
  unfold keyBit
  by_cases h : j < d
  · rw [dif_pos h, dif_pos h]; cases lz ⟨j, h⟩ <;> rfl
  · rw [dif_neg h, dif_neg h]; rfl

/-- The bits that the entries of the bootstrapping key encrypt: a pair of key bits in three entries, or one in each. -/
def entryBit {d : Nat} (useBmmp : Bool) (lz : Fin d → Bool) (i : Nat) : Bool :=
  if useBmmp then
    if i % 3 = 0 then keyBit lz (2 * (i / 3)) && keyBit lz (2 * (i / 3) + 1)
    else if i % 3 = 1 then keyBit lz (2 * (i / 3)) && !keyBit lz (2 * (i / 3) + 1)
    else !keyBit lz (2 * (i / 3)) && keyBit lz (2 * (i / 3) + 1)
  else keyBit lz i

theorem bskInputs_value {d : Nat} (useBmmp : Bool) (lz : Fin d → Bool) (i : Nat) :
    bskInputs useBmmp (fun i => BitVec.ofInt 32 (bit (lz i))) i = if entryBit useBmmp lz i then 1 else 0 := by
  unfold bskInputs entryBit
  simp only [keyBit_word]
  generalize keyBit lz (2 * (i / 3)) = b1
  generalize keyBit lz (2 * (i / 3) + 1) = b2
  split
  · split
    · cases b1 <;> cases b2 <;> decide
    · split
      · cases b1 <;> cases b2 <;> decide
      · cases b1 <;> cases b2 <;> decide
  · rfl

/-- What somebody with the bootstrapping key and an RLWE key reads from entry `i`. -/
noncomputable def readEntry {k n : Nat} (hn : 2 ≤ n) (dp : DecompositionParameters)
    (bsk : BootstrappingKey ((k + 1) * dp.levelCount) k n) (l : Fin dp.levelCount) (s : Fin k → Fin n → W)
    (i : Nat) : Bool :=
  match bskAt bsk i with
  | .ok (.words C) =>
    let f := coeffs (rlwePhase (C (finProdFinEquiv (Fin.last k, l))) s)
    decide (f ⟨0, by omega⟩ ≠ f ⟨1, by omega⟩)
  | _ => false

/-- The LWE key put together from the entries. -/
noncomputable def readKey {k n : Nat} (hn : 2 ≤ n) (dp : DecompositionParameters)
    (bsk : BootstrappingKey ((k + 1) * dp.levelCount) k n) (l : Fin dp.levelCount) (s : Fin k → Fin n → W)
    (d : Nat) : Fin d → Bool := fun j =>
  if bsk.useBmmp then
    readEntry hn dp bsk l s (3 * (j.val / 2)) || readEntry hn dp bsk l s (3 * (j.val / 2) + 1 + j.val % 2)
  else readEntry hn dp bsk l s j.val

/-- The RLWE key determines the LWE key, given the bootstrapping key. -/
theorem C76_lwe_key_from_rlwe_key (be : Backend) {d k n : Nat} (hn : 2 ≤ n) (lz : Fin d → Bool)
    (s : Fin k → Fin n → W) (dp : DecompositionParameters) (hlog : 0 < dp.logBase)
    (a : Nat → Fin (k + 1) → Fin dp.levelCount → Fin k → Fin n → W) (e : Nat → Fin (k + 1) → Fin dp.levelCount → W)
    (useBmmp : Bool) (bsk : BootstrappingKey ((k + 1) * dp.levelCount) k n)
    (h : genBootstrappingKey be ⟨32, fun i => BitVec.ofInt 32 (bit (lz i))⟩ ⟨32, s⟩ dp a e useBmmp false = .ok bsk)
    (l : Fin dp.levelCount) : readKey hn dp bsk l s d = lz := by
  obtain ⟨hb, hbat, heven, hat⟩ := bskAt_gen be _ _ dp a _ useBmmp false bsk h
  have hread : ∀ i, i < (if useBmmp then d + d / 2 else d) → readEntry hn dp bsk l s i = entryBit useBmmp lz i := by
    intro i hi
    have h1 := hat i hi
    rw [hbat, ite_self, bskInputs_value] at h1
    have h2 : bskAt bsk i = .ok (.words (Rgsw.jitEncrypt be (if entryBit useBmmp lz i then 1 else 0) s dp (a i) (e i) 32)) := h1
    unfold readEntry
    rw [h2]
    simp only
    rw [Bool.eq_iff_iff, decide_eq_true_eq]
    exact bit_from_row be hn (entryBit useBmmp lz i) s dp hlog (a i) (e i) l
  funext j
  have hj := j.isLt
  unfold readKey
  rw [hb]
  have hk : ∀ i (hi : i < d), keyBit lz i = lz ⟨i, hi⟩ := fun i hi => by unfold keyBit; rw [dif_pos hi]
  cases useBmmp with
  | false =>
    simp only [Bool.false_eq_true, if_false] at hread ⊢
    rw [hread _ hj]
    unfold entryBit
    simp only [Bool.false_eq_true, if_false]
    exact hk _ hj
  | true =>
    simp only [if_true] at hread ⊢
    rw [hread _ (by omega), hread _ (by omega)]
    unfold entryBit
    simp only [if_true]
    have e0 : 3 * (j.val / 2) % 3 = 0 := by omega
    have e1 : 3 * (j.val / 2) / 3 = j.val / 2 := by omega
    rw [if_pos e0, e1]
    rcases Nat.mod_two_eq_zero_or_one j.val with hm | hm
    · have e2 : (3 * (j.val / 2) + 1 + j.val % 2) % 3 = 1 := by omega
      have e3 : (3 * (j.val / 2) + 1 + j.val % 2) / 3 = j.val / 2 := by omega
      rw [e2, e3, if_neg (by decide), if_pos rfl]
      have e4 : 2 * (j.val / 2) = j.val := by omega
      rw [e4, hk _ hj]
      cases keyBit lz (j.val + 1) <;> cases lz j <;> rfl
    · have e2 : (3 * (j.val / 2) + 1 + j.val % 2) % 3 = 2 := by omega
      have e3 : (3 * (j.val / 2) + 1 + j.val % 2) / 3 = j.val / 2 := by omega
      rw [e2, e3, if_neg (by decide), if_neg (by decide)]
      have e4 : 2 * (j.val / 2) + 1 = j.val := by omega
      rw [e4, hk _ hj]
      cases keyBit lz (2 * (j.val / 2)) <;> cases lz j <;> rfl

/-- C76, consequence for the client's key: there is a fixed way to compute, from the bootstrapping key alone, at most
`2 (2B + 1)^k` candidates for the LWE key, with which all inputs and outputs are encrypted, among which is the right one,
if `k` last-block rows of entry `i` have mask parities with odd determinant and errors of magnitude at most `B`. -/
theorem C76_lwe_key_recovery (t k d : Nat) (ht : 0 < t) (dp : DecompositionParameters) (hlog : 0 < dp.logBase)
    (rows : Fin k → Fin dp.levelCount) (l : Fin dp.levelCount) (i B : Nat) :
    ∃ F : BootstrappingKey ((k + 1) * dp.levelCount) k (2 ^ t) → Finset (Fin d → Bool),
      (∀ bsk, (F bsk).card ≤ 2 * (2 * B + 1) ^ k) ∧
      ∀ (be : Backend) (lz : Fin d → Bool) (s : Fin k → Fin (2 ^ t) → W)
        (a : Nat → Fin (k + 1) → Fin dp.levelCount → Fin k → Fin (2 ^ t) → W)
        (e : Nat → Fin (k + 1) → Fin dp.levelCount → Int) (useBmmp : Bool)
        (bsk : BootstrappingKey ((k + 1) * dp.levelCount) k (2 ^ t)),
        genBootstrappingKey be ⟨32, fun i => BitVec.ofInt 32 (bit (lz i))⟩ ⟨32, s⟩ dp a
          (fun i p l => BitVec.ofInt 32 (e i p l)) useBmmp false = .ok bsk →
        i < (if useBmmp then d + d / 2 else d) → (∀ j, |e i (Fin.last k) (rows j)| ≤ B) →
        (parityMatrix fun j => a i (Fin.last k) (rows j)).det = 1 → lz ∈ F bsk := by
  classical
  obtain ⟨F, h1, h2⟩ := C76_bootstrapping_key_dimension t k dp rows B
  have hn : 2 ≤ 2 ^ t := by
    calc 2 = 2 ^ 1 := rfl
      _ ≤ 2 ^ t := Nat.pow_le_pow_right (by norm_num) ht
  refine ⟨fun bsk => match bskAt bsk i with
    | .ok (.words C) => (F fun j => C (finProdFinEquiv (Fin.last k, rows j))).image fun s => readKey hn dp bsk l s d
    | _ => ∅, ?_, ?_⟩
  · intro bsk
    simp only
    split
    · exact le_trans Finset.card_image_le (h1 _)
    · simp
  · intro be lz s a e useBmmp bsk hgen hi he hdet
    obtain ⟨C, hC, hs⟩ := h2 be lz s a e useBmmp bsk hgen i hi he hdet
    simp only [hC]
    exact Finset.mem_image.2 ⟨s, hs, C76_lwe_key_from_rlwe_key be hn lz s dp hlog a _ useBmmp bsk hgen l⟩

/-- Non-vacuity: the production parameters as above. -/
example : ∃ F : BootstrappingKey (3 * 6) 2 (2 ^ 9) → Finset (Fin 800 → Bool),
    (∀ bsk, (F bsk).card ≤ 2 * (2 * 2560 + 1) ^ 2) ∧ ∃ bsk,
      genBootstrappingKey ⟨0, fun _ u v => ∑ i, u i * v i⟩
        ⟨32, fun i : Fin 800 => BitVec.ofInt 32 (bit (decide (i.val % 5 = 0)))⟩
        (⟨32, fun i c => if (c.val + i.val) % 3 = 0 then 1 else 0⟩ : RlweSecretKey 2 (2 ^ 9)) ⟨4, 6, 32⟩
        (fun _ _ l i c => exMask l i c) (fun _ _ _ => BitVec.ofInt 32 (-2559)) true false = .ok bsk ∧
      (fun i => decide (i.val % 5 = 0)) ∈ F bsk := by
  obtain ⟨F, h1, h2⟩ := C76_lwe_key_recovery 9 2 800 (by norm_num) ⟨4, 6, 32⟩ (by norm_num) (fun j => ⟨j.val, by
    show j.val < 6
    omega⟩) ⟨0, by norm_num⟩ 799 2560
  obtain ⟨bsk, hb⟩ : ∃ bsk, genBootstrappingKey ⟨0, fun _ u v => ∑ i, u i * v i⟩
      ⟨32, fun i : Fin 800 => BitVec.ofInt 32 (bit (decide (i.val % 5 = 0)))⟩
      (⟨32, fun i c => if (c.val + i.val) % 3 = 0 then 1 else 0⟩ : RlweSecretKey 2 (2 ^ 9)) ⟨4, 6, 32⟩
      (fun _ _ l i c => exMask l i c) (fun _ _ _ => BitVec.ofInt 32 (-2559)) true false = .ok bsk := ⟨_, rfl⟩
  exact ⟨F, h1, bsk, hb, h2 _ (fun i : Fin 800 => decide (i.val % 5 = 0)) _ _ (fun _ _ _ => -2559) true bsk hb
    (by norm_num) (fun _ => by norm_num) (exMask_parity _ (fun _ => rfl) (by norm_num))⟩

end Verif.Props

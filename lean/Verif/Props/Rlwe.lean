import Verif.Lemmas.Rlwe
import Verif.Props.Lwe
import Verif.Props.Decomposition
import Verif.Props.Polynomial

/-!
# Properties C17 - C19: RLWE encryption, sample extraction, key switching
-/

namespace Verif.Props
open Verif.Rlwe Verif.Nega Verif.MatrixUtils Verif.Arith Verif.Encoding Verif.Decomposition
open Verif.Bootstrap Verif.KeySwitch

/-- C17: for every key, masks, plaintext, error and modulus `2^log`, decryption before rounding returns
plaintext + error in every coefficient. -/
theorem C17_phase (be : Backend) {k n : Nat} (pt err : Fin n → W) (s a : Fin k → Fin n → W) (log : Nat)
    (hl : log ≤ 32) (i : Fin n) :
    (decryptWithNoise be (Rlwe.jitEncrypt be pt s a err log) ⟨log, s⟩ i).toNat =
      ((pt i).toNat + (err i).toNat) % 2 ^ log := by
  unfold decryptWithNoise Rlwe.jitEncrypt
  simp only [Fin.snoc_last, Fin.snoc_castSucc]
  rw [modLog_sub_modLog _ _ _ hl, modLog_toNat _ _ hl]
  have : (polyDotProduct be.tpu a s i + pt i + err i - polyDotProduct be.tpu a s i) = pt i + err i := by ring
  rw [this]
  exact toNat_modEq_add _ _ _ hl

example (be : Backend) := C17_phase be (k := 1) (n := 2) ![0x10000000#32, 3] ![77, 0xFFFFFFFF#32] ![![1, 0]] ![![123, 456]] 32 (by norm_num)

/-- C17: what decryption before rounding computes (modulus `2^32`): the polynomial `b - Σ a_i s_i`
modulo `X^N + 1`, for every ciphertext. -/
theorem C17_decrypt_any (be : Backend) {k n : Nat} (hn : 0 < n) (ct : Fin (k + 1) → Fin n → W)
    (s : Fin k → Fin n → W) :
    toPoly (decryptWithNoise be ct ⟨32, s⟩) =
      (toPoly (ct (Fin.last k)) - ∑ i : Fin k, toPoly (ct i.castSucc) * toPoly (s i)) %ₘ
        (Polynomial.X ^ n + 1) := by
  refine (ev_eq_iff_modByMonic hn _ _).1 ?_
  rw [ev_decryptWithNoise, rlwePhase, map_sub, map_sum]
  simp only [map_mul]
  rfl

example (be : Backend) := C17_decrypt_any be (k := 1) (n := 2) (by norm_num) ![![1, 2], ![3, 4]] ![![1, 0]]

/-- C17: encrypting the encodings of messages with error polynomials in the noise interval and
decrypting returns the messages in every coefficient. -/
theorem C17_decrypt (be : Backend) {k n : Nat} (p : EncodingParameters) (hp : ValidParams p)
    (message err : Fin n → Int) (s a : Fin k → Fin n → W)
    (hm0 : ∀ i, 0 ≤ message i) (hm1 : ∀ i, message i < 2 ^ p.messageBitLength)
    (h1 : ∀ i, -2 ^ (p.errorBitLength - 1) ≤ err i) (h2 : ∀ i, err i < 2 ^ (p.errorBitLength - 1)) :
    ∃ pt : Fin n → W, (∀ i, encode (message i) p = .ok (pt i)) ∧
      ∀ i, ((decode (Rlwe.decrypt be
        (Rlwe.jitEncrypt be pt s a (fun i => BitVec.ofInt 32 (err i)) 32) ⟨32, s⟩ p i) p).toNat : Int) =
        message i := by
  -- coefficient-wise this is C08 with an empty key
  have hc := fun i => C08_decrypt (n := 0) p hp (message i) (err i) (fun j => j.elim0) (fun j => j.elim0)
    (hm0 i) (hm1 i) (h1 i) (h2 i)
  choose pt hpt _ hdec using hc
  refine ⟨pt, hpt, fun i => ?_⟩
  rw [← hdec i]
  unfold Rlwe.decrypt Lwe.decrypt
  have e : decryptWithNoise be (Rlwe.jitEncrypt be pt s a (fun i => BitVec.ofInt 32 (err i)) 32) ⟨32, s⟩ i =
      Lwe.decryptWithoutDenoising (Lwe.jitEncrypt (pt i) (fun j : Fin 0 => j.elim0) (fun j => j.elim0)
        (BitVec.ofInt 32 (err i)) 32) ⟨32, fun j => j.elim0⟩ := by
    apply BitVec.eq_of_toNat_eq
    rw [C17_phase _ _ _ _ _ _ le_rfl, C08_phase _ _ _ _ _ le_rfl]
  rw [e]

example : ValidParams boolParams ∧ (∀ i : Fin 2, 0 ≤ (![5, 7] : Fin 2 → Int) i) ∧
    (∀ i : Fin 2, (![5, 7] : Fin 2 → Int) i < 2 ^ boolParams.messageBitLength) ∧
    (∀ i : Fin 2, -2 ^ (boolParams.errorBitLength - 1) ≤ (![-1000, 3] : Fin 2 → Int) i) :=
  ⟨boolParams_valid, by decide, by decide, by decide⟩

/-- C17: decryption (before rounding) is additive. -/
theorem C17_linear (be : Backend) {k n : Nat} (hn : 0 < n) (c d : Fin (k + 1) → Fin n → W)
    (s : Fin k → Fin n → W) (i : Fin n) :
    decryptWithNoise be (fun p c' => c p c' + d p c') ⟨32, s⟩ i =
      decryptWithNoise be c ⟨32, s⟩ i + decryptWithNoise be d ⟨32, s⟩ i := by
  have : decryptWithNoise be (fun p c' => c p c' + d p c') ⟨32, s⟩ =
      fun i => decryptWithNoise be c ⟨32, s⟩ i + decryptWithNoise be d ⟨32, s⟩ i := by
    apply ev_injective hn
    rw [ev_add, ev_decryptWithNoise, ev_decryptWithNoise, ev_decryptWithNoise, rlwePhase_add]
  exact congrFun this i

example (be : Backend) := C17_linear be (k := 1) (n := 2) (by norm_num) ![![1, 2], ![3, 4]] ![![5, 6], ![7, 8]] ![![1, 0]] 1

/-- C18: sample extraction followed by LWE decryption under the flattened key gives the constant
coefficient of the RLWE decryption, for every ciphertext, key, dimension, degree and modulus. -/
theorem C18_sample_extract (be : Backend) {k n : Nat} [NeZero n] (ct : Fin (k + 1) → Fin n → W)
    (sk : RlweSecretKey k n) :
    Lwe.decryptWithoutDenoising (jitSampleExtract ct) (flattenKey sk) = decryptWithNoise be ct sk 0 := by
  have hn : 0 < n := Nat.pos_of_ne_zero (NeZero.ne n)
  unfold Lwe.decryptWithoutDenoising decryptWithNoise jitSampleExtract flattenKey Lwe.dot
  simp only [Fin.snoc_last, Fin.snoc_castSucc]
  congr 2
  rw [← (finProdFinEquiv (m := k) (n := n)).sum_comp, Fintype.sum_prod_type]
  unfold polyDotProduct
  refine Finset.sum_congr rfl (fun p _ => ?_)
  rw [polyMul_eq]
  unfold Nega.mul
  refine Finset.sum_congr rfl (fun i _ => ?_)
  have hd : (finProdFinEquiv (p, i)).divNat = p := by
    have := congrArg Prod.fst (finProdFinEquiv.symm_apply_apply (p, i)); exact this
  have hm : (finProdFinEquiv (p, i)).modNat = i := by
    have := congrArg Prod.snd (finProdFinEquiv.symm_apply_apply (p, i)); exact this
  rw [hd, hm, mul_comm]
  congr 1
  unfold roll shift
  have hi := i.isLt
  have hrev : (i.rev.val : Int) - -1 = ((n - i.val : Nat) : Int) := by
    rw [Fin.val_rev]; omega
  have h00 : (0 : Fin n).val = 0 := rfl
  rcases Nat.eq_zero_or_pos i.val with h | h
  · rw [if_neg (by omega), dif_pos (by simp [h]), one_mul]
    congr 1
    apply Fin.ext
    simp only [hrev, h]
    simp
  · rw [if_pos h, dif_neg (by omega), dif_pos (by omega), neg_one_mul]
    congr 2
    apply Fin.ext
    simp only [hrev]
    rw [← Int.natCast_emod, Int.toNat_natCast, Nat.mod_eq_of_lt (by omega)]
    simp

/-- A concrete extraction: `k = 1`, `N = 3`. -/
example : jitSampleExtract (k := 1) (n := 3) ![![1#32, 2#32, 3#32], ![4#32, 5#32, 6#32]] =
    ![1#32, -3#32, -2#32, 4#32] := by decide

/-- C18: encrypt, extract, decrypt under the flattened key: message + error of the constant term. -/
theorem C18_encrypt (be : Backend) {k n : Nat} [NeZero n] (pt err : Fin n → W) (s a : Fin k → Fin n → W) :
    Lwe.decryptWithoutDenoising (jitSampleExtract (Rlwe.jitEncrypt be pt s a err 32)) (flattenKey ⟨32, s⟩) =
      pt 0 + err 0 := by
  rw [C18_sample_extract be]
  apply BitVec.eq_of_toNat_eq
  rw [C17_phase _ _ _ _ _ _ le_rfl, BitVec.toNat_add]

example (be : Backend) := C18_encrypt be (k := 1) (n := 2) ![0x10000000#32, 3] ![77, 0xFFFFFFFF#32] ![![1, 0]] ![![123, 456]]

theorem lwePhase_jitEncrypt {n : Nat} (pt err : W) (s a : Fin n → W) :
    lwePhase (Lwe.jitEncrypt pt s a err 32) s = pt + err := by
  rw [← decryptWithoutDenoising_eq _ _ 32 le_rfl]
  apply BitVec.eq_of_toNat_eq
  rw [C08_phase _ _ _ _ _ le_rfl, BitVec.toNat_add]

/-- The rounding remainder of an approximate decomposition is at most this. -/
def truncBound (b L : Nat) : Int := if L * b = 32 then 0 else 2 ^ (32 - L * b)

/-- Digits of the signed decomposition as integers, with their range and their sum. -/
theorem signed_digits (x : W) (b L : Nat) (hb : 1 ≤ b) (hb2 : b ≤ 31) (hd : b ∣ 32) (hL : L * b ≤ 32) :
    ∃ (d : Fin L → Int) (r : Int),
      (∀ l, signedDecomposition x b L 32 l = BitVec.ofInt 32 (d l) ∧ |d l| ≤ 2 ^ b) ∧
      |r| ≤ truncBound b L ∧
      ∑ l : Fin L, signedDecomposition x b L 32 l * 2 ^ (32 - (l.val + 1) * b) = x - BitVec.ofInt 32 r := by
  obtain ⟨r, hr, hr1, _, hr0⟩ := C13_recompose x b L hb hb2 hd hL
  refine ⟨fun l => digitZ x.toNat b (32 / b - 1 - l.val), r, fun l => ⟨?_, ?_⟩, ?_, hr⟩
  · exact signedResult_eq x b _ hb hb2
  · have hp : (0 : Int) < 2 ^ (b - 1) := by positivity
    have h2 : (2 : Int) ^ b = 2 * 2 ^ (b - 1) := by
      conv_lhs => rw [show b = (b - 1) + 1 by omega, pow_succ]
      ring
    rcases digit_range x.toNat b (32 / b - 1 - l.val) hb with ⟨h1, h2'⟩ | h
    · show |digitZ x.toNat b (32 / b - 1 - l.val)| ≤ 2 ^ b
      rw [abs_le]; constructor <;> omega
    · simp only [h]; rw [abs_of_pos (by positivity)]
  · unfold truncBound
    split
    · rename_i h; rw [hr0 h]; simp
    · exact hr1

/-- C19: the exact effect of a key switch. With integer digits `d i l` and remainders `r i` of the
input masks, the new phase is the old phase + `Σ s_i r_i - Σ d_il e_il`. -/
theorem C19_exact {n m : Nat} (dp : Rgsw.DecompositionParameters) (hb : 1 ≤ dp.logBase)
    (hb2 : dp.logBase ≤ 31) (hd : dp.logBase ∣ 32) (hL : dp.levelCount * dp.logBase ≤ 32)
    (s : Fin n → Int) (s' : Fin m → W) (e : Fin n → Fin dp.levelCount → Int)
    (a : Fin n → Fin dp.levelCount → Fin m → W) (log : Nat) (ct : Fin (n + 1) → W) :
    ∃ (d : Fin n → Fin dp.levelCount → Int) (r : Fin n → Int),
      (∀ i l, |d i l| ≤ 2 ^ dp.logBase) ∧ (∀ i, |r i| ≤ truncBound dp.logBase dp.levelCount) ∧
      lwePhase (jitSwitchKey (genKey dp ⟨log, fun i => BitVec.ofInt 32 (s i)⟩ ⟨32, s'⟩ a
          (fun i l => BitVec.ofInt 32 (e i l))) ct dp.logBase) s' =
        lwePhase ct (fun i => BitVec.ofInt 32 (s i)) +
          BitVec.ofInt 32 (∑ i, s i * r i - ∑ i, ∑ l, d i l * e i l) := by
  choose d r h1 h2 h3 using fun i : Fin n =>
    signed_digits (ct i.castSucc) dp.logBase dp.levelCount hb hb2 hd hL
  refine ⟨d, r, fun i l => (h1 i l).2, h2, ?_⟩
  have hphase : ∀ i l, lwePhase (genKey dp ⟨log, fun i => BitVec.ofInt 32 (s i)⟩ ⟨32, s'⟩ a
      (fun i l => BitVec.ofInt 32 (e i l)) i l) s' =
      BitVec.ofInt 32 (s i) * 2 ^ (32 - (l.val + 1) * dp.logBase) + BitVec.ofInt 32 (e i l) := by
    intro i l
    unfold genKey
    rw [lwePhase_jitEncrypt]
    unfold recompositionSummands
    rw [shiftLeft_eq_mul, Nat.add_comm 1]
  have hlin : lwePhase (jitSwitchKey (genKey dp ⟨log, fun i => BitVec.ofInt 32 (s i)⟩ ⟨32, s'⟩ a
      (fun i l => BitVec.ofInt 32 (e i l))) ct dp.logBase) s' =
      ct (Fin.last n) - ∑ i, ∑ l, signedDecomposition (ct i.castSucc) dp.logBase dp.levelCount 32 l *
        lwePhase (genKey dp ⟨log, fun i => BitVec.ofInt 32 (s i)⟩ ⟨32, s'⟩ a
          (fun i l => BitVec.ofInt 32 (e i l)) i l) s' := by
    generalize genKey dp ⟨log, fun i => BitVec.ofInt 32 (s i)⟩ ⟨32, s'⟩ a
      (fun i l => BitVec.ofInt 32 (e i l)) = ksk
    unfold jitSwitchKey lwePhase
    simp only [if_true]
    have hne : ∀ j : Fin m, ¬ (j.castSucc = Fin.last m) := fun j => (Fin.castSucc_lt_last j).ne
    simp only [hne, if_false, zero_sub, mul_sub, Finset.sum_sub_distrib, neg_mul, Finset.sum_neg_distrib,
      Finset.sum_mul, Finset.mul_sum]
    have : ∑ j : Fin m, ∑ i : Fin n, ∑ l : Fin dp.levelCount,
        signedDecomposition (ct i.castSucc) dp.logBase dp.levelCount 32 l * ksk i l j.castSucc * s' j =
        ∑ i : Fin n, ∑ l : Fin dp.levelCount, ∑ j : Fin m,
        signedDecomposition (ct i.castSucc) dp.logBase dp.levelCount 32 l * (ksk i l j.castSucc * s' j) := by
      rw [Finset.sum_comm]
      refine Finset.sum_congr rfl (fun i _ => ?_)
      rw [Finset.sum_comm]
      refine Finset.sum_congr rfl (fun l _ => Finset.sum_congr rfl (fun j _ => ?_))
      ring
    rw [this]
    ring
  rw [hlin]
  simp only [hphase]
  have hrow : ∀ i : Fin n, ∑ l, signedDecomposition (ct i.castSucc) dp.logBase dp.levelCount 32 l *
      (BitVec.ofInt 32 (s i) * 2 ^ (32 - (l.val + 1) * dp.logBase) + BitVec.ofInt 32 (e i l)) =
      ct i.castSucc * BitVec.ofInt 32 (s i) + ((-(s i * r i) + ∑ l, d i l * e i l : Int) : W) := by
    intro i
    have e1 : ∀ l, signedDecomposition (ct i.castSucc) dp.logBase dp.levelCount 32 l *
      (BitVec.ofInt 32 (s i) * 2 ^ (32 - (l.val + 1) * dp.logBase) + BitVec.ofInt 32 (e i l)) =
      BitVec.ofInt 32 (s i) * (signedDecomposition (ct i.castSucc) dp.logBase dp.levelCount 32 l *
        2 ^ (32 - (l.val + 1) * dp.logBase)) + ((d i l * e i l : Int) : W) := by
      intro l
      have : ((d i l * e i l : Int) : W) = signedDecomposition (ct i.castSucc) dp.logBase dp.levelCount 32 l *
          BitVec.ofInt 32 (e i l) := by
        rw [(h1 i l).1]; exact Int.cast_mul _ _
      rw [this]; ring
    simp only [e1]
    rw [Finset.sum_add_distrib, ← Finset.mul_sum, h3 i]
    have e2 : BitVec.ofInt 32 (s i) * (ct i.castSucc - BitVec.ofInt 32 (r i)) =
        ct i.castSucc * BitVec.ofInt 32 (s i) + ((-(s i * r i) : Int) : W) := by
      have : ((-(s i * r i) : Int) : W) = -(BitVec.ofInt 32 (s i) * BitVec.ofInt 32 (r i)) := by
        rw [Int.cast_neg, Int.cast_mul]; rfl
      rw [this]; ring
    rw [e2, Int.cast_add, Int.cast_sum, add_assoc]
  simp only [hrow]
  rw [Finset.sum_add_distrib, ← Int.cast_sum]
  unfold lwePhase
  have e3 : (BitVec.ofInt 32 (∑ i, s i * r i - ∑ i, ∑ l, d i l * e i l) : W) =
      -((∑ i, (-(s i * r i) + ∑ l, d i l * e i l) : Int) : W) := by
    rw [← Int.cast_neg]
    show ((_ : Int) : W) = _
    congr 1
    rw [Finset.sum_add_distrib, Finset.sum_neg_distrib]
    ring
  rw [e3]
  ring

example := C19_exact (n := 2) (m := 3) ⟨4, 5, 32⟩ (by decide) (by decide) (by decide) (by decide) ![0, 1] ![1, 0, 1]
  (fun _ _ => 3) (fun _ _ => ![11, 22, 33]) 32 ![0x12345678#32, 0x9ABCDEF0#32, 0x10000000#32]

/-- C19: the worst case. With a binary input key and errors of magnitude at most `E`, key switching
changes the phase by at most `n * truncation + n * L * 2^b * E`. -/
theorem C19_bound {n m : Nat} (dp : Rgsw.DecompositionParameters) (hb : 1 ≤ dp.logBase)
    (hb2 : dp.logBase ≤ 31) (hd : dp.logBase ∣ 32) (hL : dp.levelCount * dp.logBase ≤ 32)
    (s : Fin n → Int) (hs : ∀ i, s i = 0 ∨ s i = 1) (s' : Fin m → W)
    (e : Fin n → Fin dp.levelCount → Int) (E : Int) (he : ∀ i l, |e i l| ≤ E)
    (a : Fin n → Fin dp.levelCount → Fin m → W) (log : Nat) (ct : Fin (n + 1) → W) :
    ∃ err : Int, |err| ≤ n * truncBound dp.logBase dp.levelCount +
        n * (dp.levelCount * (2 ^ dp.logBase * E)) ∧
      lwePhase (jitSwitchKey (genKey dp ⟨log, fun i => BitVec.ofInt 32 (s i)⟩ ⟨32, s'⟩ a
          (fun i l => BitVec.ofInt 32 (e i l))) ct dp.logBase) s' =
        lwePhase ct (fun i => BitVec.ofInt 32 (s i)) + BitVec.ofInt 32 err := by
  obtain ⟨d, r, h1, h2, h3⟩ := C19_exact dp hb hb2 hd hL s s' e a log ct
  refine ⟨_, ?_, h3⟩
  refine (abs_sub _ _).trans (add_le_add ?_ ?_)
  · refine (Finset.abs_sum_le_sum_abs _ _).trans ?_
    have : ∀ i ∈ Finset.univ, |s i * r i| ≤ truncBound dp.logBase dp.levelCount := by
      intro i _
      have h0 : 0 ≤ truncBound dp.logBase dp.levelCount := (abs_nonneg _).trans (h2 i)
      rcases hs i with h | h <;> rw [h]
      · simpa using h0
      · rw [one_mul]; exact h2 i
    refine (Finset.sum_le_card_nsmul _ _ _ this).trans (by simp)
  · refine (Finset.abs_sum_le_sum_abs _ _).trans ?_
    have : ∀ i ∈ (Finset.univ : Finset (Fin n)), |∑ l, d i l * e i l| ≤ dp.levelCount * (2 ^ dp.logBase * E) := by
      intro i _
      refine (Finset.abs_sum_le_sum_abs _ _).trans ?_
      have : ∀ l ∈ (Finset.univ : Finset (Fin dp.levelCount)), |d i l * e i l| ≤ 2 ^ dp.logBase * E := by
        intro l _
        rw [abs_mul]
        exact mul_le_mul (h1 i l) (he i l) (abs_nonneg _) (by positivity)
      refine (Finset.sum_le_card_nsmul _ _ _ this).trans (by simp)
    refine (Finset.sum_le_card_nsmul _ _ _ this).trans (by simp)

/-- The library's key-switching parameters (production and test) satisfy the hypotheses. -/
example : (1 ≤ 4 ∧ 4 ≤ 31 ∧ 4 ∣ 32 ∧ 5 * 4 ≤ 32) ∧ (8 * 4 ≤ 32) ∧ truncBound 4 8 = 0 ∧
    truncBound 4 5 = 4096 ∧ (∀ i : Fin 3, (![0, 1, 1] : Fin 3 → Int) i = 0 ∨ (![0, 1, 1] : Fin 3 → Int) i = 1) := by
  decide

end Verif.Props

import Verif.Model.Lwe
import Verif.Lemmas.Arith
import Verif.Props.Encoding

/-!
# Properties C08 - C11: LWE encryption, linearity, modulus switching, rounded division
-/

namespace Verif.Props
open Verif.Lwe Verif.Arith Verif.Encoding

/-- Specification: the phase of an LWE ciphertext under a key vector, `b - Σ a_i s_i` modulo `2^32`. -/
def lwePhase {n : Nat} (ct : Fin (n + 1) → W) (s : Fin n → W) : W :=
  ct (Fin.last n) - ∑ i : Fin n, ct i.castSucc * s i

/-- C08: for every key, mask, error and plaintext, decryption without denoising returns
plaintext + error modulo the ciphertext modulus. -/
theorem C08_phase {n : Nat} (pt err : W) (s a : Fin n → W) (log : Nat) (hl : log ≤ 32) :
    (decryptWithoutDenoising (jitEncrypt pt s a err log) ⟨log, s⟩).toNat =
      (pt.toNat + err.toNat) % 2 ^ log := by
  unfold decryptWithoutDenoising jitEncrypt dot
  simp only [Fin.snoc_last, Fin.snoc_castSucc]
  rw [modLog_sub_modLog _ _ _ hl, modLog_toNat _ _ hl]
  have : (∑ i, a i * s i + pt + err - ∑ i, a i * s i) = pt + err := by ring
  rw [this]
  exact toNat_modEq_add _ _ _ hl

example := C08_phase (n := 2) 0x10000000#32 77#32 ![1, 0] ![123, 456] 31 (by norm_num)

example : (31 : Nat) ≤ 32 := by decide

/-- With the modulus `2^32` decryption without denoising is the phase. -/
theorem decryptWithoutDenoising_eq {n : Nat} (ct : Fin (n + 1) → W) (s : Fin n → W) (log : Nat)
    (h : 32 ≤ log) : decryptWithoutDenoising ct ⟨log, s⟩ = lwePhase ct s := by
  unfold decryptWithoutDenoising dot lwePhase
  simp only
  rw [modLog_of_ge _ _ h]

/-- C08: encrypt an encoded message with any key, mask and error (modulus `2^32`); if the error is in
the noise interval, decryption followed by decoding returns the message. -/
theorem C08_decrypt {n : Nat} (p : EncodingParameters) (hp : ValidParams p) (message err : Int)
    (s a : Fin n → W) (hm0 : 0 ≤ message) (hm1 : message < 2 ^ p.messageBitLength)
    (h1 : -2 ^ (p.errorBitLength - 1) ≤ err) (h2 : err < 2 ^ (p.errorBitLength - 1)) :
    ∃ x, encode message p = .ok x ∧
      ((decode (decryptWithoutDenoising (jitEncrypt x s a (BitVec.ofInt 32 err) 32) ⟨32, s⟩) p).toNat
        : Int) = message ∧
      ((decode (decrypt (jitEncrypt x s a (BitVec.ofInt 32 err) 32) ⟨32, s⟩ p) p).toNat : Int)
        = message := by
  obtain ⟨x, hx, hd, _⟩ := C05_roundtrip p hp message err hm0 hm1 h1 h2
  have e : decryptWithoutDenoising (jitEncrypt x s a (BitVec.ofInt 32 err) 32) ⟨32, s⟩ =
      x + BitVec.ofInt 32 err := by
    apply BitVec.eq_of_toNat_eq
    rw [C08_phase _ _ _ _ _ le_rfl, BitVec.toNat_add]
  refine ⟨x, hx, by rw [e]; exact hd, ?_⟩
  unfold decrypt
  rw [e]
  -- rounding twice is rounding once
  obtain ⟨ha, hm, hmin, hmax⟩ := hp.arith
  have hfit := hp.fits
  have hno := hp.noisy
  rw [← hd]
  unfold decode removeNoise
  simp only
  rw [decode_core _ _ _ hno (by omega), decode_core _ _ _ hno (by omega), round_toNat _ _ hno]
  set Y := ((x + BitVec.ofInt 32 err).toNat + 2 ^ (p.errorBitLength - 1)) / 2 ^ p.errorBitLength
  have h32 : (2 : Nat) ^ 32 = 2 ^ (32 - p.errorBitLength) * 2 ^ p.errorBitLength := by
    rw [← pow_add]; congr 1; omega
  rw [h32, Nat.mul_mod_mul_right, Nat.add_comm, Nat.add_mul_div_right _ _ (by positivity),
    Nat.div_eq_of_lt (Nat.pow_lt_pow_right (by norm_num : 1 < 2) (by omega)), zero_add,
    Nat.mod_mod_of_dvd _ (pow_dvd_pow 2 (by omega))]

example : ValidParams boolParams ∧ (0 : Int) ≤ 5 ∧ (5 : Int) < 2 ^ boolParams.messageBitLength ∧
    -2 ^ (boolParams.errorBitLength - 1) ≤ (1000 : Int) ∧ (1000 : Int) < 2 ^ (boolParams.errorBitLength - 1) :=
  ⟨boolParams_valid, by decide, by decide, by decide, by decide⟩

/-- C08: a noiseless embedding has its plaintext as phase under every key. -/
theorem C08_noiseless {n : Nat} (pt : W) (s : Fin n → W) :
    decryptWithoutDenoising (noiselessEmbedding pt n) ⟨32, s⟩ = pt := by
  rw [decryptWithoutDenoising_eq _ _ _ le_rfl]
  unfold lwePhase noiselessEmbedding
  simp only [Fin.snoc_last, Fin.snoc_castSucc]
  simp

example := C08_noiseless (n := 2) 0x12345678#32 ![1, 0]

/-- C09: the phase (= decryption without denoising, modulus `2^32`) is linear in the ciphertext. -/
theorem C09_linear {n : Nat} (c d : Fin (n + 1) → W) (s : Fin n → W) (k : W) :
    let D := fun c : Fin (n + 1) → W => decryptWithoutDenoising c ⟨32, s⟩
    D (fun i => c i + d i) = D c + D d ∧ D (fun i => c i - d i) = D c - D d ∧
    D (fun i => k * c i) = k * D c := by
  simp only [decryptWithoutDenoising_eq _ _ _ le_rfl, lwePhase]
  refine ⟨?_, ?_, ?_⟩
  · simp only [add_mul, Finset.sum_add_distrib]; ring
  · simp only [sub_mul, Finset.sum_sub_distrib]; ring
  · simp only [mul_assoc, ← Finset.mul_sum]; ring

example := C09_linear (n := 2) ![1, 2, 0x30000000#32] ![7, 9, 0xF0000000#32] ![1, 0] 3

/-- A ciphertext *holds* the bit `b` with noise `e` when its phase is `b * 2^28 + e`. -/
def HoldsBit {n : Nat} (ct : Fin (n + 1) → W) (s : Fin n → W) (b : Bool) (e : Int) : Prop :=
  lwePhase ct s = BitVec.ofInt 32 ((if b then 1 else 0) * 2 ^ 28 + e)

/-- C08: `jaxite_bool.decrypt` on every ciphertext whose phase is a message plus noise in `[-2^27, 2^27)`: the unused
message 2 fails the assertion, every other message is returned as the truth value "not zero". -/
theorem C08_bool_decrypt_any {n : Nat} (ct : Fin (n + 1) → W) (s : Fin n → W) (v e : Int)
    (h : lwePhase ct s = BitVec.ofInt 32 (v * 2 ^ 28 + e)) (h1 : -2 ^ 27 ≤ e) (h2 : e < 2 ^ 27) :
    boolDecrypt ct ⟨32, s⟩ = if v % 8 = 2 then .error "AssertionError" else .ok (decide (v % 8 ≠ 0)) := by
  unfold boolDecrypt decrypt
  rw [decryptWithoutDenoising_eq _ _ _ le_rfl, h]
  have hd := (C05_decode_any boolParams boolParams_valid v e h1 h2).1
  have hr : decode (removeNoise (BitVec.ofInt 32 (v * 2 ^ 28 + e)) boolParams) boolParams =
      decode (BitVec.ofInt 32 (v * 2 ^ 28 + e)) boolParams := by
    apply BitVec.eq_of_toNat_eq
    unfold decode removeNoise
    simp only
    rw [decode_core _ _ _ (by decide) (by decide), decode_core _ _ _ (by decide) (by decide),
      round_toNat _ _ (by decide)]
    simp only [boolParams]
    norm_num
    omega
  have hb : ((decode (BitVec.ofInt 32 (v * 2 ^ 28 + e)) boolParams).toNat : Int) = v % 8 := by
    have h28 : boolParams.errorBitLength = 28 := rfl
    rw [h28] at hd
    rw [hd]
    rfl
  simp only [hr]
  generalize decode (BitVec.ofInt 32 (v * 2 ^ 28 + e)) boolParams = c at hb
  have e2 : (c = 2#32) ↔ v % 8 = 2 := by
    rw [← hb, ← BitVec.toNat_inj]; simp; omega
  have e0 : (c ≠ 0#32) ↔ v % 8 ≠ 0 := by
    rw [← hb, ne_eq, ← BitVec.toNat_inj]; simp
  simp only [e2, e0]

/-- A ciphertext of the value 3 (decrypted as `True`) and one of the value 2 (refused). -/
example := C08_bool_decrypt_any (noiselessEmbedding (BitVec.ofInt 32 (3 * 2 ^ 28 + 77)) 3) ![1, 0, 1] 3 77 (by decide)
  (by norm_num) (by norm_num)
example := C08_bool_decrypt_any (noiselessEmbedding (BitVec.ofInt 32 (2 * 2 ^ 28 - 5)) 3) ![1, 0, 1] 2 (-5) (by decide)
  (by norm_num) (by norm_num)

/-- C08: `jaxite_bool.decrypt` returns the held bit if the noise is in `[-2^27, 2^27)`. -/
theorem C08_bool_decrypt {n : Nat} (ct : Fin (n + 1) → W) (s : Fin n → W) (b : Bool) (e : Int)
    (h : HoldsBit ct s b e) (h1 : -2 ^ 27 ≤ e) (h2 : e < 2 ^ 27) :
    boolDecrypt ct ⟨32, s⟩ = .ok b := by
  rw [C08_bool_decrypt_any ct s _ e h h1 h2]
  cases b <;> rfl

/-- C08: fresh encryptions of bits decrypt to the bit, for every key, mask and error in
`[-2^27, 2^27)`. -/
theorem C08_bool_roundtrip {n : Nat} (b : Bool) (s a : Fin n → W) (e : Int)
    (h1 : -2 ^ 27 ≤ e) (h2 : e < 2 ^ 27) :
    (do let ct ← boolEncrypt b ⟨32, s⟩ a (BitVec.ofInt 32 e); boolDecrypt ct ⟨32, s⟩) =
      Except.ok b := by
  have henc : encode (if b then 1 else 0) boolParams =
      .ok (BitVec.ofInt 32 ((if b then 1 else 0) * 2 ^ 28)) := by cases b <;> decide
  unfold boolEncrypt
  simp only [henc, bind, Except.bind, pure, Except.pure]
  apply C08_bool_decrypt _ _ _ e _ h1 h2
  unfold HoldsBit
  rw [← decryptWithoutDenoising_eq _ _ 32 le_rfl]
  apply BitVec.eq_of_toNat_eq
  rw [C08_phase _ _ _ _ _ le_rfl, BitVec.ofInt_add, BitVec.toNat_add]

example := C08_bool_roundtrip (n := 2) true ![1, 0] ![123, 456] (-134217728) (by norm_num) (by norm_num)

example : (-2 ^ 27 : Int) ≤ -134217728 ∧ (-134217728 : Int) < 2 ^ 27 := by decide

/-- C09: `constant(b)` decrypts to `b` under every key. -/
theorem C09_constant {n : Nat} (b : Bool) (s : Fin n → W) :
    (do let ct ← constant b n; boolDecrypt ct ⟨32, s⟩) = Except.ok b := by
  have henc : encode (if b then 1 else 0) boolParams =
      .ok (BitVec.ofInt 32 ((if b then 1 else 0) * 2 ^ 28)) := by cases b <;> decide
  unfold constant noiselessBool
  simp only [henc, bind, Except.bind, pure, Except.pure]
  apply C08_bool_decrypt _ _ _ 0 _ (by decide) (by decide)
  unfold HoldsBit
  rw [← decryptWithoutDenoising_eq _ _ 32 le_rfl, C08_noiseless, add_zero]

example := C09_constant (n := 2) true ![1, 0]

/-- C09: `not_` holds the negated bit with the negated noise, for every ciphertext and key. -/
theorem C09_not {n : Nat} (ct : Fin (n + 1) → W) (s : Fin n → W) (b : Bool) (e : Int)
    (h : HoldsBit ct s b e) : ∃ r, not_ ct = .ok r ∧ HoldsBit r s (!b) (-e) := by
  have henc : encode 1 boolParams = .ok (BitVec.ofInt 32 (2 ^ 28)) := by decide
  refine ⟨fun i => noiselessEmbedding (BitVec.ofInt 32 (2 ^ 28)) n i - ct i,
    by unfold not_ noiselessBool; simp only [if_true, henc, bind, Except.bind, pure, Except.pure], ?_⟩
  unfold HoldsBit at *
  have hl := (C09_linear (noiselessEmbedding (BitVec.ofInt 32 (2 ^ 28)) n) ct s 1).2.1
  have h0 := C08_noiseless (BitVec.ofInt 32 (2 ^ 28)) s
  simp only [decryptWithoutDenoising_eq _ _ _ le_rfl] at hl h0
  rw [hl, h, h0, ← ofInt_sub']
  congr 1
  cases b <;> simp <;> ring

/-- C09: `not_` decrypts to the negation if the noise is in the open interval `(-2^27, 2^27)`. -/
theorem C09_not_decrypts {n : Nat} (ct : Fin (n + 1) → W) (s : Fin n → W) (b : Bool) (e : Int)
    (h : HoldsBit ct s b e) (h1 : -2 ^ 27 < e) (h2 : e < 2 ^ 27) :
    (do let r ← not_ ct; boolDecrypt r ⟨32, s⟩) = Except.ok (!b) := by
  obtain ⟨r, hr, hh⟩ := C09_not ct s b e h
  rw [hr]
  exact C08_bool_decrypt r s (!b) (-e) hh (by linarith) (by linarith)

/-- The hypothesis of `C08_bool_decrypt`, `C09_not` and `C09_not_decrypts`. -/
example : HoldsBit (noiselessEmbedding (BitVec.ofInt 32 (2 ^ 28 + 77)) 3) ![1, 0, 1] true 77 := by
  unfold HoldsBit; decide

/-- C25 (one-input tables): `lut1` computes the table's function of the held bit, rejects exactly the
integers outside `0..3`. Table bit 0 is the value on `False`. -/
theorem C25_lut1 {n : Nat} (ct : Fin (n + 1) → W) (s : Fin n → W) (b : Bool) (e : Int)
    (h : HoldsBit ct s b e) (h1 : -2 ^ 27 < e) (h2 : e < 2 ^ 27) (t : Int) :
    ((∃ m, lut1 ct t = .error m) ↔ ¬ (0 ≤ t ∧ t < 4)) ∧
    (0 ≤ t ∧ t < 4 → (do let r ← lut1 ct t; boolDecrypt r ⟨32, s⟩) =
      Except.ok (t.toNat.testBit b.toNat)) := by
  have ok0 : ∀ b, ∃ r, constant b n = .ok r := by
    intro b
    have henc : ∃ x, encode (if b then 1 else 0) boolParams = .ok x := by cases b <;> exact ⟨_, rfl⟩
    obtain ⟨x, hx⟩ := henc
    unfold constant noiselessBool
    simp only [hx, bind, Except.bind, pure, Except.pure]
    exact ⟨_, rfl⟩
  have hn := C09_not_decrypts ct s b e h h1 h2
  have hid := C08_bool_decrypt ct s b e h h1.le h2
  obtain ⟨rn, hrn, _⟩ := C09_not ct s b e h
  constructor
  · constructor
    · rintro ⟨m, hm⟩ ⟨ht0, ht4⟩
      have : t = 0 ∨ t = 1 ∨ t = 2 ∨ t = 3 := by omega
      rcases this with rfl | rfl | rfl | rfl
      · obtain ⟨r, hr⟩ := ok0 false
        simp [lut1, hr] at hm
      · simp [lut1, hrn] at hm
      · simp [lut1] at hm
      · obtain ⟨r, hr⟩ := ok0 true
        simp [lut1, hr] at hm
    · intro ht
      refine ⟨"ValueError", ?_⟩
      unfold lut1
      rw [if_neg (by omega), if_neg (by omega), if_neg (by omega)]
  · rintro ⟨ht0, ht4⟩
    have : t = 0 ∨ t = 1 ∨ t = 2 ∨ t = 3 := by omega
    rcases this with rfl | rfl | rfl | rfl
    · have := C09_constant (n := n) false s
      simp only [lut1, true_or, if_true]
      cases b <;> simpa using this
    · have : lut1 ct 1 = not_ ct := by simp [lut1]
      rw [this, hn]; cases b <;> rfl
    · have : lut1 ct 2 = .ok ct := by simp [lut1]
      rw [this]; simp only [bind, Except.bind]; rw [hid]; cases b <;> rfl
    · have := C09_constant (n := n) true s
      simp only [lut1, or_true, if_true]
      cases b
      · simpa using this
      · have e3 : Nat.testBit 3 1 = true := by decide
        simpa [e3] using this

example := C25_lut1 (noiselessEmbedding (BitVec.ofInt 32 (2 ^ 28 + 77)) 3) ![1, 0, 1] true 77 (by unfold HoldsBit; decide)
  (by norm_num) (by norm_num) 2

/-- C11: `integer_div` is rounded division (half up) for every 32-bit value and every divisor up to
`2^31`, in particular every power of two below `2^32`. -/
theorem C11_integer_div (x d : W) (h1 : 1 ≤ d.toNat) (h2 : d.toNat ≤ 2 ^ 31) :
    (integerDiv x d).toNat = (x.toNat + d.toNat / 2) / d.toNat := integerDiv_toNat x d h1 h2

example : 1 ≤ (0x80000000#32).toNat ∧ (0x80000000#32).toNat ≤ 2 ^ 31 ∧
    integerDiv 0xFFFFFFFF#32 0x80000000#32 = 2#32 := by decide

/-- C11: the documented absence of overflow does not extend to all divisors: for `d = 2^32 - 1` the
result for `x = 2^32 - 2` is `0`, while rounded division gives `1`. -/
theorem C11_large_divisor_overflow :
    (integerDiv 0xFFFFFFFE#32 0xFFFFFFFF#32).toNat = 0 ∧
    (0xFFFFFFFE + 0xFFFFFFFF / 2) / 0xFFFFFFFF = 1 := by decide

/-- C11 in integers: the quotient times the divisor is within half a divisor of the value. -/
theorem C11_nearest (x : W) (k : Nat) (hk : k ≤ 31) :
    2 * |((integerDiv x (BitVec.ofNat 32 (2 ^ k))).toNat : Int) * 2 ^ k - x.toNat| ≤ 2 ^ k := by
  have hpow : (2 : Nat) ^ k ≤ 2 ^ 31 := Nat.pow_le_pow_right (by norm_num) hk
  have hd : (BitVec.ofNat 32 (2 ^ k)).toNat = 2 ^ k := by
    rw [BitVec.toNat_ofNat]; apply Nat.mod_eq_of_lt; norm_num at hpow ⊢; omega
  have hpos : 0 < (2 : Nat) ^ k := by positivity
  rw [integerDiv_toNat _ _ (by omega) (by omega), hd]
  generalize hD : (2 : Nat) ^ k = D at *
  have hDi : (2 : Int) ^ k = (D : Int) := by rw [← hD]; push_cast; rfl
  rw [hDi]
  have h1 := Nat.div_add_mod (x.toNat + D / 2) D
  have h2 := Nat.mod_lt (x.toNat + D / 2) hpos
  set q := (x.toNat + D / 2) / D
  set r := (x.toNat + D / 2) % D
  have h3 : (D : Int) * q + r = x.toNat + (D / 2 : Nat) := by exact_mod_cast h1
  have e : (q : Int) * D - x.toNat = (D / 2 : Nat) - r := by linarith
  rw [e]
  have heven : 2 * (D / 2) = D ∨ D = 1 := by
    rcases Nat.eq_zero_or_pos k with h | h
    · right; subst h; simpa using hD.symm
    · left; obtain ⟨j, rfl⟩ : ∃ j, k = j + 1 := ⟨k - 1, by omega⟩
      rw [pow_succ] at hD; omega
  rcases heven with h | h
  · have : |((D / 2 : Nat) : Int) - r| ≤ (D / 2 : Nat) := by rw [abs_le]; constructor <;> omega
    omega
  · have hr : r = 0 := by omega
    rw [hr, h]; norm_num

example := C11_nearest 0xFFFFFFFF#32 31 (by norm_num)

/-- Specification: the integer phase of a ciphertext under a binary key, no reduction at all. -/
def intPhase {n : Nat} (ct : Fin (n + 1) → W) (s : Fin n → Bool) : Int :=
  (ct (Fin.last n)).toNat - ∑ i : Fin n, if s i then ((ct i.castSucc).toNat : Int) else 0

/-- Specification: number of ones of a binary key. -/
def keyWeight {n : Nat} (s : Fin n → Bool) : Nat := ∑ i : Fin n, if s i then 1 else 0

theorem keyWeight_le {n : Nat} (s : Fin n → Bool) : keyWeight s ≤ n := by
  unfold keyWeight
  calc (∑ i : Fin n, if s i then 1 else 0) ≤ ∑ _i : Fin n, 1 :=
        Finset.sum_le_sum (fun i _ => by split <;> omega)
    _ = n := by simp

/-- The rounding error of one entry when the `g` low bits are rounded away. -/
def roundErr (g : Nat) (x : W) : Int :=
  ((integerDiv x (BitVec.ofNat 32 (2 ^ g))).toNat : Int) * 2 ^ g - x.toNat

/-- The rounding error of the phase. -/
def phaseErr {n : Nat} (g : Nat) (ct : Fin (n + 1) → W) (s : Fin n → Bool) : Int :=
  roundErr g (ct (Fin.last n)) - ∑ i : Fin n, if s i then roundErr g (ct i.castSucc) else 0

/-- Modulus switching adds exactly the rounding errors of the entries to the phase. -/
theorem switchModulus_phaseErr {n : Nat} (ct : Fin (n + 1) → W) (s : Fin n → Bool) (a b : Nat)
    (hab : b ≤ a) (hb : b ≤ 31) :
    2 ^ (a - b) * intPhase (switchModulus ct a b) s ≡ intPhase ct s + phaseErr (a - b) ct s [ZMOD 2 ^ a] := by
  have hpb : (BitVec.ofNat 32 (2 ^ b)).toNat = 2 ^ b := by
    rw [BitVec.toNat_ofNat]
    exact Nat.mod_eq_of_lt (Nat.pow_lt_pow_right (by norm_num : 1 < 2) (by omega))
  have hmod : ∀ i, 2 ^ (a - b) * ((switchModulus ct a b i).toNat : Int) ≡
      (ct i).toNat + roundErr (a - b) (ct i) [ZMOD 2 ^ a] := by
    intro i
    have e : ((ct i).toNat : Int) + roundErr (a - b) (ct i) =
        2 ^ (a - b) * ((integerDiv (ct i) (BitVec.ofNat 32 (2 ^ (a - b)))).toNat : Int) := by
      unfold roundErr; ring
    rw [e]
    unfold switchModulus
    rw [BitVec.toNat_umod, hpb]
    have h2a : (2 : Int) ^ a = 2 ^ (a - b) * 2 ^ b := by rw [← pow_add]; congr 1; omega
    rw [h2a]
    apply Int.ModEq.mul_left'
    push_cast
    exact Int.mod_modEq _ _
  have e1 : 2 ^ (a - b) * intPhase (switchModulus ct a b) s =
      2 ^ (a - b) * ((switchModulus ct a b (Fin.last n)).toNat : Int) -
      ∑ i : Fin n, if s i then 2 ^ (a - b) * ((switchModulus ct a b i.castSucc).toNat : Int) else 0 := by
    unfold intPhase
    rw [mul_sub, Finset.mul_sum]
    congr 1
    apply Finset.sum_congr rfl
    intro i _
    split <;> simp
  have e2 : intPhase ct s + phaseErr (a - b) ct s =
      ((ct (Fin.last n)).toNat + roundErr (a - b) (ct (Fin.last n))) -
      ∑ i : Fin n, if s i then ((ct i.castSucc).toNat + roundErr (a - b) (ct i.castSucc)) else 0 := by
    unfold intPhase phaseErr
    have : (∑ i : Fin n, if s i then (((ct i.castSucc).toNat : Int) + roundErr (a - b) (ct i.castSucc)) else 0) =
        (∑ i : Fin n, if s i then ((ct i.castSucc).toNat : Int) else 0) +
        ∑ i : Fin n, if s i then roundErr (a - b) (ct i.castSucc) else 0 := by
      rw [← Finset.sum_add_distrib]
      apply Finset.sum_congr rfl
      intro i _
      split <;> simp
    rw [this]; ring
  rw [e1, e2]
  apply Int.ModEq.sub (hmod _)
  refine Int.ModEq.sum (fun i _ => ?_)
  split
  · exact hmod _
  · exact Int.ModEq.refl _

/-- The rounding error of the phase is at most half a unit per contributing entry. -/
theorem two_phaseErr_le {n : Nat} (ct : Fin (n + 1) → W) (s : Fin n → Bool) (g : Nat) (hg : g ≤ 31) :
    2 * |phaseErr g ct s| ≤ 2 ^ g * (keyWeight s + 1) := by
  have hεb : ∀ x : W, 2 * |roundErr g x| ≤ 2 ^ g := fun x => C11_nearest x g hg
  unfold phaseErr
  have hs : 2 * |∑ i : Fin n, if s i then roundErr g (ct i.castSucc) else 0| ≤ 2 ^ g * keyWeight s := by
    calc 2 * |∑ i : Fin n, if s i then roundErr g (ct i.castSucc) else 0|
        ≤ 2 * ∑ i : Fin n, |if s i then roundErr g (ct i.castSucc) else 0| := by
          have := Finset.abs_sum_le_sum_abs
            (fun i : Fin n => if s i then roundErr g (ct i.castSucc) else 0) Finset.univ
          linarith
      _ = ∑ i : Fin n, 2 * |if s i then roundErr g (ct i.castSucc) else 0| := by rw [Finset.mul_sum]
      _ ≤ ∑ i : Fin n, 2 ^ g * ((if s i then 1 else 0 : Nat) : Int) := by
          apply Finset.sum_le_sum
          intro i _
          split
          · simpa using hεb (ct i.castSucc)
          · simp
      _ = 2 ^ g * keyWeight s := by
          rw [← Finset.mul_sum]; unfold keyWeight; push_cast; rfl
  have := abs_sub (roundErr g (ct (Fin.last n))) (∑ i : Fin n, if s i then roundErr g (ct i.castSucc) else 0)
  have := hεb (ct (Fin.last n))
  nlinarith

/-- C10: switching from modulus `2^a` to `2^b` moves the phase, measured in units of the old modulus,
by at most half a new unit `2^(a-b)` per contributing entry: `2·|δ| ≤ 2^(a-b)·(weight + 1)`, hence at
most `½(n+1)` new units. All output entries are below `2^b`. -/
theorem C10_switch_modulus {n : Nat} (ct : Fin (n + 1) → W) (s : Fin n → Bool) (a b : Nat)
    (hab : b ≤ a) (hb : b ≤ 31) (hgap : a - b ≤ 31) :
    (∀ i, (switchModulus ct a b i).toNat < 2 ^ b) ∧
    ∃ δ : Int, 2 ^ (a - b) * intPhase (switchModulus ct a b) s ≡ intPhase ct s + δ [ZMOD 2 ^ a] ∧
      2 * |δ| ≤ 2 ^ (a - b) * (keyWeight s + 1) ∧ 2 * |δ| ≤ 2 ^ (a - b) * (n + 1) := by
  have hpb : (BitVec.ofNat 32 (2 ^ b)).toNat = 2 ^ b := by
    rw [BitVec.toNat_ofNat]
    exact Nat.mod_eq_of_lt (Nat.pow_lt_pow_right (by norm_num : 1 < 2) (by omega))
  refine ⟨fun i => ?_, phaseErr (a - b) ct s, switchModulus_phaseErr ct s a b hab hb, ?_⟩
  · unfold switchModulus
    rw [BitVec.toNat_umod, hpb]
    exact Nat.mod_lt _ (by positivity)
  have hw := two_phaseErr_le ct s (a - b) hgap
  refine ⟨hw, hw.trans ?_⟩
  have h1 : (keyWeight s : Int) ≤ n := by exact_mod_cast keyWeight_le s
  have h2 : (0 : Int) < 2 ^ (a - b) := by positivity
  nlinarith

example := C10_switch_modulus (n := 2) ![0xFFFFFFFF#32, 0x12345678#32, 0x80000001#32] ![true, false] 32 10 (by norm_num) (by norm_num)
  (by norm_num)

example : (10 : Nat) ≤ 32 ∧ 10 ≤ 31 ∧ 32 - 10 ≤ 31 := by decide

end Verif.Props

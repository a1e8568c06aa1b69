import Verif.Lemmas.Encoding

/-!
# Properties C05, C06, C07: encoding, decoding and noise extraction
-/

namespace Verif.Props
open Verif.Encoding

/-- Parameters that the constructor can produce and that leave at least one noise bit in a 32-bit
word (the situation in which the module is used). -/
structure ValidParams (p : EncodingParameters) : Prop where
  made : ∃ t m q : Int, mkParams t m q = .ok p
  fits : p.totalBitLength ≤ 32
  noisy : 1 ≤ p.errorBitLength

theorem mkParams_ok {t m q : Int} {p : EncodingParameters} (h : mkParams t m q = .ok p) :
    1 ≤ m ∧ 0 ≤ q ∧ m + q ≤ t ∧
    p = ⟨t.toNat, m.toNat, q.toNat, (t - (m + q)).toNat, 0, 2 ^ m.toNat - 1⟩ := by
  unfold mkParams at h
  split at h
  · cases h
  split at h
  · cases h
  split at h
  · cases h
  simp only at h
  split at h
  · cases h
  · injection h with h
    rw [Nat.shiftLeft_eq, one_mul] at h
    exact ⟨by omega, by omega, by omega, h.symm⟩

theorem ValidParams.arith {p : EncodingParameters} (h : ValidParams p) :
    p.messageBitLength + p.paddingBitLength + p.errorBitLength = p.totalBitLength ∧
    1 ≤ p.messageBitLength ∧ p.messageMin = 0 ∧ p.messageMax = 2 ^ p.messageBitLength - 1 := by
  obtain ⟨t, m, q, hp⟩ := h.made
  obtain ⟨h1, h2, h3, rfl⟩ := mkParams_ok hp
  refine ⟨?_, ?_, rfl, rfl⟩ <;> simp <;> omega

theorem boolParams_valid : ValidParams boolParams :=
  ⟨⟨32, 3, 1, rfl⟩, by decide, by decide⟩

/-- C06: the parameter constructor accepts exactly: at least one message bit, non-negative padding,
total at least 1 and at least message plus padding; the noise length is what is left over. -/
theorem C06_params (t m q : Int) :
    ((∃ msg, mkParams t m q = .error msg) ↔ (t < 1 ∨ m < 1 ∨ q < 0 ∨ t < m + q)) ∧
    (∀ p, mkParams t m q = .ok p →
      (p.totalBitLength : Int) = t ∧ (p.messageBitLength : Int) = m ∧ (p.paddingBitLength : Int) = q ∧
      (p.errorBitLength : Int) = t - m - q ∧ p.messageMax + 1 = 2 ^ p.messageBitLength) := by
  constructor
  · constructor
    · rintro ⟨msg, h⟩
      by_contra hc
      have c1 : ¬ t < 1 := by omega
      have c2 : ¬ m < 1 := by omega
      have c3 : ¬ q < 0 := by omega
      have c4 : ¬ (t - (m + q) < 0) := by omega
      simp [mkParams, c1, c2, c3, c4] at h
    · intro h
      refine ⟨"ValueError", ?_⟩
      unfold mkParams
      split
      · rfl
      split
      · rfl
      split
      · rfl
      simp only
      rw [if_pos (by omega)]
  · intro p hp
    obtain ⟨h1, h2, h3, rfl⟩ := mkParams_ok hp
    have : 0 < 2 ^ m.toNat := by positivity
    simp only
    refine ⟨by omega, by omega, by omega, by omega, by omega⟩

example : ∃ p, mkParams 32 3 1 = .ok p := ⟨_, rfl⟩

/-- C06: for messages given as an `int32` or `uint32` value, `encode` succeeds exactly on
`0 ≤ message < 2^message_bits`, and the result is the message placed above the noise bits (no bit is
lost: it stays below `2^total`). -/
theorem C06_encode (p : EncodingParameters) (hp : ValidParams p) (message : Int)
    (hlo : -2 ^ 31 ≤ message) (hhi : message < 2 ^ 32) :
    ((∃ x, encode message p = .ok x) ↔ (0 ≤ message ∧ message < 2 ^ p.messageBitLength)) ∧
    (∀ x, encode message p = .ok x →
      (x.toNat : Int) = message * 2 ^ p.errorBitLength ∧ x.toNat < 2 ^ p.totalBitLength) := by
  obtain ⟨ha, hm, hmin, hmax⟩ := hp.arith
  have hfit := hp.fits
  have hno := hp.noisy
  have hm31 : p.messageBitLength ≤ 31 := by omega
  have hpow : (2 : Nat) ^ p.messageBitLength ≤ 2 ^ 31 := Nat.pow_le_pow_right (by decide) hm31
  have hpos : 0 < (2 : Nat) ^ p.messageBitLength := by positivity
  have key : ((BitVec.ofInt 32 message).toNat > p.messageMax ∨
      (BitVec.ofInt 32 message).toNat < p.messageMin) ↔
      ¬ (0 ≤ message ∧ message < 2 ^ p.messageBitLength) := by
    rw [hmin, hmax, BitVec.toNat_ofInt]
    have e : ((2 : Int) ^ p.messageBitLength) = ((2 ^ p.messageBitLength : Nat) : Int) := by
      push_cast; rfl
    rw [e]
    norm_num at hlo hhi hpow ⊢
    omega
  constructor
  · unfold encode
    simp only [Bool.false_eq_true, if_false]
    constructor
    · rintro ⟨x, hx⟩
      by_contra hc
      rw [if_pos (key.mpr hc)] at hx; cases hx
    · intro h
      rw [if_neg (fun hc => key.mp hc h)]
      exact ⟨_, rfl⟩
  · intro x hx
    unfold encode at hx
    simp only [Bool.false_eq_true, if_false] at hx
    split at hx
    · cases hx
    rename_i hc
    have hr : 0 ≤ message ∧ message < 2 ^ p.messageBitLength := by
      by_contra h; exact hc (key.mpr h)
    injection hx with hx
    obtain ⟨n, rfl⟩ := Int.eq_ofNat_of_zero_le hr.1
    have hn : n < 2 ^ p.messageBitLength := by exact_mod_cast hr.2
    have htot : n * 2 ^ p.errorBitLength < 2 ^ p.totalBitLength := by
      calc n * 2 ^ p.errorBitLength < 2 ^ p.messageBitLength * 2 ^ p.errorBitLength :=
            Nat.mul_lt_mul_of_pos_right hn (by positivity)
        _ = 2 ^ (p.messageBitLength + p.errorBitLength) := by rw [pow_add]
        _ ≤ 2 ^ p.totalBitLength := Nat.pow_le_pow_right (by decide) (by omega)
    have htot2 : n * 2 ^ p.errorBitLength < 2 ^ 32 :=
      lt_of_lt_of_le htot (Nat.pow_le_pow_right (by decide) hfit)
    have hxv : x.toNat = n * 2 ^ p.errorBitLength := by
      rw [← hx, BitVec.toNat_shiftLeft, Nat.shiftLeft_eq]
      have : (BitVec.ofInt 32 (n : Int)).toNat = n := by
        rw [BitVec.toNat_ofInt]; norm_num at hhi ⊢; omega
      rw [this, Nat.mod_eq_of_lt htot2]
    rw [hxv]
    exact ⟨by push_cast; ring, htot⟩

example : ValidParams boolParams ∧ (-2 ^ 31 : Int) ≤ 7 ∧ (7 : Int) < 2 ^ 32 ∧
    encode 7 boolParams = .ok 0x70000000#32 := ⟨boolParams_valid, by decide, by decide, by decide⟩

/-- C06: the test-polynomial mode accepts one value too many: `2^(padding+message)` passes the bound
check although only `2^(padding+message)` values exist, and encodes to the same word as `0`. -/
theorem C06_test_polynomial_bound_off_by_one (p : EncodingParameters) (hp : ValidParams p)
    (h32 : p.totalBitLength = 32) :
    encode (2 ^ (p.paddingBitLength + p.messageBitLength)) p true = .ok 0#32 ∧
    encode 0 p true = .ok 0#32 := by
  obtain ⟨ha, hm, hmin, hmax⟩ := hp.arith
  have hno := hp.noisy
  constructor
  · have hlt : (2 : Nat) ^ (p.paddingBitLength + p.messageBitLength) < 2 ^ 32 :=
      Nat.pow_lt_pow_right (by decide) (by omega)
    have e : (BitVec.ofInt 32 (2 ^ (p.paddingBitLength + p.messageBitLength))).toNat =
        2 ^ (p.paddingBitLength + p.messageBitLength) := by
      have : ((2 : Int) ^ (p.paddingBitLength + p.messageBitLength)) =
          ((2 ^ (p.paddingBitLength + p.messageBitLength) : Nat) : Int) := by push_cast; rfl
      rw [this, BitVec.ofInt_natCast, BitVec.toNat_ofNat, Nat.mod_eq_of_lt hlt]
    unfold encode
    simp only [if_true, e, hmin, lt_irrefl, Nat.not_lt_zero, or_self, if_false]
    congr 1
    apply BitVec.eq_of_toNat_eq
    rw [BitVec.toNat_shiftLeft, Nat.shiftLeft_eq, e, ← pow_add]
    have : p.paddingBitLength + p.messageBitLength + p.errorBitLength = 32 := by omega
    rw [this]; rfl
  · unfold encode
    simp [hmin]

example : boolParams.totalBitLength = 32 := rfl

/-- C05: decoding any plaintext of the form `v * 2^noise_bits + n` (mod `2^32`) with noise
`-2^(noise_bits-1) ≤ n < 2^(noise_bits-1)` returns `v` modulo the message space, and modulo the padded
message space for the variant that keeps the padding. -/
theorem C05_decode_any (p : EncodingParameters) (hp : ValidParams p) (v n : Int)
    (h1 : -2 ^ (p.errorBitLength - 1) ≤ n) (h2 : n < 2 ^ (p.errorBitLength - 1)) :
    ((decode (BitVec.ofInt 32 (v * 2 ^ p.errorBitLength + n)) p).toNat : Int) =
      v % 2 ^ p.messageBitLength ∧
    ((decodeWithoutRemovingPadding (BitVec.ofInt 32 (v * 2 ^ p.errorBitLength + n)) p).toNat : Int) =
      v % 2 ^ (p.messageBitLength + p.paddingBitLength) := by
  obtain ⟨ha, hm, hmin, hmax⟩ := hp.arith
  have hfit := hp.fits
  have hno := hp.noisy
  unfold decode decodeWithoutRemovingPadding removeNoise
  simp only
  rw [decode_core _ _ _ hno (by omega), decode_core _ _ _ hno (by omega)]
  exact ⟨round_int v n _ _ hno (by omega) h1 h2, round_int v n _ _ hno (by omega) h1 h2⟩

example : ValidParams boolParams ∧ -2 ^ (boolParams.errorBitLength - 1) ≤ (-134217728 : Int) ∧
    (-134217728 : Int) < 2 ^ (boolParams.errorBitLength - 1) ∧
    decode (BitVec.ofInt 32 (5 * 2 ^ 28 + -134217728)) boolParams = 5#32 :=
  ⟨boolParams_valid, by decide, by decide, by decide⟩

/-- C05: encode, add noise, decode returns the message. -/
theorem C05_roundtrip (p : EncodingParameters) (hp : ValidParams p) (message n : Int)
    (hm0 : 0 ≤ message) (hm1 : message < 2 ^ p.messageBitLength)
    (h1 : -2 ^ (p.errorBitLength - 1) ≤ n) (h2 : n < 2 ^ (p.errorBitLength - 1)) :
    ∃ x, encode message p = .ok x ∧ ((decode (x + BitVec.ofInt 32 n) p).toNat : Int) = message ∧
      ((decodeWithoutRemovingPadding (x + BitVec.ofInt 32 n) p).toNat : Int) = message := by
  obtain ⟨ha, hm, hmin, hmax⟩ := hp.arith
  have hfit := hp.fits
  have hno := hp.noisy
  have hpow : (2 : Int) ^ p.messageBitLength ≤ 2 ^ 31 := by
    exact_mod_cast Nat.pow_le_pow_right (n := 2) (by decide) (show p.messageBitLength ≤ 31 by omega)
  have hE := C06_encode p hp message (by linarith [show (0 : Int) < 2 ^ 31 by norm_num])
    (by norm_num at hpow ⊢; omega)
  obtain ⟨x, hx⟩ := hE.1.mpr ⟨hm0, hm1⟩
  refine ⟨x, hx, ?_⟩
  have hxv := (hE.2 x hx).1
  have hxe : x + BitVec.ofInt 32 n = BitVec.ofInt 32 (message * 2 ^ p.errorBitLength + n) := by
    rw [BitVec.ofInt_add, ← hxv]
    congr 1
    apply BitVec.eq_of_toNat_eq
    simp
  rw [hxe]
  obtain ⟨d1, d2⟩ := C05_decode_any p hp message n h1 h2
  rw [d1, d2, Int.emod_eq_of_lt hm0 hm1]
  refine ⟨rfl, Int.emod_eq_of_lt hm0 (lt_of_lt_of_le hm1 ?_)⟩
  exact_mod_cast Nat.pow_le_pow_right (n := 2) (by decide) (Nat.le_add_right _ _)

example : (0 : Int) ≤ 5 ∧ (5 : Int) < 2 ^ boolParams.messageBitLength := by decide

/-- C05: the noise interval is the exact one: at `2^(noise_bits-1)` the padded decoding moves to the
next message. -/
theorem C05_bound_tight (p : EncodingParameters) (hp : ValidParams p) (v : Int) :
    ((decodeWithoutRemovingPadding
      (BitVec.ofInt 32 (v * 2 ^ p.errorBitLength + 2 ^ (p.errorBitLength - 1))) p).toNat : Int) =
      (v + 1) % 2 ^ (p.messageBitLength + p.paddingBitLength) ∧
    ((decodeWithoutRemovingPadding
      (BitVec.ofInt 32 (v * 2 ^ p.errorBitLength - 2 ^ (p.errorBitLength - 1) - 1)) p).toNat : Int) =
      (v - 1) % 2 ^ (p.messageBitLength + p.paddingBitLength) := by
  have hno := hp.noisy
  have hee : (2 : Int) ^ p.errorBitLength = 2 ^ (p.errorBitLength - 1) + 2 ^ (p.errorBitLength - 1) := by
    obtain ⟨e, he⟩ : ∃ j, p.errorBitLength = j + 1 := ⟨p.errorBitLength - 1, by omega⟩
    rw [he]; simp only [Nat.add_sub_cancel]; ring
  have hpos : (0 : Int) < 2 ^ (p.errorBitLength - 1) := by positivity
  constructor
  · have := (C05_decode_any p hp (v + 1) (-2 ^ (p.errorBitLength - 1)) le_rfl (by linarith)).2
    have e : v * 2 ^ p.errorBitLength + 2 ^ (p.errorBitLength - 1) =
      (v + 1) * 2 ^ p.errorBitLength + -2 ^ (p.errorBitLength - 1) := by rw [hee]; ring
    rw [e]; exact this
  · have := (C05_decode_any p hp (v - 1) (2 ^ (p.errorBitLength - 1) - 1) (by linarith) (by linarith)).2
    have e : v * 2 ^ p.errorBitLength - 2 ^ (p.errorBitLength - 1) - 1 =
      (v - 1) * 2 ^ p.errorBitLength + (2 ^ (p.errorBitLength - 1) - 1) := by rw [hee]; ring
    rw [e]; exact this

example := C05_bound_tight boolParams boolParams_valid 3

/-- C07 is violated: with the Boolean parameters the plaintext `8·2^28 - 1` (value 8 of the padded
space, noise `-1`) is reported to have noise `2^32 - 1`. -/
theorem C07_negation : ¬ ∀ (p : EncodingParameters), ValidParams p → ∀ v n : Int,
    -2 ^ (p.errorBitLength - 1) ≤ n → n < 2 ^ (p.errorBitLength - 1) →
    extractNoise (BitVec.ofInt 32 (v * 2 ^ p.errorBitLength + n)) p = n := by
  intro h
  have := h boolParams boolParams_valid 8 (-1) (by decide) (by decide)
  revert this
  decide

/-- C07 also fails for an ordinary message (no padding bits): 3 message bits, message `4`, noise `-1`. -/
theorem C07_negation_message :
    extractNoise (BitVec.ofInt 32 (4 * 2 ^ 29 + -1)) ⟨32, 3, 0, 29, 0, 7⟩ = 2 ^ 32 - 1 := by
  decide

/-- C07 (partial: all cases except a negative noise on the plaintext `2^31`, where the code is wrong,
see `C07_negation`). `extract_noise` returns the noise. -/
theorem C07_extract_noise_partial (p : EncodingParameters) (hp : ValidParams p) (v n : Int)
    (h1 : -2 ^ (p.errorBitLength - 1) ≤ n) (h2 : n < 2 ^ (p.errorBitLength - 1))
    (hex : ¬ ((v * 2 ^ p.errorBitLength) % 2 ^ 32 = 2 ^ 31 ∧ n < 0)) :
    extractNoise (BitVec.ofInt 32 (v * 2 ^ p.errorBitLength + n)) p = n := by
  obtain ⟨ha, hm, hmin, hmax⟩ := hp.arith
  have hfit := hp.fits
  have hno := hp.noisy
  set e := p.errorBitLength with he
  -- the rounded word is `v * 2^e mod 2^32`
  have hr : (removeNoise (BitVec.ofInt 32 (v * 2 ^ e + n)) p).toNat = (v * 2 ^ e) % 2 ^ 32 := by
    unfold removeNoise
    rw [round_toNat _ _ hno]
    have h32 : (2 : Nat) ^ 32 = 2 ^ (32 - e) * 2 ^ e := by rw [← pow_add]; congr 1; omega
    have h32' : (2 : Int) ^ 32 = 2 ^ (32 - e) * 2 ^ e := by rw [← pow_add]; congr 1; omega
    have key := round_int v n e (32 - e) hno (by omega) h1 h2
    rw [h32, Nat.mul_mod_mul_right]
    push_cast at key ⊢
    rw [key, show (4294967296 : Int) = 2 ^ (32 - e) * 2 ^ e from by rw [← h32']; norm_num,
      int_mul_emod_mul_right _ _ _ (by positivity)]
  have hhalf : (2 : Int) ^ (e - 1) ≤ 2 ^ 30 := by
    exact_mod_cast Nat.pow_le_pow_right (n := 2) (by decide) (show e - 1 ≤ 30 by omega)
  unfold extractNoise
  simp only
  rw [BitVec.toInt_eq_toNat_bmod, BitVec.toInt_eq_toNat_bmod, hr]
  have hX : ((BitVec.ofInt 32 (v * 2 ^ e + n)).toNat : Int) = (v * 2 ^ e + n) % 2 ^ 32 := by
    rw [BitVec.toNat_ofInt]; norm_num; exact Int.emod_nonneg _ (by norm_num)
  rw [hX]
  -- `v * 2^e` mod `2^32` is a multiple of `2^e`, hence `n` cannot cross `2^31` otherwise
  have hdvd : (2 : Int) ^ e ∣ (v * 2 ^ e) % 2 ^ 32 := by
    have h32' : (2 : Int) ^ 32 = 2 ^ (32 - e) * 2 ^ e := by rw [← pow_add]; congr 1; omega
    rw [h32', int_mul_emod_mul_right _ _ _ (by positivity)]
    exact Dvd.intro_left _ rfl
  obtain ⟨r, hrr⟩ := hdvd
  have hee : (2 : Int) ^ e = 2 ^ (e - 1) + 2 ^ (e - 1) := by
    obtain ⟨e', he'⟩ : ∃ j, e = j + 1 := ⟨e - 1, by omega⟩
    rw [he']; simp only [Nat.add_sub_cancel]; ring
  have h31 : ∃ c : Int, (2 : Int) ^ 31 = 2 ^ e * c := ⟨2 ^ (31 - e), by rw [← pow_add]; congr 1; omega⟩
  obtain ⟨c, hc⟩ := h31
  set E := (2 : Int) ^ e with hE
  set V := v * E with hV
  have hcmp : V % 2 ^ 32 < 2 ^ 31 → V % 2 ^ 32 + E ≤ 2 ^ 31 := by
    intro hlt
    rw [hrr, hc] at hlt ⊢
    have hEpos : 0 < E := by positivity
    have : r < c := lt_of_mul_lt_mul_left hlt hEpos.le
    nlinarith
  have hcmp2 : 2 ^ 31 < V % 2 ^ 32 → 2 ^ 31 + E ≤ V % 2 ^ 32 := by
    intro hlt
    rw [hrr, hc] at hlt ⊢
    have hEpos : 0 < E := by positivity
    have : c < r := lt_of_mul_lt_mul_left hlt hEpos.le
    nlinarith
  have hcmp3 : V % 2 ^ 32 + E ≤ 2 ^ 32 := by
    have hlt : V % 2 ^ 32 < 2 ^ 32 := Int.emod_lt_of_pos _ (by norm_num)
    have h2c : (2 : Int) ^ 32 = E * (2 * c) := by
      have : (2 : Int) ^ 32 = 2 * 2 ^ 31 := by norm_num
      rw [this, hc]; ring
    rw [hrr] at hlt ⊢
    rw [h2c] at hlt ⊢
    have hEpos : 0 < E := by positivity
    have : r < 2 * c := lt_of_mul_lt_mul_left hlt hEpos.le
    nlinarith
  have hnat : ((2 ^ 32 : Nat) : Int) = 4294967296 := by norm_num
  norm_num at hcmp hcmp2 hcmp3 hex hhalf ⊢
  simp only [Int.bmod_def]
  norm_num
  have hg1 := Int.emod_nonneg V (show (4294967296 : Int) ≠ 0 by norm_num)
  have hg2 := Int.emod_lt_of_pos V (show (0 : Int) < 4294967296 by norm_num)
  generalize (2 : Int) ^ (e - 1) = H at *
  omega

example : ¬ (((3 : Int) * 2 ^ boolParams.errorBitLength) % 2 ^ 32 = 2 ^ 31 ∧ (-5 : Int) < 0) ∧
    extractNoise (BitVec.ofInt 32 (3 * 2 ^ 28 + -5)) boolParams = -5 := by decide

end Verif.Props

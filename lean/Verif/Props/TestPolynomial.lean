import Verif.Lemmas.TestPolynomial
import Verif.Props.Rlwe

/-!
# Property C23: test polynomials
-/

namespace Verif.Props
open Verif.Rlwe Verif.Nega Verif.Arith Verif.Encoding Verif.TestPolynomial

/-- C23: which coefficient lists are accepted (for a table whose entries are representable). -/
theorem C23_accepts (p : EncodingParameters) (hp : ValidParams p) (table : List Int) (N : Nat)
    (hv : ∀ c ∈ table, 0 ≤ c ∧ c < 2 ^ (p.paddingBitLength + p.messageBitLength)) :
    (∃ tp, genTestPolynomial table p N = .ok tp) ↔
      table.length = 2 ^ p.messageBitLength ∧ 2 ^ p.messageBitLength ≤ N := by
  unfold genTestPolynomial
  simp only
  constructor
  · rintro ⟨tp, h⟩
    split at h
    · cases h
    split at h
    · cases h
    rename_i h1 h2
    have h2' := not_not.1 h2
    exact ⟨h2', by omega⟩
  · rintro ⟨h1, h2⟩
    rw [if_neg (by omega), if_neg (by simp [h1])]
    refine ⟨_, mapM_ok _ (fun c => BitVec.ofInt 32 (c * 2 ^ p.errorBitLength)) _ (fun c hc => ?_)⟩
    have hpos : (0 : Int) < 2 ^ (p.paddingBitLength + p.messageBitLength) := by positivity
    have : 0 ≤ c ∧ c < 2 ^ (p.paddingBitLength + p.messageBitLength) := by
      unfold padForError at hc
      simp only [List.mem_append, List.mem_map] at hc
      rcases hc with hc | ⟨c', _, rfl⟩
      · have := List.mem_of_mem_drop hc
        rw [List.mem_flatMap] at this
        obtain ⟨c', h3, h4⟩ := this
        rw [List.eq_of_mem_replicate h4]
        exact hv _ h3
      · exact ⟨Int.emod_nonneg _ (by omega), Int.emod_lt_of_pos _ hpos⟩
    exact encode_test p hp c this.1 this.2

/-- C23: the lookup. For a table of `2^m` entries and a degree `N` divisible by it (`w = N / 2^m` is the
slot width), the test polynomial has `N` coefficients, and for every slot `j` and every integer rotation
`r` with `-(w/2) ≤ r - j w < w - w/2`, the constant coefficient of `X^(-r) * tp` modulo `X^N + 1` is the
encoding of `table[j]`. For `j = 0` this includes the negative rotations. -/
theorem C23_lookup (p : EncodingParameters) (hp : ValidParams p) (h32 : p.totalBitLength = 32)
    (table : List Int) (N : Nat) [NeZero N]
    (hv : ∀ c ∈ table, 0 ≤ c ∧ c < 2 ^ (p.paddingBitLength + p.messageBitLength))
    (hlen : table.length = 2 ^ p.messageBitLength) (hd : 2 ^ p.messageBitLength ∣ N) :
    ∃ tp, genTestPolynomial table p N = .ok tp ∧ ∃ hN : tp.length = N,
      ∀ (j : Nat) (hj : j < 2 ^ p.messageBitLength) (r : Int),
        -((N / 2 ^ p.messageBitLength / 2 : Nat) : Int) ≤ r - j * (N / 2 ^ p.messageBitLength : Nat) →
        r - j * (N / 2 ^ p.messageBitLength : Nat) <
          (N / 2 ^ p.messageBitLength : Nat) - (N / 2 ^ p.messageBitLength / 2 : Nat) →
        ∀ b : Fin N → W, ev b = x W N ^ ((-r) % (2 * N)).toNat * ev (fun i : Fin N => tp[i.val]'(by omega)) →
          b 0 = BitVec.ofInt 32 (table[j]'(by omega) * 2 ^ p.errorBitLength) := by
  have hN : 0 < N := Nat.pos_of_ne_zero (NeZero.ne N)
  obtain ⟨ha, hm, hmin, hmax⟩ := hp.arith
  set M := 2 ^ p.messageBitLength with hM
  have hM0 : 0 < M := by positivity
  have hMN : M ≤ N := Nat.le_of_dvd hN hd
  obtain ⟨tp, htp⟩ := (C23_accepts p hp table N hv).2 ⟨hlen, hMN⟩
  refine ⟨tp, htp, ?_⟩
  set cm : Int := 2 ^ (p.paddingBitLength + p.messageBitLength) with hcm
  have hpos : (0 : Int) < cm := by positivity
  -- the value of `tp`
  have htp' : tp = (padForError table N cm).map (fun c => BitVec.ofInt 32 (c * 2 ^ p.errorBitLength)) := by
    unfold genTestPolynomial at htp
    simp only [← hM, ← hcm] at htp
    rw [if_neg (by omega), if_neg (by simp [hlen])] at htp
    rw [mapM_ok _ (fun c => BitVec.ofInt 32 (c * 2 ^ p.errorBitLength))] at htp
    · exact (Except.ok.inj htp).symm
    · intro c hc
      have : 0 ≤ c ∧ c < 2 ^ (p.paddingBitLength + p.messageBitLength) := by
        unfold padForError at hc
        simp only [List.mem_append, List.mem_map] at hc
        rcases hc with hc | ⟨c', _, rfl⟩
        · have := List.mem_of_mem_drop hc
          rw [List.mem_flatMap] at this
          obtain ⟨c', h3, h4⟩ := this
          rw [List.eq_of_mem_replicate h4]
          exact hv _ h3
        · exact ⟨Int.emod_nonneg _ (by omega), Int.emod_lt_of_pos _ hpos⟩
      exact encode_test p hp c this.1 this.2
  have hlenN : tp.length = N := by
    rw [htp', List.length_map]
    exact (padForError_getElem? table N M cm hlen hM0 hd hN 0).1
  refine ⟨hlenN, ?_⟩
  intro j hj r hr1 hr2 b hb
  have hget : ∀ (i : Fin N) (c : Int), (padForError table N cm)[i.val]? = some c →
      tp[i.val]'(by omega) = BitVec.ofInt 32 (c * 2 ^ p.errorBitLength) := by
    intro i c h
    have h1 : tp[i.val]? = some (BitVec.ofInt 32 (c * 2 ^ p.errorBitLength)) := by
      rw [htp', List.getElem?_map, h]; rfl
    have h2 : tp[i.val]? = some (tp[i.val]'(by omega)) := List.getElem?_eq_getElem _
    rw [h1] at h2
    exact (Option.some.inj h2).symm
  obtain ⟨w, hw⟩ := hd
  have hdw : N / M = w := by rw [hw, Nat.mul_div_cancel_left _ hM0]
  have hw0 : 0 < w := by
    rcases Nat.eq_zero_or_pos w with h | h
    · rw [h] at hw; omega
    · exact h
  rw [hdw] at hr1 hr2
  have hjw : (j + 1) * w ≤ N := by rw [hw]; exact Nat.mul_le_mul_right _ hj
  obtain ⟨hrot1, hrot2⟩ := const_coeff_rot r _ b hb
  by_cases hneg : r < 0
  · -- wrapped half of slot 0
    have hj0 : j = 0 := by
      by_contra hne
      have : (1 : Int) * w ≤ j * w := by
        have : 1 * w ≤ j * w := Nat.mul_le_mul_right _ (by omega)
        exact_mod_cast this
      omega
    subst hj0
    have hwN : w ≤ N := by linarith
    obtain ⟨i, hi⟩ : ∃ i : Nat, (i : Int) = r + N := ⟨(r + N).toNat, by omega⟩
    have hiN : i < N := by omega
    have hidx := hrot2 ⟨i, hiN⟩ hi hneg
    rw [hidx]
    have hpad := (padForError_getElem? table N M cm hlen hM0 ⟨w, hw⟩ hN i).2.2 (by rw [hdw]; omega) hiN
    rw [List.getElem?_eq_getElem (l := table) (i := 0) (by omega)] at hpad
    rw [hget ⟨i, hiN⟩ _ hpad]
    -- negation modulo 2^32
    set t := table[0]'(by omega)
    show -((((-t) % cm * 2 ^ p.errorBitLength : Int)) : W) = ((t * 2 ^ p.errorBitLength : Int) : W)
    rw [← Int.cast_neg]
    have : (-(-t % cm * 2 ^ p.errorBitLength) : Int) = t * 2 ^ p.errorBitLength + 2 ^ 32 * ((-t) / cm) := by
      have h1 := Int.emod_add_mul_ediv (-t) cm
      have h2 : (2 : Int) ^ 32 = cm * 2 ^ p.errorBitLength := by
        rw [hcm, ← pow_add]; congr 1; omega
      rw [h2]
      linear_combination (-(2 : Int) ^ p.errorBitLength) * h1
    rw [this]
    apply BitVec.eq_of_toNat_eq
    show (BitVec.ofInt 32 _).toNat = (BitVec.ofInt 32 _).toNat
    rw [BitVec.toNat_ofInt, BitVec.toNat_ofInt]
    have e32 : ((2 ^ 32 : Nat) : Int) = 2 ^ 32 := by norm_num
    rw [e32, Int.add_mul_emod_self_left]
  · obtain ⟨i, rfl⟩ := Int.eq_ofNat_of_zero_le (not_lt.1 hneg)
    have hjw' : ((j : Int) + 1) * w ≤ N := by exact_mod_cast hjw
    have hlt : i + w / 2 < (j + 1) * w := by
      have : ((i : Int) + (w / 2 : Nat)) < (j + 1) * w := by linarith
      exact_mod_cast this
    have hge : j * w ≤ i + w / 2 := by
      have : ((j : Int)) * w ≤ i + (w / 2 : Nat) := by linarith
      exact_mod_cast this
    have hiN : i < N - w / 2 := by omega
    have hidx := hrot1 ⟨i, by omega⟩ rfl
    rw [hidx]
    have hpad := (padForError_getElem? table N M cm hlen hM0 ⟨w, hw⟩ hN i).2.1 (by rw [hdw]; exact hiN)
    have hq : (i + w / 2) / w = j := by
      rw [Nat.div_eq_iff hw0]
      constructor
      · exact hge
      · have : (j + 1) * w = j * w + w := by ring
        omega
    rw [hdw, hq, List.getElem?_eq_getElem (l := table) (i := j) (by omega)] at hpad
    rw [hget ⟨i, by omega⟩ _ hpad]

/-- The hypotheses (of `C23_accepts`, `C23_identity` and the others) hold for the Boolean parameters: a table of 8 entries at degree 512. -/
example : ValidParams boolParams ∧ boolParams.totalBitLength = 32 ∧
    (∀ c ∈ ([0, 1, 1, 0, 2, 2, 2, 15] : List Int), 0 ≤ c ∧
      c < 2 ^ (boolParams.paddingBitLength + boolParams.messageBitLength)) ∧
    ([0, 1, 1, 0, 2, 2, 2, 15] : List Int).length = 2 ^ boolParams.messageBitLength ∧
    2 ^ boolParams.messageBitLength ∣ 512 ∧ 2 ^ boolParams.messageBitLength ∣ 16 := 
  ⟨boolParams_valid, by decide, by decide, by decide, by decide, by decide⟩

example : genTestPolynomial [1, 0, 1, 1, 2, 2, 2, 2] boolParams 16 = .ok
    [0x10000000#32, 0x0#32, 0x0#32, 0x10000000#32, 0x10000000#32, 0x10000000#32, 0x10000000#32,
     0x20000000#32, 0x20000000#32, 0x20000000#32, 0x20000000#32, 0x20000000#32, 0x20000000#32,
     0x20000000#32, 0x20000000#32, 0xf0000000#32] := by decide

/-- C23: the identity test polynomial is the one of the table `0, 1, ..., 2^m - 1`. -/
theorem C23_identity (p : EncodingParameters) (hp : ValidParams p) (h32 : p.totalBitLength = 32)
    (N : Nat) [NeZero N] (hd : 2 ^ p.messageBitLength ∣ N) :
    ∃ tp, identityTestPolynomial p N = .ok tp ∧ ∃ hN : tp.length = N,
      ∀ (j : Nat) (_ : j < 2 ^ p.messageBitLength) (r : Int),
        -((N / 2 ^ p.messageBitLength / 2 : Nat) : Int) ≤ r - j * (N / 2 ^ p.messageBitLength : Nat) →
        r - j * (N / 2 ^ p.messageBitLength : Nat) <
          (N / 2 ^ p.messageBitLength : Nat) - (N / 2 ^ p.messageBitLength / 2 : Nat) →
        ∀ b : Fin N → W, ev b = x W N ^ ((-r) % (2 * N)).toNat * ev (fun i : Fin N => tp[i.val]'(by omega)) →
          b 0 = BitVec.ofInt 32 (j * 2 ^ p.errorBitLength) := by
  have hlen : ((List.range (2 ^ p.messageBitLength)).map (fun i : Nat => (i : Int))).length =
      2 ^ p.messageBitLength := by simp
  have hv : ∀ c ∈ (List.range (2 ^ p.messageBitLength)).map (fun i : Nat => (i : Int)),
      0 ≤ c ∧ c < 2 ^ (p.paddingBitLength + p.messageBitLength) := by
    intro c hc
    rw [List.mem_map] at hc
    obtain ⟨i, hi, rfl⟩ := hc
    have h1 := List.mem_range.1 hi
    have h2 : 2 ^ p.messageBitLength ≤ 2 ^ (p.paddingBitLength + p.messageBitLength) :=
      Nat.pow_le_pow_right (by decide) (by omega)
    refine ⟨by omega, ?_⟩
    exact_mod_cast lt_of_lt_of_le h1 h2
  obtain ⟨tp, h1, h2, h3⟩ := C23_lookup p hp h32 _ N hv hlen hd
  refine ⟨tp, h1, h2, fun j hj r hr1 hr2 b hb => ?_⟩
  rw [h3 j hj r hr1 hr2 b hb]
  simp

/-- C23: the trivial encryption of a polynomial has that polynomial as phase under every key: it decrypts
(before rounding) to it. -/
theorem C23_trivial (be : Backend) {k n : Nat} (hn : 0 < n) (tp : Fin n → W) (s : Fin k → Fin n → W) :
    rlwePhase (trivialEncryption be k tp 32) s = ev tp ∧
    decryptWithNoise be (trivialEncryption be k tp 32) ⟨32, s⟩ = tp := by
  have h : rlwePhase (trivialEncryption be k tp 32) s = ev tp := by
    have hz : trivialEncryption be k tp 32 =
        Rlwe.jitEncrypt be tp s (fun _ _ => 0) (fun _ => 0) 32 := by
      have hp0 : ∀ t : Fin k → Fin n → W, MatrixUtils.polyDotProduct be.tpu (fun _ _ => 0) t = fun _ => 0 := by
        intro t
        apply ev_injective hn
        rw [MatrixUtils.ev_polyDotProduct]
        refine (Finset.sum_eq_zero (fun i _ => ?_)).trans ev_zero.symm
        rw [ev_zero, zero_mul]
      unfold trivialEncryption Rlwe.jitEncrypt
      simp only [hp0]
    rw [hz, rlwePhase_jitEncrypt]
    exact (congrArg _ ev_zero).trans (add_zero _)
  refine ⟨h, ?_⟩
  apply ev_injective hn
  rw [ev_decryptWithNoise, h]

example (be : Backend) := C23_trivial be (k := 1) (n := 2) (by norm_num) ![0x10000000#32, 0x20000000#32] ![![1, 0]]

end Verif.Props

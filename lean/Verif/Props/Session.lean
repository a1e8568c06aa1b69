import Verif.Props.JaxiteBool
import Verif.Props.Helpers
import Verif.Model.Session

/-!
# Property C74: a whole use of the Boolean API
-/

namespace Verif.Props
open Verif.Rlwe Verif.Nega Verif.Arith Verif.Encoding Verif.Bootstrap Verif.Rgsw
open Verif.KeySwitch Verif.JaxiteBool Verif.Session Verif.Helpers

/-! ## Samples -/

theorem draw_bind {σ α β : Type} (x : Draw σ α) (f : α → Draw σ β) (s s' : σ) (a : α) (h : x s = .ok (a, s')) :
    (x >>= f) s = f a s' := by
  show (x s >>= fun r => f r.1 r.2) = _
  rw [h]; rfl

theorem draw_mem {σ : Type} (gen : σ → Int × σ) (n : Nat) (s : σ) :
    ∀ v ∈ (draw gen n s).1, ∃ t, v = (gen t).1 := by
  induction n generalizing s with
  | zero => intro v hv; simp [draw] at hv
  | succ n ih =>
    intro v hv
    simp only [draw, List.mem_cons] at hv
    rcases hv with rfl | hv
    · exact ⟨s, rfl⟩
    · exact ih _ v hv

theorem ofInt_normalize (v : Int) : BitVec.ofInt 32 (normalizeValue v (.unsigned 32)) = BitVec.ofInt 32 v := by
  apply BitVec.eq_of_toInt_eq
  simp only [normalizeValue, BitVec.toInt_ofInt, sub_add_cancel]
  exact Int.emod_bmod v (2 ^ 32)

/-- Every word of a sampled array is zero (outside the array) or a drawn value modulo `2^32`. -/
theorem sample_ok {σ : Type} (gen : σ → Int × σ) (shape : List Nat) (s : σ) :
    ∃ arr s', sample gen shape s = .ok (arr, s') ∧
      ∀ idx, ∃ v : Int, word arr idx = BitVec.ofInt 32 v ∧ (v = 0 ∨ ∃ t, v = (gen t).1) := by
  obtain ⟨arr, s', h1, -⟩ := (C27_shape_generator gen (shape.map Int.ofNat) (.unsigned 32) s).2 (by
    intro d hd
    obtain ⟨x, -, rfl⟩ := List.mem_map.1 hd
    exact Int.natCast_nonneg x)
  refine ⟨arr, s', h1, fun idx => ?_⟩
  unfold shapeGenerator at h1
  split at h1
  · cases h1
  · simp only at h1
    split at h1
    · simp only [Except.ok.injEq, Prod.mk.injEq] at h1
      obtain ⟨rfl, -⟩ := h1
      unfold word
      simp only
      generalize flatIndex (List.map Int.toNat (List.map Int.ofNat shape)) idx = t
      by_cases ht : t < ((draw gen (List.foldl (fun a b => a * b) 1 (List.map Int.ofNat shape)).toNat s).1.map
          (fun v => normalizeValue v (.unsigned 32))).length
      · rw [List.getD_eq_getElem _ _ ht, List.getElem_map, ofInt_normalize]
        exact ⟨_, rfl, Or.inr (draw_mem gen _ s _ (List.getElem_mem _))⟩
      · rw [List.getD_eq_default _ _ (by omega)]
        exact ⟨0, rfl, Or.inl rfl⟩
    · cases h1

theorem sample_bits {σ : Type} (gen : σ → Int × σ) (hg : ∀ t, (gen t).1 = 0 ∨ (gen t).1 = 1) (shape : List Nat)
    (s : σ) : ∃ arr s', sample gen shape s = .ok (arr, s') ∧
      ∀ idx, ∃ b : Bool, word arr idx = BitVec.ofInt 32 (bit b) := by
  obtain ⟨arr, s', h, hw⟩ := sample_ok gen shape s
  refine ⟨arr, s', h, fun idx => ?_⟩
  obtain ⟨v, h1, h2⟩ := hw idx
  have : v = 0 ∨ v = 1 := by
    rcases h2 with h2 | ⟨t, h2⟩
    · exact Or.inl h2
    · rw [h2]; exact hg t
  rcases this with rfl | rfl
  · exact ⟨false, h1⟩
  · exact ⟨true, h1⟩

theorem sample_bounded {σ : Type} (gen : σ → Int × σ) (B : Int) (hB : 0 ≤ B) (hg : ∀ t, |(gen t).1| ≤ B)
    (shape : List Nat) (s : σ) : ∃ arr s', sample gen shape s = .ok (arr, s') ∧
      ∀ idx, ∃ v : Int, word arr idx = BitVec.ofInt 32 v ∧ |v| ≤ B := by
  obtain ⟨arr, s', h, hw⟩ := sample_ok gen shape s
  refine ⟨arr, s', h, fun idx => ?_⟩
  obtain ⟨v, h1, h2⟩ := hw idx
  refine ⟨v, h1, ?_⟩
  rcases h2 with rfl | ⟨t, rfl⟩
  · simpa using hB
  · exact hg t

/-! ## Keys -/

/-- A random source whose rounded normal samples have magnitude at most `B` and whose secret-key samples
are bits. Nothing is assumed about the uniform samples. -/
structure SourceOk {σ : Type} (r : RandomSource σ) (B : Int) : Prop where
  normal : ∀ t, |(r.roundedNormal t).1| ≤ B
  key : ∀ t, (r.skUniform t).1 = 0 ∨ (r.skUniform t).1 = 1

theorem roundLog2_two_pow (n : Nat) : roundLog2 (2 ^ n) = n := by
  unfold roundLog2
  rw [Nat.log2_two_pow]
  simp only
  rw [if_neg]
  rw [← pow_add]
  exact not_lt.2 (Nat.pow_le_pow_right (by norm_num) (by omega))

theorem clientKeySet_ok {σ : Type} (p : BoolParameters) (lweRng rlweRng : RandomSource σ) (B : Int)
    (h1 : SourceOk lweRng B) (h2 : SourceOk rlweRng B)
    (hdeg : p.schemeParams.polynomialModulusDegree = 2 ^ p.schemeParams.logModDegree)
    (hmod : p.schemeParams.plaintextModulus = 2 ^ 32) (s : σ) :
    ∃ (lz : Fin p.schemeParams.lweDimension → Bool)
      (sk : Fin p.schemeParams.rlweDimension → Fin (2 ^ p.schemeParams.logModDegree) → Bool) (s' : σ),
      clientKeySet p lweRng rlweRng s = .ok (⟨⟨32, fun i => BitVec.ofInt 32 (bit (lz i))⟩,
        ⟨32, fun i c => BitVec.ofInt 32 (bit (sk i c))⟩⟩, s') := by
  have hlog : p.schemeParams.logPlaintextModulus = 32 := by
    unfold SchemeParameters.logPlaintextModulus
    rw [hmod]; exact roundLog2_two_pow 32
  obtain ⟨arr1, s1, e1, w1⟩ := sample_bits lweRng.skUniform h1.key [p.schemeParams.lweDimension] s
  obtain ⟨arr2, s2, e2, w2⟩ := sample_bits rlweRng.skUniform h2.key
    [p.schemeParams.rlweDimension, p.schemeParams.polynomialModulusDegree] s1
  choose f1 hf1 using w1
  choose f2 hf2 using w2
  refine ⟨fun i => f1 [i.val], fun i c => f2 [i.val, c.val], s2, ?_⟩
  have k1 : lweGenKey p.schemeParams lweRng s = .ok (⟨32, fun i => BitVec.ofInt 32 (bit (f1 [i.val]))⟩, s1) := by
    unfold lweGenKey
    rw [draw_bind _ _ _ _ _ e1, hlog]
    simp only [hf1]
    rfl
  have k2 : rlweGenKey p.schemeParams rlweRng s1 =
      .ok (⟨32, fun i c => BitVec.ofInt 32 (bit (f2 [i.val, c.val]))⟩, s2) := by
    unfold rlweGenKey
    rw [draw_bind _ _ _ _ _ e2, hlog]
    simp only [hf2]
    rfl
  unfold clientKeySet
  rw [if_neg (not_not.2 hdeg)]
  simp only
  rw [draw_bind _ _ _ _ _ k1, draw_bind _ _ _ _ _ k2]
  rfl

theorem ofExcept_ok {σ α : Type} (x : Except String α) (a : α) (h : x = .ok a) (s : σ) :
    (MonadExcept.ofExcept x : Draw σ α) s = .ok (a, s) := by
  rw [h]; rfl

theorem serverKeySet_ok {σ : Type} (be : Backend) {d k logN : Nat} (params : JaxiteBool.Parameters)
    (lweRng rlweRng : RandomSource σ) (B : Int) (hB : 0 ≤ B)
    (h1 : SourceOk lweRng B) (h2 : SourceOk rlweRng B) (heven : d % 2 = 0)
    (lz : Fin d → Bool) (sk : Fin k → Fin (2 ^ logN) → Bool) (s : σ) :
    ∃ sks s', serverKeySet be (params := params) (⟨⟨32, fun i => BitVec.ofInt 32 (bit (lz i))⟩,
        ⟨32, fun i c => BitVec.ofInt 32 (bit (sk i c))⟩⟩ : ClientKeySet d k logN) lweRng rlweRng s = .ok (sks, s') ∧
      KeysOk be sks lz sk B B := by
  obtain ⟨a1, s1, e1, -⟩ := sample_ok rlweRng.uniform
    [((d + d / 2 + genBskNumBatches - 1) / genBskNumBatches) * genBskNumBatches, k + 1,
      params.bsDecomp.levelCount, k, 2 ^ logN] s
  obtain ⟨a2, s2, e2, w2⟩ := sample_bounded rlweRng.roundedNormal B hB h2.normal
    [((d + d / 2 + genBskNumBatches - 1) / genBskNumBatches) * genBskNumBatches, k + 1,
      params.bsDecomp.levelCount] s1
  obtain ⟨a3, s3, e3, -⟩ := sample_ok lweRng.uniform [k * 2 ^ logN, params.ksDecomp.levelCount, d] s2
  obtain ⟨a4, s4, e4, w4⟩ := sample_bounded lweRng.roundedNormal B hB h1.normal
    [k * 2 ^ logN, params.ksDecomp.levelCount] s3
  choose f2 hf2 hb2 using w2
  choose f4 hf4 hb4 using w4
  obtain ⟨bsk, hbsk⟩ := (C22_odd_dimension be (d := d) (k := k) (n := 2 ^ logN)
    ⟨32, fun i => BitVec.ofInt 32 (bit (lz i))⟩ ⟨32, fun i c => BitVec.ofInt 32 (bit (sk i c))⟩
    params.bsDecomp (fun i p l j c => word a1 [i, p.val, l.val, j.val, c.val])
    (fun i p l => BitVec.ofInt 32 (f2 [i, p.val, l.val])) true false).2 heven
  refine ⟨⟨bsk, KeySwitch.genKey params.ksDecomp
      (flattenKey ⟨32, fun i c => BitVec.ofInt 32 (bit (sk i c))⟩) ⟨32, fun i => BitVec.ofInt 32 (bit (lz i))⟩
      (fun i l j => word a3 [i.val, l.val, j.val]) (fun i l => BitVec.ofInt 32 (f4 [i.val, l.val]))⟩, s4, ?_, ?_⟩
  · have k1 : genBootstrappingKeyRandom be ⟨32, fun i => BitVec.ofInt 32 (bit (lz i))⟩
        ⟨32, fun i c => BitVec.ofInt 32 (bit (sk i c))⟩ params.bsDecomp rlweRng true false s = .ok (bsk, s2) := by
      unfold genBootstrappingKeyRandom
      rw [if_neg (not_not.2 heven)]
      simp only [if_true]
      rw [draw_bind _ _ _ _ _ e1, draw_bind _ _ _ _ _ e2]
      refine ofExcept_ok _ _ ?_ _
      simp only [hf2]
      exact hbsk
    have k2 : genKeySwitchingKeyRandom params.ksDecomp lweRng
        (flattenKey ⟨32, fun i c => BitVec.ofInt 32 (bit (sk i c))⟩)
        ⟨32, fun i => BitVec.ofInt 32 (bit (lz i))⟩ s2 = .ok (KeySwitch.genKey params.ksDecomp
          (flattenKey ⟨32, fun i c => BitVec.ofInt 32 (bit (sk i c))⟩) ⟨32, fun i => BitVec.ofInt 32 (bit (lz i))⟩
          (fun i l j => word a3 [i.val, l.val, j.val]) (fun i l => BitVec.ofInt 32 (f4 [i.val, l.val])), s4) := by
      unfold genKeySwitchingKeyRandom
      rw [draw_bind _ _ _ _ _ e3, draw_bind _ _ _ _ _ e4]
      simp only [hf4]
      rfl
    unfold serverKeySet
    rw [draw_bind _ _ _ _ _ k1, draw_bind _ _ _ _ _ k2]
    rfl
  · refine ⟨fun i p l j c => word a1 [i, p.val, l.val, j.val, c.val], fun i p l => f2 [i, p.val, l.val],
      fun i l j => word a3 [i.val, l.val, j.val], fun i l => f4 [i.val, l.val], fun i p l => hb2 _,
      fun i l => hb4 _, ?_⟩
    unfold mkServerKeySet
    simp only [hbsk, bind, Except.bind, pure, Except.pure]

/-! ## Inputs -/

theorem boolEncrypt_ok {n : Nat} (v : Bool) (sk : Lwe.LweSecretKey n) (a : Fin n → W) (e : W) :
    ∃ ct, Lwe.boolEncrypt v sk a e = .ok ct := by
  have hencode : Encoding.encode (if v then 1 else 0) boolParams =
      .ok (BitVec.ofInt 32 ((if v then 1 else 0) * 2 ^ 28)) := by
    cases v <;> decide
  unfold Lwe.boolEncrypt
  simp only [hencode, bind, Except.bind, pure, Except.pure]
  exact ⟨_, rfl⟩

theorem encrypt_ok {σ : Type} {d k logN : Nat} (v : Bool) (cks : ClientKeySet d k logN) (prg : RandomSource σ)
    (B : Int) (hB : 0 ≤ B) (h : SourceOk prg B) (s : σ) :
    ∃ ct s' mask e, Session.encrypt v cks prg s = .ok (ct, s') ∧ |e| ≤ B ∧
      Lwe.boolEncrypt v cks.lweSk mask (BitVec.ofInt 32 e) = .ok ct := by
  obtain ⟨a1, s1, e1, -⟩ := sample_ok prg.uniform [d] s
  obtain ⟨a2, s2, e2, w2⟩ := sample_bounded prg.roundedNormal B hB h.normal [1] s1
  obtain ⟨e, he, hb⟩ := w2 [0]
  obtain ⟨ct, hct⟩ := boolEncrypt_ok v cks.lweSk (fun i => word a1 [i.val]) (BitVec.ofInt 32 e)
  refine ⟨ct, s2, _, e, ?_, hb, hct⟩
  unfold Session.encrypt
  rw [draw_bind _ _ _ _ _ e1, draw_bind _ _ _ _ _ e2]
  refine ofExcept_ok _ _ ?_ _
  rw [he, hct]

theorem encryptAll_ok {σ : Type} {d k logN : Nat} (bits : List Bool) (cks : ClientKeySet d k logN)
    (prg : RandomSource σ) (B : Int) (hB : 0 ≤ B) (h : SourceOk prg B) (s : σ) :
    ∃ cts s', (bits.mapM (fun b => Session.encrypt b cks prg)) s = .ok (cts, s') ∧ cts.length = bits.length ∧
      ∀ i, i < bits.length → ∃ mask e, |e| ≤ B ∧
        Lwe.boolEncrypt (bits.getD i false) cks.lweSk mask (BitVec.ofInt 32 e) =
          .ok (cts.getD i (fun _ => 0)) := by
  induction bits generalizing s with
  | nil => exact ⟨[], s, rfl, rfl, fun i hi => absurd hi (by simp)⟩
  | cons b t ih =>
    obtain ⟨ct, s1, mask, e, h1, h2, h3⟩ := encrypt_ok b cks prg B hB h s
    obtain ⟨cts, s2, h4, h5, h6⟩ := ih s1
    refine ⟨ct :: cts, s2, ?_, by simp [h5], ?_⟩
    · rw [List.mapM_cons, draw_bind _ _ _ _ _ h1, draw_bind _ _ _ _ _ h4]
      rfl
    · intro i hi
      cases i with
      | zero => exact ⟨mask, e, h2, h3⟩
      | succ i => exact h6 i (by simpa using hi)

theorem run_congr (be : Backend) {d k logN : Nat} {params : JaxiteBool.Parameters} (sks : ServerKeySet d k logN params)
    (x y : Nat → Fin (d + 1) → W) (n : Nat) (hxy : ∀ i, i < n → x i = y i) (c : Circuit)
    (hc : inputsBelow n c = true) : c.run be sks x = c.run be sks y := by
  induction c with
  | input i => simp only [inputsBelow, decide_eq_true_eq] at hc; simp only [Circuit.run, hxy i hc]
  | const b => rfl
  | not c ih => simp only [inputsBelow] at hc; simp only [Circuit.run, ih hc]
  | gate name l r ihl ihr =>
    simp only [inputsBelow, Bool.and_eq_true] at hc
    simp only [Circuit.run, ihl hc.1, ihr hc.2]
  | lut1 t a ih => simp only [inputsBelow] at hc; simp only [Circuit.run, ih hc]
  | lut2 t a b iha ihb =>
    simp only [inputsBelow, Bool.and_eq_true] at hc
    simp only [Circuit.run, iha hc.1, ihb hc.2]
  | lut3 t a b c iha ihb ihc =>
    simp only [inputsBelow, Bool.and_eq_true] at hc
    simp only [Circuit.run, iha hc.1.1, ihb hc.1.2, ihc hc.2]
  | cmux a b c iha ihb ihc =>
    simp only [inputsBelow, Bool.and_eq_true] at hc
    simp only [Circuit.run, iha hc.1.1, ihb hc.1.2, ihc hc.2]

/-- C74: a whole session. For all random sources with secret-key samples in `{0, 1}` and normal samples of
magnitude at most `B`, all parameters that satisfy the noise condition, all input bits and all programs over
the API: generating the keys, encrypting the bits, running the program and decrypting returns the value of the
program on the bits. -/
theorem C74_session {σ : Type} (be : Backend) (p : BoolParameters) (lweRng rlweRng encRng : RandomSource σ)
    (B E : Int) (hB : 0 ≤ B) (h1 : SourceOk lweRng B) (h2 : SourceOk rlweRng B) (h3 : SourceOk encRng B)
    (hdeg : p.schemeParams.polynomialModulusDegree = 2 ^ p.schemeParams.logModDegree)
    (hmod : p.schemeParams.plaintextModulus = 2 ^ 32) (heven : p.schemeParams.lweDimension % 2 = 0)
    (hP : ParamsOk be p.schemeParams.rlweDimension p.schemeParams.logModDegree p.decomp) (hBE : B ≤ E)
    (hE : bootstrapBound true p.schemeParams.lweDimension p.schemeParams.rlweDimension
      (2 ^ p.schemeParams.logModDegree) p.bsDecompParams p.ksDecompParams B B ≤ E)
    (hroom : 2 * (7 * E) + 2 ^ (31 - p.schemeParams.logModDegree) *
      ((p.schemeParams.lweDimension : Int) + 1) < 2 ^ 28)
    (bits : List Bool) (c : Circuit) (hin : inputsBelow bits.length c = true) (b : Bool)
    (hb : evalPlain (fun i => bits.getD i false) c = some b) (s : σ) :
    ∃ s', session be p lweRng rlweRng encRng bits c s = .ok (b, s') := by
  obtain ⟨lz, sk, s1, e1⟩ := clientKeySet_ok p lweRng rlweRng B h1 h2 hdeg hmod s
  obtain ⟨sks, s2, e2, hK⟩ := serverKeySet_ok be p.decomp lweRng rlweRng B hB h1 h2 heven lz sk s1
  obtain ⟨cts, s3, e3, hlen, henc⟩ := encryptAll_ok bits
    (⟨⟨32, fun i => BitVec.ofInt 32 (bit (lz i))⟩, ⟨32, fun i c => BitVec.ofInt 32 (bit (sk i c))⟩⟩ :
      ClientKeySet p.schemeParams.lweDimension p.schemeParams.rlweDimension p.schemeParams.logModDegree)
    encRng B hB h3 s2
  have hall : ∀ i, ∃ ct mask e, |e| ≤ B ∧
      Lwe.boolEncrypt (bits.getD i false) ⟨32, fun i => BitVec.ofInt 32 (bit (lz i))⟩ mask (BitVec.ofInt 32 e) =
        .ok ct ∧ (i < bits.length → cts.getD i (fun _ => 0) = ct) := by
    intro i
    by_cases hi : i < bits.length
    · obtain ⟨m, e, q1, q2⟩ := henc i hi
      exact ⟨_, m, e, q1, q2, fun _ => rfl⟩
    · obtain ⟨ct, hct⟩ := boolEncrypt_ok (bits.getD i false)
        (⟨32, fun i => BitVec.ofInt 32 (bit (lz i))⟩ : Lwe.LweSecretKey p.schemeParams.lweDimension)
        (fun _ => 0) (BitVec.ofInt 32 0)
      exact ⟨ct, _, 0, by simpa using hB, hct, fun h => absurd h hi⟩
  choose cts' masks errs q1 q2 q3 using hall
  have hw : (keyWeight lz : Int) ≤ p.schemeParams.lweDimension := by exact_mod_cast keyWeight_le lz
  have hroom' : 2 * (7 * E) + 2 ^ (31 - p.schemeParams.logModDegree) * ((keyWeight lz : Int) + 1) < 2 ^ 28 := by
    have h0 : (0 : Int) ≤ 2 ^ (31 - p.schemeParams.logModDegree) := by positivity
    have := mul_le_mul_of_nonneg_left (add_le_add_left hw 1) h0
    linarith
  have hdec := C25_circuit_decrypts be sks lz sk B B E hP hK hE (hB.trans hBE) hroom' cts'
    (fun i => bits.getD i false) masks errs (fun i => (q1 i).trans hBE) q2 c b hb
  rw [← run_congr be sks (fun i => cts.getD i (fun _ => 0)) cts' bits.length q3 c hin] at hdec
  refine ⟨s3, ?_⟩
  unfold session
  rw [draw_bind _ _ _ _ _ e1, draw_bind _ _ _ _ _ e2, draw_bind _ _ _ _ _ e3, hlen, if_pos hin]
  rcases hr : c.run be sks (fun i => cts.getD i (fun _ => 0)) with err | out
  · rw [hr] at hdec; cases hdec
  · rw [hr] at hdec
    rw [draw_bind _ _ s3 s3 out (ofExcept_ok _ _ rfl _)]
    exact ofExcept_ok _ _ hdec _

/-- C74: the shipped test parameters. With `get_params_for_test()`, on CPU or GPU (or on a TPU with exact
float accumulation of the byte products), for every program, all input bits, all masks and all binary keys:
if no normal sample exceeds ten standard deviations of `get_rng_for_test` (standard deviation 1), the session
returns the value of the program. -/
theorem C74_test_parameters {σ : Type} (be : Backend) (hbe : be.tpu ≥ 5 → PolymulKernel.FloatDotExact be.fdot)
    (lweRng rlweRng encRng : RandomSource σ)
    (h1 : SourceOk lweRng 10) (h2 : SourceOk rlweRng 10) (h3 : SourceOk encRng 10)
    (bits : List Bool) (c : Circuit) (hin : inputsBelow bits.length c = true) (b : Bool)
    (hb : evalPlain (fun i => bits.getD i false) c = some b) (s : σ) :
    ∃ s', session be getParamsForTest lweRng rlweRng encRng bits c s = .ok (b, s') := by
  have hlog : getParamsForTest.schemeParams.logModDegree = 9 := roundLog2_two_pow 9
  have hg : GadgetOk ⟨4, 8, 32⟩ := ⟨by decide, by decide, by decide, by decide, rfl⟩
  refine C74_session be getParamsForTest lweRng rlweRng encRng 10 16384000 (by norm_num) h1 h2 h3
    (by rw [hlog]; rfl) rfl rfl ?_ (by norm_num) ?_ ?_ bits c hin b hb s
  · rw [hlog]
    exact ⟨by decide, by decide, hg, fun h => ⟨hbe h, fun _ _ => by decide⟩, hg⟩
  · rw [hlog]; decide
  · rw [hlog]; decide

/-- C74: the production parameters satisfy every condition of `C74_session` except the noise condition, so the
conclusions that do not need it (key generation, one bootstrap with given noise: C22-C24) apply to them. -/
theorem C74_production_structure (be : Backend) (hbe : be.tpu ≥ 5 → PolymulKernel.FloatDotExact be.fdot) :
    let p := getParamsFor128BitSecurity
    p.schemeParams.polynomialModulusDegree = 2 ^ p.schemeParams.logModDegree ∧
    p.schemeParams.plaintextModulus = 2 ^ p.schemeParams.logPlaintextModulus ∧
    p.schemeParams.logPlaintextModulus = 32 ∧ p.schemeParams.lweDimension % 2 = 0 ∧
    ParamsOk be p.schemeParams.rlweDimension p.schemeParams.logModDegree p.decomp := by
  have hlog : getParamsFor128BitSecurity.schemeParams.logModDegree = 9 := roundLog2_two_pow 9
  have hlog2 : getParamsFor128BitSecurity.schemeParams.logPlaintextModulus = 32 := roundLog2_two_pow 32
  refine ⟨by rw [hlog]; rfl, by rw [hlog2]; rfl, hlog2, rfl, ?_⟩
  rw [hlog]
  exact ⟨by decide, by decide, ⟨by decide, by decide, by decide, by decide, rfl⟩,
    fun h => ⟨hbe h, fun _ _ => by decide⟩, ⟨by decide, by decide, by decide, by decide, rfl⟩⟩

/-- C74: the sources of `random_source.py` meet the conditions on secret-key samples: `CycleRng` over any
number's digits, `ZeroRng`, and the Python sources when `randint(0, 1)` returns 0 or 1. -/
theorem C74_sources (x : Nat) (noise : Int) {σ : Type} (randint : Int → Int → σ → Int × σ)
    (normal : Int → σ → Int × σ) (bounds : Int × Int) (std B : Int)
    (hr : ∀ lo hi t, lo ≤ hi → lo ≤ (randint lo hi t).1 ∧ (randint lo hi t).1 ≤ hi)
    (hn : ∀ t, |(normal std t).1| ≤ B) :
    SourceOk (cycleSource (binDigits x) noise) |noise| ∧ SourceOk (zeroSource σ) 0 ∧
    SourceOk (pythonSource randint normal bounds std) B := by
  refine ⟨⟨fun t => le_rfl, fun t => ?_⟩, ⟨fun t => by simp [zeroSource], fun t => Or.inl rfl⟩,
    ⟨hn, fun t => ?_⟩⟩
  · obtain ⟨arr, h, hd, hbin⟩ := C27_cycle x [1] (by simp) 32 t (by norm_num)
    show (binDigits x).getD (t % (binDigits x).length) 0 = 0 ∨ _ = 1
    have hmem : ∀ i, (binDigits x).getD i 0 = 0 ∨ (binDigits x).getD i 0 = 1 := by
      intro i
      by_cases hi : i < (binDigits x).length
      · rw [List.getD_eq_getElem _ _ hi]
        have hall : ∀ d ∈ binDigits x, d = 0 ∨ d = 1 := by
          unfold binDigits
          split
          · simp
          · exact binDigits_go x [] (by simp)
        exact hall _ (List.getElem_mem hi)
      · left; exact List.getD_eq_default _ _ (by omega)
    exact hmem _
  · have := hr 0 1 t (by norm_num)
    show (randint 0 1 t).1 = 0 ∨ (randint 0 1 t).1 = 1
    omega

/-- A session that meets the hypotheses (of `C74_session`, by way of `C74_test_parameters`): cyclic keys and masks, constant noise 7 for the LWE source,
no noise for the RLWE source (two different objects), a program of three gates and a multiplexer. -/
example : ∃ s', session ⟨0, fun _ u v => ∑ i, u i * v i⟩ getParamsForTest
    (RandomSource.onFst (cycleSource (binDigits 1234567891011) 7)) (RandomSource.onSnd (zeroSource Unit))
    (RandomSource.onFst (cycleSource (binDigits 1234567891011) 7)) [true, false, true]
    (.cmux (.gate "xor" (.input 0) (.input 1)) (.not (.input 2)) (.gate "nand" (.input 1) (.input 2))) (0, ()) =
    .ok (true, s') := by
  have h := (C74_sources 1234567891011 7 (σ := Unit) (fun lo _ s => (lo, s)) (fun _ s => (0, s)) (0, 1) 1 10
    (by intro lo hi t h; exact ⟨le_rfl, h⟩) (by simp))
  have h1 : SourceOk (RandomSource.onFst (τ := Unit) (cycleSource (binDigits 1234567891011) 7)) 10 :=
    ⟨fun t => by show |(7 : Int)| ≤ 10; decide, fun t => h.1.key t.1⟩
  have h2 : SourceOk (RandomSource.onSnd (σ := Nat) (zeroSource Unit)) 10 :=
    ⟨fun t => by show |(0 : Int)| ≤ 10; decide, fun t => Or.inl rfl⟩
  exact C74_test_parameters _ (fun h => absurd h (by decide)) _ _ _ h1 h2 h1 _ _ (by decide) true (by decide) _

end Verif.Props

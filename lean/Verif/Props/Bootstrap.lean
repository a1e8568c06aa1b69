import Verif.Props.BlindRotate
import Verif.Props.TestPolynomial

/-!
# Property C24: functional bootstrapping
-/

namespace Verif.Props
open Verif.Rlwe Verif.Nega Verif.Arith Verif.Encoding Verif.TestPolynomial Verif.Bootstrap Verif.Rgsw
open Verif.KeySwitch

/-- A key bit as an integer. -/
def bit (b : Bool) : Int := if b then 1 else 0

theorem lwePhase_intPhase {n : Nat} (ct : Fin (n + 1) → W) (s : Fin n → Bool) :
    lwePhase ct (fun i => BitVec.ofInt 32 (bit (s i))) = BitVec.ofInt 32 (intPhase ct s) := by
  have h : ∀ w : W, w = ((w.toNat : Int) : W) := fun w => by
    apply BitVec.eq_of_toNat_eq
    show w.toNat = (BitVec.ofInt 32 (w.toNat : Int)).toNat
    simp
  unfold lwePhase intPhase
  show _ = ((_ : Int) : W)
  rw [Int.cast_sub, ← h, Int.cast_sum]
  congr 1
  refine Finset.sum_congr rfl (fun i _ => ?_)
  beta_reduce
  rcases hsi : s i with _ | _
  · rw [show BitVec.ofInt 32 (bit false) = (0 : W) from rfl, mul_zero]
    exact Int.cast_zero.symm
  · rw [show BitVec.ofInt 32 (bit true) = (1 : W) from rfl, mul_one, if_pos rfl]
    exact h _

/-- Noise added by the final key switch, worst case. -/
def switchBound (n : Nat) (dp : DecompositionParameters) (E : Int) : Int :=
  n * truncBound dp.logBase dp.levelCount + n * (dp.levelCount * (2 ^ dp.logBase * E))

/-- Noise of a bootstrapped ciphertext, worst case: blind rotation plus key switch. It does not depend on
the input noise. -/
def bootstrapBound (useBmmp : Bool) (d k n : Nat) (bsDp ksDp : DecompositionParameters) (Eb Ek : Int) : Int :=
  (if useBmmp then d / 2 else d : Nat) * stepBound useBmmp k n bsDp Eb + switchBound (k * n) ksDp Ek

/-- Bootstrapping with the rounding error that the ciphertext actually has. -/
theorem bootstrap_of_phaseErr (be : Backend) {d k logN : Nat} (hlogN : logN ≤ 30)
    (p : EncodingParameters) (hp : ValidParams p) (h32 : p.totalBitLength = 32)
    (hpad : p.paddingBitLength = 1) (hmsg : p.messageBitLength < logN)
    (bsDp ksDp : DecompositionParameters) (hg : GadgetOk bsDp) (hk : KernelOk be k (2 ^ logN) bsDp)
    (hgk : GadgetOk ksDp)
    (lz : Fin d → Bool) (s : Fin k → Fin (2 ^ logN) → Bool)
    (a : Nat → Fin (k + 1) → Fin bsDp.levelCount → Fin k → Fin (2 ^ logN) → W)
    (e : Nat → Fin (k + 1) → Fin bsDp.levelCount → Int) (Eb : Int) (he : ∀ i p l, |e i p l| ≤ Eb)
    (ka : Fin (k * 2 ^ logN) → Fin ksDp.levelCount → Fin d → W)
    (ke : Fin (k * 2 ^ logN) → Fin ksDp.levelCount → Int) (Ek : Int) (hke : ∀ i l, |ke i l| ≤ Ek)
    (useBmmp useBat : Bool) (bsk : BootstrappingKey ((k + 1) * bsDp.levelCount) k (2 ^ logN))
    (hbsk : genBootstrappingKey be ⟨32, fun i => BitVec.ofInt 32 (bit (lz i))⟩
      ⟨32, fun i c => BitVec.ofInt 32 (bit (s i c))⟩ bsDp a (fun i p l => BitVec.ofInt 32 (e i p l))
      useBmmp useBat = .ok bsk)
    (table : List Int) (hlen : table.length = 2 ^ p.messageBitLength)
    (hv : ∀ c ∈ table, 0 ≤ c ∧ c < 2 ^ (p.paddingBitLength + p.messageBitLength))
    (ct : Fin (d + 1) → W) (v : Nat) (hv2 : v < 2 ^ p.messageBitLength) (noise : Int)
    (hct : lwePhase ct (fun i => BitVec.ofInt 32 (bit (lz i))) =
      BitVec.ofInt 32 (v * 2 ^ p.errorBitLength + noise))
    (hnoise : 2 * |noise + phaseErr (31 - logN) ct lz| < 2 ^ p.errorBitLength) :
    ∃ (tp : List W) (htp : tp.length = 2 ^ logN) (out : Fin (d + 1) → W) (noise' : Int),
      genTestPolynomial table p (2 ^ logN) = .ok tp ∧
      jitBootstrap be 32 logN bsDp ksDp.logBase ct
        (trivialEncryption be k (fun i : Fin (2 ^ logN) => tp[i.val]'(by omega)) 32) bsk
        (genKey ksDp (flattenKey ⟨32, fun i c => BitVec.ofInt 32 (bit (s i c))⟩)
          ⟨32, fun i => BitVec.ofInt 32 (bit (lz i))⟩ ka (fun i l => BitVec.ofInt 32 (ke i l))) = .ok out ∧
      lwePhase out (fun i => BitVec.ofInt 32 (bit (lz i))) =
        BitVec.ofInt 32 (table[v]'(by omega) * 2 ^ p.errorBitLength + noise') ∧
      |noise'| ≤ bootstrapBound useBmmp d k (2 ^ logN) bsDp ksDp Eb Ek := by
  have hn : 0 < 2 ^ logN := by positivity
  obtain ⟨ha, hm, -, -⟩ := hp.arith
  have herr : p.errorBitLength = 31 - p.messageBitLength := by omega
  have h2n : 2 * 2 ^ logN ∣ 2 ^ 32 := by
    rw [← pow_succ']; exact pow_dvd_pow _ (by omega)
  have hdvd : 2 ^ p.messageBitLength ∣ 2 ^ logN := pow_dvd_pow _ (by omega)
  have hbit : ∀ b, bit b = 0 ∨ bit b = 1 := fun b => by cases b <;> simp [bit]
  obtain ⟨tp, htp, htl, hlook⟩ := C23_lookup p hp h32 table (2 ^ logN) hv hlen hdvd
  set T : Fin (2 ^ logN) → W := fun i => tp[i.val]'(by omega) with hT
  set S : Fin k → Fin (2 ^ logN) → W := fun i c => BitVec.ofInt 32 (bit (s i c)) with hS
  set L : Fin d → W := fun i => BitVec.ofInt 32 (bit (lz i)) with hL
  set ci := Lwe.switchModulus ct 32 (logN + 1) with hci
  -- blind rotation
  obtain ⟨rot, f, hrot, hf, hph⟩ := C22_blind_rotate be hn h2n bsDp hg hk (fun i => bit (lz i))
    (fun i => hbit _) 32 (fun i c => bit (s i c)) (fun i c => hbit _) a e Eb he useBmmp useBat bsk hbsk
    (trivialEncryption be k T 32) ci
  rw [← hS, (C23_trivial be hn T S).1] at hph
  -- the rotation amount
  have hδ := switchModulus_phaseErr ct lz 32 (logN + 1) (by omega) (by omega)
  rw [← hci] at hδ
  have hgap : 32 - (logN + 1) = 31 - logN := by omega
  rw [hgap] at hδ
  set δ := phaseErr (31 - logN) ct lz
  have hrotn : rotation ci (fun i => bit (lz i)) = -intPhase ci lz := by
    unfold rotation intPhase
    rw [neg_sub]
    congr 1
    refine Finset.sum_congr rfl (fun i _ => ?_)
    unfold bit
    rcases h : lz i <;> simp [h]
  set u : Int := 2 ^ (31 - logN) with hu
  have hu0 : 0 < u := by positivity
  set w : Nat := 2 ^ logN / 2 ^ p.messageBitLength with hw
  have hwp : w = 2 ^ (logN - p.messageBitLength) := Nat.pow_div (by omega) (by norm_num)
  have hwu : (2 : Int) ^ p.errorBitLength = w * u := by
    rw [hwp, hu, herr]; push_cast; rw [← pow_add]; congr 1; omega
  have hNu : (2 : Int) ^ 32 = u * (2 * (2 ^ logN : Nat)) := by
    have : 32 = (31 - logN) + (logN + 1) := by omega
    rw [hu]; push_cast; rw [← pow_succ', ← pow_add, ← this]
    norm_num
  have hphase : intPhase ct lz ≡ v * 2 ^ p.errorBitLength + noise [ZMOD 2 ^ 32] := by
    rw [hL, lwePhase_intPhase] at hct
    have := congrArg BitVec.toNat hct
    rw [BitVec.toNat_ofInt, BitVec.toNat_ofInt] at this
    have e32 : ((2 ^ 32 : Nat) : Int) = 2 ^ 32 := by norm_num
    rw [e32] at this
    have h1 := Int.emod_nonneg (intPhase ct lz) (by norm_num : (2 : Int) ^ 32 ≠ 0)
    have h2 := Int.emod_nonneg (v * 2 ^ p.errorBitLength + noise) (by norm_num : (2 : Int) ^ 32 ≠ 0)
    show _ % _ = _ % _
    omega
  have hmod : u * intPhase ci lz ≡ v * (w * u) + (noise + δ) [ZMOD u * (2 * (2 ^ logN : Nat))] := by
    rw [← hNu]
    refine hδ.trans ((hphase.add_right δ).trans ?_)
    rw [hwu]
    ring_nf
    exact Int.ModEq.refl _
  -- the remainder is a multiple of u
  have hudvd : u ∣ noise + δ := by
    have h1 : u ∣ u * intPhase ci lz - (v * (w * u) + (noise + δ)) :=
      (Dvd.intro _ rfl : u ∣ u * (2 * (2 ^ logN : Nat))).trans
        ((Int.modEq_iff_dvd.1 hmod.symm))
    have h2 : u ∣ u * intPhase ci lz := Dvd.intro _ rfl
    have h3 : u ∣ (v : Int) * (w * u) := ⟨v * w, by ring⟩
    have h4 := (Int.dvd_sub h2 h1)
    have h5 : u * intPhase ci lz - (u * intPhase ci lz - (v * (w * u) + (noise + δ))) - v * (w * u) =
        noise + δ := by ring
    rw [← h5]
    exact Int.dvd_sub h4 h3
  obtain ⟨ρ, hρ⟩ := hudvd
  have hmod2 : intPhase ci lz ≡ v * w + ρ [ZMOD 2 * (2 ^ logN : Nat)] := by
    have h1 : u * intPhase ci lz ≡ u * (v * w + ρ) [ZMOD u * (2 * (2 ^ logN : Nat))] := by
      have : u * (v * w + ρ) = v * (w * u) + (noise + δ) := by rw [hρ]; ring
      rw [this]; exact hmod
    exact Int.ModEq.mul_left_cancel' hu0.ne' h1
  have hρb : 2 * |ρ| < w := by
    have h1 : 2 * |noise + δ| < w * u := by
      rw [← hwu]
      exact hnoise
    rw [hρ, abs_mul, abs_of_pos hu0] at h1
    have h2 : (2 * |ρ|) * u < w * u := by linarith
    exact lt_of_mul_lt_mul_right h2 hu0.le
  have hρb' := abs_lt.1 (show |ρ| < (w / 2 : Nat) + 1 by omega)
  have hw2 : ((w / 2 : Nat) : Int) * 2 = w := by
    have : w % 2 = 0 := by
      rw [hwp, show logN - p.messageBitLength = (logN - p.messageBitLength - 1) + 1 by omega, pow_succ]
      omega
    omega
  have habs := abs_lt.1 (show |ρ| < (w / 2 : Nat) by omega)
  -- the constant coefficient
  have hexp : (rotation ci (fun i => bit (lz i)) % (2 * (2 ^ logN : Nat))) =
      (-((v : Int) * w + ρ)) % (2 * (2 ^ logN : Nat)) := by
    rw [hrotn]; exact hmod2.neg
  rw [hexp] at hph
  have hB : ∃ B : Fin (2 ^ logN) → W, ev B =
      x W (2 ^ logN) ^ ((-((v : Int) * w + ρ)) % (2 * (2 ^ logN : Nat))).toNat * ev T :=
    ⟨_, ev_coeffs hn _⟩
  obtain ⟨B, hB⟩ := hB
  have hB0 := hlook v hv2 (v * w + ρ) (by linarith [habs.1]) (by omega) B hB
  have hdec : decryptWithNoise be rot ⟨32, S⟩ = fun c => B c + BitVec.ofInt 32 (f c) := by
    apply ev_injective hn
    rw [ev_decryptWithNoise, hph, ev_add, hB]
  -- sample extraction
  have hext : lwePhase (jitSampleExtract rot) (flattenKey ⟨32, S⟩).keyData =
      BitVec.ofInt 32 (table[v]'(by omega) * 2 ^ p.errorBitLength + f 0) := by
    have h1 := C18_sample_extract be rot ⟨32, S⟩
    have h2 : flattenKey ⟨32, S⟩ = ⟨32, (flattenKey ⟨32, S⟩).keyData⟩ := rfl
    rw [h2, decryptWithoutDenoising_eq _ _ 32 le_rfl, hdec] at h1
    rw [h1]
    simp only [hB0]
    exact (Int.cast_add _ _).symm
  -- key switch
  obtain ⟨err, herrb, hks⟩ := C19_bound ksDp hgk.base hgk.base_le hgk.dvd hgk.fits
    (fun i => bit (s i.divNat i.modNat)) (fun i => hbit _) L ke Ek hke ka 32 (jitSampleExtract rot)
  refine ⟨tp, htl, jitSwitchKey (genKey ksDp (flattenKey ⟨32, S⟩) ⟨32, L⟩ ka
    (fun i l => BitVec.ofInt 32 (ke i l))) (jitSampleExtract rot) ksDp.logBase, f 0 + err, htp, ?_, ?_, ?_⟩
  · unfold jitBootstrap
    simp only [← hci, ← hT]
    rw [hrot]
    rfl
  · refine hks.trans ?_
    have e1 : (fun i : Fin (k * 2 ^ logN) => BitVec.ofInt 32 (bit (s i.divNat i.modNat))) =
        (flattenKey ⟨32, S⟩).keyData := rfl
    rw [e1, hext, ← add_assoc]
    exact (Int.cast_add _ _).symm
  · unfold bootstrapBound switchBound
    refine (abs_add_le _ _).trans (add_le_add (hf 0) herrb)

/-- C24: bootstrapping. Let the input hold message `v` (one padding bit, `v` in the message space) with
noise `e` such that `2|e| + 2^(31 - log N) * (key weight + 1)` is below the slot width `2^errorBits`.
Then, for every table, keys, masks and key errors bounded by `Eb`, `Ek`, the bootstrap succeeds and its
output holds `table[v]` under the same LWE key with noise at most `bootstrapBound`, whatever `e` was. -/
theorem C24_bootstrap (be : Backend) {d k logN : Nat} (hlogN : logN ≤ 30)
    (p : EncodingParameters) (hp : ValidParams p) (h32 : p.totalBitLength = 32)
    (hpad : p.paddingBitLength = 1) (hmsg : p.messageBitLength < logN)
    (bsDp ksDp : DecompositionParameters) (hg : GadgetOk bsDp) (hk : KernelOk be k (2 ^ logN) bsDp)
    (hgk : GadgetOk ksDp)
    (lz : Fin d → Bool) (s : Fin k → Fin (2 ^ logN) → Bool)
    (a : Nat → Fin (k + 1) → Fin bsDp.levelCount → Fin k → Fin (2 ^ logN) → W)
    (e : Nat → Fin (k + 1) → Fin bsDp.levelCount → Int) (Eb : Int) (he : ∀ i p l, |e i p l| ≤ Eb)
    (ka : Fin (k * 2 ^ logN) → Fin ksDp.levelCount → Fin d → W)
    (ke : Fin (k * 2 ^ logN) → Fin ksDp.levelCount → Int) (Ek : Int) (hke : ∀ i l, |ke i l| ≤ Ek)
    (useBmmp useBat : Bool) (bsk : BootstrappingKey ((k + 1) * bsDp.levelCount) k (2 ^ logN))
    (hbsk : genBootstrappingKey be ⟨32, fun i => BitVec.ofInt 32 (bit (lz i))⟩
      ⟨32, fun i c => BitVec.ofInt 32 (bit (s i c))⟩ bsDp a (fun i p l => BitVec.ofInt 32 (e i p l))
      useBmmp useBat = .ok bsk)
    (table : List Int) (hlen : table.length = 2 ^ p.messageBitLength)
    (hv : ∀ c ∈ table, 0 ≤ c ∧ c < 2 ^ (p.paddingBitLength + p.messageBitLength))
    (ct : Fin (d + 1) → W) (v : Nat) (hv2 : v < 2 ^ p.messageBitLength) (noise : Int)
    (hct : lwePhase ct (fun i => BitVec.ofInt 32 (bit (lz i))) =
      BitVec.ofInt 32 (v * 2 ^ p.errorBitLength + noise))
    (hnoise : 2 * |noise| + 2 ^ (31 - logN) * (keyWeight lz + 1) < 2 ^ p.errorBitLength) :
    ∃ (tp : List W) (htp : tp.length = 2 ^ logN) (out : Fin (d + 1) → W) (noise' : Int),
      genTestPolynomial table p (2 ^ logN) = .ok tp ∧
      jitBootstrap be 32 logN bsDp ksDp.logBase ct
        (trivialEncryption be k (fun i : Fin (2 ^ logN) => tp[i.val]'(by omega)) 32) bsk
        (genKey ksDp (flattenKey ⟨32, fun i c => BitVec.ofInt 32 (bit (s i c))⟩)
          ⟨32, fun i => BitVec.ofInt 32 (bit (lz i))⟩ ka (fun i l => BitVec.ofInt 32 (ke i l))) = .ok out ∧
      lwePhase out (fun i => BitVec.ofInt 32 (bit (lz i))) =
        BitVec.ofInt 32 (table[v]'(by omega) * 2 ^ p.errorBitLength + noise') ∧
      |noise'| ≤ bootstrapBound useBmmp d k (2 ^ logN) bsDp ksDp Eb Ek := by
  refine bootstrap_of_phaseErr be hlogN p hp h32 hpad hmsg bsDp ksDp hg hk hgk lz s a e Eb he ka ke Ek hke useBmmp
    useBat bsk hbsk table hlen hv ct v hv2 noise hct ?_
  have h1 := two_phaseErr_le ct lz (31 - logN) (by omega)
  have := abs_add_le noise (phaseErr (31 - logN) ct lz)
  linarith

/-- C24: decryption of a phase `table[v] * 2^errorBits + noise'` with `noise'` below half a spacing returns
the table entry (with the padding bit kept, so negative table entries are seen too). Together with
`C24_bootstrap` this is the decryption of the bootstrapped ciphertext; the hypothesis is on the noise the
output actually has, so it applies to parameters whose worst-case bound is too large. -/
theorem C24_decrypts {d : Nat} (p : EncodingParameters) (hp : ValidParams p)
    (out : Fin (d + 1) → W) (sk : Fin d → W) (value noise' : Int)
    (hv : 0 ≤ value ∧ value < 2 ^ (p.paddingBitLength + p.messageBitLength))
    (hph : lwePhase out sk = BitVec.ofInt 32 (value * 2 ^ p.errorBitLength + noise'))
    (h1 : -2 ^ (p.errorBitLength - 1) ≤ noise') (h2 : noise' < 2 ^ (p.errorBitLength - 1)) :
    ((decodeWithoutRemovingPadding (Lwe.decryptWithoutDenoising out ⟨32, sk⟩) p).toNat : Int) = value ∧
    ((decode (Lwe.decryptWithoutDenoising out ⟨32, sk⟩) p).toNat : Int) = value % 2 ^ p.messageBitLength := by
  rw [decryptWithoutDenoising_eq _ _ _ le_rfl, hph]
  obtain ⟨h3, h4⟩ := C05_decode_any p hp value noise' h1 h2
  refine ⟨?_, h3⟩
  rw [h4, add_comm p.messageBitLength]
  exact Int.emod_eq_of_lt hv.1 hv.2

/-- Instance of `C24_bootstrap` and `C24_decrypts` with the test parameters of the library (LWE dimension 4, degree 512, 8
levels of base 16, 3 message bits), the table `c ↦ 7 - c`, the message 5 with noise -1000 under the mask
`(2^31, 1, 2, 3)`, and non-zero key errors. -/
example : ∃ (tp : List W) (htp : tp.length = 2 ^ 9) (bsk : BootstrappingKey ((1 + 1) * 8) 1 (2 ^ 9)) (out : Fin (4 + 1) → W),
    genTestPolynomial [7, 6, 5, 4, 3, 2, 1, 0] ⟨32, 3, 1, 28, 0, 7⟩ (2 ^ 9) = .ok tp ∧
    jitBootstrap ⟨0, fun _ u v => ∑ i, u i * v i⟩ 32 9 ⟨4, 8, 32⟩ 4
      ![2147483648, 1, 2, 3, 2147483648 + 2 + 3 + BitVec.ofInt 32 (5 * 2 ^ 28 + (-1000))]
      (trivialEncryption ⟨0, fun _ u v => ∑ i, u i * v i⟩ 1 (fun i : Fin (2 ^ 9) => tp[i.val]'(by omega)) 32) bsk
      (genKey ⟨4, 8, 32⟩ (flattenKey ⟨32, fun (_ : Fin 1) (c : Fin (2 ^ 9)) => BitVec.ofInt 32 (bit (c.val % 3 == 0))⟩)
        ⟨32, fun i => BitVec.ofInt 32 (bit ((![true, false, true, true] : Fin 4 → Bool) i))⟩ (fun _ _ _ => 5)
        (fun _ _ => BitVec.ofInt 32 (-10))) = .ok out ∧
    ((decode (Lwe.decryptWithoutDenoising out ⟨32, fun i => BitVec.ofInt 32 (bit ((![true, false, true, true] : Fin 4 → Bool) i))⟩)
      ⟨32, 3, 1, 28, 0, 7⟩).toNat : Int) = 2 := by
  have hg : GadgetOk ⟨4, 8, 32⟩ := ⟨by decide, by decide, by decide, by decide, rfl⟩
  have hp : ValidParams ⟨32, 3, 1, 28, 0, 7⟩ := ⟨⟨32, 3, 1, by decide⟩, by decide, by decide⟩
  obtain ⟨bsk, hbsk⟩ := (C22_odd_dimension ⟨0, fun _ u v => ∑ i, u i * v i⟩ (d := 4) (k := 1) (n := 2 ^ 9)
    ⟨32, fun i => BitVec.ofInt 32 (bit ((![true, false, true, true] : Fin 4 → Bool) i))⟩
    ⟨32, fun _ c => BitVec.ofInt 32 (bit (c.val % 3 == 0))⟩
    ⟨4, 8, 32⟩ (fun _ _ _ _ _ => 7) (fun i _ _ => BitVec.ofInt 32 (if i % 2 = 0 then 10 else -3)) true false).2 rfl
  obtain ⟨tp, htp, out, ν, h1, h2, h3, h4⟩ := C24_bootstrap ⟨0, fun _ u v => ∑ i, u i * v i⟩ (d := 4) (k := 1) (logN := 9)
    (by norm_num) ⟨32, 3, 1, 28, 0, 7⟩ hp rfl rfl (by norm_num) ⟨4, 8, 32⟩ ⟨4, 8, 32⟩ hg (fun h => absurd h (by decide)) hg
    ![true, false, true, true] (fun _ c => c.val % 3 == 0) (fun _ _ _ _ _ => 7) (fun i _ _ => if i % 2 = 0 then 10 else -3) 10
    (by intro i p l; split <;> decide) (fun _ _ _ => 5) (fun _ _ => -10) 10 (fun _ _ => by decide) true false bsk
    hbsk [7, 6, 5, 4, 3, 2, 1, 0] rfl (by decide)
    ![2147483648, 1, 2, 3, 2147483648 + 2 + 3 + BitVec.ofInt 32 (5 * 2 ^ 28 + (-1000))] 5 (by norm_num) (-1000)
    (by decide) (by decide)
  have hb : bootstrapBound true 4 1 (2 ^ 9) ⟨4, 8, 32⟩ ⟨4, 8, 32⟩ 10 10 < 2 ^ 27 := by decide
  have h5 := abs_lt.1 (h4.trans_lt hb)
  have h6 := (C24_decrypts ⟨32, 3, 1, 28, 0, 7⟩ hp out _ 2 ν (by decide) h3 (by exact h5.1.le) h5.2).2
  exact ⟨tp, htp, bsk, out, h1, h2, h6⟩

end Verif.Props

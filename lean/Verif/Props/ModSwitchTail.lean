import Verif.Lemmas.UniformTail
import Verif.Props.TestUtils
import Mathlib.Analysis.Complex.ExponentialBounds
import Mathlib.Data.Set.Card

/-!
# Property C93: how many masks lose their message in the modulus switch
-/

namespace Verif.Props
open Verif.Arith Verif.Encoding Verif.TestUtils Verif.Lwe

/-- Specification: the masks for which a ciphertext (mask and body) has another message than `v` after the
switch to modulus `2N`. The set is finite, so that `ncard` is its size. -/
def lostMasks {n : Nat} (logN m : Nat) (s : Fin n → Bool) (v : Nat) (ct : (Fin n → W) → Fin (n + 1) → W) :
    Set (Fin n → W) :=
  {a | cleartextPostModSwitch (switchModulus (ct a) 32 (logN + 1)) (fun i => BitVec.ofInt 32 (bit (s i))) logN m 1 ≠
    .ok (BitVec.ofNat 32 v)}

/-- When noise and rounding error together reach half a message step, the centred low bits sum to at least `T` units. -/
theorem centred_of_lost {n : Nat} (logN m : Nat) (hmN : m < logN) (hN : logN ≤ 30)
    (s : Fin n → Bool) (H : Nat) (hH : keyWeight s ≤ H) (B : Int)
    (ct : Fin (n + 1) → W) (a : Fin n → W) (hmask : ∀ i, ct (Fin.castSucc i) = a i)
    (noise : Int) (hnoise : |noise| ≤ B)
    (T : ℝ) (hroom : T * 2 ^ (31 - logN) + B + 2 ^ (30 - logN) + H / 2 ≤ 2 ^ (30 - m))
    (hlost : ¬ 2 * |noise + phaseErr (31 - logN) ct s| < 2 ^ (31 - m)) :
    T * 2 ^ (31 - logN) ≤ |UniformTail.centred (31 - logN) s a| := by
  by_contra hlt
  rw [not_le] at hlt
  apply hlost
  have herr : (phaseErr (31 - logN) ct s : ℝ) = roundErr (31 - logN) (ct (Fin.last n)) +
      UniformTail.centred (31 - logN) s a - keyWeight s / 2 := by
    unfold phaseErr UniformTail.centred keyWeight
    push_cast
    rw [div_eq_mul_inv (∑ x : Fin n, _ : ℝ), Finset.sum_mul, add_sub_assoc, ← Finset.sum_sub_distrib, sub_eq_add_neg, ← Finset.sum_neg_distrib]
    congr 1
    refine Finset.sum_congr rfl (fun i _ => ?_)
    cases s i
    · simp
    · simp only [if_true]
      rw [hmask, UniformTail.roundErr_low _ (by omega) (by omega)]
      have : (2 : ℝ) ^ (31 - logN) = 2 * 2 ^ (31 - logN - 1) := by rw [← pow_succ']; congr 1; omega
      push_cast
      rw [this]; ring
  have hbody : 2 * |(roundErr (31 - logN) (ct (Fin.last n)) : ℝ)| ≤ 2 ^ (31 - logN) := by
    have h : 2 * |roundErr (31 - logN) (ct (Fin.last n))| ≤ 2 ^ (31 - logN) :=
      C11_nearest (ct (Fin.last n)) (31 - logN) (by omega)
    exact_mod_cast h
  have hD : (2 : ℝ) ^ (31 - logN) = 2 * 2 ^ (30 - logN) := by rw [← pow_succ']; congr 1; omega
  have hM : (2 : ℝ) ^ (31 - m) = 2 * 2 ^ (30 - m) := by rw [← pow_succ']; congr 1; omega
  have hk : (keyWeight s : ℝ) ≤ H := by exact_mod_cast hH
  have hk0 : (0 : ℝ) ≤ keyWeight s := by positivity
  have hn : |(noise : ℝ)| ≤ B := by exact_mod_cast hnoise
  have goal : 2 * |(noise : ℝ) + phaseErr (31 - logN) ct s| < 2 ^ (31 - m) := by
    rw [herr, hM]
    rw [hD] at hbody
    have := abs_le.1 hn
    have hb2 : |(roundErr (31 - logN) (ct (Fin.last n)) : ℝ)| ≤ 2 ^ (30 - logN) := by linarith
    have := abs_le.1 hb2
    have := abs_lt.1 hlt
    have : |(noise : ℝ) + (roundErr (31 - logN) (ct (Fin.last n)) + UniformTail.centred (31 - logN) s a -
        keyWeight s / 2)| < 2 ^ (30 - m) := by
      rw [abs_lt]; constructor <;> linarith
    linarith
  exact_mod_cast goal

/-- Few masks make noise and rounding error together reach half a message step. -/
theorem few_large_errors {n : Nat} (logN m : Nat) (hmN : m < logN) (hN : logN ≤ 30)
    (s : Fin n → Bool) (H : Nat) (hH : keyWeight s ≤ H) (hH0 : 0 < H) (B : Int)
    (ct : (Fin n → W) → Fin (n + 1) → W) (hmask : ∀ a i, ct a (Fin.castSucc i) = a i)
    (noise : (Fin n → W) → Int) (hnoise : ∀ a, |noise a| ≤ B)
    (T : ℝ) (hT : 0 ≤ T) (hroom : T * 2 ^ (31 - logN) + B + 2 ^ (30 - logN) + H / 2 ≤ 2 ^ (30 - m))
    (S : Set (Fin n → W)) (hS : ∀ a, 2 * |noise a + phaseErr (31 - logN) (ct a) s| < 2 ^ (31 - m) → a ∉ S) :
    (S.ncard : ℝ) ≤ 2 * Real.exp (-(6 * T ^ 2 / H)) * (2 ^ 32) ^ n := by
  classical
  let _ : Fintype S := Fintype.ofFinite _
  rw [Set.ncard_eq_toFinset_card']
  refine UniformTail.tail (31 - logN) (by omega) s H hH hH0 T hT _ (fun a ha => ?_)
  rw [Set.mem_toFinset] at ha
  exact centred_of_lost logN m hmN hN s H hH B (ct a) a (hmask a) (noise a) (hnoise a) T hroom
    (fun h => hS a h ha)

/-- C93: let every mask `a` be completed to a ciphertext of the message `v` with noise at most `B` (which may
depend on the mask). If `T` units of the new modulus fit in what is left of half a message step after the noise,
the rounding of the body and the bias of the rounding, then the messages of at most the fraction
`2 exp(-6 T^2 / H)` of all masks are changed by the modulus switch; `H` bounds the number of ones of the key. -/
theorem C93_fraction {n : Nat} (logN m : Nat) (hm : 1 ≤ m) (hmN : m < logN) (hN : logN ≤ 30)
    (s : Fin n → Bool) (H : Nat) (hH : keyWeight s ≤ H) (hH0 : 0 < H) (v : Nat) (hv : v < 2 ^ m) (B : Int)
    (ct : (Fin n → W) → Fin (n + 1) → W) (hmask : ∀ a i, ct a (Fin.castSucc i) = a i)
    (hct : ∀ a, ∃ noise : Int, |noise| ≤ B ∧
      lwePhase (ct a) (fun i => BitVec.ofInt 32 (bit (s i))) = BitVec.ofInt 32 (v * 2 ^ (31 - m) + noise))
    (T : ℝ) (hT : 0 ≤ T)
    (hroom : T * 2 ^ (31 - logN) + B + 2 ^ (30 - logN) + H / 2 ≤ 2 ^ (30 - m)) :
    ((lostMasks logN m s v ct).ncard : ℝ) ≤ 2 * Real.exp (-(6 * T ^ 2 / H)) * (2 ^ 32) ^ n := by
  choose noise hnb hph using hct
  exact few_large_errors logN m hmN hN s H hH hH0 B ct hmask noise hnb T hT hroom _
    (fun a h hlost => hlost (modSwitch_survives logN m hm hmN hN s (ct a) v hv (noise a) (hph a) h))

/-- The same encryptions as functions of the mask. -/
theorem encrypt_masks {n : Nat} (m : Nat) (s : Fin n → Bool) (v : Nat) (err : (Fin n → W) → Int) (a : Fin n → W) :
    (∀ i, jitEncrypt (BitVec.ofNat 32 (v * 2 ^ (31 - m))) (fun i => BitVec.ofInt 32 (bit (s i))) a
      (BitVec.ofInt 32 (err a)) 32 (Fin.castSucc i) = a i) ∧
    lwePhase (jitEncrypt (BitVec.ofNat 32 (v * 2 ^ (31 - m))) (fun i => BitVec.ofInt 32 (bit (s i))) a
      (BitVec.ofInt 32 (err a)) 32) (fun i => BitVec.ofInt 32 (bit (s i))) =
        BitVec.ofInt 32 (v * 2 ^ (31 - m) + err a) := by
  constructor
  · intro i
    unfold jitEncrypt; simp only [Fin.snoc_castSucc]
  · unfold lwePhase jitEncrypt dot
    simp only [Fin.snoc_castSucc, Fin.snoc_last]
    have h32 : ∀ x : W, modLog x 32 = x := fun x => by
      apply BitVec.eq_of_toNat_eq
      rw [modLog_toNat _ _ le_rfl]
      exact Nat.mod_eq_of_lt x.isLt
    rw [h32]
    have e : BitVec.ofInt 32 (v * 2 ^ (31 - m) + err a) =
        BitVec.ofNat 32 (v * 2 ^ (31 - m)) + BitVec.ofInt 32 (err a) := by
      rw [BitVec.ofInt_add]
      congr 1
    rw [e]
    ring

/-- C93 for `encrypt`: the same for freshly encrypted messages, whatever errors of size at most `B` are drawn. -/
theorem C93_encrypt {n : Nat} (logN m : Nat) (hm : 1 ≤ m) (hmN : m < logN) (hN : logN ≤ 30)
    (s : Fin n → Bool) (H : Nat) (hH : keyWeight s ≤ H) (hH0 : 0 < H) (v : Nat) (hv : v < 2 ^ m) (B : Int)
    (err : (Fin n → W) → Int) (herr : ∀ a, |err a| ≤ B)
    (T : ℝ) (hT : 0 ≤ T)
    (hroom : T * 2 ^ (31 - logN) + B + 2 ^ (30 - logN) + H / 2 ≤ 2 ^ (30 - m)) :
    ((lostMasks logN m s v (fun a => jitEncrypt (BitVec.ofNat 32 (v * 2 ^ (31 - m)))
      (fun i => BitVec.ofInt 32 (bit (s i))) a (BitVec.ofInt 32 (err a)) 32)).ncard : ℝ) ≤
      2 * Real.exp (-(6 * T ^ 2 / H)) * (2 ^ 32) ^ n := by
  refine C93_fraction logN m hm hmN hN s H hH hH0 v hv B _ (fun a i => ?_) (fun a => ⟨err a, herr a, ?_⟩) T hT hroom
  · exact (encrypt_masks m s v err a).1 i
  · exact (encrypt_masks m s v err a).2

/-- C93 for bootstrapping: with any keys, masks and bounded key errors, and any table, the bootstrap of the
completed ciphertext returns `table[v]` with noise at most `bootstrapBound` for all but the fraction
`2 exp(-6 T^2 / H)` of the masks. (`C24_bootstrap` needs room for the worst rounding of every entry of the mask.) -/
theorem C93_bootstrap (be : Rlwe.Backend) {d k logN : Nat} (hlogN : logN ≤ 30)
    (p : EncodingParameters) (hp : ValidParams p) (h32 : p.totalBitLength = 32)
    (hpad : p.paddingBitLength = 1) (hmsg : p.messageBitLength < logN)
    (bsDp ksDp : Rgsw.DecompositionParameters) (hg : Rgsw.GadgetOk bsDp) (hk : Rgsw.KernelOk be k (2 ^ logN) bsDp)
    (hgk : Rgsw.GadgetOk ksDp)
    (lz : Fin d → Bool) (s : Fin k → Fin (2 ^ logN) → Bool)
    (a : Nat → Fin (k + 1) → Fin bsDp.levelCount → Fin k → Fin (2 ^ logN) → W)
    (e : Nat → Fin (k + 1) → Fin bsDp.levelCount → Int) (Eb : Int) (he : ∀ i p l, |e i p l| ≤ Eb)
    (ka : Fin (k * 2 ^ logN) → Fin ksDp.levelCount → Fin d → W)
    (ke : Fin (k * 2 ^ logN) → Fin ksDp.levelCount → Int) (Ek : Int) (hke : ∀ i l, |ke i l| ≤ Ek)
    (useBmmp useBat : Bool) (bsk : Bootstrap.BootstrappingKey ((k + 1) * bsDp.levelCount) k (2 ^ logN))
    (hbsk : Bootstrap.genBootstrappingKey be ⟨32, fun i => BitVec.ofInt 32 (bit (lz i))⟩
      ⟨32, fun i c => BitVec.ofInt 32 (bit (s i c))⟩ bsDp a (fun i p l => BitVec.ofInt 32 (e i p l))
      useBmmp useBat = .ok bsk)
    (table : List Int) (hlen : table.length = 2 ^ p.messageBitLength)
    (hv : ∀ c ∈ table, 0 ≤ c ∧ c < 2 ^ (p.paddingBitLength + p.messageBitLength))
    (v : Nat) (hv2 : v < 2 ^ p.messageBitLength)
    (H : Nat) (hH : keyWeight lz ≤ H) (hH0 : 0 < H) (B : Int)
    (ct : (Fin d → W) → Fin (d + 1) → W) (hmask : ∀ a i, ct a (Fin.castSucc i) = a i)
    (hct : ∀ a, ∃ noise : Int, |noise| ≤ B ∧
      lwePhase (ct a) (fun i => BitVec.ofInt 32 (bit (lz i))) = BitVec.ofInt 32 (v * 2 ^ p.errorBitLength + noise))
    (T : ℝ) (hT : 0 ≤ T)
    (hroom : T * 2 ^ (31 - logN) + B + 2 ^ (30 - logN) + H / 2 ≤ 2 ^ (p.errorBitLength - 1)) :
    ∃ (tp : List W) (htp : tp.length = 2 ^ logN),
      TestPolynomial.genTestPolynomial table p (2 ^ logN) = .ok tp ∧
      ({m : Fin d → W | ¬ ∃ (out : Fin (d + 1) → W) (noise' : Int),
        Bootstrap.jitBootstrap be 32 logN bsDp ksDp.logBase (ct m)
          (TestPolynomial.trivialEncryption be k (fun i : Fin (2 ^ logN) => tp[i.val]'(by omega)) 32) bsk
          (KeySwitch.genKey ksDp (Rlwe.flattenKey ⟨32, fun i c => BitVec.ofInt 32 (bit (s i c))⟩)
            ⟨32, fun i => BitVec.ofInt 32 (bit (lz i))⟩ ka (fun i l => BitVec.ofInt 32 (ke i l))) = .ok out ∧
        lwePhase out (fun i => BitVec.ofInt 32 (bit (lz i))) =
          BitVec.ofInt 32 (table[v]'(by omega) * 2 ^ p.errorBitLength + noise') ∧
        |noise'| ≤ bootstrapBound useBmmp d k (2 ^ logN) bsDp ksDp Eb Ek}.ncard : ℝ) ≤
      2 * Real.exp (-(6 * T ^ 2 / H)) * (2 ^ 32) ^ d := by
  choose noise hnb hph using hct
  obtain ⟨ha, hm, -, -⟩ := hp.arith
  have hdvd : 2 ^ p.messageBitLength ∣ 2 ^ logN := pow_dvd_pow _ (by omega)
  obtain ⟨tp, htp, htl, -⟩ := C23_lookup p hp h32 table (2 ^ logN) hv hlen hdvd
  have herr : p.errorBitLength = 31 - p.messageBitLength := by omega
  refine ⟨tp, htl, htp, ?_⟩
  refine few_large_errors logN p.messageBitLength hmsg hlogN lz H hH hH0 B ct hmask noise hnb T hT
    (by rw [show 30 - p.messageBitLength = p.errorBitLength - 1 by omega]; exact hroom) _ (fun m hm hlost => hlost ?_)
  obtain ⟨tp', htp', out, noise', h1, h2, h3, h4⟩ := bootstrap_of_phaseErr be hlogN p hp h32 hpad hmsg bsDp ksDp hg hk
    hgk lz s a e Eb he ka ke Ek hke useBmmp useBat bsk hbsk table hlen hv (ct m) v hv2 (noise m) (hph m)
    (by rw [herr]; exact hm)
  rw [htp] at h1
  cases h1
  exact ⟨out, noise', h2, h3, h4⟩

/-- C93 and the check: for all parameters that `assert_safe_modulus_switch` accepts, if noise and bias fit in a
quarter of a unit, the messages of at most the fraction `2 exp(-6 (sqrt(1+n) - 3/4)^2 / n)` of all masks are
changed. -/
theorem C93_guard {n : Nat} (logN m : Nat) (hm : 1 ≤ m) (hmN : m < logN) (hN : logN ≤ 30)
    (hok : assertSafeModulusSwitch (2 ^ logN) m n = .ok ()) (hn : 0 < n)
    (s : Fin n → Bool) (v : Nat) (hv : v < 2 ^ m) (B : Int)
    (ct : (Fin n → W) → Fin (n + 1) → W) (hmask : ∀ a i, ct a (Fin.castSucc i) = a i)
    (hct : ∀ a, ∃ noise : Int, |noise| ≤ B ∧
      lwePhase (ct a) (fun i => BitVec.ofInt 32 (bit (s i))) = BitVec.ofInt 32 (v * 2 ^ (31 - m) + noise))
    (hroom : 4 * (B : ℝ) + 2 * n ≤ 2 ^ (31 - logN)) :
    ((lostMasks logN m s v ct).ncard : ℝ) ≤
      2 * Real.exp (-(6 * (Real.sqrt (1 + n) - 3 / 4) ^ 2 / n)) * (2 ^ 32) ^ n := by
  have hg := (C75_guard (2 ^ logN) m n).1.1 hok
  have h1 : (1 : ℝ) ≤ Real.sqrt (1 + n) := by
    rw [Real.one_le_sqrt]; simp
  refine C93_fraction logN m hm hmN hN s n (keyWeight_le s) hn v hv B ct hmask hct _ (by linarith) ?_
  have e1 : (0.5 * ((2 ^ logN : Nat) : ℝ) / 2 ^ m) = 2 ^ (logN - 1 - m) := by
    have : (2 : ℝ) ^ logN = 2 * (2 ^ (logN - 1 - m) * 2 ^ m) := by
      rw [← pow_add, ← pow_succ']; congr 1; omega
    push_cast
    rw [this]
    field_simp
    norm_num
  rw [e1] at hg
  have e2 : (2 : ℝ) ^ (30 - m) = 2 ^ (logN - 1 - m) * 2 ^ (31 - logN) := by
    rw [← pow_add]; congr 1; omega
  have e3 : (2 : ℝ) ^ (31 - logN) = 2 * 2 ^ (30 - logN) := by rw [← pow_succ']; congr 1; omega
  have h0 : (0 : ℝ) < 2 ^ (31 - logN) := by positivity
  rw [e2]
  have := mul_le_mul_of_nonneg_right hg h0.le
  linarith

theorem exp_lower : (1500 : ℝ) ≤ Real.exp (147 / 20) ∧ (600000 : ℝ) ≤ Real.exp (67 / 5) := by
  have h1 := Real.exp_one_gt_d9
  have key : ∀ k : Nat, (2.7182 : ℝ) ^ k ≤ Real.exp k := by
    intro k
    have : Real.exp k = Real.exp 1 ^ k := by rw [← Real.exp_nat_mul, mul_one]
    rw [this]
    exact pow_le_pow_left₀ (by norm_num) (by linarith) k
  have q : ∀ x : ℝ, 0 ≤ x → 1 + x + x ^ 2 / 2 ≤ Real.exp x := fun x hx => Real.quadratic_le_exp_of_nonneg hx
  constructor
  · have e : (147 / 20 : ℝ) = (7 : Nat) + 7 / 20 := by norm_num
    rw [e, Real.exp_add]
    calc (1500 : ℝ) ≤ 2.7182 ^ 7 * (1 + 7 / 20 + (7 / 20) ^ 2 / 2) := by norm_num
      _ ≤ _ := mul_le_mul (key 7) (q _ (by norm_num)) (by norm_num) (Real.exp_pos _).le
  · have e : (67 / 5 : ℝ) = (13 : Nat) + 2 / 5 := by norm_num
    rw [e, Real.exp_add]
    calc (600000 : ℝ) ≤ 2.7182 ^ 13 * (1 + 2 / 5 + (2 / 5) ^ 2 / 2) := by norm_num
      _ ≤ _ := mul_le_mul (key 13) (q _ (by norm_num)) (by norm_num) (Real.exp_pos _).le

/-- C93 for keys and masks drawn together: of all pairs of a binary key and a mask, completed to ciphertexts of `v`
with noise at most `B`, at most the fraction `2 exp(-12 T^2 / n + 72 T^4 / n^3)` loses its message. -/
theorem C93_random_key {n : Nat} (hn : 0 < n) (logN m : Nat) (hm : 1 ≤ m) (hmN : m < logN) (hN : logN ≤ 30)
    (v : Nat) (hv : v < 2 ^ m) (B : Int)
    (ct : (Fin n → Bool) → (Fin n → W) → Fin (n + 1) → W) (hmask : ∀ s a i, ct s a (Fin.castSucc i) = a i)
    (hct : ∀ s a, ∃ noise : Int, |noise| ≤ B ∧
      lwePhase (ct s a) (fun i => BitVec.ofInt 32 (bit (s i))) = BitVec.ofInt 32 (v * 2 ^ (31 - m) + noise))
    (T : ℝ) (hT : 0 ≤ T)
    (hroom : T * 2 ^ (31 - logN) + B + 2 ^ (30 - logN) + n / 2 ≤ 2 ^ (30 - m)) :
    ({p : (Fin n → Bool) × (Fin n → W) | p.2 ∈ lostMasks logN m p.1 v (ct p.1)}.ncard : ℝ) ≤
      2 * Real.exp (-(12 * T ^ 2 / n) + 72 * T ^ 4 / n ^ 3) * (2 ^ n * (2 ^ 32) ^ n) := by
  classical
  choose noise hnb hph using hct
  set S := {p : (Fin n → Bool) × (Fin n → W) | p.2 ∈ lostMasks logN m p.1 v (ct p.1)}
  let _ : Fintype S := Fintype.ofFinite _
  rw [Set.ncard_eq_toFinset_card']
  refine UniformTail.tail_keys hn (31 - logN) (by omega) T hT _ (fun p hp => ?_)
  rw [Set.mem_toFinset] at hp
  exact centred_of_lost logN m hmN hN p.1 n (keyWeight_le _) B (ct p.1 p.2) p.2 (hmask _ _) (noise p.1 p.2) (hnb _ _)
    T hroom (fun h => hp (modSwitch_survives logN m hm hmN hN p.1 (ct p.1 p.2) v hv _ (hph _ _) h))

theorem exp_lower_key : (2000000 : ℝ) ≤ Real.exp (73 / 5) := by
  have h1 := Real.exp_one_gt_d9
  have h2 : (2.7182 : ℝ) ^ 14 ≤ Real.exp (14 : Nat) := by
    have : Real.exp (14 : Nat) = Real.exp 1 ^ 14 := by rw [← Real.exp_nat_mul, mul_one]
    rw [this]
    exact pow_le_pow_left₀ (by norm_num) (by linarith) 14
  have e : (73 / 5 : ℝ) = (14 : Nat) + 3 / 5 := by norm_num
  rw [e, Real.exp_add]
  calc (2000000 : ℝ) ≤ 2.7182 ^ 14 * (1 + 3 / 5 + (3 / 5) ^ 2 / 2) := by norm_num
    _ ≤ _ := mul_le_mul h2 (Real.quadratic_le_exp_of_nonneg (by norm_num)) (by norm_num) (Real.exp_pos _).le

/-- C93: with the production parameters and noise up to `2^19`, less than one in a million pairs of a binary key and
a mask loses its message. -/
theorem C93_random_key_production (v : Nat) (hv : v < 8)
    (ct : (Fin 800 → Bool) → (Fin 800 → W) → Fin 801 → W) (hmask : ∀ s a i, ct s a (Fin.castSucc i) = a i)
    (hct : ∀ s a, ∃ noise : Int, |noise| ≤ 2 ^ 19 ∧
      lwePhase (ct s a) (fun i => BitVec.ofInt 32 (bit (s i))) = BitVec.ofInt 32 (v * 2 ^ 28 + noise)) :
    ({p : (Fin 800 → Bool) × (Fin 800 → W) | p.2 ∈ lostMasks 9 3 p.1 v (ct p.1)}.ncard : ℝ) ≤
      (2 ^ 800 * (2 ^ 32) ^ 800) / 1000000 := by
  have h := C93_random_key (n := 800) (by norm_num) 9 3 (by norm_num) (by norm_num) (by norm_num) v hv (2 ^ 19) ct hmask
    (by simpa using hct) (3137 / 100) (by norm_num) (by norm_num)
  refine h.trans ?_
  rw [div_eq_mul_inv (2 ^ 800 * (2 ^ 32 : ℝ) ^ 800), mul_comm (2 ^ 800 * (2 ^ 32 : ℝ) ^ 800)]
  refine mul_le_mul_of_nonneg_right ?_ (by positivity)
  have h2 : Real.exp (-(12 * (3137 / 100) ^ 2 / (800 : Nat)) + 72 * (3137 / 100) ^ 4 / (800 : Nat) ^ 3) ≤
      Real.exp (-(73 / 5)) := Real.exp_le_exp.2 (by norm_num)
  refine (mul_le_mul_of_nonneg_left h2 (by norm_num)).trans ?_
  have h3 := exp_lower_key
  rw [Real.exp_neg, ← div_eq_mul_inv, div_le_iff₀ (Real.exp_pos _), inv_mul_eq_div, le_div_iff₀ (by norm_num)]
  linarith

/-- C93 for the production parameters (dimension 800, degree 512, 3 message bits) and noise up to `2^19`, sixteen
standard deviations of a fresh encryption: for every key at most one mask in 750 loses its message, and for keys
with at most 440 ones at most one in 300000. -/
theorem C93_production (s : Fin 800 → Bool) (v : Nat) (hv : v < 8)
    (ct : (Fin 800 → W) → Fin 801 → W) (hmask : ∀ a i, ct a (Fin.castSucc i) = a i)
    (hct : ∀ a, ∃ noise : Int, |noise| ≤ 2 ^ 19 ∧
      lwePhase (ct a) (fun i => BitVec.ofInt 32 (bit (s i))) = BitVec.ofInt 32 (v * 2 ^ 28 + noise)) :
    ((lostMasks 9 3 s v ct).ncard : ℝ) ≤ (2 ^ 32) ^ 800 / 750 ∧
    (keyWeight s ≤ 440 → ((lostMasks 9 3 s v ct).ncard : ℝ) ≤ (2 ^ 32) ^ 800 / 300000) := by
  have main : ∀ (H : Nat) (E C : ℝ), keyWeight s ≤ H → 0 < H → H ≤ 800 → 0 < C → E ≤ 6 * (3137 / 100) ^ 2 / H →
      2 * C ≤ Real.exp E → ((lostMasks 9 3 s v ct).ncard : ℝ) ≤ (2 ^ 32) ^ 800 / C := by
    intro H E C hH hH0 hH8 hC hE hexp
    have hH8' : (H : ℝ) ≤ 800 := by exact_mod_cast hH8
    have h := C93_fraction 9 3 (by norm_num) (by norm_num) (by norm_num) s H hH hH0 v hv (2 ^ 19) ct hmask
      (by simpa using hct) (3137 / 100) (by norm_num) (by norm_num; linarith)
    refine h.trans ?_
    rw [Real.exp_neg, div_eq_mul_inv ((2 ^ 32 : ℝ) ^ 800), mul_comm ((2 ^ 32 : ℝ) ^ 800)]
    refine mul_le_mul_of_nonneg_right ?_ (by positivity)
    have h2 : 2 * C ≤ Real.exp (6 * (3137 / 100) ^ 2 / H) := hexp.trans (Real.exp_le_exp.2 hE)
    rw [← div_eq_mul_inv, div_le_iff₀ (Real.exp_pos _), inv_mul_eq_div, le_div_iff₀ hC]
    linarith
  refine ⟨main 800 (147 / 20) 750 (keyWeight_le s) (by norm_num) le_rfl (by norm_num) (by norm_num) ?_,
    fun h => main 440 (67 / 5) 300000 h (by norm_num) (by norm_num) (by norm_num) (by norm_num) ?_⟩
  · have := exp_lower.1; linarith
  · have := exp_lower.2; linarith

/-- A key with 400 ones. -/
def altKey : Fin 800 → Bool := fun i => decide (i.val % 2 = 0)

/-- Encryptions of 5 under a key with 400 ones, with an error that depends on the mask, meet all hypotheses
(of `C93_fraction`). -/
example (err : (Fin 800 → W) → Int) (herr : ∀ a, err a = (a 0).toNat % 1000) :
    ((lostMasks 9 3 altKey 5 (fun a => jitEncrypt (BitVec.ofNat 32 (5 * 2 ^ (31 - 3)))
      (fun i => BitVec.ofInt 32 (bit (altKey i))) a (BitVec.ofInt 32 (err a)) 32)).ncard : ℝ) ≤
    (2 ^ 32) ^ 800 / 300000 := by
  refine (C93_production altKey 5 (by norm_num) _ (fun a => (encrypt_masks 3 altKey 5 err a).1)
    (fun a => ⟨err a, ?_, (encrypt_masks 3 altKey 5 err a).2⟩)).2 (by decide +kernel)
  rw [herr, abs_le]; constructor <;> omega

example (s : Fin 800 → Bool) : ((lostMasks 9 3 s 7 (fun a => jitEncrypt (BitVec.ofNat 32 (7 * 2 ^ (31 - 3)))
    (fun i => BitVec.ofInt 32 (bit (s i))) a (BitVec.ofInt 32 (-77)) 32)).ncard : ℝ) ≤
    2 * Real.exp (-(6 * (Real.sqrt (1 + (800 : Nat)) - 3 / 4) ^ 2 / (800 : Nat))) * (2 ^ 32) ^ 800 :=
  C93_guard 9 3 (by norm_num) (by norm_num) (by norm_num) (by decide) (by norm_num) s 7 (by norm_num) (2 ^ 19) _
    (fun a => (encrypt_masks 3 s 7 (fun _ => -77) a).1)
    (fun a => ⟨-77, by norm_num, (encrypt_masks 3 s 7 (fun _ => -77) a).2⟩) (by norm_num)

/-- LWE dimension 100 and a key of ones: the worst rounding does not fit, so `C24_bootstrap` does not apply, but
`C93_bootstrap` does, and its noise bound lets the output be decrypted. -/
example (bsk : Bootstrap.BootstrappingKey ((1 + 1) * 8) 1 (2 ^ 9))
    (hbsk : Bootstrap.genBootstrappingKey ⟨0, fun _ u v => ∑ i, u i * v i⟩ ⟨32, fun _ : Fin 100 => BitVec.ofInt 32 (bit true)⟩
      ⟨32, fun (_ : Fin 1) (c : Fin (2 ^ 9)) => BitVec.ofInt 32 (bit (c.val % 3 == 0))⟩ ⟨4, 8, 32⟩ (fun _ _ _ _ _ => 7)
      (fun i _ _ => BitVec.ofInt 32 (if i % 2 = 0 then 2 else -3)) true false = .ok bsk) :=
  C93_bootstrap ⟨0, fun _ u v => ∑ i, u i * v i⟩ (d := 100) (k := 1) (logN := 9) (by norm_num)
    ⟨32, 3, 1, 28, 0, 7⟩ ⟨⟨32, 3, 1, by decide⟩, by decide, by decide⟩ rfl rfl (by norm_num) ⟨4, 8, 32⟩ ⟨4, 8, 32⟩
    ⟨by decide, by decide, by decide, by decide, rfl⟩ (fun h => absurd h (by decide))
    ⟨by decide, by decide, by decide, by decide, rfl⟩
    (fun _ => true) (fun _ c => c.val % 3 == 0) (fun _ _ _ _ _ => 7) (fun i _ _ => if i % 2 = 0 then 2 else -3) 3
    (by intro i p l; split <;> decide) (fun _ _ _ => 5) (fun _ _ => -10) 10 (fun _ _ => by decide) true false bsk
    hbsk [7, 6, 5, 4, 3, 2, 1, 0] rfl (by decide) 5 (by norm_num) 100 (keyWeight_le _) (by norm_num) 1000 _
    (fun a => (encrypt_masks 3 (fun _ => true) 5 (fun _ => -77) a).1)
    (fun a => ⟨-77, by norm_num, (encrypt_masks 3 (fun _ => true) 5 (fun _ => -77) a).2⟩) 31 (by norm_num) (by norm_num)

example : bootstrapBound true 100 1 (2 ^ 9) ⟨4, 8, 32⟩ ⟨4, 8, 32⟩ 3 10 < 2 ^ 27 ∧ ¬ (2 : Int) ^ 22 * (100 + 1) < 2 ^ 28 ∧
    ∃ bsk, Bootstrap.genBootstrappingKey ⟨0, fun _ u v => ∑ i, u i * v i⟩ ⟨32, fun _ : Fin 100 => BitVec.ofInt 32 (bit true)⟩
      ⟨32, fun (_ : Fin 1) (c : Fin (2 ^ 9)) => BitVec.ofInt 32 (bit (c.val % 3 == 0))⟩ ⟨4, 8, 32⟩ (fun _ _ _ _ _ => 7)
      (fun i _ _ => BitVec.ofInt 32 (if i % 2 = 0 then 2 else -3)) true false = .ok bsk :=
  ⟨by decide, by decide, (C22_odd_dimension ⟨0, fun _ u v => ∑ i, u i * v i⟩ (d := 100) (k := 1) (n := 2 ^ 9) _ _ ⟨4, 8, 32⟩
    (fun _ _ _ _ _ => 7) (fun i _ _ => BitVec.ofInt 32 (if i % 2 = 0 then 2 else -3)) true false).2 rfl⟩

/-- Fresh encryptions of 6 with a fixed error, under all keys. -/
example := C93_random_key_production 6 (by norm_num)
  (fun s a => jitEncrypt (BitVec.ofNat 32 (6 * 2 ^ (31 - 3))) (fun i => BitVec.ofInt 32 (bit (s i))) a (BitVec.ofInt 32 (-77)) 32)
  (fun s a => (encrypt_masks 3 s 6 (fun _ => -77) a).1)
  (fun s a => ⟨-77, by norm_num, (encrypt_masks 3 s 6 (fun _ => -77) a).2⟩)

example (s : Fin 16 → Bool) := C93_encrypt 10 2 (by norm_num) (by norm_num) (by norm_num) s 16 (keyWeight_le s)
  (by norm_num) 3 (by norm_num) 1000 (fun a => (a 0).toNat % 1000 - 500)
  (fun a => by rw [abs_le]; constructor <;> omega) 127 (by norm_num) (by norm_num)

end Verif.Props

import Verif.Model.X64Bootstrap
import Verif.Props.X64

/-!
# C109 for the bootstrapping
-/

namespace Verif.Props
open Verif.Arith Verif.MatrixUtils Verif.Rlwe Verif.Rgsw
open Verif.X64 (Module flagAfter polyMulCheck)
open Verif.Bootstrap (RgswData BootstrappingKey)

/-- C109 (negation): with 64-bit types enabled, outside a TPU of version 5 or later with a degree divisible by
128, the test polynomial cannot be encrypted and no ciphertext can be rotated or bootstrapped, whatever the
key (also one generated before the import, with or without unrolling and byte layout), the parameters and the
inputs. -/
theorem C109_bootstrap_negation (imports : List Module) (himp : ∃ m ∈ imports, m ≠ .other) (be : Backend)
    {d k n : Nat} [NeZero n] (hdev : ¬ (n % 128 = 0 ∧ be.tpu ≥ 5)) :
    (∀ (t : Fin n → W) (l : Nat), X64.trivialEncryption (flagAfter imports) be k t l = .error "TypeError") ∧
    (∀ (w : Nat) (dp : DecompositionParameters) (t : Fin (k + 1) → Fin n → W) (ci : Fin (d + 1) → BitVec w)
      (bsk : BootstrappingKey ((k + 1) * dp.levelCount) k n) (l : Nat),
      X64.jitBlindRotate (flagAfter imports) be dp t ci bsk l = .error "TypeError") ∧
    ∀ (w lp ln : Nat) (dp : DecompositionParameters) (L b : Nat) (ct : Fin (d + 1) → BitVec w)
      (t : Fin (k + 1) → Fin n → W) (bsk : BootstrappingKey ((k + 1) * dp.levelCount) k n)
      (ksk : Fin (k * n) → Fin L → Fin (d + 1) → W),
      X64.jitBootstrap (flagAfter imports) be lp ln dp b ct t bsk ksk = .error "TypeError" := by
  have henc := (C109_negation imports himp be (n := n) hdev).2.2.1
  rw [(C109_flag imports).2 himp] at henc ⊢
  have hc : polyMulCheck true be.tpu n = .error "TypeError" := by
    rw [check_eq, if_neg (by simp only [Bool.true_eq_false, false_or]; exact hdev)]
  have hrot : ∀ (w : Nat) (dp : DecompositionParameters) (t : Fin (k + 1) → Fin n → W)
      (ci : Fin (d + 1) → BitVec w) (bsk : BootstrappingKey ((k + 1) * dp.levelCount) k n) (l : Nat),
      X64.jitBlindRotate true be dp t ci bsk l = .error "TypeError" := by
    intro w dp t ci bsk l
    unfold X64.jitBlindRotate
    simp only [hc]
    rfl
  refine ⟨fun t l => henc k t _ _ _ l, hrot, fun w lp ln dp L b ct t bsk ksk => ?_⟩
  unfold X64.jitBootstrap
  simp only [hrot]
  rfl

/-- A CPU, the degree 1024, after an import of `jaxite_ckks.ntt`. -/
example (fdot : PolymulKernel.FloatDot) (t : Fin 1024 → W) (l : Nat) :
    X64.trivialEncryption (flagAfter [.ckksNtt]) ⟨-1, fdot⟩ 1 t l = .error "TypeError" :=
  haveI : NeZero 1024 := ⟨by norm_num⟩
  (C109_bootstrap_negation [.ckksNtt] ⟨.ckksNtt, by decide, by decide⟩ ⟨-1, fdot⟩ (d := 1) (k := 1) (n := 1024)
    (by simp)).1 t l

theorem switch_32 {n : Nat} (ct : Fin (n + 1) → W) (a b : Nat) :
    X64.switchModulus ct a b = Lwe.switchModulus ct a b := by
  funext i
  unfold X64.switchModulus X64.integerDiv Lwe.switchModulus integerDiv
  simp only [BitVec.setWidth_eq]
  rfl

theorem low_minus {w : Nat} (hw : 32 ≤ w) (x y : BitVec w) :
    (x - y).setWidth 32 = x.setWidth 32 - y.setWidth 32 := by
  rw [eq_comm, sub_eq_iff_eq_add, ← BitVec.setWidth_add _ _ hw, sub_add_cancel]

theorem low_switchKey (x64 : Bool) {n m L : Nat} (ksk : Fin n → Fin L → Fin (m + 1) → W)
    (inp : Fin (n + 1) → W) (b : Nat) (j : Fin (m + 1)) :
    (X64.jitSwitchKey x64 ksk inp b j).setWidth 32 = KeySwitch.jitSwitchKey ksk inp b j := by
  unfold X64.jitSwitchKey KeySwitch.jitSwitchKey
  simp only
  rw [low_minus (wide_ge x64), low_sum (wide_ge x64), low_id (wide_ge x64)]
  simp only [low_id (wide_ge x64)]

/-- C109 (part that holds): otherwise the rotation is that of the 32-bit model, and so are the low words of
the bootstrapped ciphertext (all of it without 64-bit types), for which the other properties are proved. -/
theorem C109_bootstrap_same_partial (x64 : Bool) (be : Backend) {d k n : Nat} [NeZero n]
    (h : x64 = false ∨ (n % 128 = 0 ∧ be.tpu ≥ 5)) :
    (∀ (t : Fin n → W) (l : Nat), X64.trivialEncryption x64 be k t l = .ok (TestPolynomial.trivialEncryption be k t l)) ∧
    (∀ (dp : DecompositionParameters) (t : Fin (k + 1) → Fin n → W) (ci : Fin (d + 1) → W)
      (bsk : BootstrappingKey ((k + 1) * dp.levelCount) k n) (l : Nat),
      X64.jitBlindRotate x64 be dp t ci bsk l = Bootstrap.jitBlindRotate be dp t ci bsk l) ∧
    ∀ (lp ln : Nat) (dp : DecompositionParameters) (L b : Nat) (ct : Fin (d + 1) → W)
      (t : Fin (k + 1) → Fin n → W) (bsk : BootstrappingKey ((k + 1) * dp.levelCount) k n)
      (ksk : Fin (k * n) → Fin L → Fin (d + 1) → W),
      (X64.jitBootstrap x64 be lp ln dp b ct t bsk ksk).map (fun out j => (out j).setWidth 32) =
        Bootstrap.jitBootstrap be lp ln dp b ct t bsk ksk := by
  obtain ⟨-, -, henc, -, -, -, hext, -⟩ := C109_same_partial x64 be (n := n) h
  have hc : polyMulCheck x64 be.tpu n = .ok () := by rw [check_eq, if_pos h]
  have hany : ∀ (dp : DecompositionParameters) (C : RgswData ((k + 1) * dp.levelCount) k n)
      (ct : Fin (k + 1) → Fin n → W) (bat : Bool),
      X64.externalProductAny x64 be dp C ct bat = Bootstrap.jitExternalProduct be dp C ct bat := by
    intro dp C ct bat
    cases bat <;> cases C
    · exact hext k dp _ ct
    · rfl
    · rfl
    · unfold X64.externalProductAny Bootstrap.jitExternalProduct
      simp only [hc]
      rfl
  have hbody : ∀ (dp : DecompositionParameters) (ci : Fin (d + 1) → W)
      (bsk : BootstrappingKey ((k + 1) * dp.levelCount) k n) (l j : Nat) (acc : Fin (k + 1) → Fin n → W),
      X64.oneExternalProduct x64 be dp ci bsk l j acc = Bootstrap.oneExternalProduct be dp ci bsk l j acc := by
    intro dp ci bsk l j acc
    unfold X64.oneExternalProduct Bootstrap.oneExternalProduct X64.cmuxAny Bootstrap.jitCmux
    simp only [hany]
  have hrot : ∀ (dp : DecompositionParameters) (t : Fin (k + 1) → Fin n → W) (ci : Fin (d + 1) → W)
      (bsk : BootstrappingKey ((k + 1) * dp.levelCount) k n) (l : Nat),
      X64.jitBlindRotate x64 be dp t ci bsk l = Bootstrap.jitBlindRotate be dp t ci bsk l := by
    intro dp t ci bsk l
    have e : X64.oneExternalProduct x64 be dp ci bsk l = Bootstrap.oneExternalProduct be dp ci bsk l :=
      funext fun j => funext fun acc => hbody dp ci bsk l j acc
    unfold X64.jitBlindRotate Bootstrap.jitBlindRotate
    simp only [hc, e]
    rfl
  refine ⟨fun t l => henc k t _ _ _ l, hrot, fun lp ln dp L b ct t bsk ksk => ?_⟩
  unfold X64.jitBootstrap Bootstrap.jitBootstrap
  simp only [hrot, switch_32]
  cases Bootstrap.jitBlindRotate be dp t (Lwe.switchModulus ct lp (ln + 1)) bsk lp with
  | error e => rfl
  | ok r => exact congrArg Except.ok (funext fun j => low_switchKey x64 ksk _ b j)

/-- A TPU of version 5 with 64-bit types, degree 512. -/
example (fdot : PolymulKernel.FloatDot) (t : Fin 512 → W) (l : Nat) :
    X64.trivialEncryption true ⟨5, fdot⟩ 1 t l = .ok (TestPolynomial.trivialEncryption ⟨5, fdot⟩ 1 t l) :=
  haveI : NeZero 512 := ⟨by norm_num⟩
  (C109_bootstrap_same_partial true ⟨5, fdot⟩ (d := 1) (k := 1) (n := 512) (Or.inr ⟨by norm_num, by norm_num⟩)).1 t l

/-- C109 (negation): with 64-bit types the words of a switched ciphertext are not reduced modulo `2^32`. Its
mask is `2^64` minus the sum of the words, so a word that is not zero modulo `2^32` is
at least `2^63`. -/
theorem C109_high_words {n m L : Nat} (hn : n ≤ 2 ^ 31) (ksk : Fin n → Fin L → Fin (m + 1) → W)
    (inp : Fin (n + 1) → W) (b : Nat) (j : Fin (m + 1)) (hj : j ≠ Fin.last m)
    (hne : KeySwitch.jitSwitchKey ksk inp b j ≠ 0) :
    2 ^ 63 ≤ (X64.jitSwitchKey true ksk inp b j).toNat ∧
      (X64.jitSwitchKey true ksk inp b j).toNat + ∑ i : Fin n,
        (∑ l, Decomposition.signedDecomposition (inp i.castSucc) b L 32 l * ksk i l j).toNat = 2 ^ 64 := by
  have hlow := low_switchKey true ksk inp b j
  unfold X64.jitSwitchKey at hlow ⊢
  simp only [if_neg hj] at hlow ⊢
  generalize hf : (fun i : Fin n => ∑ l, Decomposition.signedDecomposition (inp i.castSucc) b L 32 l * ksk i l j)
    = f at hlow ⊢
  have hfi : ∀ i, (∑ l, Decomposition.signedDecomposition (inp i.castSucc) b L 32 l * ksk i l j) = f i :=
    fun i => congrFun hf i
  simp only [hfi] at hlow ⊢
  have hsum : ∀ s : Finset (Fin n), (∑ i ∈ s, (f i).setWidth (X64.wide true)).toNat =
      (∑ i ∈ s, (f i).toNat) % 2 ^ 64 := by
    intro s
    classical
    induction s using Finset.induction_on with
    | empty => rfl
    | insert a s ha ih =>
      have h1 : ((f a).setWidth (X64.wide true)).toNat = (f a).toNat :=
        (BitVec.toNat_setWidth ..).trans (Nat.mod_eq_of_lt (lt_trans (f a).isLt (by decide)))
      rw [Finset.sum_insert ha, Finset.sum_insert ha, BitVec.toNat_add, ih, h1]
      exact Nat.add_mod_mod _ _ _
  have hle : ∑ i, (f i).toNat ≤ 2 ^ 63 := by
    calc ∑ i, (f i).toNat ≤ ∑ _i : Fin n, 2 ^ 32 := Finset.sum_le_sum fun i _ => le_of_lt (f i).isLt
      _ = n * 2 ^ 32 := by simp
      _ ≤ 2 ^ 31 * 2 ^ 32 := Nat.mul_le_mul_right _ hn
      _ = 2 ^ 63 := by norm_num
  have hs := hsum Finset.univ
  rw [Nat.mod_eq_of_lt (lt_of_le_of_lt hle (by norm_num))] at hs
  have h0 : (∑ i, (f i).setWidth (X64.wide true)) ≠ 0 := by
    intro h
    apply hne
    rw [← hlow, h]
    decide
  generalize (∑ i, (f i).setWidth (X64.wide true)) = S at hs h0 ⊢
  rw [BitVec.toNat_sub]
  have h2 : (BitVec.setWidth (X64.wide true) (0 : W)).toNat = 0 := by decide
  have h3 : S.toNat ≠ 0 := fun h => h0 (BitVec.eq_of_toNat_eq h)
  rw [h2, hs]
  rw [hs] at h3
  show 2 ^ 63 ≤ (2 ^ 64 - _ + 0) % 2 ^ 64 ∧ (2 ^ 64 - _ + 0) % 2 ^ 64 + _ = 2 ^ 64
  rw [Nat.mod_eq_of_lt (by omega)]
  omega

/-- One input, one level: the word `2^31` has the digit `-1` in base 2, the key word is 1. -/
example : 2 ^ 63 ≤ (X64.jitSwitchKey true (n := 1) (m := 1) (L := 1) (fun _ _ _ => 1) (fun _ => 0x80000000) 1 0).toNat :=
  (C109_high_words (by norm_num) _ _ _ _ (by decide) (by decide +kernel)).1

end Verif.Props

import Verif.Lemmas.Rlwe
import Verif.Props.Rlwe

/-!
# Lemmas on RGSW ciphertexts and external products
-/

namespace Verif.Rgsw
open Verif.Nega Verif.MatrixUtils Verif.Arith Verif.Rlwe Verif.Bootstrap Verif.PolymulKernel
open Verif.Decomposition Verif.Props

/-- Specification: the key component that polynomial `p` of a ciphertext is multiplied with, `-s_p` for
a mask polynomial and `1` for the body. -/
noncomputable def keyPart {k n : Nat} (s : Fin k → Fin n → W) : Fin (k + 1) → Q W n :=
  Fin.snoc (α := fun _ => Q W n) (fun i => -ev (s i)) 1

theorem rlwePhase_eq_sum {k n : Nat} (ct : Fin (k + 1) → Fin n → W) (s : Fin k → Fin n → W) :
    rlwePhase ct s = ∑ p, keyPart s p * ev (ct p) := by
  unfold rlwePhase keyPart
  rw [Fin.sum_univ_castSucc]
  simp only [Fin.snoc_last, Fin.snoc_castSucc, neg_mul, Finset.sum_neg_distrib, one_mul]
  rw [sub_eq_neg_add]
  congr 2
  exact Finset.sum_congr rfl (fun i _ => mul_comm _ _)

/-- Specification of an RGSW encryption of the ring element `M` with row errors `err`: the row of
polynomial `p` and level `l` has phase `err + M * 2^(32 - (l+1) b) * keyPart p`. -/
def IsRgsw {k n : Nat} (dp : DecompositionParameters)
    (C : Fin ((k + 1) * dp.levelCount) → Fin (k + 1) → Fin n → W) (s : Fin k → Fin n → W) (M : Q W n)
    (err : Fin (k + 1) → Fin dp.levelCount → Q W n) : Prop :=
  ∀ p l, rlwePhase (C (finProdFinEquiv (p, l))) s =
    err p l + M * cst n (2 ^ (32 - (l.val + 1) * dp.logBase)) * keyPart s p

theorem divNat_pair {a b : Nat} (p : Fin a) (i : Fin b) : (finProdFinEquiv (p, i)).divNat = p :=
  congrArg Prod.fst (finProdFinEquiv.symm_apply_apply (p, i))

theorem modNat_pair {a b : Nat} (p : Fin a) (i : Fin b) : (finProdFinEquiv (p, i)).modNat = i :=
  congrArg Prod.snd (finProdFinEquiv.symm_apply_apply (p, i))

/-- A coefficient vector that is `c` at index 0. -/
theorem ev_const {n : Nat} (hn : 0 < n) (c : W) : ev (fun i : Fin n => if i.val = 0 then c else 0) = cst n c := by
  rw [ev_eq, Finset.sum_eq_single ⟨0, hn⟩]
  · simp
  · intro i _ hi
    rw [if_neg (fun h => hi (Fin.ext h)), cst_zero, zero_mul]
  · simp

/-- Rows produced by `rgsw.jit_encrypt`. -/
theorem isRgsw_jitEncrypt (be : Backend) {k n : Nat} (hn : 0 < n) (m : W) (s : Fin k → Fin n → W)
    (dp : DecompositionParameters) (a : Fin (k + 1) → Fin dp.levelCount → Fin k → Fin n → W)
    (e : Fin (k + 1) → Fin dp.levelCount → W) :
    IsRgsw dp (Rgsw.jitEncrypt be m s dp a e 32) s (cst n m) (fun p l => ev (fun _ => e p l)) := by
  intro p l
  unfold Rgsw.jitEncrypt
  rw [divNat_pair, modNat_pair]
  unfold encryptAndModifyOneRow
  simp only
  set z := Rlwe.jitEncrypt be (fun _ => 0) s (a p l) (fun _ => e p l) 32 with hz
  have hsplit : (fun (q : Fin (k + 1)) (c : Fin n) => if q = p ∧ c.val = 0 then
      z q c + m <<< (32 - dp.logBase * (1 + l.val)) else z q c) =
      fun q c => z q c + (if q = p then (if c.val = 0 then m <<< (32 - dp.logBase * (1 + l.val)) else 0)
        else 0) := by
    funext q c
    by_cases h1 : q = p <;> by_cases h2 : c.val = 0 <;> simp [h1, h2]
  rw [hsplit, rlwePhase_add, hz, rlwePhase_jitEncrypt, ev_zero, zero_add]
  congr 1
  rw [rlwePhase_eq_sum, Finset.sum_eq_single p]
  · have : (fun c : Fin n => if p = p then (if c.val = 0 then m <<< (32 - dp.logBase * (1 + l.val)) else 0)
        else 0) = fun c : Fin n => if c.val = 0 then m <<< (32 - dp.logBase * (1 + l.val)) else 0 := by
      funext c; rw [if_pos rfl]
    rw [this, ev_const hn, shiftLeft_eq_mul, cst_mul, Nat.add_comm 1, Nat.mul_comm dp.logBase, mul_comm]
  · intro q _ hq
    have : (fun c : Fin n => if q = p then (if c.val = 0 then m <<< (32 - dp.logBase * (1 + l.val)) else 0)
        else 0) = fun _ => (0 : W) := by
      funext c; rw [if_neg hq]
    rw [this, ev_zero, mul_zero]
  · simp

/-- The device conditions under which the kernels are exact: nothing off TPU; on a TPU the `float32`
accumulation must not round and a row has at most four polynomials. -/
def KernelOk (be : Backend) (k n : Nat) (dp : DecompositionParameters) : Prop :=
  be.tpu ≥ 5 → FloatDotExact be.fdot ∧
    (n % 128 = 0 → dp.logBase < 8 → n * (255 * 2 ^ dp.logBase) ≤ 2 ^ 24 ∧ k ≤ 3)

/-- `data` is the stored form of the word matrix `m` for the kernel chosen by `useBat`. -/
def Represents {rows k n : Nat} (data : RgswData rows k n) (useBat : Bool)
    (m : Fin rows → Fin (k + 1) → Fin n → W) : Prop :=
  data = if useBat then .bytes (fun r p c => batOfflineCompileCggi (m r p c)) else .words m

/-- Well-formed gadget parameters. -/
structure GadgetOk (dp : DecompositionParameters) : Prop where
  base : 1 ≤ dp.logBase
  base_le : dp.logBase ≤ 31
  dvd : dp.logBase ∣ 32
  fits : dp.levelCount * dp.logBase ≤ 32
  total : dp.totalBitLength = 32

/-- The value of an external product, whatever the kernel. -/
def extProd {k n : Nat} (dp : DecompositionParameters)
    (m : Fin ((k + 1) * dp.levelCount) → Fin (k + 1) → Fin n → W) (ct : Fin (k + 1) → Fin n → W) :
    Fin (k + 1) → Fin n → W :=
  fun i c => ∑ r, Nega.mul (decomposeRlweCiphertext ct dp r) (m r i) c

theorem jitExternalProduct_eq (be : Backend) {k n : Nat} (dp : DecompositionParameters) (hg : GadgetOk dp)
    (hk : KernelOk be k n dp) (data : RgswData ((k + 1) * dp.levelCount) k n) (useBat : Bool)
    (m : Fin ((k + 1) * dp.levelCount) → Fin (k + 1) → Fin n → W) (hr : Represents data useBat m)
    (ct : Fin (k + 1) → Fin n → W) :
    jitExternalProduct be dp data ct useBat = .ok (extProd dp m ct) := by
  unfold Represents at hr
  subst hr
  unfold jitExternalProduct
  cases useBat with
  | true =>
    simp only [if_true]
    congr 1
    funext i c
    rw [bat_eq]
    rfl
  | false =>
    simp only [Bool.false_eq_true, if_false]
    unfold negacyclicVectorMatrixPolymul
    split
    · rename_i h
      obtain ⟨hf, hk'⟩ := hk h.2.1
      obtain ⟨hn, hk4⟩ := hk' h.1 h.2.2
      rw [dif_pos (by omega)]
      have hD : 2 ^ dp.logBase ≤ 256 :=
        le_trans (Nat.pow_le_pow_right (by norm_num) (by omega : dp.logBase ≤ 8)) (by norm_num)
      rw [decomposed_eq be.fdot hf (by omega) _ m (2 ^ dp.logBase) hD _ hn]
      · rfl
      · intro r c
        unfold decomposeRlweCiphertext
        rw [hg.total]
        have := C13_range_partial (ct r.divNat c) dp.logBase dp.levelCount hg.base (by omega) r.modNat
        simp only at this
        have hp : (0 : Int) < 2 ^ (dp.logBase - 1) := by positivity
        have h2 : (2 : Int) ^ dp.logBase = 2 * 2 ^ (dp.logBase - 1) := by
          conv_lhs => rw [show dp.logBase = (dp.logBase - 1) + 1 by have := hg.base; omega, pow_succ]
          ring
        push_cast
        rw [abs_le]
        rcases this with ⟨h1, h2'⟩ | h1
        · constructor <;> linarith
        · rw [h1]; constructor <;> linarith
    · rw [fallback_eq]
      rfl

/-- The phase of an external product: `M * phase + Σ digits * row errors - M * phase of remainders`. -/
theorem extProd_phase {k n : Nat} (dp : DecompositionParameters) (hg : GadgetOk dp)
    (C : Fin ((k + 1) * dp.levelCount) → Fin (k + 1) → Fin n → W) (s : Fin k → Fin n → W) (M : Q W n)
    (err : Fin (k + 1) → Fin dp.levelCount → Q W n) (hC : IsRgsw dp C s M err)
    (ct : Fin (k + 1) → Fin n → W) :
    ∃ (d : Fin (k + 1) → Fin dp.levelCount → Fin n → Int) (r : Fin (k + 1) → Fin n → Int),
      (∀ p l c, |d p l c| ≤ 2 ^ dp.logBase) ∧
      (∀ p c, |r p c| ≤ truncBound dp.logBase dp.levelCount) ∧
      rlwePhase (extProd dp C ct) s = M * rlwePhase ct s + ∑ p, ∑ l, evz (d p l) * err p l
        - M * rlwePhase (fun p c => BitVec.ofInt 32 (r p c)) s := by
  choose d r h1 h2 h3 using fun (p : Fin (k + 1)) (c : Fin n) =>
    signed_digits (ct p c) dp.logBase dp.levelCount hg.base hg.base_le hg.dvd hg.fits
  refine ⟨fun p l c => d p c l, r, fun p l c => (h1 p c l).2, h2, ?_⟩
  -- the digits as polynomials
  have hdig : ∀ p l, ev (decomposeRlweCiphertext ct dp (finProdFinEquiv (p, l))) = evz (fun c => d p c l) := by
    intro p l
    unfold decomposeRlweCiphertext evz
    congr 1
    funext c
    rw [divNat_pair, modNat_pair, hg.total]
    exact (h1 p c l).1
  -- linearity over rows
  have hlin : rlwePhase (extProd dp C ct) s = ∑ p, ∑ l,
      evz (fun c => d p c l) * rlwePhase (C (finProdFinEquiv (p, l))) s := by
    have hq : ∀ q, ev (extProd dp C ct q) = ∑ p, ∑ l,
        evz (fun c => d p c l) * ev (C (finProdFinEquiv (p, l)) q) := by
      intro q
      unfold extProd
      rw [ev_sum Finset.univ (fun r => Nega.mul (decomposeRlweCiphertext ct dp r) (C r q)),
        ← (finProdFinEquiv (m := k + 1) (n := dp.levelCount)).sum_comp, Fintype.sum_prod_type]
      refine Finset.sum_congr rfl (fun p _ => Finset.sum_congr rfl (fun l _ => ?_))
      rw [ev_mul, hdig]
    rw [rlwePhase_eq_sum]
    simp only [hq, rlwePhase_eq_sum, Finset.mul_sum]
    rw [Finset.sum_comm]
    refine Finset.sum_congr rfl (fun p _ => ?_)
    rw [Finset.sum_comm]
    refine Finset.sum_congr rfl (fun l _ => Finset.sum_congr rfl (fun q _ => ?_))
    ring
  -- recomposition of the digits
  have hrec : ∀ p, ∑ l : Fin dp.levelCount,
      evz (fun c => d p c l) * cst n (2 ^ (32 - (l.val + 1) * dp.logBase)) =
      ev (ct p) - ev (fun c => BitVec.ofInt 32 (r p c)) := by
    intro p
    rw [← ev_sub]
    have : (fun c => ct p c - BitVec.ofInt 32 (r p c)) =
        fun c => ∑ l : Fin dp.levelCount, (fun l c => 2 ^ (32 - (l.val + 1) * dp.logBase) *
          BitVec.ofInt 32 (d p c l)) l c := by
      funext c
      rw [← h3 p c]
      refine Finset.sum_congr rfl (fun l _ => ?_)
      rw [(h1 p c l).1, mul_comm]
    rw [this, ev_sum]
    refine Finset.sum_congr rfl (fun l _ => ?_)
    rw [ev_smul, mul_comm]
    rfl
  rw [hlin]
  simp only [hC _ _, mul_add, Finset.sum_add_distrib]
  have hM : ∑ p, ∑ l : Fin dp.levelCount, evz (fun c => d p c l) *
      (M * cst n (2 ^ (32 - (l.val + 1) * dp.logBase)) * keyPart s p) =
      M * rlwePhase ct s - M * rlwePhase (fun p c => BitVec.ofInt 32 (r p c)) s := by
    rw [rlwePhase_eq_sum, rlwePhase_eq_sum, ← mul_sub, ← Finset.sum_sub_distrib, Finset.mul_sum]
    refine Finset.sum_congr rfl (fun p _ => ?_)
    rw [← mul_sub, ← hrec p, Finset.mul_sum, Finset.mul_sum]
    refine Finset.sum_congr rfl (fun l _ => ?_)
    ring
  rw [hM]
  ring

/-- The phase of a small ciphertext under a binary key is small. -/
theorem small_rlwePhase {k n : Nat} (r : Fin (k + 1) → Fin n → Int) (B : Int) (hr : ∀ p c, |r p c| ≤ B)
    (s : Fin k → Fin n → Int) (hs : ∀ i c, |s i c| ≤ 1) :
    Small (B + k * (n * B)) (rlwePhase (fun p c => BitVec.ofInt 32 (r p c))
      (fun i c => BitVec.ofInt 32 (s i c))) := by
  unfold rlwePhase
  refine Small.sub ⟨_, hr _, rfl⟩ ?_
  have := small_sum (Finset.univ : Finset (Fin k))
    (fun i => ev (fun c => BitVec.ofInt 32 (r i.castSucc c)) * ev (fun c => BitVec.ofInt 32 (s i c)))
    (fun _ => n * (B * 1)) (fun i _ => Small.mul ⟨_, hr _, rfl⟩ ⟨_, hs i, rfl⟩)
  refine this.mono (le_of_eq ?_)
  simp

/-- The digit part of the external-product error. -/
theorem small_digits {k n : Nat} (dp : DecompositionParameters)
    (d : Fin (k + 1) → Fin dp.levelCount → Fin n → Int)
    (err : Fin (k + 1) → Fin dp.levelCount → Q W n) (E : Int) (hd : ∀ p l c, |d p l c| ≤ 2 ^ dp.logBase)
    (he : ∀ p l, Small E (err p l)) :
    Small ((k + 1) * (dp.levelCount * (n * (2 ^ dp.logBase * E)))) (∑ p, ∑ l, evz (d p l) * err p l) := by
  have := small_sum (Finset.univ : Finset (Fin (k + 1))) (fun p => ∑ l, evz (d p l) * err p l)
    (fun _ => ∑ _l : Fin dp.levelCount, n * (2 ^ dp.logBase * E)) (fun p _ => small_sum _ _ _ (fun l _ =>
      Small.mul ⟨d p l, hd p l, rfl⟩ (he p l)))
  refine this.mono (le_of_eq ?_)
  simp

end Verif.Rgsw

import Verif.Lemmas.Rgsw

/-!
# Properties C20 and C21: external product, RGSW decryption, CMUX
-/

namespace Verif.Props
open Verif.Rlwe Verif.Nega Verif.MatrixUtils Verif.Arith Verif.Encoding Verif.Decomposition
open Verif.Bootstrap Verif.Rgsw Verif.PolymulKernel

/-- The stored form of an RGSW ciphertext for the chosen kernel. -/
def stored {rows k n : Nat} (useBat : Bool) (m : Fin rows → Fin (k + 1) → Fin n → W) : RgswData rows k n :=
  if useBat then .bytes (fun r p c => batOfflineCompileCggi (m r p c)) else .words m

/-- Worst-case magnitude of the error of one external product with an encryption of an integer `m`
(binary key, row errors at most `E`). -/
def extProdBound (k n : Nat) (dp : DecompositionParameters) (m E : Int) : Int :=
  (k + 1) * (dp.levelCount * (n * (2 ^ dp.logBase * E))) +
    |m| * (truncBound dp.logBase dp.levelCount + k * (n * truncBound dp.logBase dp.levelCount))

/-- C20: rows of `rgsw.encrypt(m)`: the row of polynomial `p` and level `l` is an RLWE encryption of
`m * 2^(32 - (l+1) b) * (-s_p, or 1 for the body)` whose error is the drawn scalar in every coefficient. -/
theorem C20_rows (be : Backend) {k n : Nat} (hn : 0 < n) (m : W) (s : Fin k → Fin n → W)
    (dp : DecompositionParameters) (a : Fin (k + 1) → Fin dp.levelCount → Fin k → Fin n → W)
    (e : Fin (k + 1) → Fin dp.levelCount → W) (p : Fin (k + 1)) (l : Fin dp.levelCount) :
    rlwePhase (Rgsw.jitEncrypt be m s dp a e 32 (finProdFinEquiv (p, l))) s =
      ev (fun _ => e p l) +
        cst n (m * 2 ^ (32 - (l.val + 1) * dp.logBase)) *
          (if h : p.val < k then -ev (s ⟨p.val, h⟩) else 1) := by
  rw [isRgsw_jitEncrypt be hn m s dp a e p l, cst_mul]
  congr 2

example (be : Backend) := C20_rows be (k := 1) (n := 2) (by norm_num) 1 ![![1, 0]] ⟨4, 8, 32⟩ (fun _ _ _ _ => 12345)
  (fun _ _ => 7) 1 3

/-- C20: the phase of an external product, exactly. For every RGSW encryption (all masks and errors) of
`m` and every RLWE ciphertext there are digit polynomials `d` and remainders `r`, within the bounds of
the decomposition, with `phase(out) = m * phase(ct) + Σ d * rowError - m * phase(r)`. -/
theorem C20_exact (be : Backend) {k n : Nat} (hn : 0 < n) (dp : DecompositionParameters) (hg : GadgetOk dp)
    (hk : KernelOk be k n dp) (useBat : Bool) (m : W) (s : Fin k → Fin n → W)
    (a : Fin (k + 1) → Fin dp.levelCount → Fin k → Fin n → W) (e : Fin (k + 1) → Fin dp.levelCount → W)
    (ct : Fin (k + 1) → Fin n → W) :
    ∃ (out : Fin (k + 1) → Fin n → W) (d : Fin (k + 1) → Fin dp.levelCount → Fin n → Int)
      (r : Fin (k + 1) → Fin n → Int),
      jitExternalProduct be dp (stored useBat (Rgsw.jitEncrypt be m s dp a e 32)) ct useBat = .ok out ∧
      (∀ p l c, |d p l c| ≤ 2 ^ dp.logBase) ∧
      (∀ p c, |r p c| ≤ truncBound dp.logBase dp.levelCount) ∧
      rlwePhase out s = cst n m * rlwePhase ct s +
        ∑ p, ∑ l, ev (fun c => BitVec.ofInt 32 (d p l c)) * ev (fun _ => e p l) -
        cst n m * rlwePhase (fun p c => BitVec.ofInt 32 (r p c)) s := by
  obtain ⟨d, r, h1, h2, h3⟩ := extProd_phase dp hg _ s _ _ (isRgsw_jitEncrypt be hn m s dp a e) ct
  exact ⟨_, d, r, jitExternalProduct_eq be dp hg hk _ useBat _ rfl ct, h1, h2, h3⟩

/-- C20: the worst case. With a binary key and row errors of magnitude at most `E`, the phase of the
external product is `m * phase(ct)` plus a polynomial with coefficients bounded by `extProdBound`. -/
theorem C20_bound (be : Backend) {k n : Nat} (hn : 0 < n) (dp : DecompositionParameters) (hg : GadgetOk dp)
    (hk : KernelOk be k n dp) (useBat : Bool) (m : Int) (s : Fin k → Fin n → Int)
    (hs : ∀ i c, s i c = 0 ∨ s i c = 1)
    (a : Fin (k + 1) → Fin dp.levelCount → Fin k → Fin n → W) (e : Fin (k + 1) → Fin dp.levelCount → Int)
    (E : Int) (he : ∀ p l, |e p l| ≤ E) (ct : Fin (k + 1) → Fin n → W) :
    ∃ (out : Fin (k + 1) → Fin n → W) (f : Fin n → Int),
      jitExternalProduct be dp (stored useBat (Rgsw.jitEncrypt be (BitVec.ofInt 32 m)
        (fun i c => BitVec.ofInt 32 (s i c)) dp a (fun p l => BitVec.ofInt 32 (e p l)) 32)) ct useBat =
          .ok out ∧
      (∀ c, |f c| ≤ extProdBound k n dp m E) ∧
      rlwePhase out (fun i c => BitVec.ofInt 32 (s i c)) =
        cst n (BitVec.ofInt 32 m) * rlwePhase ct (fun i c => BitVec.ofInt 32 (s i c)) +
          ev (fun c => BitVec.ofInt 32 (f c)) := by
  obtain ⟨d, r, h1, h2, h3⟩ := extProd_phase dp hg _ (fun i c => BitVec.ofInt 32 (s i c)) _ _
    (isRgsw_jitEncrypt be hn (BitVec.ofInt 32 m) (fun i c => BitVec.ofInt 32 (s i c)) dp a
      (fun p l => BitVec.ofInt 32 (e p l))) ct
  have hs1 : ∀ i c, |s i c| ≤ 1 := fun i c => by rcases hs i c with h | h <;> rw [h] <;> decide
  have hsm : Small (extProdBound k n dp m E)
      ((∑ p, ∑ l, evz (d p l) * ev (fun _ => BitVec.ofInt 32 (e p l))) -
        cst n (BitVec.ofInt 32 m) * rlwePhase (fun p c => BitVec.ofInt 32 (r p c))
          (fun i c => BitVec.ofInt 32 (s i c))) :=
    (small_digits dp d _ E h1 (fun p l => ⟨fun _ => e p l, fun _ => he p l, rfl⟩)).sub
      ((small_rlwePhase r _ h2 s hs1).cst m)
  obtain ⟨f, hf, hfe⟩ := hsm
  refine ⟨_, f, jitExternalProduct_eq be dp hg hk _ useBat _ rfl ct, hf, ?_⟩
  rw [h3, ← hfe]
  ring

/-- The hypotheses hold for the library's parameters on every device: production (`k = 2`, `N = 512`,
base 16, 6 levels) and test (`k = 1`, 8 levels). -/
example (tpu : Int) :
    let be : Backend := ⟨tpu, fun _ u v => ∑ i, u i * v i⟩
    GadgetOk ⟨4, 6, 32⟩ ∧ KernelOk be 2 512 ⟨4, 6, 32⟩ ∧ GadgetOk ⟨4, 8, 32⟩ ∧ KernelOk be 1 512 ⟨4, 8, 32⟩ :=
  ⟨⟨by decide, by decide, by decide, by decide, rfl⟩,
    fun _ => ⟨fun _ _ _ _ _ _ => rfl, fun _ _ => by decide⟩,
    ⟨by decide, by decide, by decide, by decide, rfl⟩,
    fun _ => ⟨fun _ _ _ _ _ _ => rfl, fun _ _ => by decide⟩⟩

/-- C20: `rgsw.decrypt` inverts `rgsw.encrypt`: for every key with a constant coefficient equal to one,
all masks and all errors with `-2^(31-b) < e ≤ 2^(31-b)`, it returns the message modulo `2^b`; it raises
`ValueError` exactly if no key polynomial has constant coefficient one. -/
theorem C20_decrypt (be : Backend) {k n : Nat} [NeZero n] (dp : DecompositionParameters)
    [NeZero dp.levelCount] (hb : 1 ≤ dp.logBase) (hb2 : dp.logBase ≤ 31) (m : Int) (s : Fin k → Fin n → W)
    (a : Fin (k + 1) → Fin dp.levelCount → Fin k → Fin n → W) (e : Fin (k + 1) → Fin dp.levelCount → Int)
    (he1 : ∀ p l, -2 ^ (31 - dp.logBase) < e p l) (he2 : ∀ p l, e p l ≤ 2 ^ (31 - dp.logBase)) :
    let ct := Rgsw.jitEncrypt be (BitVec.ofInt 32 m) s dp a (fun p l => BitVec.ofInt 32 (e p l)) 32
    (Rgsw.decrypt be dp ct ⟨32, s⟩ = .error "ValueError" ↔ ∀ i, s i 0 ≠ 1) ∧
    ((∃ i, s i 0 = 1) → ∃ w : W, Rgsw.decrypt be dp ct ⟨32, s⟩ = .ok w ∧
      (w.toNat : Int) = m % 2 ^ dp.logBase) := by
  intro ct
  have hn : 0 < n := Nat.pos_of_ne_zero (NeZero.ne n)
  have hmain : ∀ i, s i 0 = 1 → ∀ noisy : W,
      noisy = ∑ j : Fin k, polyMul be.tpu (ct (finProdFinEquiv (i.castSucc, (0 : Fin dp.levelCount))) j.castSucc)
        (s j) 0 - ct (finProdFinEquiv (i.castSucc, (0 : Fin dp.levelCount))) (Fin.last k) 0 →
      noisy = BitVec.ofInt 32 (m * 2 ^ (32 - dp.logBase) - e i.castSucc 0) := by
    intro i hi noisy hnoisy
    have hrow := isRgsw_jitEncrypt be hn (BitVec.ofInt 32 m) s dp a (fun p l => BitVec.ofInt 32 (e p l))
      i.castSucc (0 : Fin dp.levelCount)
    have hneg : ev (fun c => ∑ j : Fin k,
        polyMul be.tpu (ct (finProdFinEquiv (i.castSucc, (0 : Fin dp.levelCount))) j.castSucc) (s j) c -
        ct (finProdFinEquiv (i.castSucc, (0 : Fin dp.levelCount))) (Fin.last k) c) =
        ev (fun c => BitVec.ofInt 32 m * 2 ^ (32 - dp.logBase) * s i c - BitVec.ofInt 32 (e i.castSucc 0)) := by
      rw [ev_sub, ev_sub, ev_smul]
      have hs1 : ev (fun c => ∑ j : Fin k,
          polyMul be.tpu (ct (finProdFinEquiv (i.castSucc, (0 : Fin dp.levelCount))) j.castSucc) (s j) c) =
          ∑ j : Fin k, ev (ct (finProdFinEquiv (i.castSucc, (0 : Fin dp.levelCount))) j.castSucc) * ev (s j) := by
        rw [ev_sum Finset.univ (fun j => polyMul be.tpu
          (ct (finProdFinEquiv (i.castSucc, (0 : Fin dp.levelCount))) j.castSucc) (s j))]
        simp only [ev_polyMul]
      rw [hs1]
      unfold rlwePhase at hrow
      have hk1 : keyPart s i.castSucc = -ev (s i) := by unfold keyPart; rw [Fin.snoc_castSucc]
      rw [hk1] at hrow
      have h0 : (0 : Fin dp.levelCount).val = 0 := rfl
      rw [h0, zero_add, one_mul] at hrow
      rw [cst_mul]
      linear_combination -hrow
    have := congrFun (ev_injective hn hneg) 0
    rw [hnoisy]
    refine this.trans ?_
    rw [hi, mul_one]
    have h2 : (2 : W) ^ (32 - dp.logBase) = ((2 ^ (32 - dp.logBase) : Int) : W) := by
      rw [Int.cast_pow, Int.cast_ofNat]
    rw [h2]
    exact ((Int.cast_sub _ _).trans (by rw [Int.cast_mul]; rfl)).symm
  have hval : ∀ i, s i 0 = 1 → ∀ noisy : W,
      noisy = BitVec.ofInt 32 (m * 2 ^ (32 - dp.logBase) - e i.castSucc 0) →
      (((Encoding.roundToPowerOf2 noisy (32 - dp.logBase) >>> (32 - dp.logBase)) %
        BitVec.ofNat 32 (2 ^ dp.logBase)).toNat : Int) = m % 2 ^ dp.logBase := by
    intro i _ noisy hno
    obtain ⟨t, ht⟩ : ∃ t, t = 32 - dp.logBase := ⟨_, rfl⟩
    rw [← ht] at hno ⊢
    have htb : dp.logBase = 32 - t := by omega
    have e1 := he1 i.castSucc 0
    have e2 := he2 i.castSucc 0
    generalize e i.castSucc 0 = E at *
    have h31 : 31 - dp.logBase = t - 1 := by omega
    rw [h31] at e1 e2
    rw [BitVec.toNat_umod, BitVec.toNat_ushiftRight, round_toNat _ _ (by omega), BitVec.toNat_ofNat,
      Nat.mod_eq_of_lt (Nat.pow_lt_pow_right (by norm_num : 1 < 2) (by omega : dp.logBase < 32)),
      Nat.shiftRight_eq_div_pow]
    have h32 : (2 : Nat) ^ 32 = 2 ^ (32 - t) * 2 ^ t := by rw [← pow_add]; congr 1; omega
    rw [h32, Nat.mul_mod_mul_right, Nat.mul_div_cancel _ (by positivity), htb, Nat.mod_mod]
    -- the value of the noisy word
    have hT : (2 : Int) ^ t = 2 * 2 ^ (t - 1) := by
      conv_lhs => rw [show t = (t - 1) + 1 by omega, pow_succ]
      ring
    have hN : (noisy.toNat : Int) = (m * 2 ^ t - E) % 2 ^ 32 := by
      rw [hno, BitVec.toNat_ofInt, Int.toNat_of_nonneg (Int.emod_nonneg _ (by norm_num))]
      norm_num
    have hP : (0 : Int) < 2 ^ (t - 1) := by positivity
    have hdiv : ((m * 2 ^ t - E) + 2 ^ (t - 1)) / 2 ^ t = m := by
      rw [show m * 2 ^ t - E + 2 ^ (t - 1) = (2 ^ (t - 1) - E) + m * 2 ^ t by ring,
        Int.add_mul_ediv_right _ _ (by positivity), Int.ediv_eq_zero_of_lt (by linarith) (by linarith), zero_add]
    have hq : ∃ q : Int, (m * 2 ^ t - E) = (noisy.toNat : Int) + 2 ^ 32 * q :=
      ⟨(m * 2 ^ t - E) / 2 ^ 32, by rw [hN]; exact (Int.emod_add_mul_ediv _ _).symm⟩
    obtain ⟨q, hq⟩ := hq
    push_cast
    have h32' : (2 : Int) ^ 32 = 2 ^ t * 2 ^ (32 - t) := by rw [← pow_add]; congr 1; omega
    have : ((noisy.toNat : Int) + 2 ^ (t - 1)) / 2 ^ t = m - 2 ^ (32 - t) * q := by
      have h := hdiv
      rw [hq, h32', show (noisy.toNat : Int) + 2 ^ t * 2 ^ (32 - t) * q + 2 ^ (t - 1) =
        (noisy.toNat + 2 ^ (t - 1)) + (2 ^ (32 - t) * q) * 2 ^ t by ring,
        Int.add_mul_ediv_right _ _ (by positivity)] at h
      linarith
    rw [this, Int.sub_mul_emod_self_left]
  unfold Rgsw.decrypt
  constructor
  · cases h : (List.finRange k).find? (fun i => s i 0 = 1#32) with
    | none =>
      simp only [true_iff]
      rw [List.find?_eq_none] at h
      intro i hi
      exact h i (List.mem_finRange i) (by simpa using hi)
    | some i =>
      have := List.find?_some h
      simp only [decide_eq_true_eq] at this
      simp only [reduceCtorEq, false_iff]
      intro hall
      exact hall i this
  · rintro ⟨i0, hi0⟩
    cases h : (List.finRange k).find? (fun i => s i 0 = 1#32) with
    | none =>
      rw [List.find?_eq_none] at h
      exact absurd hi0 (by simpa using h i0 (List.mem_finRange i0))
    | some i =>
      have := List.find?_some h
      simp only [decide_eq_true_eq] at this
      exact ⟨_, rfl, hval i this _ (hmain i this _ rfl)⟩

example : (1 ≤ 4 ∧ 4 ≤ 31) ∧ (-2 ^ (31 - 4) < (1000 : Int) ∧ (1000 : Int) ≤ 2 ^ (31 - 4)) ∧
    (∃ i, (![![0#32, 1#32], ![1#32, 0#32]] : Fin 2 → Fin 2 → W) i 0 = 1) := by
  refine ⟨by decide, by decide, 1, by decide⟩

/-- C21: `cmux` on any control bit `m`: the phase is that of `eq_zero` + `m` times the phase difference,
up to the external-product error; so `m = 0` selects `eq_zero` and `m = 1` selects `neq_zero`. -/
theorem C21_select (be : Backend) {k n : Nat} (hn : 0 < n) (dp : DecompositionParameters) (hg : GadgetOk dp)
    (hk : KernelOk be k n dp) (useBat : Bool) (m : Bool) (s : Fin k → Fin n → Int)
    (hs : ∀ i c, s i c = 0 ∨ s i c = 1)
    (a : Fin (k + 1) → Fin dp.levelCount → Fin k → Fin n → W) (e : Fin (k + 1) → Fin dp.levelCount → Int)
    (E : Int) (he : ∀ p l, |e p l| ≤ E) (eqZero neqZero : Fin (k + 1) → Fin n → W) (log1 log2 : Nat)
    (hlog : log1 = log2) :
    ∃ (out : Fin (k + 1) → Fin n → W) (f : Fin n → Int),
      cmux be dp (stored useBat (Rgsw.jitEncrypt be (if m then 1 else 0)
        (fun i c => BitVec.ofInt 32 (s i c)) dp a (fun p l => BitVec.ofInt 32 (e p l)) 32))
          ⟨log1, n, eqZero⟩ ⟨log2, n, neqZero⟩ useBat = .ok ⟨log1, n, out⟩ ∧
      (∀ c, |f c| ≤ extProdBound k n dp 1 E) ∧
      rlwePhase out (fun i c => BitVec.ofInt 32 (s i c)) =
        rlwePhase (if m then neqZero else eqZero) (fun i c => BitVec.ofInt 32 (s i c)) +
          ev (fun c => BitVec.ofInt 32 (f c)) := by
  obtain ⟨out, f, h1, h2, h3⟩ := C20_bound be hn dp hg hk useBat (if m then 1 else 0) s hs a e E he
    (fun p c => neqZero p c - eqZero p c)
  refine ⟨fun p c => eqZero p c + out p c, f, ?_, ?_, ?_⟩
  · unfold cmux
    rw [if_neg (by subst hlog; simp [RlweCiphertext.coefficientModulus]), dif_pos rfl, dif_pos rfl]
    unfold jitCmux
    have hm : (BitVec.ofInt 32 (if m then 1 else 0) : W) = if m then 1 else 0 := by cases m <;> rfl
    rw [hm] at h1
    simp only [Fin.cast_eq_self, h1]
    rfl
  · intro c
    refine (h2 c).trans ?_
    have hE : 0 ≤ truncBound dp.logBase dp.levelCount := by unfold truncBound; split <;> positivity
    unfold extProdBound
    have : |(if m then 1 else 0 : Int)| ≤ |1| := by cases m <;> decide
    have h0 : 0 ≤ truncBound dp.logBase dp.levelCount + k * (n * truncBound dp.logBase dp.levelCount) := by
      positivity
    have := mul_le_mul_of_nonneg_right this h0
    linarith
  · rw [rlwePhase_add, h3, rlwePhase_sub]
    cases m
    · have : cst n (BitVec.ofInt 32 (if false = true then 1 else 0)) = (0 : Q W n) := cst_zero
      rw [this, zero_mul, zero_add]
      simp
    · have : cst n (BitVec.ofInt 32 (if true = true then 1 else 0)) = (1 : Q W n) := cst_one
      rw [this]
      simp only [if_true]
      ring

example : (3 : Nat) = 3 ∧ (∀ i c : Fin 2, (![![0, 1], ![1, 0]] : Fin 2 → Fin 2 → Int) i c = 0 ∨
    (![![0, 1], ![1, 0]] : Fin 2 → Fin 2 → Int) i c = 1) := by decide

/-- C21: ciphertexts with different coefficient moduli (below `2^32`) or different degrees are rejected. -/
theorem C21_rejects (be : Backend) {k n : Nat} (dp : DecompositionParameters)
    (control : RgswData ((k + 1) * dp.levelCount) k n) (eqZero neqZero : RlweCiphertext k) (useBat : Bool)
    (h : eqZero.modulusDegree ≠ neqZero.modulusDegree ∨
      (eqZero.logCoefficientModulus ≠ neqZero.logCoefficientModulus ∧
        eqZero.logCoefficientModulus ≤ 32 ∧ neqZero.logCoefficientModulus ≤ 32)) :
    cmux be dp control eqZero neqZero useBat = .error "ValueError" := by
  unfold cmux
  by_cases hc : eqZero.coefficientModulus ≠ neqZero.coefficientModulus
  · rw [if_pos hc]
  · rw [if_neg hc]
    have hd : eqZero.modulusDegree ≠ neqZero.modulusDegree := by
      rcases h with h | ⟨h, h1, h2⟩
      · exact h
      · exfalso
        apply hc
        have inj : ∀ x y : Fin 33, BitVec.ofNat 32 (2 ^ x.val) = BitVec.ofNat 32 (2 ^ y.val) → x = y := by
          decide +kernel
        intro he
        unfold RlweCiphertext.coefficientModulus at he
        have := inj ⟨eqZero.logCoefficientModulus, by omega⟩ ⟨neqZero.logCoefficientModulus, by omega⟩ he
        exact h (congrArg Fin.val this)
    rw [dif_neg hd]

/-- Ciphertexts of degrees 2 and 4 are refused. -/
example (be : Backend) (dp : DecompositionParameters) (control : RgswData ((1 + 1) * dp.levelCount) 1 2) (useBat : Bool) :
    cmux be dp control ⟨32, 2, fun _ _ => 7⟩ ⟨32, 4, fun _ _ => 9⟩ useBat = .error "ValueError" :=
  C21_rejects be dp control _ _ useBat (Or.inl (by decide))

end Verif.Props

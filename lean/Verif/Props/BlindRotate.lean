import Verif.Lemmas.BlindRotate

/-!
# Property C22: blind rotation
-/

namespace Verif.Props
open Verif.Rlwe Verif.Nega Verif.MatrixUtils Verif.Arith Verif.Encoding Verif.Decomposition
open Verif.Bootstrap Verif.Rgsw Verif.PolymulKernel

/-- The rotation amount: `Σ a_i s_i - b`, the negated phase of the (modulus-switched) LWE ciphertext. -/
def rotation {d : Nat} (ci : Fin (d + 1) → W) (lz : Fin d → Int) : Int :=
  ∑ i : Fin d, ((ci i.castSucc).toNat : Int) * lz i - (ci (Fin.last d)).toNat

/-- C22: `gen_bootstrapping_key` fails exactly on odd LWE dimensions, with `ValueError`. -/
theorem C22_odd_dimension (be : Backend) {d k n : Nat} (lweSk : Lwe.LweSecretKey d) (rlweSk : RlweSecretKey k n)
    (dp : DecompositionParameters)
    (a : Nat → Fin (k + 1) → Fin dp.levelCount → Fin k → Fin n → W)
    (e : Nat → Fin (k + 1) → Fin dp.levelCount → W) (useBmmp useBat : Bool) :
    (d % 2 = 1 → genBootstrappingKey be lweSk rlweSk dp a e useBmmp useBat = .error "ValueError") ∧
    (d % 2 = 0 → ∃ bsk, genBootstrappingKey be lweSk rlweSk dp a e useBmmp useBat = .ok bsk) := by
  unfold genBootstrappingKey
  constructor
  · intro h; rw [if_pos (by omega)]
  · intro h; rw [if_neg (by omega)]; exact ⟨_, rfl⟩

/-- C22: for every LWE ciphertext, every binary LWE and RLWE key, every bootstrapping key generated
with row errors of magnitude at most `E`, on every branch (plain, plain with byte-expanded key, BMMP),
blind rotation succeeds and its phase is `X^(Σ a_i s_i - b)` times the phase of the input polynomial,
plus an error polynomial with coefficients at most (number of iterations) × `stepBound`. -/
theorem C22_blind_rotate (be : Backend) {d k n : Nat} (hn : 0 < n) (h2n : 2 * n ∣ 2 ^ 32)
    (dp : DecompositionParameters) (hg : GadgetOk dp) (hk : KernelOk be k n dp)
    (lz : Fin d → Int) (hlz : ∀ i, lz i = 0 ∨ lz i = 1) (logLwe : Nat)
    (s : Fin k → Fin n → Int) (hs : ∀ i c, s i c = 0 ∨ s i c = 1)
    (a : Nat → Fin (k + 1) → Fin dp.levelCount → Fin k → Fin n → W)
    (e : Nat → Fin (k + 1) → Fin dp.levelCount → Int) (E : Int) (he : ∀ i p l, |e i p l| ≤ E)
    (useBmmp useBat : Bool) (bsk : BootstrappingKey ((k + 1) * dp.levelCount) k n)
    (hbsk : genBootstrappingKey be ⟨logLwe, fun i => BitVec.ofInt 32 (lz i)⟩
      ⟨32, fun i c => BitVec.ofInt 32 (s i c)⟩ dp a (fun i p l => BitVec.ofInt 32 (e i p l)) useBmmp useBat =
        .ok bsk)
    (rot : Fin (k + 1) → Fin n → W) (ci : Fin (d + 1) → W) :
    ∃ (out : Fin (k + 1) → Fin n → W) (f : Fin n → Int),
      jitBlindRotate be dp rot ci bsk 32 = .ok out ∧
      (∀ c, |f c| ≤ (if useBmmp then d / 2 else d : Nat) * stepBound useBmmp k n dp E) ∧
      rlwePhase out (fun i c => BitVec.ofInt 32 (s i c)) =
        x W n ^ (rotation ci lz % (2 * n)).toNat * rlwePhase rot (fun i c => BitVec.ofInt 32 (s i c)) +
          ev (fun c => BitVec.ofInt 32 (f c)) := by
  obtain ⟨hb, hbat, hev, hat⟩ := bskAt_gen be _ _ dp a _ useBmmp useBat bsk hbsk
  set S : Fin k → Fin n → W := fun i c => BitVec.ofInt 32 (s i c) with hS
  -- values of masks and key bits at natural indices
  let A : Nat → Nat := fun i => if h : i < d then (ci ⟨i, by omega⟩).toNat else 0
  let K : Nat → Int := fun i => if h : i < d then lz ⟨i, h⟩ else 0
  have hK : ∀ i, K i = 0 ∨ K i = 1 := by
    intro i; simp only [K]; split
    · exact hlz _
    · exact Or.inl rfl
  let w : Nat := if useBmmp then 2 else 1
  let P : Nat → (Fin (k + 1) → Fin n → W) → Prop := fun t acc =>
    ∃ err, Small (t * stepBound useBmmp k n dp E) err ∧
      rlwePhase acc S = x W n ^ ((∑ i ∈ Finset.range (w * t), A i * (K i).toNat) +
        (-ci (Fin.last d)).toNat) * rlwePhase rot S + err
  have h0 : P 0 (fun p => monomialMul (rot p) (-ci (Fin.last d)).toNat 32) := by
    refine ⟨0, small_zero (by simp), ?_⟩
    rw [rlwePhase_monomial hn, x_pow_natCast, Nat.mul_zero, Finset.range_zero, Finset.sum_empty, zero_add,
      add_zero]
  have hstep : ∀ t acc, t < (if useBmmp then d / 2 else d) → P t acc →
      ∃ out, oneExternalProduct be dp ci bsk 32 t acc = .ok out ∧ P (t + 1) out := by
    intro t acc ht hP
    obtain ⟨err, herr, hph⟩ := hP
    have key : ∃ out δ, oneExternalProduct be dp ci bsk 32 t acc = .ok out ∧
        Small (stepBound useBmmp k n dp E) δ ∧
        rlwePhase out S = x W n ^ (∑ i ∈ Finset.range w, A (w * t + i) * (K (w * t + i)).toNat) *
          rlwePhase acc S + δ := by
      cases useBmmp with
      | false =>
        simp only [Bool.false_eq_true, if_false] at ht hat
        have hb1 := hat t ht
        have hin : bskInputs false (fun i => BitVec.ofInt 32 (lz i)) t = BitVec.ofInt 32 (K t) := by
          simp only [bskInputs, Bool.false_eq_true, if_false, K, dif_pos ht]
        rw [hin] at hb1
        obtain ⟨out, δ, h1, h2, h3⟩ := step_plain be hn dp hg hk ci bsk hb t ht (K t) (hK t) s hs (a t)
          (e t) E (he t) hb1 acc
        refine ⟨out, δ, h1, h2, ?_⟩
        rw [← hS] at h3
        rw [h3]
        simp only [w, Bool.false_eq_true, if_false, one_mul, Finset.sum_range_one, add_zero, A, dif_pos ht]
      | true =>
        simp only [if_true] at ht hat hbat
        have h2t : 2 * t + 1 < d := by omega
        have e0 : (3 * t) % 3 = 0 := by omega
        have e1 : (3 * t + 1) % 3 = 1 := by omega
        have e2 : (3 * t + 2) % 3 = 2 := by omega
        have q0 : (3 * t) / 3 = t := by omega
        have q1 : (3 * t + 1) / 3 = t := by omega
        have q2 : (3 * t + 2) / 3 = t := by omega
        have K0 : K (2 * t) = lz ⟨2 * t, by omega⟩ := by simp only [K]; rw [dif_pos (by omega)]
        have K1 : K (2 * t + 1) = lz ⟨2 * t + 1, h2t⟩ := by simp only [K]; rw [dif_pos h2t]
        have d0 : 2 * t < d := by omega
        obtain ⟨out, δ, h1, h2, h3⟩ := step_bmmp be hn h2n dp hg hk ci bsk hb hbat t h2t (K (2 * t))
          (K (2 * t + 1)) (hK _) (hK _) s hs a e E he (bskInputs true (fun i => BitVec.ofInt 32 (lz i)))
          (by
            simp only [bskInputs, if_true, e0, q0, dif_pos d0, dif_pos h2t, K0, K1]
            exact (Int.cast_mul _ _).symm)
          (by
            simp only [bskInputs, if_true, e1, q1, dif_pos d0, dif_pos h2t, K0, K1, one_ne_zero, if_false]
            refine Eq.trans ?_ (Int.cast_mul _ _).symm
            congr 1
            exact (Int.cast_sub 1 _).symm)
          (by
            simp only [bskInputs, if_true, e2, q2, dif_pos d0, dif_pos h2t, K0, K1, OfNat.ofNat_ne_zero,
              OfNat.ofNat_ne_one, if_false]
            refine Eq.trans ?_ (Int.cast_mul _ _).symm
            congr 1
            exact (Int.cast_sub 1 _).symm)
          (fun i hi1 hi2 => hat i (by omega)) acc
        refine ⟨out, δ, h1, h2, ?_⟩
        rw [← hS] at h3
        rw [h3]
        simp only [w, if_true, Finset.sum_range_succ, Finset.range_zero, Finset.sum_empty, zero_add, add_zero,
          A, dif_pos d0, dif_pos h2t]
    obtain ⟨out, δ, h1, h2, h3⟩ := key
    refine ⟨out, h1, x W n ^ (∑ i ∈ Finset.range w, A (w * t + i) * (K (w * t + i)).toNat) * err + δ,
      ((herr.xpow _).add h2).mono (by push_cast; linarith), ?_⟩
    rw [h3, hph, Nat.mul_succ, Finset.sum_range_add, pow_add, pow_add, pow_add]
    ring
  obtain ⟨out, h1, err, h2, h3⟩ := foriLoop_invariant _ P _ _ h0 hstep
  obtain ⟨f, hf, rfl⟩ := h2
  refine ⟨out, f, ?_, hf, ?_⟩
  · unfold jitBlindRotate
    rw [hb]
    exact h1
  · rw [h3]
    congr 2
    apply x_pow_congr
    -- the exponent
    have hw : w * (if useBmmp then d / 2 else d) = d := by
      simp only [w]; cases useBmmp <;> simp; omega
    rw [hw]
    have hsum : ((∑ i ∈ Finset.range d, A i * (K i).toNat : Nat) : Int) =
        ∑ i : Fin d, ((ci i.castSucc).toNat : Int) * lz i := by
      rw [Nat.cast_sum, Finset.sum_range]
      refine Finset.sum_congr rfl (fun i _ => ?_)
      rw [Nat.cast_mul]
      simp only [A, K, dif_pos i.isLt, Fin.eta]
      congr 1
      rcases hlz i with h | h <;> rw [h] <;> rfl
    have hneg : (((-ci (Fin.last d)).toNat : Nat) : Int) ≡ -((ci (Fin.last d)).toNat : Int) [ZMOD (2 * n)] := by
      have h32 : ((-ci (Fin.last d)).toNat + (ci (Fin.last d)).toNat) % 2 ^ 32 = 0 := by
        rw [← BitVec.toNat_add, neg_add_cancel]; rfl
      have hd : 2 * n ∣ (-ci (Fin.last d)).toNat + (ci (Fin.last d)).toNat :=
        h2n.trans (Nat.dvd_of_mod_eq_zero h32)
      have hd' : ((2 * n : Nat) : Int) ∣ (((-ci (Fin.last d)).toNat + (ci (Fin.last d)).toNat : Nat) : Int) :=
        Int.natCast_dvd_natCast.2 hd
      apply Int.ModEq.symm
      apply (Int.modEq_iff_dvd).2
      push_cast at hd'
      simpa [sub_neg_eq_add] using hd'
    have hpos : (0 : Int) ≤ rotation ci lz % (2 * n) := Int.emod_nonneg _ (by omega)
    apply Int.natCast_inj.1
    push_cast
    rw [Int.toNat_of_nonneg hpos, Int.emod_emod_of_dvd _ (dvd_refl _)]
    unfold rotation
    have := (Int.ModEq.refl (∑ i : Fin d, ((ci i.castSucc).toNat : Int) * lz i)).add hneg
    push_cast at hsum
    rw [hsum]
    rw [sub_eq_add_neg]
    exact this

/-- The hypotheses are satisfiable: dimension 4, `k = 1`, `N = 512`, 8 levels of base 16, binary keys. -/
example : 0 < 512 ∧ 2 * 512 ∣ 2 ^ 32 ∧ GadgetOk ⟨4, 8, 32⟩ ∧
    KernelOk ⟨0, fun _ u v => ∑ i, u i * v i⟩ 1 512 ⟨4, 8, 32⟩ ∧
    ∃ bsk, genBootstrappingKey ⟨0, fun _ u v => ∑ i, u i * v i⟩ (d := 4) (k := 1) (n := 512)
      ⟨32, fun i => BitVec.ofInt 32 ((![1, 0, 1, 1] : Fin 4 → Int) i)⟩ ⟨32, fun _ c => BitVec.ofInt 32 (c.val % 2)⟩
      ⟨4, 8, 32⟩ (fun _ _ _ _ _ => 7) (fun _ _ _ => BitVec.ofInt 32 3) true false = .ok bsk :=
  ⟨by decide, by decide, ⟨by decide, by decide, by decide, by decide, rfl⟩, fun h => absurd h (by decide),
    (C22_odd_dimension _ _ _ _ _ _ _ _).2 rfl⟩

end Verif.Props

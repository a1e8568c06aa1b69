import Verif.Props.Rgsw

/-!
# Lemmas for blind rotation
-/

namespace Verif.Bootstrap
open Verif.Nega Verif.MatrixUtils Verif.Arith Verif.Rlwe Verif.Rgsw Verif.PolymulKernel
open Verif.Decomposition Verif.Props

theorem x_pow_natCast {n : Nat} (v : Nat) : x W n ^ (((v : Int)) % (2 * n)).toNat = x W n ^ v := by
  have e : ((v : Int) % (2 * n)) = ((v % (2 * n) : Nat) : Int) := by push_cast; rfl
  rw [e, Int.toNat_natCast, x_pow_mod]

theorem x_pow_add_word {n : Nat} (h2 : 2 * n ∣ 2 ^ 32) (a b : W) :
    x W n ^ (a + b).toNat = x W n ^ (a.toNat + b.toNat) := by
  apply x_pow_congr
  rw [BitVec.toNat_add, Nat.mod_mod_of_dvd _ h2]

theorem x_pow_neg_word {n : Nat} (h2 : 2 * n ∣ 2 ^ 32) (b : W) :
    x W n ^ b.toNat * x W n ^ (-b).toNat = 1 := by
  rw [← pow_add, ← x_pow_add_word h2, add_neg_cancel]
  show x W n ^ 0 = 1
  rw [pow_zero]

theorem rlwePhase_scale {k n : Nat} (hn : 0 < n) (c : Fin (k + 1) → Fin n → W) (s : Fin k → Fin n → W)
    (v : Nat) : rlwePhase (fun p => scaleByXPowerNMinus1 (v : Int) (c p) 32) s =
      (x W n ^ v - 1) * rlwePhase c s := by
  unfold rlwePhase
  simp only [ev_scaleBy hn, x_pow_natCast]
  rw [mul_sub, Finset.mul_sum]
  simp only [mul_assoc]

/-- The combination of three RGSW ciphertexts in the BMMP loop. -/
theorem isRgsw_bmmp {k n : Nat} (hn : 0 < n) (dp : DecompositionParameters)
    (C1 C2 C3 : Fin ((k + 1) * dp.levelCount) → Fin (k + 1) → Fin n → W) (s : Fin k → Fin n → W)
    (M1 M2 M3 : Q W n) (e1 e2 e3 : Fin (k + 1) → Fin dp.levelCount → Q W n) (h1 : IsRgsw dp C1 s M1 e1)
    (h2 : IsRgsw dp C2 s M2 e2) (h3 : IsRgsw dp C3 s M3 e3) (p1 p2 p3 : Nat) :
    IsRgsw dp (fun r p c => scaleByXPowerNMinus1 (p1 : Int) (C1 r p) 32 c +
        scaleByXPowerNMinus1 (p2 : Int) (C2 r p) 32 c + scaleByXPowerNMinus1 (p3 : Int) (C3 r p) 32 c) s
      ((x W n ^ p1 - 1) * M1 + (x W n ^ p2 - 1) * M2 + (x W n ^ p3 - 1) * M3)
      (fun p l => (x W n ^ p1 - 1) * e1 p l + (x W n ^ p2 - 1) * e2 p l + (x W n ^ p3 - 1) * e3 p l) := by
  intro p l
  rw [rlwePhase_add, rlwePhase_add, rlwePhase_scale hn, rlwePhase_scale hn, rlwePhase_scale hn, h1, h2, h3]
  ring

theorem Small.xpow_sub_one {n : Nat} {B : Int} {q : Q W n} (h : Small B q) (v : Nat) :
    Small (2 * B) ((x W n ^ v - 1) * q) := by
  rw [sub_mul, one_mul]
  exact ((h.xpow v).sub h).mono (by linarith)

/-- Worst-case error added by one loop iteration. -/
def stepBound (useBmmp : Bool) (k n : Nat) (dp : DecompositionParameters) (E : Int) : Int :=
  if useBmmp then
    (k + 1) * (dp.levelCount * (n * (2 ^ dp.logBase * (6 * E)))) +
      2 * (truncBound dp.logBase dp.levelCount + k * (n * truncBound dp.logBase dp.levelCount))
  else extProdBound k n dp 1 E

/-- What `gen_bootstrapping_key` stores. -/
theorem bskAt_gen (be : Backend) {d k n : Nat} (lweSk : Lwe.LweSecretKey d) (rlweSk : RlweSecretKey k n)
    (dp : DecompositionParameters)
    (a : Nat → Fin (k + 1) → Fin dp.levelCount → Fin k → Fin n → W)
    (e : Nat → Fin (k + 1) → Fin dp.levelCount → W) (useBmmp useBat : Bool)
    (bsk : BootstrappingKey ((k + 1) * dp.levelCount) k n)
    (h : genBootstrappingKey be lweSk rlweSk dp a e useBmmp useBat = .ok bsk) :
    bsk.useBmmp = useBmmp ∧ bsk.useBat = (if useBmmp then false else useBat) ∧ d % 2 = 0 ∧
    ∀ i, i < (if useBmmp then d + d / 2 else d) → bskAt bsk i = .ok (stored bsk.useBat
      (Rgsw.jitEncrypt be (bskInputs useBmmp lweSk.keyData i) rlweSk.data dp (a i) (e i)
        rlweSk.logCoefficientModulus)) := by
  unfold genBootstrappingKey at h
  split at h
  · simp at h
  · rename_i hd
    simp only [Except.ok.injEq] at h
    subst h
    refine ⟨rfl, rfl, by omega, ?_⟩
    intro i hi
    unfold bskAt stored
    simp only
    rw [dif_pos hi]
    simp only [Nat.div_add_mod', if_pos hi]

theorem foriLoop_invariant {α : Type} (body : Nat → α → Except String α) (P : Nat → α → Prop) (T : Nat) (a : α)
    (h0 : P 0 a) (hstep : ∀ t b, t < T → P t b → ∃ c, body t b = .ok c ∧ P (t + 1) c) :
    ∃ c, foriLoop body T a = .ok c ∧ P T c := by
  induction T with
  | zero => exact ⟨a, rfl, h0⟩
  | succ T ih =>
    obtain ⟨b, hb, hP⟩ := ih (fun t b ht => hstep t b (by omega))
    obtain ⟨c, hc, hP'⟩ := hstep T b (by omega) hP
    refine ⟨c, ?_, hP'⟩
    simp only [foriLoop, hb]
    exact hc

/-- One iteration of the plain loop. -/
theorem step_plain (be : Backend) {d k n : Nat} (hn : 0 < n) (dp : DecompositionParameters)
    (hg : GadgetOk dp) (hk : KernelOk be k n dp) (ci : Fin (d + 1) → W)
    (bsk : BootstrappingKey ((k + 1) * dp.levelCount) k n) (hb : bsk.useBmmp = false) (j : Nat) (hj : j < d)
    (m : Int) (hm : m = 0 ∨ m = 1) (s : Fin k → Fin n → Int) (hs : ∀ i c, s i c = 0 ∨ s i c = 1)
    (a : Fin (k + 1) → Fin dp.levelCount → Fin k → Fin n → W) (e : Fin (k + 1) → Fin dp.levelCount → Int)
    (E : Int) (he : ∀ p l, |e p l| ≤ E)
    (hbsk : bskAt bsk j = .ok (stored bsk.useBat (Rgsw.jitEncrypt be (BitVec.ofInt 32 m)
      (fun i c => BitVec.ofInt 32 (s i c)) dp a (fun p l => BitVec.ofInt 32 (e p l)) 32)))
    (acc : Fin (k + 1) → Fin n → W) :
    ∃ out δ, oneExternalProduct be dp ci bsk 32 j acc = .ok out ∧ Small (stepBound false k n dp E) δ ∧
      rlwePhase out (fun i c => BitVec.ofInt 32 (s i c)) =
        x W n ^ ((ci ⟨j, by omega⟩).toNat * m.toNat) * rlwePhase acc (fun i c => BitVec.ofInt 32 (s i c)) + δ := by
  set S : Fin k → Fin n → W := fun i c => BitVec.ofInt 32 (s i c) with hS
  obtain ⟨out, f, h1, h2, h3⟩ := C20_bound be hn dp hg hk bsk.useBat m s hs a e E he
    (fun p c => monomialMul (acc p) (ci ⟨j, by omega⟩).toNat 32 c - acc p c)
  rw [← hS] at h1 h3
  refine ⟨fun p c => acc p c + out p c, ev (fun c => BitVec.ofInt 32 (f c)), ?_, ⟨f, ?_, rfl⟩, ?_⟩
  · unfold oneExternalProduct
    rw [hb]
    simp only [Bool.false_eq_true, if_false, hbsk, dif_pos (show j < d + 1 by omega), bind, Except.bind]
    unfold jitCmux
    simp only [h1, bind, Except.bind, pure, Except.pure]
  · intro c
    refine (h2 c).trans ?_
    have hE : 0 ≤ truncBound dp.logBase dp.levelCount := by unfold truncBound; split <;> positivity
    unfold stepBound extProdBound
    simp only [Bool.false_eq_true, if_false]
    have : |m| ≤ |1| := by rcases hm with h | h <;> rw [h] <;> decide
    have h0 : 0 ≤ truncBound dp.logBase dp.levelCount + k * (n * truncBound dp.logBase dp.levelCount) := by
      positivity
    have := mul_le_mul_of_nonneg_right this h0
    linarith
  · rw [rlwePhase_add, h3, rlwePhase_sub, rlwePhase_monomial hn, x_pow_natCast]
    rcases hm with h | h <;> subst h
    · have : cst n (BitVec.ofInt 32 0) = (0 : Q W n) := cst_zero
      rw [this]
      simp
    · have : cst n (BitVec.ofInt 32 1) = (1 : Q W n) := cst_one
      rw [this]
      simp only [Int.toNat_one, mul_one, one_mul]
      ring

/-- One iteration of the BMMP loop. -/
theorem step_bmmp (be : Backend) {d k n : Nat} (hn : 0 < n) (h2n : 2 * n ∣ 2 ^ 32) (dp : DecompositionParameters)
    (hg : GadgetOk dp) (hk : KernelOk be k n dp) (ci : Fin (d + 1) → W)
    (bsk : BootstrappingKey ((k + 1) * dp.levelCount) k n) (hb : bsk.useBmmp = true) (hbat : bsk.useBat = false)
    (j : Nat) (hj : 2 * j + 1 < d)
    (m0 m1 : Int) (hm0 : m0 = 0 ∨ m0 = 1) (hm1 : m1 = 0 ∨ m1 = 1)
    (s : Fin k → Fin n → Int) (hs : ∀ i c, s i c = 0 ∨ s i c = 1)
    (a : Nat → Fin (k + 1) → Fin dp.levelCount → Fin k → Fin n → W)
    (e : Nat → Fin (k + 1) → Fin dp.levelCount → Int)
    (E : Int) (he : ∀ i p l, |e i p l| ≤ E) (w : Nat → W)
    (hw1 : w (3 * j) = BitVec.ofInt 32 (m0 * m1)) (hw2 : w (3 * j + 1) = BitVec.ofInt 32 (m0 * (1 - m1)))
    (hw3 : w (3 * j + 2) = BitVec.ofInt 32 ((1 - m0) * m1))
    (hbsk : ∀ i, 3 * j ≤ i → i ≤ 3 * j + 2 → bskAt bsk i = .ok (stored bsk.useBat (Rgsw.jitEncrypt be (w i)
      (fun i c => BitVec.ofInt 32 (s i c)) dp (a i) (fun p l => BitVec.ofInt 32 (e i p l)) 32)))
    (acc : Fin (k + 1) → Fin n → W) :
    ∃ out δ, oneExternalProduct be dp ci bsk 32 j acc = .ok out ∧ Small (stepBound true k n dp E) δ ∧
      rlwePhase out (fun i c => BitVec.ofInt 32 (s i c)) =
        x W n ^ ((ci ⟨2 * j, by omega⟩).toNat * m0.toNat + (ci ⟨2 * j + 1, by omega⟩).toNat * m1.toNat) *
          rlwePhase acc (fun i c => BitVec.ofInt 32 (s i c)) + δ := by
  have hs1 : ∀ i c, |s i c| ≤ 1 := fun i c => by rcases hs i c with h | h <;> rw [h] <;> decide
  set S : Fin k → Fin n → W := fun i c => BitVec.ofInt 32 (s i c) with hS
  set a0 := ci ⟨2 * j, by omega⟩ with ha0
  set a1 := ci ⟨2 * j + 1, by omega⟩ with ha1
  have R := fun i => isRgsw_jitEncrypt be hn (w i) S dp (a i) (fun p l => BitVec.ofInt 32 (e i p l))
  have hC := isRgsw_bmmp hn dp _ _ _ S _ _ _ _ _ _ (R (3 * j)) (R (3 * j + 1)) (R (3 * j + 2))
    (a0 + a1).toNat a0.toNat a1.toNat
  obtain ⟨F, hF⟩ : ∃ F : Fin ((k + 1) * dp.levelCount) → Fin (k + 1) → Fin n → W, F = fun r p c =>
      scaleByXPowerNMinus1 ((a0 + a1).toNat : Int) (Rgsw.jitEncrypt be (w (3 * j)) S dp (a (3 * j))
        (fun p l => BitVec.ofInt 32 (e (3 * j) p l)) 32 r p) 32 c +
      scaleByXPowerNMinus1 (a0.toNat : Int) (Rgsw.jitEncrypt be (w (3 * j + 1)) S dp (a (3 * j + 1))
        (fun p l => BitVec.ofInt 32 (e (3 * j + 1) p l)) 32 r p) 32 c +
      scaleByXPowerNMinus1 (a1.toNat : Int) (Rgsw.jitEncrypt be (w (3 * j + 2)) S dp (a (3 * j + 2))
        (fun p l => BitVec.ofInt 32 (e (3 * j + 2) p l)) 32 r p) 32 c := ⟨_, rfl⟩
  rw [← hF] at hC
  obtain ⟨dg, r, h1, h2, h3⟩ := extProd_phase dp hg _ S _ _ hC acc
  set M := ((x W n ^ (a0 + a1).toNat - 1) * cst n (w (3 * j)) + (x W n ^ a0.toNat - 1) * cst n (w (3 * j + 1)) +
    (x W n ^ a1.toNat - 1) * cst n (w (3 * j + 2))) with hM
  -- the message of the combination
  have hM' : 1 + M = x W n ^ (a0.toNat * m0.toNat + a1.toNat * m1.toNat) := by
    rw [hM, hw1, hw2, hw3, x_pow_add_word h2n]
    have c0 : cst n (BitVec.ofInt 32 0) = (0 : Q W n) := cst_zero
    have c1 : cst n (BitVec.ofInt 32 1) = (1 : Q W n) := cst_one
    rcases hm0 with h | h <;> rcases hm1 with h' | h' <;> subst h <;> subst h' <;>
      simp only [mul_zero, zero_mul, mul_one, one_mul, sub_self, sub_zero, c0, c1, Int.toNat_zero,
        Int.toNat_one, add_zero, zero_add, pow_zero] <;> ring
  refine ⟨fun p c => acc p c + extProd dp F acc p c,
    (∑ p, ∑ l, evz (dg p l) * ((x W n ^ (a0 + a1).toNat - 1) * ev (fun _ => BitVec.ofInt 32 (e (3 * j) p l)) +
      (x W n ^ a0.toNat - 1) * ev (fun _ => BitVec.ofInt 32 (e (3 * j + 1) p l)) +
      (x W n ^ a1.toNat - 1) * ev (fun _ => BitVec.ofInt 32 (e (3 * j + 2) p l)))) -
      M * rlwePhase (fun p c => BitVec.ofInt 32 (r p c)) S, ?_, ?_, ?_⟩
  · have hx := jitExternalProduct_eq be dp hg hk (.words F) false F rfl acc
    unfold oneExternalProduct
    rw [hb]
    simp only [if_true, hbsk (3 * j) (by omega) (by omega), hbsk (3 * j + 1) (by omega) (by omega),
      hbsk (3 * j + 2) (by omega) (by omega), hbat, stored, Bool.false_eq_true, if_false, RgswData.asWords,
      bind, Except.bind, pure, Except.pure, dif_pos (show 2 * j < d + 1 by omega),
      dif_pos (show 2 * j + 1 < d + 1 by omega), ← ha0, ← ha1, ← hF, hx]
  · unfold stepBound
    rw [if_pos rfl]
    refine (small_digits dp dg _ (6 * E) h1 ?_).sub ?_
    · intro p l
      have hsm : ∀ i, Small E (ev (fun _ : Fin n => BitVec.ofInt 32 (e i p l))) :=
        fun i => ⟨fun _ => e i p l, fun _ => he i p l, rfl⟩
      exact (((Small.xpow_sub_one (hsm _) _).add (Small.xpow_sub_one (hsm _) _)).add
        (Small.xpow_sub_one (hsm _) _)).mono (by linarith)
    · have : M = x W n ^ (a0.toNat * m0.toNat + a1.toNat * m1.toNat) - 1 := by rw [← hM']; ring
      rw [this]
      exact Small.xpow_sub_one (small_rlwePhase r _ h2 s hs1) _
  · rw [rlwePhase_add, h3, ← hM']
    ring

end Verif.Bootstrap

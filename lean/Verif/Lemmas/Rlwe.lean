import Verif.Model.Bootstrap
import Verif.Lemmas.PolymulKernel
import Verif.Lemmas.Small
import Verif.Lemmas.Arith
import Verif.Lemmas.Decomposition

/-!
# Lemmas on RLWE phases
-/

namespace Verif.Rlwe
open Verif.Nega Verif.MatrixUtils Verif.Arith

/-- Specification: the phase of an RLWE ciphertext under a key, `b - Σ a_i s_i` in
`(Z/2^32)[X]/(X^N+1)`. -/
noncomputable def rlwePhase {k n : Nat} (ct : Fin (k + 1) → Fin n → W) (s : Fin k → Fin n → W) : Q W n :=
  ev (ct (Fin.last k)) - ∑ i : Fin k, ev (ct i.castSucc) * ev (s i)

theorem rlwePhase_add {k n : Nat} (c d : Fin (k + 1) → Fin n → W) (s : Fin k → Fin n → W) :
    rlwePhase (fun p i => c p i + d p i) s = rlwePhase c s + rlwePhase d s := by
  unfold rlwePhase
  simp only [ev_add, add_mul, Finset.sum_add_distrib]
  ring

theorem rlwePhase_sub {k n : Nat} (c d : Fin (k + 1) → Fin n → W) (s : Fin k → Fin n → W) :
    rlwePhase (fun p i => c p i - d p i) s = rlwePhase c s - rlwePhase d s := by
  unfold rlwePhase
  simp only [ev_sub, sub_mul, Finset.sum_sub_distrib]
  ring

theorem rlwePhase_monomial {k n : Nat} (hn : 0 < n) (c : Fin (k + 1) → Fin n → W) (s : Fin k → Fin n → W)
    (d : Int) : rlwePhase (fun p => monomialMul (c p) d 32) s =
      x W n ^ (d % (2 * n)).toNat * rlwePhase c s := by
  unfold rlwePhase
  simp only [ev_monomialMul hn]
  rw [mul_sub, Finset.mul_sum]
  simp only [mul_assoc]

theorem ev_decryptWithNoise (be : Backend) {k n : Nat} (ct : Fin (k + 1) → Fin n → W) (s : Fin k → Fin n → W) :
    ev (decryptWithNoise be ct ⟨32, s⟩) = rlwePhase ct s := by
  unfold decryptWithNoise rlwePhase
  simp only
  rw [← ev_polyDotProduct be.tpu, ← ev_sub]
  congr 1

theorem rlwePhase_jitEncrypt (be : Backend) {k n : Nat} (pt err : Fin n → W) (s a : Fin k → Fin n → W) :
    rlwePhase (jitEncrypt be pt s a err 32) s = ev pt + ev err := by
  unfold rlwePhase jitEncrypt
  simp only [Fin.snoc_last, Fin.snoc_castSucc]
  have : (fun i => modLog (polyDotProduct be.tpu a s i + pt i + err i) 32) =
      fun i => polyDotProduct be.tpu a s i + (pt i + err i) := by
    funext i; rw [modLog_of_ge _ _ le_rfl, add_assoc]
  rw [this, ev_add, ev_add, ev_polyDotProduct]
  ring

end Verif.Rlwe

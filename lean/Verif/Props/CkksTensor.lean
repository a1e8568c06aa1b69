import Verif.Model.CkksMul
import Verif.Lemmas.CkksKeys
import Verif.Props.Barrett

/-!
# Property C44: products of ciphertexts

`Rq k q` is `Z_q[X]/(X^(2^k) + 1)` and `ringOf` maps a slot vector to its element.
-/

namespace Verif.Props
open Verif.Barrett Verif.Slots Verif.CkksKeys Verif.CkksMul

/-- C44: in every slot of every limb the three components are reduced and are the coefficients of the product of
`a0 + a1 s` and `b0 + b1 s`, for every `s`: the 64-bit arithmetic never overflows. -/
theorem C44_tensor (K : Kernel) (n : Nat) (A B : Ciphertext) (hlt : ∀ m ∈ A.moduli, 0 < m ∧ m < 2 ^ 31)
    (hA0 : ∀ i, i < A.moduli.length → ∀ p, p < n → A.c0 i p < A.moduli.getD i 0)
    (hA1 : ∀ i, i < A.moduli.length → ∀ p, p < n → A.c1 i p < A.moduli.getD i 0)
    (hB0 : ∀ i, i < A.moduli.length → ∀ p, p < n → B.c0 i p < A.moduli.getD i 0)
    (hB1 : ∀ i, i < A.moduli.length → ∀ p, p < n → B.c1 i p < A.moduli.getD i 0) :
    ∃ t0 t1 t2, tensorMultiply (some K) A B = .ok (t0, t1, t2) ∧
      ∀ i, i < A.moduli.length → ∀ p, p < n →
        t0 i p < A.moduli.getD i 0 ∧ t1 i p < A.moduli.getD i 0 ∧ t2 i p < A.moduli.getD i 0 ∧
        ∀ s : ZMod (A.moduli.getD i 0),
          (t0 i p : ZMod (A.moduli.getD i 0)) + t1 i p * s + t2 i p * s ^ 2 =
            ((A.c0 i p : ZMod (A.moduli.getD i 0)) + A.c1 i p * s) * (B.c0 i p + B.c1 i p * s) := by
  refine ⟨_, _, _, rfl, ?_⟩
  intro i hi p hp
  simp only
  obtain ⟨hm0, hm1⟩ := hlt _ (getD_mem hi)
  have a0 := hA0 i hi p hp
  have a1 := hA1 i hi p hp
  have b0 := hB0 i hi p hp
  have b1 := hB1 i hi p hp
  generalize A.moduli.getD i 0 = m at *
  have hmod : ∀ x : Nat, x % m < m ∧ x % m % 2 ^ 32 = x % m := by
    intro x
    have := Nat.mod_lt x hm0
    exact ⟨this, Nat.mod_eq_of_lt (by omega)⟩
  have hsq : ∀ x y : Nat, x < m → y < m → x * y < 2 ^ 62 := by
    intro x y hx hy
    calc x * y < 2 ^ 31 * 2 ^ 31 := Nat.mul_lt_mul'' (by omega) (by omega)
      _ = 2 ^ 62 := by norm_num
  have hadd : add64 (A.c0 i p * B.c1 i p) (A.c1 i p * B.c0 i p) = A.c0 i p * B.c1 i p + A.c1 i p * B.c0 i p := by
    have := hsq _ _ a0 b1
    have := hsq _ _ a1 b0
    unfold add64; omega
  rw [mul64_eq (by omega) (by omega), mul64_eq (by omega) (by omega), mul64_eq (by omega) (by omega),
    mul64_eq (by omega) (by omega), hadd]
  simp only [(hmod _).2]
  refine ⟨(hmod _).1, (hmod _).1, (hmod _).1, ?_⟩
  intro s
  simp only [ZMod.natCast_mod, Nat.cast_add, Nat.cast_mul]
  ring

/-- C44: in the ring, the tensor product decrypts (under `1, s, s^2`) to the product of the decryptions. -/
theorem C44_tensor_decrypts (k : Nat) (K : Kernel) (A B : Ciphertext) (h : Moduli k A.moduli)
    (hlt : ∀ m ∈ A.moduli, m < 2 ^ 31) (hA0 : Reduced k A.moduli A.c0) (hA1 : Reduced k A.moduli A.c1)
    (hB0 : Reduced k A.moduli B.c0) (hB1 : Reduced k A.moduli B.c1) :
    ∃ t0 t1 t2, tensorMultiply (some K) A B = .ok (t0, t1, t2) ∧
      Reduced k A.moduli t0 ∧ Reduced k A.moduli t1 ∧ Reduced k A.moduli t2 ∧
      ∀ i, i < A.moduli.length → ∀ s : Rq k (A.moduli.getD i 0),
        ringOf k (A.moduli.getD i 0) (t0 i) + ringOf k (A.moduli.getD i 0) (t1 i) * s +
          ringOf k (A.moduli.getD i 0) (t2 i) * s ^ 2 =
        (ringOf k (A.moduli.getD i 0) (A.c0 i) + ringOf k (A.moduli.getD i 0) (A.c1 i) * s) *
          (ringOf k (A.moduli.getD i 0) (B.c0 i) + ringOf k (A.moduli.getD i 0) (B.c1 i) * s) := by
  obtain ⟨t0, t1, t2, h1, h2⟩ := C44_tensor K (2 ^ k) A B (fun m hm => ⟨(h.ntt m hm).prime.pos, hlt m hm⟩) hA0 hA1 hB0 hB1
  refine ⟨t0, t1, t2, h1, fun i hi p hp => (h2 i hi p hp).1, fun i hi p hp => (h2 i hi p hp).2.1,
    fun i hi p hp => (h2 i hi p hp).2.2.1, ?_⟩
  intro i hi s
  obtain ⟨hp, -⟩ := h.at hi
  apply slot_ext hp
  intro p hpp
  simp only [map_add, map_mul, map_pow, slot_ringOf hp _ p hpp]
  exact (h2 i hi p hpp).2.2.2 _

/-- C44: the Barrett plaintext product is the slotwise product modulo each modulus, and decrypts to the product of the
decryption and the plaintext. -/
theorem C44_plain (k : Nat) (ms : List Nat) (h : Moduli k ms) (hg : ∀ m ∈ ms, GoodModulus m) (c0 c1 pt : Mat)
    (h0 : Reduced k ms c0) (h1 : Reduced k ms c1) (hpt : Reduced k ms pt) :
    ∃ r0 r1, mulBarrett (some ms) ms ms c0 pt = .ok r0 ∧ mulBarrett (some ms) ms ms c1 pt = .ok r1 ∧
      Reduced k ms r0 ∧ Reduced k ms r1 ∧
      (∀ i, i < ms.length → ∀ p, p < 2 ^ k →
        r0 i p = c0 i p * pt i p % ms.getD i 0 ∧ r1 i p = c1 i p * pt i p % ms.getD i 0) ∧
      ∀ i, i < ms.length → ∀ s : Rq k (ms.getD i 0),
        ringOf k (ms.getD i 0) (r0 i) + ringOf k (ms.getD i 0) (r1 i) * s =
        (ringOf k (ms.getD i 0) (c0 i) + ringOf k (ms.getD i 0) (c1 i) * s) * ringOf k (ms.getD i 0) (pt i) := by
  have key : ∀ c : Mat, Reduced k ms c → ∃ r, mulBarrett (some ms) ms ms c pt = .ok r ∧
      ∀ i, i < ms.length → ∀ p, p < 2 ^ k → r i p = c i p * pt i p % ms.getD i 0 := by
    intro c hc
    refine ⟨_, by unfold mulBarrett; simp only; rw [if_neg (by simp)], ?_⟩
    intro i hi p hp
    have hm := hg _ (getD_mem hi)
    have hx := hc i hi p hp
    have hy := hpt i hi p hp
    have := hm.lt
    have := hm.pos
    have hlt := Nat.mod_lt (c i p * pt i p) (show 0 < ms.getD i 0 by omega)
    rw [mul64_eq (by omega) (by omega), C28_reduction_partial _ _ hm (lt_two_pow_of_lt_sq (Nat.mul_lt_mul'' hx hy))]
    exact Nat.mod_eq_of_lt (by omega)
  obtain ⟨r0, e0, f0⟩ := key c0 h0
  obtain ⟨r1, e1, f1⟩ := key c1 h1
  have hpos : ∀ i, i < ms.length → 0 < ms.getD i 0 := fun i hi => (h.at hi).1.prime.pos
  refine ⟨r0, r1, e0, e1, fun i hi p hp => ?_, fun i hi p hp => ?_, fun i hi p hp => ⟨f0 i hi p hp, f1 i hi p hp⟩, ?_⟩
  · rw [f0 i hi p hp]; exact Nat.mod_lt _ (hpos i hi)
  · rw [f1 i hi p hp]; exact Nat.mod_lt _ (hpos i hi)
  · intro i hi s
    obtain ⟨hp, -⟩ := h.at hi
    apply slot_ext hp
    intro p hpp
    simp only [map_add, map_mul, slot_ringOf hp _ p hpp, f0 i hi p hpp, f1 i hi p hpp, ZMod.natCast_mod, Nat.cast_mul]
    ring

/-- C44: mismatched moduli and missing constants are rejected. -/
theorem C44_rejects (ms ctM ptM : List Nat) (c pt : Mat) (A B : Ciphertext) :
    (ctM ≠ ptM → mulBarrett (some ms) ctM ptM c pt = .error "ValueError" ∧ mulSimple ctM ptM c pt = .error "ValueError") ∧
    mulBarrett none ctM ptM c pt = .error "ValueError" ∧ tensorMultiply none A B = .error "ValueError" := by
  refine ⟨fun h => ⟨?_, ?_⟩, rfl, rfl⟩
  · unfold mulBarrett; simp only; rw [if_pos h]
  · unfold mulSimple; rw [if_pos h]

/-- C44: the unreduced kernel keeps the product only while it fits 32 bits ... -/
theorem C44_simple (ms : List Nat) (c pt : Mat) (i p : Nat) (h : c i p * pt i p < 2 ^ 32) :
    ∃ r, mulSimple ms ms c pt = .ok r ∧ r i p = c i p * pt i p := by
  refine ⟨_, by unfold mulSimple; rw [if_neg (by simp)], ?_⟩
  exact Nat.mod_eq_of_lt h

/-- C44: ... and otherwise a delayed reduction no longer gives the product: 65536 * 65536 modulo the modulus
1073184769 of the library's own tests. -/
theorem C44_simple_wraps :
    ∃ (c pt r : Mat), c 0 0 < 1073184769 ∧ pt 0 0 < 1073184769 ∧
      mulSimple [1073184769] [1073184769] c pt = .ok r ∧ r 0 0 % 1073184769 ≠ c 0 0 * pt 0 0 % 1073184769 :=
  ⟨fun _ _ => 65536, fun _ _ => 65536, fun _ _ => 65536 * 65536 % 2 ^ 32, by norm_num, by norm_num,
    by unfold mulSimple; rw [if_neg (by simp)], by norm_num⟩

/-- The largest residues modulo the largest accepted modulus meet the hypotheses of `C44_tensor`. -/
example : (∀ m ∈ [2147483647], 0 < m ∧ m < 2 ^ 31) ∧ 2147483646 < [2147483647].getD 0 0 := by decide

/-- Moduli for `C44_tensor_decrypts` and `C44_plain`. -/
example : Moduli 12 [1073184769] ∧ (∀ m ∈ [1073184769], GoodModulus m) := by
  refine ⟨⟨?_, ?_⟩, ?_⟩ <;> intro m hm <;> obtain rfl := List.mem_singleton.1 hm
  · exact ⟨PrimeCheck.prime_of_noDiv _ 15 (by norm_num) (by decide +kernel) (by norm_num), by norm_num⟩
  · norm_num
  · exact goodModulus_1073184769

end Verif.Props

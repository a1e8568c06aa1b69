import Verif.Model.X64Matmul
import Verif.Props.MatrixBat
import Verif.Props.X64

/-!
# C111: the `hpmatmul` products need 64-bit types
-/

namespace Verif.Props
open Verif.Arith Verif.MatrixUtils Verif.MatrixBat
open Verif.X64 (Module flagAfter wide)

/-- C111 (part that holds): with 64-bit types the three products are those of the models of C15 and C73, hence (for the
bounds there) the exact product modulo `2^64`, and the product modulo `q`. -/
theorem C111_wide_partial {m n k : Nat} (x : Fin m → Fin n → W) (y : Fin n → Fin k → W) (i : Fin m) (j : Fin k) :
    (n * (255 * 255) < 2 ^ 32 →
      (X64Matmul.hpmatmulOuter true x y i j).toNat = (∑ l, (x i l).toNat * (y l j).toNat) % 2 ^ 64) ∧
    (n * (4 * (255 * 255)) < 2 ^ 32 →
      (X64Matmul.hpmatmulConv true x y i j).toNat = (∑ l, (x i l).toNat * (y l j).toNat) % 2 ^ 64) ∧
    ∀ N lhs v, X64Matmul.batAdapt true N lhs v = batAdapt N lhs v :=
  ⟨fun h => C15_hpmatmul_outer x y h i j, fun h => C15_hpmatmul_conv x y h i j, fun _ _ _ => rfl⟩

example := (C111_wide_partial (fun (_ : Fin 2) (_ : Fin 3) => 4294967295#32) (fun _ (_ : Fin 2) => 4294967295#32) 0 1).1
  (by norm_num)

theorem bmod_low (A : Int) (k : Nat) :
    ((A % 2 ^ 64).toNat * 2 ^ k % 2 ^ 64) % 2 ^ 32 = (A % 2 ^ 32).toNat * 2 ^ k % 2 ^ 32 := by
  rw [Nat.mod_mod_of_dvd _ (by norm_num : (2 ^ 32 : Nat) ∣ 2 ^ 64)]
  refine Nat.ModEq.mul_right _ ?_
  show (A % 2 ^ 64).toNat % 2 ^ 32 = (A % 2 ^ 32).toNat % 2 ^ 32
  have h0 : 0 ≤ A % 2 ^ 64 := Int.emod_nonneg _ (by norm_num)
  have h1 : 0 ≤ A % 2 ^ 32 := Int.emod_nonneg _ (by norm_num)
  omega

/-- C111: without them each product is cut to its low 32 bits. -/
theorem C111_low_words {m n k : Nat} (x : Fin m → Fin n → W) (y : Fin n → Fin k → W) (i : Fin m) (j : Fin k) :
    (X64Matmul.hpmatmulOuter false x y i j).toNat = (∑ l, (x i l).toNat * (y l j).toNat) % 2 ^ 32 ∧
    (n * (4 * (255 * 255)) < 2 ^ 32 →
      (X64Matmul.hpmatmulConv false x y i j).toNat = (∑ l, (x i l).toNat * (y l j).toNat) % 2 ^ 32) ∧
    ∀ N lhs v, X64Matmul.batAdapt false N lhs v = batAdapt N lhs v % 2 ^ 32 := by
  refine ⟨?_, fun h => ?_, fun N lhs v => ?_⟩
  · rw [← C15_i32_as_u8_matmul (x i) y j, ← low_matmul false (x i) y j]
    exact congrArg BitVec.toNat (BitVec.setWidth_eq _).symm
  · have e : (X64Matmul.hpmatmulConv true x y i j).setWidth 32 = (X64Matmul.hpmatmulConv false x y i j).setWidth 32 := by
      unfold X64Matmul.hpmatmulConv
      rw [low_sum (wide_ge true), low_sum (wide_ge false)]
      exact Finset.sum_congr rfl (fun w _ => by rw [low_shift (wide_ge true), low_shift (wide_ge false)])
    have e2 : (X64Matmul.hpmatmulConv false x y i j).setWidth 32 = X64Matmul.hpmatmulConv false x y i j :=
      BitVec.setWidth_eq _
    have e3 : (X64Matmul.hpmatmulConv false x y i j).toNat = (X64Matmul.hpmatmulConv true x y i j).toNat % 2 ^ 32 :=
      (congrArg BitVec.toNat (e2.symm.trans e.symm)).trans (BitVec.toNat_setWidth 32 _)
    rw [e3, (C111_wide_partial x y i j).2.1 h, Nat.mod_mod_of_dvd _ (by norm_num : (2 ^ 32 : Nat) ∣ 2 ^ 64)]
  · unfold X64Matmul.batAdapt batAdapt
    have hw : wide false = 32 := rfl
    rw [hw, Nat.mod_mod_of_dvd _ (by norm_num : (2 ^ 32 : Nat) ∣ 2 ^ 64), Finset.sum_nat_mod _ _ (fun p => _ % 2 ^ 64)]
    congr 1
    exact Finset.sum_congr rfl (fun p _ => (bmod_low _ _).symm)

example := (C111_low_words (fun (_ : Fin 2) (_ : Fin 3) => 4294967295#32) (fun _ (_ : Fin 2) => 4294967295#32) 0 1).2.1
  (by norm_num)

/-- C111: so without the flag the product is exact exactly when it is a 32-bit number. -/
theorem C111_exact_iff {m n k : Nat} (x : Fin m → Fin n → W) (y : Fin n → Fin k → W) (i : Fin m) (j : Fin k) :
    (X64Matmul.hpmatmulOuter false x y i j).toNat = ∑ l, (x i l).toNat * (y l j).toNat ↔
      ∑ l, (x i l).toNat * (y l j).toNat < 2 ^ 32 := by
  rw [(C111_low_words x y i j).1]
  constructor
  · intro h
    rw [← h]
    exact Nat.mod_lt _ (by norm_num)
  · intro h
    exact Nat.mod_eq_of_lt h

/-- C111 (part that holds): without the flag the basis-aligned product is still right when the sum of the aligned chunks
is a 32-bit number, for instance when the entries of both matrices are small. -/
theorem C111_bat_partial (n q : Nat) (hn : n ≤ 8256) (hq : 0 < q) (hq32 : q ≤ 2 ^ 32) (a b : Nat → Nat → Nat)
    (ha : ∀ i k, a i k < 2 ^ 32) (hb : ∀ k j, b k j < 2 ^ 32) (i : Nat) :
    ∃ F lhs, (∀ fuel, F ≤ fuel → ∀ k, k < n → offlineCompile fuel q a i k = some (lhs k)) ∧
      ∀ j, batAdapt n lhs (fun k => b k j) < 2 ^ 32 →
        X64Matmul.batAdapt false n lhs (fun k => b k j) % q = golden n (fun k => a i k) (fun k => b k j) q := by
  obtain ⟨F, lhs, h1, h2⟩ := C73_matmul n q hn hq hq32 a b ha hb i
  refine ⟨F, lhs, h1, fun j hj => ?_⟩
  rw [(C111_low_words (m := 1) (n := 0) (k := 1) (fun _ _ => 0) (fun _ _ => 0) 0 0).2.2, Nat.mod_eq_of_lt hj, h2 j]

example := C111_bat_partial 2 4294967291 (by norm_num) (by norm_num) (by norm_num) (fun _ _ => 1) (fun _ _ => 7)
  (fun _ _ => by norm_num) (fun _ _ => by norm_num) 0

/-- The chunk matrix of `1` is the identity, for the default modulus. -/
theorem compile_one (i k : Nat) :
    (offlineCompile 1 4294967291 (fun _ _ => 1) i k).map (fun R => (List.range 4).map (fun p => (List.range 4).map (R p))) =
      some [[1, 0, 0, 0], [0, 1, 0, 0], [0, 0, 1, 0], [0, 0, 0, 1]] := by
  show (denseBat 1 1 4 8 4294967291).map _ = _
  decide +kernel

/-- C111 (negation): on a device other than a TPU of version 5 or later, in every process, whatever it imports, one of the
two families of products of `matrix_utils.py` fails: either no product of polynomials can be formed, or the `hpmatmul`
products are wrong (here the row `(1, 1)` times the column `(2^32 - 1, 2^32 - 1)`: the outer-product form gives
`2^32 - 2` instead of `2^33 - 2`, and the basis-aligned form modulo the default modulus gives `3` instead of `8`). -/
theorem C111_negation (imports : List Module) (tpu : Int) (htpu : tpu < 5) :
    (∀ (n : Nat) (a b : Fin n → W), X64.polyMul (flagAfter imports) tpu a b = .error "TypeError") ∨
    ((X64Matmul.hpmatmulOuter (flagAfter imports) (m := 1) (n := 2) (k := 1) (fun _ _ => 1#32)
        (fun _ _ => 4294967295#32) 0 0).toNat = 2 ^ 32 - 2 ∧
      X64Matmul.batAdapt (flagAfter imports) 2 (fun _ p t => if p = t then 1 else 0) (fun _ => 4294967295) % 4294967291 = 3 ∧
      golden 2 (fun _ => 1) (fun _ => 4294967295) 4294967291 = 8) := by
  cases hf : flagAfter imports
  case true =>
    left
    intro n a b
    have := (C109_negation imports ((C109_flag imports).1 hf) ⟨tpu, fun _ _ _ => 0⟩ (n := n)
      (fun h => by have := h.2; simp only at this; omega)).1 a b
    rw [hf] at this
    exact this
  case false =>
    right
    refine ⟨?_, by decide +kernel, by decide +kernel⟩
    rw [(C111_low_words (fun (_ : Fin 1) (_ : Fin 2) => 1#32) (fun _ (_ : Fin 1) => 4294967295#32) 0 0).1]
    decide

example := C111_negation [.other, .ckksNtt] (-1) (by norm_num)

end Verif.Props

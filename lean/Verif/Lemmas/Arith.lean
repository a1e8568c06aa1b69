import Verif.Model.Arith
import Mathlib.Tactic.Ring
import Mathlib.Tactic.Linarith
import Mathlib.Tactic.NormNum
import Mathlib.Tactic.Positivity
import Mathlib.Tactic.NoncommRing
import Mathlib.Data.Int.ModEq
import Mathlib.Algebra.BigOperators.ModEq

namespace Verif.Arith

theorem integerDiv_toNat (x d : W) (h1 : 1 ≤ d.toNat) (h2 : d.toNat ≤ 2 ^ 31) :
    (integerDiv x d).toNat = (x.toNat + d.toNat / 2) / d.toNat := by
  have hx := x.isLt
  unfold integerDiv
  simp only [BitVec.toNat_add, BitVec.toNat_udiv, BitVec.toNat_umod]
  have h2' : BitVec.toNat 2#32 = 2 := rfl
  rw [h2']
  have hm : x.toNat % d.toNat < d.toNat := Nat.mod_lt _ (by omega)
  have e1 : (x.toNat % d.toNat + d.toNat / 2) % 2 ^ 32 = x.toNat % d.toNat + d.toNat / 2 := by
    apply Nat.mod_eq_of_lt; norm_num at h2 ⊢; omega
  rw [e1]
  have e2 : x.toNat / d.toNat + (x.toNat % d.toNat + d.toNat / 2) / d.toNat =
      (x.toNat + d.toNat / 2) / d.toNat := by
    conv_rhs => rw [← Nat.div_add_mod x.toNat d.toNat, Nat.add_assoc,
      Nat.mul_add_div (by omega)]
  rw [e2]
  apply Nat.mod_eq_of_lt
  rcases Nat.eq_or_lt_of_le h1 with h | h
  · rw [← h]; simpa using hx
  · have : (x.toNat + d.toNat / 2) / d.toNat ≤ (x.toNat + d.toNat / 2) / 2 :=
      Nat.div_le_div_left h (by omega)
    norm_num at h2 ⊢; omega

/-- `modLog` is reduction modulo `2^log` when `log ≤ 32`. -/
theorem modLog_toNat (x : W) (log : Nat) (h : log ≤ 32) :
    (modLog x log).toNat = x.toNat % 2 ^ log := by
  unfold modLog
  split
  · rename_i hl
    rw [BitVec.toNat_umod, BitVec.toNat_ofNat,
      Nat.mod_eq_of_lt (Nat.pow_lt_pow_right (by norm_num : 1 < 2) hl)]
  · have : log = 32 := by omega
    subst this
    rw [Nat.mod_eq_of_lt x.isLt]

theorem modLog_of_ge (x : W) (log : Nat) (h : 32 ≤ log) : modLog x log = x := by
  unfold modLog; rw [if_neg (by omega)]

theorem toNat_modEq_add (x y : W) (k : Nat) (hk : k ≤ 32) :
    (x + y).toNat % 2 ^ k = (x.toNat + y.toNat) % 2 ^ k := by
  rw [BitVec.toNat_add]; exact Nat.mod_mod_of_dvd _ (pow_dvd_pow 2 hk)

theorem toNat_int_sub (x y : W) (k : Nat) (hk : k ≤ 32) :
    ((x - y).toNat : Int) ≡ (x.toNat : Int) - y.toNat [ZMOD 2 ^ k] := by
  have h : ((x - y).toNat : Int) ≡ (x.toNat : Int) - y.toNat [ZMOD 2 ^ 32] := by
    have hy := y.isLt
    rw [BitVec.toNat_sub, Int.ModEq]
    push_cast [hy.le]
    norm_num
    omega
  exact h.of_dvd (pow_dvd_pow 2 hk)

/-- The outer reduction can be dropped or moved inside a subtraction. -/
theorem modLog_sub_modLog (x y : W) (log : Nat) (hx : log ≤ 32) :
    modLog (modLog x log - y) log = modLog (x - y) log := by
  apply BitVec.eq_of_toNat_eq
  rw [modLog_toNat _ _ hx, modLog_toNat _ _ hx]
  have h1 := toNat_int_sub (modLog x log) y log hx
  have h2 := toNat_int_sub x y log hx
  have h3 : ((modLog x log).toNat : Int) ≡ x.toNat [ZMOD 2 ^ log] := by
    rw [modLog_toNat _ _ hx]; push_cast; exact Int.mod_modEq _ _
  have h4 : ((modLog x log - y).toNat : Int) ≡ ((x - y).toNat : Int) [ZMOD 2 ^ log] :=
    h1.trans ((h3.sub_right _).trans h2.symm)
  have h5 := h4
  unfold Int.ModEq at h5
  exact_mod_cast h5

theorem ofInt_eq_cast (z : Int) : BitVec.ofInt 32 z = ((z : Int) : W) := rfl

theorem ofInt_sub' (a b : Int) : BitVec.ofInt 32 (a - b) = BitVec.ofInt 32 a - BitVec.ofInt 32 b := by
  simp only [ofInt_eq_cast, Int.cast_sub]

theorem ofInt_mul' (a b : Int) : BitVec.ofInt 32 (a * b) = BitVec.ofInt 32 a * BitVec.ofInt 32 b := by
  simp only [ofInt_eq_cast, Int.cast_mul]

end Verif.Arith

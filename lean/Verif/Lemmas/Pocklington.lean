import Verif.Lemmas.PrimeCheck
import Mathlib.FieldTheory.Finite.Basic
import Mathlib.GroupTheory.OrderOfElement
import Mathlib.Data.ZMod.Basic

/-!
# Pocklington certificates, to prove that large concrete numbers are prime by kernel evaluation
-/

namespace Verif.PrimeCheck

/-- `a ^ e % n`, reading the exponent bit by bit; `k` bounds the number of bits. -/
def powMod (n : Nat) : Nat → Nat → Nat → Nat
  | 0, _, _ => 1 % n
  | k + 1, a, e => let r := powMod n k (a * a % n) (e / 2)
    if e % 2 = 1 then a * r % n else r

theorem powMod_eq (n k a e : Nat) (h : e < 2 ^ k) : powMod n k a e = a ^ e % n := by
  induction k generalizing a e with
  | zero =>
    have : e = 0 := by simpa using h
    subst this
    simp [powMod]
  | succ k ih =>
    have h2 : e / 2 < 2 ^ k := by rw [pow_succ] at h; omega
    have e1 : (a * a % n) ^ (e / 2) % n = a ^ (2 * (e / 2)) % n := by
      rw [← Nat.pow_mod, pow_mul, pow_two]
    have e3 : powMod n (k + 1) a e = if e % 2 = 1 then a * powMod n k (a * a % n) (e / 2) % n
        else powMod n k (a * a % n) (e / 2) := rfl
    rw [e3, ih _ _ h2, e1]
    split
    · rename_i h3
      rw [Nat.mul_mod_mod, ← pow_succ']
      congr 2
      omega
    · rename_i h3
      congr 2
      omega

/-- The prime power `q ^ (e + 1)` divides `r - 1` for every prime factor `r` of `n`. -/
theorem dvd_pred_of_witness (n a q e k r : Nat) (hn1 : 1 < n) (hr : r.Prime) (hrn : r ∣ n) (hq : q.Prime)
    (hk : n - 1 = q ^ (e + 1) * k) (h1 : a ^ (n - 1) % n = 1)
    (h2 : Nat.gcd ((a ^ (q ^ e * k)) % n + (n - 1)) n = 1) : q ^ (e + 1) ∣ r - 1 := by
  haveI : Fact r.Prime := ⟨hr⟩
  haveI : Fact q.Prime := ⟨hq⟩
  have ha : (a : ZMod r) ^ (n - 1) = 1 := by
    have h3 : a ^ (n - 1) ≡ 1 [MOD n] := by rw [Nat.ModEq, h1, Nat.mod_eq_of_lt hn1]
    have h4 := (ZMod.natCast_eq_natCast_iff _ _ _).2 (h3.of_dvd hrn)
    simpa using h4
  have hb : ((a : ZMod r) ^ k) ^ q ^ e ≠ 1 := by
    intro h3
    have h4 : a ^ (q ^ e * k) ≡ 1 [MOD r] := by
      rw [← ZMod.natCast_eq_natCast_iff]
      push_cast
      rw [mul_comm, pow_mul, h3]
    have h5 : r ∣ (a ^ (q ^ e * k)) % n + (n - 1) := by
      have h6 : (a ^ (q ^ e * k)) % n ≡ 1 [MOD r] := ((Nat.mod_modEq _ _).of_dvd hrn).trans h4
      have h7 := h6.add_right (n - 1)
      rw [show 1 + (n - 1) = n by omega] at h7
      exact (Nat.modEq_zero_iff_dvd.1 (h7.trans (Nat.modEq_zero_iff_dvd.2 hrn)))
    have := Nat.dvd_gcd h5 hrn
    rw [h2] at this
    exact hr.one_lt.ne' (Nat.dvd_one.1 this)
  have ho : orderOf ((a : ZMod r) ^ k) = q ^ (e + 1) :=
    orderOf_eq_prime_pow hb (by rw [← pow_mul, mul_comm, ← hk, ha])
  rw [← ho]
  have h0 : (a : ZMod r) ^ k ≠ 0 := by
    intro h
    rw [hk, mul_comm, pow_mul, h, zero_pow (pow_pos hq.pos _).ne'] at ha
    exact zero_ne_one ha
  exact ZMod.orderOf_dvd_card_sub_one h0

/-- If `F` divides `n - 1 = F R` and `r - 1` for every prime factor `r` of `n`, and the base-`F` digits of `R` are
not those of a sum and product of two positive numbers, then `n` is prime. -/
theorem prime_of_factored (n F R : Nat) (hn : 2 ≤ n) (hR : n - 1 = F * R)
    (hF : ∀ r, r.Prime → r ∣ n → F ∣ r - 1) (h1 : R / F + 1 < F) (h2 : R / F + 1 < R % F) : n.Prime := by
  by_contra hc
  have hr := Nat.minFac_prime (show n ≠ 1 by omega)
  obtain ⟨m, hm⟩ := Nat.minFac_dvd n
  obtain ⟨a, ha⟩ := hF _ hr (Nat.minFac_dvd n)
  have hrn : n.minFac ≠ n := fun h => hc (h ▸ hr)
  generalize n.minFac = r at *
  have hr1 := hr.one_lt
  have ha1 : r = F * a + 1 := by omega
  have hm1 : m ≠ 1 := by rintro rfl; omega
  have hm0 : m ≠ 0 := by rintro rfl; omega
  have hdm : F ∣ m - 1 := by
    have e1 : F * R = F * (a * m) + (m - 1) := by
      rw [← hR]
      conv_lhs => rw [hm]
      rw [ha1, add_mul, one_mul, mul_assoc]
      omega
    exact (Nat.dvd_add_right (Dvd.intro _ rfl)).1 (e1 ▸ Dvd.intro _ rfl)
  obtain ⟨b, hb⟩ := hdm
  have hmb : m = F * b + 1 := by omega
  have ha0 : 1 ≤ a := by rcases a with _ | a <;> simp_all
  have hb0 : 1 ≤ b := by rcases b with _ | b <;> simp_all
  have hFp : 0 < F := lt_of_le_of_lt (Nat.zero_le _) h1
  have e2 : R = a + b + F * (a * b) := by
    apply Nat.eq_of_mul_eq_mul_left hFp
    have : n = F * R + 1 := by omega
    rw [hm, ha1, hmb] at this
    have e3 : (F * a + 1) * (F * b + 1) = F * (a + b + F * (a * b)) + 1 := by ring
    omega
  have h3 : a * b ≤ R / F := by
    rw [Nat.le_div_iff_mul_le hFp, mul_comm]
    omega
  have h4 : a + b ≤ a * b + 1 := by nlinarith
  have h5 : R % F = a + b := by
    rw [e2, Nat.add_mul_mod_self_left, Nat.mod_eq_of_lt (by omega)]
  omega

end Verif.PrimeCheck

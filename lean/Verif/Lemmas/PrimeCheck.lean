import Mathlib.Data.Nat.Prime.Basic
import Mathlib.Tactic.Ring
import Mathlib.Tactic.Linarith

/-!
# Trial division by binary splitting, to prove that concrete numbers are prime by kernel evaluation
-/

namespace Verif.PrimeCheck

/-- No number in `[lo, lo + 2^d)` divides `n`. -/
def noDiv (n : Nat) : Nat → Nat → Bool
  | lo, 0 => n % lo != 0
  | lo, d + 1 => noDiv n lo d && noDiv n (lo + 2 ^ d) d

theorem noDiv_spec (n lo d : Nat) (h : noDiv n lo d = true) (k : Nat) (h1 : lo ≤ k) (h2 : k < lo + 2 ^ d) :
    ¬ k ∣ n := by
  induction d generalizing lo with
  | zero =>
    have : k = lo := by simp at h2; omega
    subst this
    simp only [noDiv, bne_iff_ne] at h
    intro hd
    exact h (Nat.mod_eq_zero_of_dvd hd)
  | succ d ih =>
    simp only [noDiv, Bool.and_eq_true] at h
    rcases Nat.lt_or_ge k (lo + 2 ^ d) with hk | hk
    · exact ih lo h.1 h1 hk
    · exact ih _ h.2 hk (by rw [pow_succ] at h2; omega)

theorem prime_of_noDiv (n d : Nat) (hn : 2 ≤ n) (h : noDiv n 2 d = true) (hd : n < (2 + 2 ^ d) * (2 + 2 ^ d)) :
    n.Prime := by
  rw [Nat.prime_def_le_sqrt]
  refine ⟨hn, fun m hm hms => noDiv_spec n 2 d h m hm ?_⟩
  have h2 : m * m ≤ n := Nat.le_sqrt.1 hms
  by_contra hc
  have := Nat.mul_le_mul (not_lt.1 hc) (not_lt.1 hc)
  omega

end Verif.PrimeCheck

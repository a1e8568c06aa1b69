import Verif.Model.BigInteger
import Mathlib.Data.Int.ModEq
import Mathlib.Data.ZMod.Basic
import Mathlib.Tactic.Ring
import Mathlib.Tactic.Linarith
import Mathlib.Tactic.Positivity

/-!
# Property C100: big integers compute as the integers they hold
-/

namespace Verif.Props
open Verif.BigInteger

namespace BigInt

/-- The operands that the operators take: big integers and `int`s. -/
def Takes (y : Val) (b : Int) : Prop := y = .big b ∨ y = .int b

theorem operand_takes {y : Val} {b : Int} (h : Takes y b) : operand y = some b := by
  rcases h with rfl | rfl <;> rfl

theorem bit_iff (a : Int) (k : Nat) : a.testBit k = true ↔ a / 2 ^ k % 2 = 1 := by
  cases a with
  | ofNat n =>
    rw [show (Int.ofNat n).testBit k = n.testBit k from rfl, Nat.testBit_eq_decide_div_mod_eq]
    simp only [decide_eq_true_eq, Int.ofNat_eq_natCast]
    constructor
    · intro h; exact_mod_cast h
    · intro h; exact_mod_cast h
  | negSucc n =>
    rw [show (Int.negSucc n).testBit k = !n.testBit k from rfl, Nat.testBit_eq_decide_div_mod_eq]
    have e : Int.negSucc n / 2 ^ k = -((n / 2 ^ k : Nat) : Int) - 1 := by
      have h2 : (0 : Int) < 2 ^ k := by positivity
      have h3 : ((n / 2 ^ k : Nat) : Int) = (n : Int).ediv (2 ^ k) := by push_cast; rfl
      rw [Int.negSucc_ediv n h2, h3]
      ring
    rw [e]
    simp only [Bool.not_eq_true', decide_eq_false_iff_not]
    omega

end BigInt

open BigInt

/-- C100: sums, differences and products are those of the integers, for every operand that is a big integer or an `int`. -/
theorem C100_ring (a b : Int) (y : Val) (h : Takes y b) :
    opLeft .add a y = .ok (.big (a + b)) ∧ opLeft .sub a y = .ok (.big (a - b)) ∧ opLeft .mul a y = .ok (.big (a * b)) := by
  simp only [opLeft, method, operand_takes h]
  exact ⟨rfl, rfl, rfl⟩

/-- C100: `/` and `%` are quotient and remainder: `a = q b + r` with `r` between zero and the divisor, on its side. Only a
divisor zero raises. -/
theorem C100_division (a b : Int) (y : Val) (h : Takes y b) :
    (b = 0 → opLeft .truediv a y = .error "ZeroDivisionError" ∧ opLeft .mod a y = .error "ZeroDivisionError") ∧
    (b ≠ 0 → ∃ q r, opLeft .truediv a y = .ok (.big q) ∧ opLeft .mod a y = .ok (.big r) ∧ a = q * b + r ∧
      (0 ≤ r ∧ r < b ∨ b < r ∧ r ≤ 0)) := by
  simp only [opLeft, method, operand_takes h, mpzOp]
  refine ⟨fun hb => ?_, fun hb => ?_⟩
  · simp [hb, bind, Except.bind]
  · refine ⟨a.fdiv b, a.fmod b, ?_, ?_, ?_, ?_⟩
    · simp [hb, bind, Except.bind, BigInteger.init]
    · simp [hb, bind, Except.bind, BigInteger.init]
    · have := Int.mul_fdiv_add_fmod a b
      linarith
    · rcases lt_or_gt_of_ne hb with hn | hp
      · right
        rw [Int.fmod_eq_emod]
        have h0 := Int.emod_nonneg a hb
        have h1 := Int.emod_lt_abs a hb
        rw [abs_of_neg hn] at h1
        by_cases hd : b ∣ a
        · rw [if_pos (Or.inr hd), Int.emod_eq_zero_of_dvd hd]
          omega
        · have h2 : a % b ≠ 0 := fun h => hd (Int.dvd_of_emod_eq_zero h)
          rw [if_neg (by rintro (h | h); omega; exact hd h)]
          omega
      · left
        exact ⟨Int.fmod_nonneg_of_pos a hp, Int.fmod_lt_of_pos a hp⟩

/-- C100: `&` takes the binary digits of both numbers, those of a negative number in two's complement. -/
theorem C100_and (a b : Int) (y : Val) (h : Takes y b) :
    ∃ r, opLeft .and a y = .ok (.big r) ∧ ∀ k : Nat, r / 2 ^ k % 2 = 1 ↔ a / 2 ^ k % 2 = 1 ∧ b / 2 ^ k % 2 = 1 := by
  refine ⟨a.land b, by simp only [opLeft, method, operand_takes h]; rfl, fun k => ?_⟩
  rw [← bit_iff, ← bit_iff, ← bit_iff, Int.testBit_land, Bool.and_eq_true]

/-- C100: shifts multiply by a power of two and divide by it, rounding down; a negative shift raises. The shift may be a big
integer, an `int` or an `mpz`. -/
theorem C100_shift (a s : Int) (y : Val) (h : y = .big s ∨ y = .int s ∨ y = .mpz s) :
    (0 ≤ s → lshift a y = .ok (.big (a * 2 ^ s.toNat)) ∧
      ∃ r, rshift a y = .ok (.big r) ∧ r * 2 ^ s.toNat ≤ a ∧ a < (r + 1) * 2 ^ s.toNat) ∧
    (s < 0 → lshift a y = .error "ValueError" ∧ rshift a y = .error "ValueError") := by
  have hi : integer y = some s := by rcases h with rfl | rfl | rfl <;> rfl
  simp only [lshift, rshift, hi]
  refine ⟨fun hs => ⟨by rw [if_neg (by omega)]; rfl, a >>> s.toNat, by rw [if_neg (by omega)]; rfl, ?_, ?_⟩, fun hs => by simp [hs]⟩
  · rw [Int.shiftRight_eq_div_pow]
    exact_mod_cast Int.ediv_mul_le a (b := ((2 ^ s.toNat : Nat) : Int)) (by positivity)
  · rw [Int.shiftRight_eq_div_pow]
    exact_mod_cast Int.lt_ediv_add_one_mul_self a (show (0 : Int) < ((2 ^ s.toNat : Nat) : Int) by positivity)

/-- C100: powers. With a modulus the result is congruent to the power and lies between zero and the modulus, on its side; a
negative exponent inverts, and raises for a number that has no inverse. -/
theorem C100_pow (a e : Int) (y : Val) (h : y = .big e ∨ y = .int e ∨ y = .mpz e) :
    (0 ≤ e → pow a y none = .ok (.big (a ^ e.toNat))) ∧ (e < 0 → ∃ x, pow a y none = .error x) ∧
    ∀ (m : Int) (z : Val), (z = .big m ∨ z = .int m ∨ z = .mpz m) →
      (m = 0 → ∃ x, pow a y (some z) = .error x) ∧
      (m ≠ 0 → 0 ≤ e → ∃ r, pow a y (some z) = .ok (.big r) ∧ r ≡ a ^ e.toNat [ZMOD m] ∧ (0 ≤ r ∧ r < m ∨ m < r ∧ r ≤ 0)) ∧
      (m ≠ 0 → e < 0 → Int.gcd a m = 1 → ∃ r, pow a y (some z) = .ok (.big r) ∧ r * a ^ (-e).toNat ≡ 1 [ZMOD m] ∧
        (0 ≤ r ∧ r < m ∨ m < r ∧ r ≤ 0)) ∧
      (m ≠ 0 → e < 0 → Int.gcd a m ≠ 1 → ∃ x, pow a y (some z) = .error x) := by
  have hi : integer y = some e := by rcases h with rfl | rfl | rfl <;> rfl
  have hrange : ∀ x m : Int, m ≠ 0 → (0 ≤ x.fmod m ∧ x.fmod m < m ∨ m < x.fmod m ∧ x.fmod m ≤ 0) := by
    intro x m hm
    obtain ⟨q, r, -, h2, h3, h4⟩ := (C100_division x m (.big m) (Or.inl rfl)).2 hm
    have : opLeft .mod x (.big m) = .ok (.big (x.fmod m)) := by
      simp [opLeft, method, operand, mpzOp, hm, bind, Except.bind, BigInteger.init]
    rw [this] at h2
    injection h2 with h2
    injection h2 with h2
    rwa [h2]
  have hmod : ∀ x m : Int, x.fmod m ≡ x [ZMOD m] := by
    intro x m
    have := Int.mul_fdiv_add_fmod x m
    exact (Int.modEq_iff_dvd).2 ⟨x.fdiv m, by linarith⟩
  refine ⟨fun he => ?_, fun he => ?_, ?_⟩
  · simp only [pow, hi]
    rw [if_neg (by omega)]
    rfl
  · simp only [pow, hi]
    rw [if_pos he]
    exact ⟨_, rfl⟩
  · intro m z hz
    have hiz : integer z = some m := by rcases hz with rfl | rfl | rfl <;> rfl
    simp only [pow, hi, hiz, powmod]
    refine ⟨fun hm => ?_, fun hm he => ?_, fun hm he hg => ?_, fun hm he hg => ?_⟩
    · rw [if_pos hm]; exact ⟨_, rfl⟩
    · rw [if_neg hm, if_pos he]
      exact ⟨_, rfl, hmod _ _, hrange _ _ hm⟩
    · rw [if_neg hm, if_neg (by omega)]
      unfold BigInteger.inverse
      rw [if_pos hg]
      refine ⟨_, rfl, ?_, hrange _ _ hm⟩
      refine ((hmod _ _).mul_right _).trans ?_
      rw [← mul_pow]
      have h1 : Int.gcdA a m * a ≡ 1 [ZMOD m] := by
        have := Int.gcd_eq_gcd_ab a m
        rw [hg] at this
        exact (Int.modEq_iff_dvd).2 ⟨Int.gcdB a m, by push_cast at this; linarith⟩
      have h2 := ((hmod (Int.gcdA a m) m).mul_right a).trans h1
      simpa using h2.pow (-e).toNat
    · rw [if_neg hm, if_neg (by omega)]
      unfold BigInteger.inverse
      rw [if_neg hg]
      exact ⟨_, rfl⟩

/-- C100: the comparisons decide equality and order of the integers, with a big integer or an `int` on either side. -/
theorem C100_compare (a b : Int) (y : Val) (h : Takes y b) :
    (∃ r, cmpLeft .eq a y = .ok r ∧ (r = true ↔ a = b)) ∧ (∃ r, cmpLeft .ne a y = .ok r ∧ (r = true ↔ a ≠ b)) ∧
    (∃ r, cmpLeft .lt a y = .ok r ∧ (r = true ↔ a < b)) ∧ (∃ r, cmpLeft .le a y = .ok r ∧ (r = true ↔ a ≤ b)) ∧
    (∃ r, cmpLeft .gt a y = .ok r ∧ (r = true ↔ a > b)) ∧ (∃ r, cmpLeft .ge a y = .ok r ∧ (r = true ↔ a ≥ b)) ∧
    (∃ r, cmpRight .eq y a = .ok r ∧ (r = true ↔ b = a)) ∧ (∃ r, cmpRight .ne y a = .ok r ∧ (r = true ↔ b ≠ a)) ∧
    (∃ r, cmpRight .lt y a = .ok r ∧ (r = true ↔ b < a)) ∧ (∃ r, cmpRight .le y a = .ok r ∧ (r = true ↔ b ≤ a)) ∧
    (∃ r, cmpRight .gt y a = .ok r ∧ (r = true ↔ b > a)) ∧ (∃ r, cmpRight .ge y a = .ok r ∧ (r = true ↔ b ≥ a)) := by
  rcases h with rfl | rfl <;>
  refine ⟨⟨_, rfl, ?_⟩, ⟨_, rfl, ?_⟩, ⟨_, rfl, ?_⟩, ⟨_, rfl, ?_⟩, ⟨_, rfl, ?_⟩, ⟨_, rfl, ?_⟩, ⟨_, rfl, ?_⟩, ⟨_, rfl, ?_⟩, ⟨_, rfl, ?_⟩,
    ⟨_, rfl, ?_⟩, ⟨_, rfl, ?_⟩, ⟨_, rfl, ?_⟩⟩ <;>
  simp only [mpzCmp, Cmp.swap, beq_iff_eq, bne_iff_ne, decide_eq_true_eq, gt_iff_lt, ge_iff_le, ne_eq] <;>
  first | exact eq_comm | exact not_congr eq_comm

/-- C100: other operands. Every operator and every ordering comparison raises; constructing from one raises, unless it is an
`mpz`. Conversion to `int` and back, and a copy, give the same number. -/
theorem C100_other (a : Int) (y : Val) (h : ∀ b, ¬ Takes y b) :
    (∀ op, opLeft op a y = .error "TypeError") ∧
    (∀ c, c ≠ .eq → c ≠ .ne → cmpLeft c a y = .error "TypeError" ∧ cmpRight c y a = .error "TypeError") ∧
    ((∀ b, y ≠ .mpz b) → BigInteger.init y = .error "TypeError" ∧ (∃ x, lshift a y = .error x) ∧ (∃ x, rshift a y = .error x) ∧
      ∀ m, ∃ x, pow a y m = .error x) ∧
    BigInteger.init (toInt a) = .ok (.big a) ∧ BigInteger.init (.big a) = .ok (.big a) := by
  cases y with
  | big v => exact absurd (Or.inl rfl) (h v)
  | int v => exact absurd (Or.inr rfl) (h v)
  | mpz v =>
    refine ⟨fun op => rfl, fun c h1 h2 => ?_, fun hm => absurd rfl (hm v), rfl, rfl⟩
    cases c <;> simp_all [cmpLeft, cmpRight, cmpMethod, operand, cmpDefault]
  | other =>
    refine ⟨fun op => rfl, fun c h1 h2 => ?_, fun _ => ⟨rfl, ⟨_, rfl⟩, ⟨_, rfl⟩, fun m => ⟨_, rfl⟩⟩, rfl, rfl⟩
    cases c <;> simp_all [cmpLeft, cmpRight, cmpMethod, operand, cmpDefault]

/-- C100 does not hold in full: an `int` on the left of an arithmetic operator raises (so `2 * x` fails and `x * 2` does not), an `mpz`
of the same value compares as different, and `ceil_log2` raises for every number. -/
theorem C100_negation (op : Op) (a b : Int) :
    opRight op (.int b) a = .error "TypeError" ∧ opLeft .mul a (.int 2) = .ok (.big (a * 2)) ∧
    cmpLeft .eq a (.mpz a) = .ok false ∧ cmpLeft .ne a (.mpz a) = .ok true ∧ cmpRight .eq (.mpz a) a = .ok false ∧
    (0 < a → ceilLog2 a = .error "TypeError") ∧ (a ≤ 0 → ceilLog2 a = .error "ValueError") := by
  refine ⟨rfl, rfl, rfl, rfl, rfl, fun h => ?_, fun h => ?_⟩
  · unfold ceilLog2; rw [if_neg (by omega)]; rfl
  · unfold ceilLog2; rw [if_pos h]

/-- The hypotheses are met: a division with a negative divisor, an inverse, an operand of another class. -/
example : Takes (.int (-5)) (-5) ∧ opLeft .truediv 12 (.int (-5)) = .ok (.big (-3)) ∧ opLeft .mod 12 (.big (-5)) = .ok (.big (-3)) ∧
    opLeft .and (-2) (.int 7) = .ok (.big 6) ∧ rshift (-9) (.big 2) = .ok (.big (-3)) ∧ pow 3 (.int (-1)) (some (.big 7)) = .ok (.big 5) ∧
    Int.gcd 3 7 = 1 ∧ cmpRight .lt (.int 3) 4 = .ok true ∧ (∀ b, ¬ Takes .other b) := by
  refine ⟨Or.inr rfl, by decide +kernel, by decide +kernel, by decide +kernel, by decide +kernel, by decide +kernel, by decide +kernel, by decide +kernel, ?_⟩
  rintro b (h | h) <;> cases h

end Verif.Props

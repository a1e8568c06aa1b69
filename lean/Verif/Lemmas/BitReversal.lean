import Verif.Model.BitReversal
import Mathlib.Tactic.Ring
import Mathlib.Tactic.Linarith
import Mathlib.Data.Nat.Bitwise

/-!
# Lemmas on bit reversal
-/

namespace Verif.BitReversal

theorem shift_or_bit (r x : Nat) : (r <<< 1) ||| (x &&& 1) = 2 * r + x % 2 := by
  rw [Nat.and_one_is_mod, Nat.shiftLeft_eq, pow_one, Nat.mul_comm]
  have h := Nat.two_pow_add_eq_or_of_lt (i := 1) (b := x % 2) (by omega) r
  rw [pow_one] at h
  exact h.symm

theorem loop_eq (k r x : Nat) : bitReversalLoop k r x = r * 2 ^ k + bitReversalLoop k 0 x := by
  induction k generalizing r x with
  | zero => simp [bitReversalLoop]
  | succ k ih =>
    simp only [bitReversalLoop, shift_or_bit]
    rw [ih (2 * r + x % 2), ih (2 * 0 + x % 2)]
    ring

theorem rev_zero (x : Nat) : bitReversal x 0 = 0 := rfl

/-- The lowest bit goes to the top. -/
theorem rev_succ (x n : Nat) : bitReversal x (n + 1) = (x % 2) * 2 ^ n + bitReversal (x / 2) n := by
  unfold bitReversal
  simp only [bitReversalLoop, shift_or_bit]
  rw [loop_eq, Nat.shiftRight_one]
  ring

theorem rev_lt (x n : Nat) : bitReversal x n < 2 ^ n := by
  induction n generalizing x with
  | zero => simp [rev_zero]
  | succ n ih =>
    rw [rev_succ, pow_succ]
    have := ih (x / 2)
    rcases Nat.mod_two_eq_zero_or_one x with h | h <;> rw [h] <;> omega

theorem rev_testBit (x n i : Nat) : (bitReversal x n).testBit i = (decide (i < n) && x.testBit (n - 1 - i)) := by
  induction n generalizing x i with
  | zero => simp [rev_zero]
  | succ n ih =>
    rw [rev_succ, Nat.mul_comm, Nat.testBit_two_pow_mul_add _ (rev_lt _ _)]
    rcases Nat.lt_trichotomy i n with h | h | h
    · rw [if_pos h, ih]
      have e : n + 1 - 1 - i = (n - 1 - i) + 1 := by omega
      rw [e, Nat.testBit_succ]
      simp [h, Nat.lt_succ_of_lt h]
    · subst h
      rw [if_neg (by omega)]
      simp [Nat.testBit_zero]
    · rw [if_neg (by omega)]
      have h2 : (x % 2).testBit (i - n) = false := by
        apply Nat.testBit_lt_two_pow
        calc x % 2 < 2 ^ 1 := by omega
          _ ≤ 2 ^ (i - n) := Nat.pow_le_pow_right (by norm_num) (by omega)
      rw [h2]
      have : ¬ i < n + 1 := by omega
      simp [this]

/-- Reversal ignores bits beyond the width. -/
theorem rev_mod (x n : Nat) : bitReversal (x % 2 ^ n) n = bitReversal x n := by
  apply Nat.eq_of_testBit_eq
  intro i
  rw [rev_testBit, rev_testBit, Nat.testBit_mod_two_pow]
  by_cases h : i < n
  · have : n - 1 - i < n := by omega
    simp [h, this]
  · simp [h]

theorem rev_rev (x n : Nat) : bitReversal (bitReversal x n) n = x % 2 ^ n := by
  apply Nat.eq_of_testBit_eq
  intro i
  rw [rev_testBit, rev_testBit, Nat.testBit_mod_two_pow]
  by_cases h : i < n
  · have h1 : n - 1 - i < n := by omega
    have h2 : n - 1 - (n - 1 - i) = i := by omega
    simp [h, h1, h2]
  · simp [h]

theorem rev_rev_of_lt {x n : Nat} (h : x < 2 ^ n) : bitReversal (bitReversal x n) n = x := by
  rw [rev_rev, Nat.mod_eq_of_lt h]

/-- Doubling: the lowest bit of the reversal is the top bit. -/
theorem rev_two_pow_add {x n : Nat} (b : Nat) (hb : b < 2) (hx : x < 2 ^ n) :
    bitReversal (b * 2 ^ n + x) (n + 1) = 2 * bitReversal x n + b := by
  induction n generalizing x with
  | zero =>
    have : x = 0 := by simpa using hx
    subst this
    rw [rev_succ, rev_zero, rev_zero]
    simp
    omega
  | succ n ih =>
    rw [rev_succ]
    have h1 : (b * 2 ^ (n + 1) + x) % 2 = x % 2 := by
      rw [pow_succ, ← Nat.mul_assoc]; omega
    have h2 : (b * 2 ^ (n + 1) + x) / 2 = b * 2 ^ n + x / 2 := by
      rw [pow_succ, ← Nat.mul_assoc]; omega
    rw [h1, h2, ih (x := x / 2) (by rw [pow_succ] at hx; omega), rev_succ x n]
    ring

theorem rev_compl {x n : Nat} (hx : x < 2 ^ n) :
    bitReversal (2 ^ n - 1 - x) n = 2 ^ n - 1 - bitReversal x n := by
  induction n generalizing x with
  | zero => simp [rev_zero]
  | succ n ih =>
    have hlt := rev_lt (x / 2) n
    rw [rev_succ, rev_succ]
    have hp : 0 < 2 ^ n := by positivity
    have h1 : (2 ^ (n + 1) - 1 - x) % 2 = 1 - x % 2 := by rw [pow_succ] at hx ⊢; omega
    have h2 : (2 ^ (n + 1) - 1 - x) / 2 = 2 ^ n - 1 - x / 2 := by rw [pow_succ] at hx ⊢; omega
    rw [h1, h2, ih (by rw [pow_succ] at hx; omega), pow_succ]
    rcases Nat.mod_two_eq_zero_or_one x with h | h <;> rw [h] <;> omega

theorem swap_length {α : Type} (xs : List α) (i j : Nat) : (swap xs i j).length = xs.length := by
  unfold swap
  split <;> simp

theorem swap_getElem? {α : Type} (xs : List α) (i j p : Nat) (hi : i < xs.length) (hj : j < xs.length) :
    (swap xs i j)[p]? = if p = j then xs[i]? else if p = i then xs[j]? else xs[p]? := by
  unfold swap
  rw [List.getElem?_eq_getElem hi, List.getElem?_eq_getElem hj]
  simp only [List.getElem?_set, List.length_set]
  by_cases h1 : j = p
  · subst h1; simp [hj]
  · by_cases h2 : i = p
    · subst h2; simp [h1, hi, Ne.symm h1]
    · simp [h1, h2, Ne.symm h1, Ne.symm h2]

/-- Loop invariant of the in-place reversal. -/
theorem arrayLoop_spec {α : Type} (n : Nat) (xs : List α) (hlen : 2 ^ n ≤ xs.length) (m : Nat)
    (hm : m ≤ xs.length) :
    (bitReversalArrayLoop n xs m).length = xs.length ∧
    ∀ p, (bitReversalArrayLoop n xs m)[p]? =
      if p < 2 ^ n ∧ min p (bitReversal p n) < m then xs[bitReversal p n]? else xs[p]? := by
  induction m with
  | zero => simp [bitReversalArrayLoop]
  | succ m ih =>
    obtain ⟨hl, hp⟩ := ih (by omega)
    have hstep : bitReversalArrayLoop n xs (m + 1) =
        (if m < bitReversal m n then swap (bitReversalArrayLoop n xs m) m (bitReversal m n)
          else bitReversalArrayLoop n xs m) := by
      unfold bitReversalArrayLoop
      rw [List.range_succ, List.foldl_append]
      rfl
    rw [hstep]
    have hjl := rev_lt m n
    by_cases hmj : m < bitReversal m n
    · rw [if_pos hmj]
      have hm2 : m < 2 ^ n := by omega
      have hinv := rev_rev_of_lt hm2
      refine ⟨by rw [swap_length, hl], ?_⟩
      intro p
      rw [swap_getElem? _ _ _ _ (by omega) (by omega)]
      set j := bitReversal m n with hj
      by_cases h1 : p = j
      · rw [if_pos h1, hp m, h1, hinv]
        rw [if_neg (by rintro ⟨-, h⟩; rw [← hj] at h; omega), if_pos (by omega)]
      · rw [if_neg h1]
        by_cases h2 : p = m
        · rw [if_pos h2, hp j, hinv, h2, ← hj]
          rw [if_neg (by omega), if_pos (by omega)]
        · rw [if_neg h2, hp p]
          by_cases hp2 : p < 2 ^ n
          · have h3 : bitReversal p n ≠ m := by
              intro he
              apply h1
              rw [hj, ← he, rev_rev_of_lt hp2]
            by_cases h4 : min p (bitReversal p n) < m
            · rw [if_pos ⟨hp2, h4⟩, if_pos ⟨hp2, by omega⟩]
            · rw [if_neg (fun h => h4 h.2), if_neg (by rintro ⟨-, h⟩; omega)]
          · rw [if_neg (fun h => hp2 h.1), if_neg (fun h => hp2 h.1)]
    · rw [if_neg hmj]
      refine ⟨hl, ?_⟩
      intro p
      rw [hp p]
      by_cases hp2 : p < 2 ^ n
      · by_cases h4 : min p (bitReversal p n) < m
        · rw [if_pos ⟨hp2, h4⟩, if_pos ⟨hp2, by omega⟩]
        · rw [if_neg (fun h => h4 h.2)]
          by_cases h5 : min p (bitReversal p n) < m + 1
          · -- only a fixed point can be added
            have h6 : bitReversal p n = p := by
              rcases Nat.lt_trichotomy p (bitReversal p n) with h | h | h
              · have : p = m := by omega
                subst this; omega
              · exact h.symm
              · have h7 : bitReversal p n = m := by omega
                have h8 : bitReversal m n = p := by rw [← h7, rev_rev_of_lt hp2]
                omega
            rw [if_pos ⟨hp2, h5⟩, h6]
          · rw [if_neg (fun h => h5 h.2)]
      · rw [if_neg (fun h => hp2 h.1), if_neg (fun h => hp2 h.1)]

theorem numBits_two_pow (n : Nat) : numBits (2 ^ n) = n := by
  unfold numBits; rw [Nat.size_pow]; omega

theorem permLoop_eq (bits i : Nat) : permLoop bits i = bitReversal i bits := by
  have h : ∀ k r x, (List.range k).foldl (fun (s : Nat × Nat) _ =>
      ((s.1 <<< 1) ||| (s.2 &&& 1), s.2 >>> 1)) (r, x) =
      (r * 2 ^ k + bitReversal x k, x >>> k) := by
    intro k
    induction k with
    | zero => intro r x; simp [rev_zero]
    | succ k ih =>
      intro r x
      rw [List.range_succ, List.foldl_append, ih]
      simp only [List.foldl_cons, List.foldl_nil, shift_or_bit, Prod.mk.injEq]
      constructor
      · have hx : bitReversal x (k + 1) = 2 * bitReversal x k + (x >>> k) % 2 := by
          have := rev_two_pow_add (x := x % 2 ^ k) (n := k) ((x >>> k) % 2) (by omega) (Nat.mod_lt _ (by positivity))
          rw [rev_mod] at this
          rw [← this]
          rw [← rev_mod x (k + 1)]
          congr 1
          rw [Nat.shiftRight_eq_div_pow, pow_succ, Nat.mod_mul]
          ring
        rw [hx, pow_succ]; ring
      · rw [← Nat.shiftRight_add]
  unfold permLoop
  rw [h]
  simp

end Verif.BitReversal

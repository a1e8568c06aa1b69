import Verif.Model.FloatDot
import Mathlib.Tactic.Linarith
import Mathlib.Tactic.Positivity
import Mathlib.Data.Nat.Size
import Mathlib.Algebra.BigOperators.Fin

/-! # Exactness of rounding to significant bits on small integers -/

namespace Verif.FloatDot

theorem roundBits_lt (p : Nat) (x : Int) (h : x.natAbs < 2 ^ p) : roundBits p x = x := by
  have hs : x.natAbs.size ≤ p := Nat.size_le.2 h
  unfold roundBits
  rw [Nat.sub_eq_zero_of_le hs]
  simp

/-- A multiple of the unit is not rounded. -/
theorem roundBits_mul (p : Nat) (x : Int) (h : (2 : Int) ^ (x.natAbs.size - p) ∣ x) : roundBits p x = x := by
  unfold roundBits
  have hr : x % 2 ^ (x.natAbs.size - p) = 0 := Int.emod_eq_zero_of_dvd h
  have hq : x / 2 ^ (x.natAbs.size - p) * 2 ^ (x.natAbs.size - p) = x := Int.ediv_mul_cancel h
  simp only [hr, hq, mul_zero]
  rw [if_pos (by positivity)]

theorem roundBits_le (p : Nat) (hp : 1 ≤ p) (x : Int) (h : |x| ≤ 2 ^ p) : roundBits p x = x := by
  rcases lt_or_eq_of_le h with h | h
  · apply roundBits_lt
    have : (x.natAbs : Int) < 2 ^ p := by rw [Int.natCast_natAbs]; exact h
    exact_mod_cast this
  · apply roundBits_mul
    have hn : x.natAbs = 2 ^ p := by
      have : (x.natAbs : Int) = 2 ^ p := by rw [Int.natCast_natAbs]; exact h
      exact_mod_cast this
    rw [hn, Nat.size_pow, show p + 1 - p = 1 by omega, pow_one]
    have h2 : (2 : Int) ∣ |x| := by
      rw [h]; exact dvd_pow_self 2 (by omega)
    exact (dvd_abs 2 x).1 h2

theorem f32_mul_bf16 (u v : Int) (hu : |u| ≤ 256) (hv : |v| ≤ 256) : f32 (bf16 u * bf16 v) = u * v := by
  have e1 : bf16 u = u := roundBits_le 8 (by norm_num) u (by norm_num; exact hu)
  have e2 : bf16 v = v := roundBits_le 8 (by norm_num) v (by norm_num; exact hv)
  rw [e1, e2]
  apply roundBits_le 24 (by norm_num)
  rw [abs_mul]
  calc |u| * |v| ≤ 256 * 256 := mul_le_mul hu hv (abs_nonneg _) (by norm_num)
    _ ≤ 2 ^ 24 := by norm_num

theorem eval_eq {n : Nat} (u v : Fin n → Int) (hu : ∀ i, |u i| ≤ 256) (hv : ∀ i, |v i| ≤ 256) (t : Order n)
    (h : (t.leaves.map (fun i => |u i * v i|)).sum ≤ 2 ^ 24) :
    t.eval u v = (t.leaves.map (fun i => u i * v i)).sum := by
  have habs : ∀ l : List (Fin n), |(l.map (fun i => u i * v i)).sum| ≤ (l.map (fun i => |u i * v i|)).sum ∧
      0 ≤ (l.map (fun i => |u i * v i|)).sum := by
    intro l
    induction l with
    | nil => simp
    | cons a l ih =>
      simp only [List.map_cons, List.sum_cons]
      exact ⟨(abs_add_le _ _).trans (by linarith [ih.1]), by linarith [abs_nonneg (u a * v a), ih.2]⟩
  induction t with
  | zero => rfl
  | leaf i =>
    simp only [Order.eval, Order.leaves, List.map_cons, List.map_nil, List.sum_cons, List.sum_nil, add_zero]
    exact f32_mul_bf16 _ _ (hu i) (hv i)
  | add l r ihl ihr =>
    simp only [Order.leaves, List.map_append, List.sum_append] at h ⊢
    rw [Order.eval, ihl (by linarith [(habs r.leaves).2]), ihr (by linarith [(habs l.leaves).2])]
    apply roundBits_le 24 (by norm_num)
    refine (abs_add_le _ _).trans ?_
    linarith [(habs l.leaves).1, (habs r.leaves).1]

theorem eval_zero {n : Nat} (v : Fin n → Int) (t : Order n) : t.eval (fun _ => 0) v = 0 := by
  induction t with
  | zero => rfl
  | leaf i =>
    have : bf16 0 = 0 := by decide
    rw [Order.eval, this, zero_mul]; decide
  | add l r ihl ihr => rw [Order.eval, ihl, ihr]; decide

/-- An odd result of a rounding is below `2^p`: larger results are multiples of a unit of at least 2. -/
theorem roundBits_odd (p : Nat) (x : Int) (h : roundBits p x % 2 = 1) : |roundBits p x| < 2 ^ p := by
  by_cases hs : x.natAbs.size ≤ p
  · have hx : x.natAbs < 2 ^ p := Nat.size_le.1 hs
    rw [roundBits_lt p x hx]
    have : (x.natAbs : Int) < 2 ^ p := by exact_mod_cast hx
    rwa [Int.natCast_natAbs] at this
  · exfalso
    obtain ⟨k, hk⟩ : ∃ k, x.natAbs.size - p = k + 1 := ⟨x.natAbs.size - p - 1, by omega⟩
    have hm : ∃ q : Int, roundBits p x = q * 2 ^ (k + 1) := by
      unfold roundBits
      rw [hk]
      simp only
      split_ifs
      · exact ⟨_, rfl⟩
      · exact ⟨_, rfl⟩
      · exact ⟨_, rfl⟩
      · exact ⟨_, rfl⟩
    obtain ⟨q, hq⟩ := hm
    rw [hq, pow_succ, ← mul_assoc] at h
    omega

theorem floatDot_odd (order : (n : Nat) → Order n) (n : Nat) (u v : Fin n → Int)
    (h : floatDot order n u v % 2 = 1) : |floatDot order n u v| < 2 ^ 24 := by
  unfold floatDot at *
  cases ho : order n with
  | zero => simp [ho, Order.eval] at h
  | leaf i =>
    rw [ho, Order.eval] at h
    rw [Order.eval]
    exact roundBits_odd 24 _ h
  | add l r =>
    rw [ho, Order.eval] at h
    rw [Order.eval]
    exact roundBits_odd 24 _ h

theorem leftToRight_complete (n : Nat) : (leftToRight n).Complete := by
  have h : ∀ (l : List (Fin n)) (t : Order n),
      (l.foldl (fun t i => Order.add t (.leaf i)) t).leaves = t.leaves ++ l := by
    intro l
    induction l with
    | nil => intro t; simp
    | cons a l ih => intro t; simp [List.foldl_cons, ih, Order.leaves]
  unfold Order.Complete leftToRight
  rw [h]
  exact List.Perm.refl _

end Verif.FloatDot

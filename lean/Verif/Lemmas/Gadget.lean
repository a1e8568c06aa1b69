import Verif.Model.Gadget
import Verif.Lemmas.Decomposition
import Mathlib.Algebra.BigOperators.Field
import Mathlib.Tactic.FieldSimp
import Mathlib.Tactic.Linarith

/-! # Lemmas for C88 -/

namespace Verif.Gadget
open Verif.Decomposition Verif.Rgsw

theorem rint_near (x : ℚ) : |(rint x : ℚ) - x| ≤ 1 / 2 := by
  have h1 := Int.fract_nonneg x
  have h2 := Int.fract_lt_one x
  have h3 := Int.floor_add_fract x
  unfold rint
  split_ifs <;> rw [abs_le] <;> push_cast <;> constructor <;> linarith

theorem rint_int (z : ℤ) : rint (z : ℚ) = z := by
  unfold rint
  simp

theorem zip_blocks {α β : Type} (D : α → List W) (R : β → List ℚ) (f : W → ℚ → ℚ) (xs : List α) (is : List β)
    (hl : xs.length = is.length) (hb : ∀ x i, (D x).length = (R i).length) :
    (List.zipWith f (xs.flatMap D) (is.flatMap R)).sum =
      (List.zipWith (fun x i => (List.zipWith f (D x) (R i)).sum) xs is).sum := by
  induction xs generalizing is with
  | nil => simp
  | cons x xs ih =>
    cases is with
    | nil => simp at hl
    | cons i is =>
      rw [List.flatMap_cons, List.flatMap_cons, List.zipWith_append (hb x i), List.sum_append, ih is (by simpa using hl),
        List.zipWith_cons_cons, List.sum_cons]

theorem pick_sum {α : Type} (F : α → ℚ) (xs : List α) (s j : Nat) :
    (List.zipWith (fun x i => if i = s + j then F x else 0) xs (List.range' s xs.length)).sum = (xs[j]?.map F).getD 0 := by
  induction xs generalizing s j with
  | nil => simp
  | cons x xs ih =>
    rw [List.length_cons, List.range'_succ, List.zipWith_cons_cons, List.sum_cons]
    cases j with
    | zero =>
      have hz : ∀ (t : Nat) (l : List α), s < t →
          (List.zipWith (fun x i => if i = s + 0 then F x else 0) l (List.range' t l.length)).sum = 0 := by
        intro t l
        induction l generalizing t with
        | nil => simp
        | cons y l ih2 =>
          intro ht
          rw [List.length_cons, List.range'_succ, List.zipWith_cons_cons, List.sum_cons, ih2 (t + 1) (by omega),
            if_neg (by omega), add_zero]
      rw [hz (s + 1) xs (by omega)]
      simp
    | succ j =>
      have e : (fun (x : α) i => if i = s + (j + 1) then F x else 0) = fun x i => if i = (s + 1) + j then F x else 0 := by
        funext x i
        congr 1
        exact propext ⟨fun h => by omega, fun h => by omega⟩
      rw [e, ih (s + 1) j, if_neg (by omega), zero_add]
      simp

theorem range_mul_map {α : Type} (M L : Nat) (f : Nat → α) :
    (List.range (M * L)).map f = (List.range M).flatMap fun i => (List.range L).map fun l => f (i * L + l) := by
  induction M with
  | zero => simp
  | succ M ih =>
    rw [Nat.succ_mul, List.range_add, List.map_append, ih, List.range_succ, List.flatMap_append, List.flatMap_singleton,
      List.map_map]
    rfl

/-- Row `j` of the gadget matrix, block by block. -/
theorem gadget_row (M L j : Nat) (hj : j < M) (p : Nat → ℚ) :
    (transpose (M * L) M (kron M L p)).getD j [] =
      (List.range M).flatMap fun i => (List.range L).map fun l => if i = j then p l else 0 := by
  unfold transpose
  rw [List.getD_eq_getElem _ _ (by simpa using hj)]
  rw [List.getElem_map, List.getElem_range]
  have : (List.range (M * L)).map (fun r => ((kron M L p).getD r []).getD j 0) =
      (List.range (M * L)).map (fun r => (if r / L = j then 1 else 0) * p (r % L)) := by
    apply List.map_congr_left
    intro r hr
    have hr := List.mem_range.1 hr
    unfold kron
    simp [List.getD_eq_getElem?_getD, List.getElem?_map, List.getElem?_range hr, List.getElem?_range hj]
  rw [this, range_mul_map]
  congr 1
  funext i
  apply List.map_congr_left
  intro l hl
  have hl := List.mem_range.1 hl
  have h1 : (i * L + l) / L = i := by
    rw [Nat.mul_comm, Nat.mul_add_div (by omega), Nat.div_eq_of_lt hl, add_zero]
  have h2 : (i * L + l) % L = l := by rw [Nat.mul_comm, Nat.mul_add_mod, Nat.mod_eq_of_lt hl]
  rw [h1, h2]
  split <;> simp

/-- The digits against the powers: the top digits of the word over `B ^ L`. -/
theorem digits_value (x : W) (b L T : Nat) (hT : T ≤ 32) (hL : L * b ≤ T) :
    (List.zipWith (fun (d : W) g => (d.toNat : ℚ) * g) (List.ofFn (decompose x b L T))
      ((List.range L).map fun l => (1 / ((2 ^ b : Nat) : ℚ)) ^ (l + 1))).sum =
      ((x.toNat % 2 ^ T / 2 ^ (T - L * b) : Nat) : ℚ) / (2 ^ (L * b) : ℚ) := by
  have e : List.zipWith (fun (d : W) g => (d.toNat : ℚ) * g) (List.ofFn (decompose x b L T))
      ((List.range L).map fun l => (1 / ((2 ^ b : Nat) : ℚ)) ^ (l + 1)) =
      List.ofFn fun i : Fin L => ((decompose x b L T i).toNat : ℚ) * (1 / ((2 ^ b : Nat) : ℚ)) ^ (i.val + 1) := by
    apply List.ext_getElem
    · simp
    · intro i h1 h2
      simp
  rw [e, List.sum_ofFn]
  have hs := recompose_sum x.toNat b T L hL
  have hs' : (∑ i : Fin L, ((x.toNat / 2 ^ (T - (1 + i.val) * b) % 2 ^ b : Nat) : ℚ) * 2 ^ (T - (1 + i.val) * b)) =
      ((x.toNat % 2 ^ T / 2 ^ (T - L * b) : Nat) : ℚ) * 2 ^ (T - L * b) := by
    exact_mod_cast hs
  have h2 : (2 : ℚ) ^ T ≠ 0 := by positivity
  have split_pow : ∀ k, k ≤ T → (2 : ℚ) ^ (T - k) = 2 ^ T / 2 ^ k := by
    intro k hk
    rw [eq_div_iff (by positivity), ← pow_add, Nat.sub_add_cancel hk]
  have key : (∑ i : Fin L, ((decompose x b L T i).toNat : ℚ) * (1 / ((2 ^ b : Nat) : ℚ)) ^ (i.val + 1)) * 2 ^ T =
      ((x.toNat % 2 ^ T / 2 ^ (T - L * b) : Nat) : ℚ) / (2 ^ (L * b) : ℚ) * 2 ^ T := by
    rw [split_pow _ hL] at hs'
    rw [div_mul_eq_mul_div, ← mul_div_assoc] at *
    rw [← hs', Finset.sum_mul]
    apply Finset.sum_congr rfl
    intro i _
    rw [decompose_toNat x b L T hT hL i, split_pow _ (le_trans (Nat.mul_le_mul_right b (by have := i.isLt; omega)) hL)]
    rw [Nat.cast_pow, one_div, inv_pow, ← pow_mul]
    push_cast
    rw [show b * (i.val + 1) = (1 + i.val) * b by ring]
    field_simp
  exact mul_right_cancel₀ h2 key

/-- The round trip, entry by entry. -/
theorem roundTrip_eq (conv : ℤ → W) (v : List ℚ) (dp : DecompositionParameters) (T : Nat) (hT : T ≤ 32)
    (hL : dp.levelCount * dp.logBase ≤ T) :
    roundTrip conv v dp T = .ok (v.map fun x =>
      (((conv (rint (x * 2 ^ (dp.levelCount * dp.logBase)))).toNat % 2 ^ T / 2 ^ (T - dp.levelCount * dp.logBase) : Nat) : ℚ) /
        2 ^ (dp.levelCount * dp.logBase)) := by
  obtain ⟨b, L, t⟩ := dp
  dsimp only at *
  have hdvd : 2 ^ T % (2 ^ b) ^ L = 0 := by
    rw [← pow_mul, Nat.mul_comm b L]
    exact Nat.mod_eq_zero_of_dvd (pow_dvd_pow 2 hL)
  unfold roundTrip gadgetMatrix
  dsimp only
  rw [if_neg (by rw [hdvd]; simp)]
  simp only [bind, Except.bind, pure, Except.pure]
  congr 1
  apply List.ext_getElem
  · simp [apply, transpose]
  · intro j h1 h2
    have hj : j < v.length := by simpa using h2
    simp only [apply, List.getElem_map]
    have hrow := gadget_row v.length L j hj (fun l => (1 / ((2 ^ b : Nat) : ℚ)) ^ (l + 1))
    rw [List.getD_eq_getElem _ _ (by simpa [transpose] using hj)] at hrow
    rw [hrow]
    unfold inverseGadget
    dsimp only
    rw [zip_blocks _ _ _ _ _ (by simp) (by intro x i; simp)]
    have e : (fun (x : W) (i : Nat) => (List.zipWith (fun (d : W) g => (d.toNat : ℚ) * g) (List.ofFn (decompose x b L T))
        ((List.range L).map fun l => if i = j then (1 / ((2 ^ b : Nat) : ℚ)) ^ (l + 1) else 0)).sum) =
        fun x i => if i = 0 + j then ((x.toNat % 2 ^ T / 2 ^ (T - L * b) : Nat) : ℚ) / (2 ^ (L * b) : ℚ) else 0 := by
      funext x i
      rw [zero_add]
      by_cases h : i = j
      · simp only [if_pos h]
        exact digits_value x b L T hT hL
      · simp only [if_neg h]
        apply List.sum_eq_zero
        intro y hy
        obtain ⟨k, hk, rfl⟩ := List.getElem_of_mem hy
        simp
    rw [e, List.range_eq_range']
    have hlen : v.length = ((v.map fun v => v * ((2 ^ b : Nat) : ℚ) ^ L).map fun v => conv (rint v)).length := by simp
    conv_lhs => rw [hlen]
    rw [pick_sum]
    simp only [List.getElem?_map, List.getElem?_eq_getElem hj, Option.map_some, Option.getD_some, Nat.cast_pow, Nat.cast_ofNat,
      ← pow_mul, Nat.mul_comm b L]

end Verif.Gadget

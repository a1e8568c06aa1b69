import Verif.Model.EcChunks
import Mathlib.Data.List.GetD

/-!
# The roll matrix of `carry_propagation` rolls cyclically by one
-/

namespace Verif.EcChunks

def tower (n m : Nat) : List Nat := 1 :: (List.replicate m (List.replicate n 0 ++ [1])).flatten

theorem tower_succ (n m : Nat) : tower n (m + 1) = 1 :: (List.replicate n 0 ++ tower n m) := by
  simp [tower, List.replicate_succ]

theorem tower_length (n m : Nat) : (tower n m).length = m * (n + 1) + 1 := by
  induction m with
  | zero => simp [tower]
  | succ m ih => rw [tower_succ]; simp [ih]; ring

theorem tower_getD (n m k : Nat) (hk : k < m * (n + 1) + 1) :
    (tower n m).getD k 0 = if k % (n + 1) = 0 then 1 else 0 := by
  induction m generalizing k with
  | zero =>
    have : k = 0 := by omega
    subst this; simp [tower]
  | succ m ih =>
    rw [tower_succ]
    rcases Nat.eq_zero_or_pos k with h0 | h0
    · subst h0; simp
    · obtain ⟨k, rfl⟩ : ∃ k', k = k' + 1 := ⟨k - 1, by omega⟩
      rw [List.getD_cons_succ]
      rcases Nat.lt_or_ge k n with h | h
      · rw [List.getD_append _ _ _ _ (by simpa using h)]
        rw [Nat.mod_eq_of_lt (by omega), if_neg (by omega)]
        simp [h]
      · rw [List.getD_append_right _ _ _ _ (by simpa using h), List.length_replicate]
        obtain ⟨d, rfl⟩ : ∃ d, k = n + d := ⟨k - n, by omega⟩
        have e : n + d - n = d := by omega
        rw [e, ih d (by rw [Nat.add_mul] at hk; omega)]
        have : n + d + 1 = d + (n + 1) := by ring
        rw [this, Nat.add_mod_right]

theorem rollFlat_getD (n i j : Nat) (hn : 2 ≤ n) (hi : i < n) (hj : j < n) :
    (rollFlat n).getD (i * n + j) 0 = if j = i + 1 ∨ (i = n - 1 ∧ j = 0) then 1 else 0 := by
  have e : rollFlat n = 0 :: (tower n (n - 2) ++ ([1] ++ List.replicate (n - 1) 0)) := by
    simp [rollFlat, tower]
  obtain ⟨m, rfl⟩ : ∃ m, n = m + 2 := ⟨n - 2, by omega⟩
  have e2 : m + 2 - 2 = m := rfl
  have e3 : m + 2 - 1 = m + 1 := rfl
  rw [e, e2, e3]
  have hlen : (tower (m + 2) m).length = m * (m + 2 + 1) + 1 := tower_length _ _
  rcases Nat.eq_zero_or_pos (i * (m + 2) + j) with h0 | h0
  · rw [h0, List.getD_cons_zero]
    have hj0 : j = 0 := by omega
    have hi0 : i = 0 := by
      rcases Nat.eq_zero_or_pos i with h | h
      · exact h
      · have := Nat.mul_le_mul_right (m + 2) h; omega
    subst hj0; subst hi0
    simp
  · obtain ⟨k, hk⟩ : ∃ k, i * (m + 2) + j = k + 1 := ⟨i * (m + 2) + j - 1, by omega⟩
    rw [hk, List.getD_cons_succ]
    rcases Nat.lt_or_ge i (m + 1) with hlt | hge
    · have h1 : i * (m + 2) ≤ m * (m + 2) := Nat.mul_le_mul_right _ (by omega)
      have h2 : m * (m + 2 + 1) = m * (m + 2) + m := by ring
      have hk2 : k < m * (m + 2 + 1) + 1 := by omega
      rw [List.getD_append _ _ _ _ (by rw [hlen]; exact hk2), tower_getD _ _ _ hk2]
      have hcond : (k % (m + 2 + 1) = 0) ↔ (j = i + 1 ∨ (i = m + 1 ∧ j = 0)) := by
        constructor
        · intro h
          left
          obtain ⟨c, hc⟩ := Nat.dvd_of_mod_eq_zero h
          rcases Nat.lt_trichotomy c i with h3 | h3 | h3
          · exfalso
            obtain ⟨d, rfl⟩ : ∃ d, i = c + 1 + d := ⟨i - c - 1, by omega⟩
            have : (c + 1 + d) * (m + 2) = (m + 2 + 1) * c + (m + 2) - c + d * (m + 2) := by
              have : (c + 1 + d) * (m + 2) + c = (m + 2 + 1) * c + (m + 2) + d * (m + 2) := by ring
              omega
            have h5 : d ≤ d * (m + 2) := Nat.le_mul_of_pos_right _ (by omega)
            have h6 : c + 1 + d < m + 1 := hlt
            omega
          · subst h3
            have : (m + 2 + 1) * c = c * (m + 2) + c := by ring
            omega
          · exfalso
            obtain ⟨d, rfl⟩ : ∃ d, c = i + 1 + d := ⟨c - i - 1, by omega⟩
            have : (m + 2 + 1) * (i + 1 + d) = i * (m + 2) + i + (m + 3) + d * (m + 3) := by ring
            omega
        · rintro (h | h)
          · subst h
            have : k = (m + 2 + 1) * i := by
              have : (m + 2 + 1) * i = i * (m + 2) + i := by ring
              omega
            rw [this]; simp
          · omega
      by_cases h : k % (m + 2 + 1) = 0
      · rw [if_pos h, if_pos (hcond.1 h)]
      · rw [if_neg h, if_neg (fun hh => h (hcond.2 hh))]
    · have hi' : i = m + 1 := by omega
      subst hi'
      have hk3 : k = m * (m + 2 + 1) + 1 + j := by
        have : (m + 1) * (m + 2) = m * (m + 2 + 1) + 2 := by ring
        omega
      rw [List.getD_append_right _ _ _ _ (by rw [hlen]; omega), hlen, hk3]
      have : m * (m + 2 + 1) + 1 + j - (m * (m + 2 + 1) + 1) = j := by omega
      rw [this]
      rcases Nat.eq_zero_or_pos j with h | h
      · subst h; simp
      · obtain ⟨j, rfl⟩ : ∃ j', j = j' + 1 := ⟨j - 1, by omega⟩
        have : ¬ (j + 1 = m + 1 + 1 ∨ (m + 1 = m + 1 ∧ j + 1 = 0)) := by omega
        rw [if_neg this]
        simp

theorem sum_map_single (n c : Nat) (f g : Nat → Nat) (hc : c < n)
    (hg : ∀ i < n, g i = if i = c then 1 else 0) :
    ((List.range n).map fun i => f i * g i).sum = f c := by
  have : ∀ m ≤ n, ((List.range m).map fun i => f i * g i).sum = if c < m then f c else 0 := by
    intro m
    induction m with
    | zero => intro _; simp
    | succ m ih =>
      intro hm
      rw [List.range_succ, List.map_append, List.sum_append, ih (by omega)]
      simp only [List.map_cons, List.map_nil, List.sum_cons, List.sum_nil, hg m (by omega)]
      rcases Nat.lt_trichotomy m c with h | h | h
      · rw [if_neg (by omega), if_neg (by omega), if_neg (by omega)]; simp
      · subst h; simp
      · rw [if_pos h, if_neg (by omega), if_pos (by omega)]; simp
  rw [this n le_rfl, if_pos hc]

theorem roll_length (h : List Nat) : (roll h).length = h.length := by
  unfold roll
  rcases List.eq_nil_or_concat h with e | ⟨l, x, e⟩
  · subst e; rfl
  · subst e; simp

theorem roll_concat (l : List Nat) (x : Nat) : roll (l ++ [x]) = x :: l := by
  simp [roll]

theorem rollMul_length (h : List Nat) : (rollMul h).length = h.length := by simp [rollMul]

/-- The matrix product of `carry_propagation` is the cyclic roll of `carry_add`. -/
theorem rollMul_eq (h : List Nat) (hn : 2 ≤ h.length) : rollMul h = roll h := by
  rcases List.eq_nil_or_concat h with e | ⟨l, x, e⟩
  · subst e; simp at hn
  subst e
  apply List.ext_getElem
  · rw [rollMul_length, roll_length]
  intro j h1 h2
  rw [rollMul_length] at h1
  simp only [List.concat_eq_append] at *
  have hl : (l ++ [x]).length = l.length + 1 := by simp
  simp only [rollMul, List.getElem_map, List.getElem_range]
  rcases Nat.eq_zero_or_pos j with h0 | h0
  · subst h0
    rw [sum_map_single _ l.length (fun i => (l ++ [x]).getD i 0) _ (by omega)]
    · simp [roll_concat]
    · intro i hi
      rw [rollFlat_getD _ _ _ hn hi h1]
      by_cases hc : i = l.length
      · rw [if_pos (by omega), if_pos hc]
      · rw [if_neg (by omega), if_neg hc]
  · obtain ⟨j, rfl⟩ : ∃ j', j = j' + 1 := ⟨j - 1, by omega⟩
    rw [sum_map_single _ j (fun i => (l ++ [x]).getD i 0) _ (by omega)]
    · simp only [roll_concat, List.getElem_cons_succ]
      rw [List.getD_append _ _ _ _ (by omega), List.getD_eq_getElem _ _ (by omega)]
    · intro i hi
      rw [rollFlat_getD _ _ _ hn hi h1]
      by_cases hc : i = j
      · rw [if_pos (by omega), if_pos hc]
      · rw [if_neg (by omega), if_neg hc]

theorem roll_sum (h : List Nat) : (roll h).sum = h.sum := by
  rcases List.eq_nil_or_concat h with e | ⟨l, x, e⟩
  · subst e; rfl
  · subst e; rw [List.concat_eq_append, roll_concat]; simp; ring

theorem rollMul_sum_le (h : List Nat) : (rollMul h).sum ≤ h.sum := by
  rcases Nat.lt_or_ge h.length 2 with hl | hl
  · match h, hl with
    | [], _ => simp [rollMul]
    | [a], _ => simp [rollMul, rollFlat]
  · rw [rollMul_eq _ hl, roll_sum]

theorem sum_zipWith_le (f : Nat → Nat → Nat) (hf : ∀ x y, f x y ≤ x + y) (a b : List Nat) :
    (List.zipWith f a b).sum ≤ a.sum + b.sum := by
  induction a generalizing b with
  | nil => simp
  | cons x a ih =>
    cases b with
    | nil => simp
    | cons y b =>
      simp only [List.zipWith_cons_cons, List.sum_cons]
      have := ih b
      have := hf x y
      omega

theorem sum_map_le (f : Nat → Nat) (hf : ∀ x, f x ≤ x) (a : List Nat) : (a.map f).sum ≤ a.sum := by
  induction a with
  | nil => simp
  | cons x a ih => simp only [List.map_cons, List.sum_cons]; have := hf x; omega

/-- Every round with a carry strictly decreases the sum of the chunks. -/
theorem carryStep_sum_lt (s : Nat) (hs : 0 < s) (l : List Nat) (h : anyCarry s l = true) :
    (carryStep s l).sum < l.sum := by
  unfold carryStep
  refine lt_of_le_of_lt (sum_zipWith_le _ (fun x y => Nat.mod_le _ _) _ _) ?_
  refine lt_of_le_of_lt (Nat.add_le_add_left ((sum_map_le _ (fun x => Nat.mod_le _ _) _).trans
    (rollMul_sum_le _)) _) ?_
  have hB : 2 ≤ 2 ^ s := by
    calc 2 = 2 ^ 1 := rfl
      _ ≤ 2 ^ s := Nat.pow_le_pow_right (by norm_num) hs
  have key : ∀ v : Nat, (v &&& (2 ^ s - 1)) + (v >>> s) % 2 ^ 16 ≤ v ∧
      (v >>> s ≠ 0 → (v &&& (2 ^ s - 1)) + (v >>> s) % 2 ^ 16 < v) := by
    intro v
    rw [Nat.and_two_pow_sub_one_eq_mod, Nat.shiftRight_eq_div_pow]
    have h1 := Nat.mod_add_div v (2 ^ s)
    have h2 := Nat.mod_le (v / 2 ^ s) (2 ^ 16)
    have h3 : 2 * (v / 2 ^ s) ≤ 2 ^ s * (v / 2 ^ s) := Nat.mul_le_mul_right _ hB
    constructor
    · omega
    · intro h; omega
  induction l with
  | nil => simp [anyCarry] at h
  | cons v l ih =>
    simp only [List.map_cons, List.sum_cons]
    have hk := key v
    by_cases hv : v >>> s = 0
    · have hl : anyCarry s l = true := by
        simp only [anyCarry, List.any_cons, hv] at h
        simpa [anyCarry] using h
      have := ih hl
      omega
    · have h2 := hk.2 hv
      have h3 : (l.map fun v => v &&& (2 ^ s - 1)).sum + (l.map fun v => (v >>> s) % 2 ^ 16).sum ≤ l.sum := by
        clear ih h
        induction l with
        | nil => simp
        | cons w l ih =>
          simp only [List.map_cons, List.sum_cons]
          have := (key w).1
          omega
      omega

end Verif.EcChunks

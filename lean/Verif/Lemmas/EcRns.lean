import Verif.Model.EcRns
import Verif.Lemmas.EcMul
import Verif.Props.Crt
import Mathlib.Data.Nat.ModEq
import Mathlib.Data.Int.ModEq
import Mathlib.Tactic.Linarith
import Mathlib.Tactic.FieldSimp
import Mathlib.Tactic.Positivity
import Mathlib.Algebra.BigOperators.ModEq

/-!
# Lemmas on the residue number system of jaxite_ec
-/

namespace Verif.EcRns
open Verif.EcChunks Finset

set_option exponentiation.threshold 2000

/-! ## Folding -/

theorem fold_step {m t u l : Nat} (h : 2 ^ 16 ≡ t [MOD m]) : u * 2 ^ 16 + l ≡ l + u * t [MOD m] := by
  have := (h.mul_left u).add_right l
  rwa [Nat.add_comm (u * t)] at this

theorem foldRed_eq (t v : Nat) (ht : t < 256) (hv : v < 2 ^ 32) :
    ∃ u1 l1 u2 l2 u3 l3, v = u1 * 2 ^ 16 + l1 ∧ l1 + u1 * t = u2 * 2 ^ 16 + l2 ∧ l2 + u2 * t = u3 * 2 ^ 16 + l3 ∧
      foldRed t v = l3 + u3 * t ∧ l3 + u3 * t < 2 ^ 16 := by
  unfold foldRed
  dsimp only
  obtain ⟨u1, h1⟩ : ∃ u, u = v / 2 ^ 16 % 2 ^ 16 := ⟨_, rfl⟩
  obtain ⟨l1, h2⟩ : ∃ u, u = v % 2 ^ 16 := ⟨_, rfl⟩
  rw [← h1, ← h2]
  have b1 : u1 ≤ 65535 := by omega
  have b2 : l1 ≤ 65535 := by omega
  have e1 : v = u1 * 2 ^ 16 + l1 := by omega
  clear h1 h2
  have p1 : u1 * t ≤ 65535 * 255 := Nat.mul_le_mul b1 (by omega)
  rw [show (l1 + u1 * t % 2 ^ 32) % 2 ^ 32 = l1 + u1 * t by omega]
  obtain ⟨i1, hi1⟩ : ∃ i, i = l1 + u1 * t := ⟨_, rfl⟩
  rw [← hi1]
  obtain ⟨u2, h1⟩ : ∃ u, u = i1 / 2 ^ 16 % 2 ^ 8 := ⟨_, rfl⟩
  obtain ⟨l2, h2⟩ : ∃ u, u = i1 % 2 ^ 16 := ⟨_, rfl⟩
  rw [← h1, ← h2]
  have b3 : u2 ≤ 255 := by omega
  have b4 : l2 ≤ 65535 := by omega
  have e2 : i1 = u2 * 2 ^ 16 + l2 := by omega
  clear h1 h2
  have p2 : u2 * t ≤ 255 * 255 := Nat.mul_le_mul b3 (by omega)
  rw [show (l2 + u2 * t % 2 ^ 16) % 2 ^ 32 = l2 + u2 * t by omega]
  obtain ⟨i2, hi2⟩ : ∃ i, i = l2 + u2 * t := ⟨_, rfl⟩
  rw [← hi2]
  obtain ⟨u3, h1⟩ : ∃ u, u = i2 / 2 ^ 16 % 2 ^ 8 := ⟨_, rfl⟩
  obtain ⟨l3, h2⟩ : ∃ u, u = i2 % 2 ^ 16 := ⟨_, rfl⟩
  rw [← h1, ← h2]
  have b5 : u3 ≤ 1 := by omega
  have e3 : i2 = u3 * 2 ^ 16 + l3 := by omega
  have b6 : l3 + u3 * t < 2 ^ 16 := by
    rcases Nat.le_one_iff_eq_zero_or_eq_one.1 b5 with h | h <;> subst h <;> omega
  refine ⟨u1, l1, u2, l2, u3, l3, e1, by omega, by omega, ?_, b6⟩
  have p3 : u3 * t < 256 := by
    rcases Nat.le_one_iff_eq_zero_or_eq_one.1 b5 with h | h <;> subst h <;> omega
  rw [Nat.mod_eq_of_lt (show u3 * t < 2 ^ 8 from p3), Nat.mod_eq_of_lt b6]

theorem foldRed_lt (t v : Nat) (ht : t < 256) (hv : v < 2 ^ 32) : foldRed t v < 2 ^ 16 := by
  obtain ⟨u1, l1, u2, l2, u3, l3, -, -, -, e, h⟩ := foldRed_eq t v ht hv
  omega

theorem foldRed_modEq (m t v : Nat) (hm : 2 ^ 16 ≡ t [MOD m]) (ht : t < 256) (hv : v < 2 ^ 32) :
    foldRed t v ≡ v [MOD m] := by
  obtain ⟨u1, l1, u2, l2, u3, l3, e1, e2, e3, e, -⟩ := foldRed_eq t v ht hv
  have s1 := fold_step (u := u1) (l := l1) hm
  have s2 := fold_step (u := u2) (l := l2) hm
  have s3 := fold_step (u := u3) (l := l3) hm
  rw [← e1, e2] at s1
  rw [e3] at s2
  rw [e]
  exact ((s1.trans s2).trans s3).symm

theorem foldRed_pos (t v : Nat) (ht0 : 0 < t) (ht : t < 256) (hv : v < 2 ^ 32) (hpos : 0 < v) : 0 < foldRed t v := by
  obtain ⟨u1, l1, u2, l2, u3, l3, e1, e2, e3, e, -⟩ := foldRed_eq t v ht hv
  rw [e]
  have step : ∀ u l, 0 < u * 2 ^ 16 + l → 0 < l + u * t := by
    intro u l h
    rcases Nat.eq_zero_or_pos u with h0 | h0
    · subst h0; simpa using h
    · exact Nat.add_pos_right _ (Nat.mul_pos h0 ht0)
  apply step
  rw [← e3]
  apply step
  rw [← e2]
  apply step
  rw [← e1]
  exact hpos

theorem foldRed_zero (t : Nat) : foldRed t 0 = 0 := by simp [foldRed]

theorem hardwareReduce_eq (t v : Nat) (ht : t < 256) (hv : v < 2 ^ 32) : hardwareReduce t v = foldRed t v := by
  obtain ⟨u1, l1, u2, l2, u3, l3, e1, e2, e3, e, hlt⟩ := foldRed_eq t v ht hv
  have key : ∀ x : Nat, (x >>> 16) &&& 0xFFFF = x / 2 ^ 16 % 2 ^ 16 := by
    intro x
    rw [Nat.shiftRight_eq_div_pow, show (0xFFFF : Nat) = 2 ^ 16 - 1 by norm_num, Nat.and_two_pow_sub_one_eq_mod]
  have key2 : ∀ x : Nat, x &&& 0xFFFF = x % 2 ^ 16 := by
    intro x
    rw [show (0xFFFF : Nat) = 2 ^ 16 - 1 by norm_num, Nat.and_two_pow_sub_one_eq_mod]
  unfold hardwareReduce foldRed
  dsimp only
  simp only [key, key2]
  clear e1 e2 e3 e hlt key key2
  have q1 : v / 2 ^ 16 % 2 ^ 16 * t ≤ 65535 * 255 := Nat.mul_le_mul (by omega) (by omega)
  generalize v / 2 ^ 16 % 2 ^ 16 * t = a1 at *
  rw [Nat.add_comm (a1 % 2 ^ 32)]
  have hi : (v % 2 ^ 16 + a1 % 2 ^ 32) % 2 ^ 32 < 2 ^ 24 := by omega
  generalize (v % 2 ^ 16 + a1 % 2 ^ 32) % 2 ^ 32 = i1 at *
  rw [show i1 / 2 ^ 16 % 2 ^ 16 = i1 / 2 ^ 16 % 2 ^ 8 by omega]
  have q2 : i1 / 2 ^ 16 % 2 ^ 8 * t ≤ 255 * 255 := Nat.mul_le_mul (by omega) (by omega)
  generalize i1 / 2 ^ 16 % 2 ^ 8 * t = a2 at *
  rw [show (a2 % 2 ^ 32 + i1 % 2 ^ 16) % 2 ^ 32 = (i1 % 2 ^ 16 + a2 % 2 ^ 16) % 2 ^ 32 by omega]
  have hi2 : (i1 % 2 ^ 16 + a2 % 2 ^ 16) % 2 ^ 32 < 2 ^ 17 := by omega
  generalize (i1 % 2 ^ 16 + a2 % 2 ^ 16) % 2 ^ 32 = i2 at *
  rw [show i2 / 2 ^ 16 % 2 ^ 16 = i2 / 2 ^ 16 % 2 ^ 8 by omega]
  have q3 : i2 / 2 ^ 16 % 2 ^ 8 * t ≤ 1 * 255 := Nat.mul_le_mul (by omega) (by omega)
  generalize i2 / 2 ^ 16 % 2 ^ 8 * t = a3 at *
  omega

theorem foldAdd_eq (t v : Nat) (ht : t < 256) (hv : v < 2 ^ 24) :
    ∃ u1 l1 u2 l2, v = u1 * 2 ^ 16 + l1 ∧ l1 + u1 * t = u2 * 2 ^ 16 + l2 ∧
      foldAdd t v = l2 + u2 * t ∧ l2 + u2 * t < 2 ^ 16 := by
  unfold foldAdd
  dsimp only
  obtain ⟨u1, h1⟩ : ∃ u, u = v / 2 ^ 16 % 2 ^ 8 := ⟨_, rfl⟩
  obtain ⟨l1, h2⟩ : ∃ u, u = v % 2 ^ 16 := ⟨_, rfl⟩
  rw [← h1, ← h2]
  have b1 : u1 ≤ 255 := by omega
  have b2 : l1 ≤ 65535 := by omega
  have e1 : v = u1 * 2 ^ 16 + l1 := by omega
  clear h1 h2
  have p1 : u1 * t ≤ 255 * 255 := Nat.mul_le_mul b1 (by omega)
  rw [show (u1 * t % 2 ^ 16 + l1) % 2 ^ 32 = l1 + u1 * t by omega]
  obtain ⟨i2, hi2⟩ : ∃ i, i = l1 + u1 * t := ⟨_, rfl⟩
  rw [← hi2]
  obtain ⟨u3, h1⟩ : ∃ u, u = i2 / 2 ^ 16 % 2 ^ 8 := ⟨_, rfl⟩
  obtain ⟨l3, h2⟩ : ∃ u, u = i2 % 2 ^ 16 := ⟨_, rfl⟩
  rw [← h1, ← h2]
  have b5 : u3 ≤ 1 := by omega
  have e3 : i2 = u3 * 2 ^ 16 + l3 := by omega
  have b6 : l3 + u3 * t < 2 ^ 16 := by
    rcases Nat.le_one_iff_eq_zero_or_eq_one.1 b5 with h | h <;> subst h <;> omega
  have p3 : u3 * t < 256 := by
    rcases Nat.le_one_iff_eq_zero_or_eq_one.1 b5 with h | h <;> subst h <;> omega
  refine ⟨u1, l1, u3, l3, e1, by omega, ?_, b6⟩
  rw [Nat.mod_eq_of_lt (show u3 * t < 2 ^ 8 from p3), Nat.add_comm, Nat.mod_eq_of_lt b6]

theorem foldAdd_lt (t v : Nat) (ht : t < 256) (hv : v < 2 ^ 24) : foldAdd t v < 2 ^ 16 := by
  obtain ⟨u1, l1, u2, l2, -, -, e, h⟩ := foldAdd_eq t v ht hv
  omega

theorem foldAdd_modEq (m t v : Nat) (hm : 2 ^ 16 ≡ t [MOD m]) (ht : t < 256) (hv : v < 2 ^ 24) :
    foldAdd t v ≡ v [MOD m] := by
  obtain ⟨u1, l1, u2, l2, e1, e2, e, -⟩ := foldAdd_eq t v ht hv
  have s1 := fold_step (u := u1) (l := l1) hm
  have s2 := fold_step (u := u2) (l := l2) hm
  rw [← e1, e2] at s1
  rw [e]
  exact (s1.trans s2).symm

theorem foldAdd_pos (t v : Nat) (ht0 : 0 < t) (ht : t < 256) (hv : v < 2 ^ 24) (hpos : 0 < v) : 0 < foldAdd t v := by
  obtain ⟨u1, l1, u2, l2, e1, e2, e, -⟩ := foldAdd_eq t v ht hv
  rw [e]
  have step : ∀ u l, 0 < u * 2 ^ 16 + l → 0 < l + u * t := by
    intro u l h
    rcases Nat.eq_zero_or_pos u with h0 | h0
    · subst h0; simpa using h
    · exact Nat.add_pos_right _ (Nat.mul_pos h0 ht0)
  apply step
  rw [← e2]
  apply step
  rw [← e1]
  exact hpos

/-! ## The choice of moduli -/

/-- What one scan maintains: pairwise coprime moduli above 1, and `2^16 ≡ t` modulo each. -/
structure FindInv (precision : Nat) (st : List Nat × List Nat × Nat) : Prop where
  prod : st.2.2 = st.1.prod
  pos : ∀ m ∈ st.1, 0 < m
  co : st.1.Pairwise Nat.Coprime
  len : st.2.1.length = st.1.length
  off : ∀ i (h : i < st.1.length), 2 ^ precision ≡ st.2.1.getD i 0 [MOD st.1[i]]

theorem findLoop_inv (precision total init sh : Nat) (is : List Nat) (hinit : 2 ^ precision = init <<< sh)
    (his : ∀ i ∈ is, i < init) (st : List Nat × List Nat × Nat) (h : FindInv precision st) :
    FindInv precision (findLoop total init sh is st).2 := by
  induction is generalizing st with
  | nil => exact h
  | cons i is ih =>
    obtain ⟨ms, ts, prod⟩ := st
    have hi : i < init := his i List.mem_cons_self
    have his' : ∀ j ∈ is, j < init := fun j hj => his j (List.mem_cons_of_mem _ hj)
    unfold findLoop
    split
    · rename_i hg
      have hnew : FindInv precision (ms ++ [init - i], ts ++ [i <<< sh], prod * (init - i)) := by
        obtain ⟨h1, h2, h3, h4, h5⟩ := h
        simp only at h1 h2 h3 h4 h5
        refine ⟨by simp [h1], ?_, ?_, by simp [h4], ?_⟩
        · intro m hm
          simp only [List.mem_append, List.mem_singleton] at hm
          rcases hm with hm | rfl
          · exact h2 m hm
          · omega
        · simp only [List.pairwise_append, List.pairwise_singleton, true_and, List.mem_singleton]
          refine ⟨h3, ?_⟩
          rintro a ha b rfl
          refine Nat.Coprime.symm (Nat.Coprime.coprime_dvd_right (List.dvd_prod ha) ?_)
          rw [← h1]; exact hg
        · intro j hj
          simp only [List.length_append, List.length_singleton] at hj
          simp only
          by_cases hj2 : j < ms.length
          · rw [List.getElem_append_left hj2, List.getD_append _ _ _ _ (by omega)]
            exact h5 j hj2
          · have : j = ms.length := by omega
            subst this
            rw [List.getElem_append_right (le_refl _), List.getD_append_right _ _ _ _ (by omega), h4]
            simp only [Nat.sub_self, List.getElem_cons_zero, List.getD_cons_zero]
            rw [hinit, Nat.shiftLeft_eq, Nat.shiftLeft_eq]
            apply Nat.ModEq.mul_right
            have : init = (init - i) + i := by omega
            conv_lhs => rw [this]
            simp [Nat.ModEq]
      split
      · exact hnew
      · exact ih his' _ hnew
    · exact ih his' _ h

theorem findModuli_spec (total precision : Nat) (hp : 1 ≤ precision) :
    (∀ m ∈ (findModuli total precision).1, 0 < m) ∧ (findModuli total precision).1.Pairwise Nat.Coprime ∧
    (findModuli total precision).2.length = (findModuli total precision).1.length ∧
    ∀ i (h : i < (findModuli total precision).1.length),
      2 ^ precision ≡ (findModuli total precision).2.getD i 0 [MOD (findModuli total precision).1[i]] := by
  have hlt : ∀ e, precision >>> 1 ≤ e → ∀ i ∈ List.range (2 ^ (precision >>> 1) - 1), i < 2 ^ e := by
    intro e he i hi
    have := Nat.pow_le_pow_right (show 0 < 2 by norm_num) he
    rw [List.mem_range] at hi
    omega
  have hs : precision >>> 1 = precision / 2 := by simp [Nat.shiftRight_eq_div_pow]
  have h0 : FindInv precision ([], [], 1) := ⟨rfl, by simp, by simp, rfl, by simp⟩
  have h1 := findLoop_inv precision total (2 ^ precision) 0 (List.range (2 ^ (precision >>> 1) - 1)) (by simp)
    (hlt _ (by omega)) _ h0
  have fin : ∀ st : List Nat × List Nat × Nat, FindInv precision st →
      (∀ m ∈ st.1, 0 < m) ∧ st.1.Pairwise Nat.Coprime ∧ st.2.1.length = st.1.length ∧
      ∀ i (h : i < st.1.length), 2 ^ precision ≡ st.2.1.getD i 0 [MOD st.1[i]] :=
    fun st h => ⟨h.pos, h.co, h.len, h.off⟩
  unfold findModuli
  dsimp only
  split
  · exact fin _ h1
  · split
    · refine fin _ (findLoop_inv precision total (2 ^ (precision - 1)) 1 _ ?_ (hlt _ (by omega)) _ h1)
      rw [Nat.shiftLeft_eq, ← pow_add]
      congr 1
      omega
    · exact fin _ h1

end Verif.EcRns

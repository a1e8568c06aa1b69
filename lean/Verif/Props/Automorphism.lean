import Verif.Lemmas.Automorphism

/-!
# Properties C42 and C43: slot permutations as ring automorphisms
-/

namespace Verif.Props
open Verif.Automorphism Verif.BitReversal Verif.NttCpu Verif.Slots Verif.Nega Finset

/-- `y` has the coefficients of `x(X^g)` in `Z[X]/(X^N + 1)`: the coefficient of `X^j` moves to `X^(g j)`, that is to
position `g j mod N` with one sign change for every multiple of `N` passed. -/
def IsSubst (N g : Nat) (x y : Nat → Int) : Prop :=
  ∀ j, j < N → y (g * j % N) = if (g * j / N) % 2 = 0 then x j else -x j

theorem mul_mod_injOn (N g : Nat) (hg : Nat.Coprime g N) : Set.InjOn (fun j => g * j % N) (range N) := by
  intro a ha b hb hab
  have ha' := mem_range.1 ha
  have hb' := mem_range.1 hb
  have h1 : g * a ≡ g * b [MOD N] := hab
  have h2 : a ≡ b [MOD N] := Nat.ModEq.cancel_left_of_coprime (by rw [Nat.gcd_comm]; exact hg) h1
  unfold Nat.ModEq at h2
  rwa [Nat.mod_eq_of_lt ha', Nat.mod_eq_of_lt hb'] at h2

theorem image_mul_mod (N g : Nat) (hg : Nat.Coprime g N) : (range N).image (fun j => g * j % N) = range N := by
  apply eq_of_subset_of_card_le
  · intro a ha
    obtain ⟨j, hj, rfl⟩ := mem_image.1 ha
    have := mem_range.1 hj
    exact mem_range.2 (Nat.mod_lt _ (by omega))
  · rw [card_image_of_injOn (mul_mod_injOn N g hg)]

theorem x_pow_split {R : Type*} [CommRing R] (N e : Nat) :
    x R N ^ e = (if (e / N) % 2 = 0 then (1 : Q R N) else -1) * x R N ^ (e % N) := by
  conv_lhs => rw [← Nat.div_add_mod e N, pow_add, pow_mul, x_pow_N]
  congr 1
  generalize e / N = m
  split
  · rename_i h
    obtain ⟨t, rfl⟩ : ∃ t, m = 2 * t := ⟨m / 2, by omega⟩
    rw [pow_mul]; simp
  · rename_i h
    obtain ⟨t, rfl⟩ : ∃ t, m = 2 * t + 1 := ⟨m / 2, by omega⟩
    rw [pow_succ, pow_mul]; simp

/-- The substitution on coefficients is `sigma`. -/
theorem sigma_isSubst (k q g : Nat) (hg : g % 2 = 1) (x y : Nat → Int) (h : IsSubst (2 ^ k) g x y) :
    sigma g hg (polyOf k q x) = polyOf k q y := by
  have hc : Nat.Coprime g (2 ^ k) := Nat.Coprime.pow_right _ (by
    rw [Nat.coprime_two_right]; exact Nat.odd_iff.2 hg)
  rw [sigma_polyOf]
  have e : polyOf k q y = ∑ j ∈ range (2 ^ k), (y j : Rq k q) * Nega.x (ZMod q) (2 ^ k) ^ j := by
    unfold polyOf
    rw [ev_eq, ← Fin.sum_univ_eq_sum_range (fun j => (y j : Rq k q) * Nega.x (ZMod q) (2 ^ k) ^ j)]
    apply sum_congr rfl
    intro i _
    rw [cst_int]
  rw [e]
  conv_rhs => rw [← image_mul_mod (2 ^ k) g hc, sum_image (mul_mod_injOn _ g hc)]
  apply sum_congr rfl
  intro j hj
  rw [h j (mem_range.1 hj), x_pow_split]
  split <;> push_cast <;> ring

/-- C42: for every power of two `N ≤ 2^31`, every odd `g` of the `uint32` range and every polynomial `x`, applying
`apply_automorphism_ntt` to the transform of `x` gives exactly the transform of `x(X^g)`, although the indices are
computed in 32-bit arithmetic. -/
theorem C42_automorphism (k q : Nat) (h : NttPrime k q) (hk : k ≤ 31) (g : Nat) (hg : g % 2 = 1) (hlt : g < 2 ^ 32)
    (x y : Nat → Int) (hxy : IsSubst (2 ^ k) g x y) :
    ∃ X Y out, nttPoly (2 ^ k) q x = .ok X ∧ nttPoly (2 ^ k) q y = .ok Y ∧
      applyAutomorphism (2 ^ k) (g : Int) (fun p => (X p).toNat) = .ok out ∧
      ∀ p, p < 2 ^ k → (out p : Int) = Y p := by
  obtain ⟨X, h1, h2, h3⟩ := ntt_ringOf h x
  obtain ⟨Y, g1, g2, g3⟩ := ntt_ringOf h y
  obtain ⟨π, p1, p2, p3⟩ := applyAutomorphism_ringOf h hk g hg hlt
  refine ⟨X, Y, _, h1, g1, p2 _, ?_⟩
  have e : ringOf k q (fun p => (X (π p)).toNat) = ringOf k q (fun p => (Y p).toNat) := by
    rw [p3 (fun p => (X p).toNat), h3, g3, sigma_isSubst k q g hg x y hxy]
  intro p hp
  have := ringOf_inj h (fun p _ => toNat_lt (h2 _ (p1 p)).1 (h2 _ (p1 p)).2)
    (fun p hp => toNat_lt (g2 p hp).1 (g2 p hp).2) e p hp
  rw [this, Int.toNat_of_nonneg (g2 p hp).1]

/-- C42: every polynomial has such an `x(X^g)`, so `C42_automorphism` applies to all of them. -/
theorem C42_subst_exists (k g : Nat) (hg : g % 2 = 1) (x : Nat → Int) : ∃ y, IsSubst (2 ^ k) g x y := by
  have hc : Nat.Coprime g (2 ^ k) := Nat.Coprime.pow_right _ (by
    rw [Nat.coprime_two_right]; exact Nat.odd_iff.2 hg)
  classical
  refine ⟨fun i => if hi : ∃ j, j < 2 ^ k ∧ g * j % 2 ^ k = i then
    (if (g * hi.choose / 2 ^ k) % 2 = 0 then x hi.choose else -x hi.choose) else 0, ?_⟩
  intro j hj
  have hex : ∃ j', j' < 2 ^ k ∧ g * j' % 2 ^ k = g * j % 2 ^ k := ⟨j, hj, rfl⟩
  simp only [dif_pos hex]
  have : hex.choose = j := mul_mod_injOn (2 ^ k) g hc (mem_coe.2 (mem_range.2 hex.choose_spec.1))
    (mem_coe.2 (mem_range.2 hj)) hex.choose_spec.2
  rw [this]

example := C42_subst_exists 12 5 (by norm_num) (fun j => (j : Int))

/-- Instance: degree 4096, `g = 5`, the polynomial with coefficients `0, 1, 2, ...`. -/
example : ∃ (y : Nat → Int) (X Y : Nat → Int) (out : Nat → Nat), IsSubst (2 ^ 12) 5 (fun j => (j : Int)) y ∧
    nttPoly (2 ^ 12) 1073184769 (fun j => (j : Int)) = .ok X ∧ nttPoly (2 ^ 12) 1073184769 y = .ok Y ∧
    applyAutomorphism (2 ^ 12) 5 (fun p => (X p).toNat) = .ok out ∧ ∀ p, p < 2 ^ 12 → (out p : Int) = Y p := by
  obtain ⟨y, hy⟩ := C42_subst_exists 12 5 rfl (fun j => (j : Int))
  obtain ⟨X, Y, out, h⟩ := C42_automorphism 12 1073184769 (FourStep.nttPrime fourStep_64_64) (by norm_num) 5 (by norm_num)
    (by norm_num) _ y hy
  exact ⟨y, X, Y, out, hy, h⟩

/-- C42: a generator outside the `uint32` range is rejected. -/
theorem C42_rejects (degree : Nat) (g : Int) (data : Nat → Nat) (hg : g < 0 ∨ 2 ^ 32 ≤ g) :
    applyAutomorphism degree g data = .error "OverflowError" := by
  unfold applyAutomorphism
  rw [if_pos hg]

example := C42_rejects 4096 (-1) (fun p => p) (by norm_num)

/-- The coefficients of `x(X^-1)`. -/
theorem isSubst_inv (k : Nat) (x y : Nat → Int) (h0 : y 0 = x 0)
    (hxy : ∀ j, 0 < j → j < 2 ^ k → y (2 ^ k - j) = -x j) : IsSubst (2 ^ k) (2 * 2 ^ k - 1) x y := by
  have hN := Nat.one_le_two_pow (n := k)
  intro j hj
  rcases Nat.eq_zero_or_pos j with rfl | hpos
  · simp [h0]
  · have e : (2 * 2 ^ k - 1) * j = (2 ^ k - j) + 2 ^ k * (2 * j - 1) := by
      obtain ⟨d, hd⟩ : ∃ d, 2 ^ k = j + d := ⟨2 ^ k - j, by omega⟩
      rw [hd]
      have e1 : 2 * (j + d) - 1 = 2 * d + (2 * j - 1) := by omega
      have e2 : j + d - j = d := by omega
      obtain ⟨i, rfl⟩ : ∃ i, j = i + 1 := ⟨j - 1, by omega⟩
      have e3 : 2 * (i + 1) - 1 = 2 * i + 1 := by omega
      rw [e1, e2, e3]; ring
    rw [e, Nat.add_mul_mod_self_left, Nat.mod_eq_of_lt (by omega), Nat.add_mul_div_left _ _ (by omega),
      Nat.div_eq_of_lt (by omega), if_neg (by omega)]
    exact hxy j hpos hj

/-- C43: reversing the slots of the transform of `x` gives exactly the transform of `x(X^-1)`: constant coefficient
unchanged, and coefficient `j > 0` moved to `N - j` with the sign changed. -/
theorem C43_flip (k q : Nat) (h : NttPrime k q) (x y : Nat → Int) (h0 : y 0 = x 0)
    (hxy : ∀ j, 0 < j → j < 2 ^ k → y (2 ^ k - j) = -x j) :
    ∃ X Y, nttPoly (2 ^ k) q x = .ok X ∧ nttPoly (2 ^ k) q y = .ok Y ∧
      ∀ p, p < 2 ^ k → (Automorphism.flip (2 ^ k) (fun p => (X p).toNat) p : Int) = Y p := by
  have hN := Nat.one_le_two_pow (n := k)
  have hsub := isSubst_inv k x y h0 hxy
  obtain ⟨X, h1, h2, h3⟩ := ntt_ringOf h x
  obtain ⟨Y, g1, g2, g3⟩ := ntt_ringOf h y
  refine ⟨X, Y, h1, g1, ?_⟩
  have e : ringOf k q (Automorphism.flip (2 ^ k) (fun p => (X p).toNat)) = ringOf k q (fun p => (Y p).toNat) := by
    rw [flip_ringOf h, h3, g3, sigma_isSubst k q _ _ x y hsub]
  intro p hp
  have := ringOf_inj h (f := Automorphism.flip (2 ^ k) (fun p => (X p).toNat))
    (fun p hp => by unfold Automorphism.flip; exact toNat_lt (h2 _ (by omega)).1 (h2 _ (by omega)).2)
    (fun p hp => toNat_lt (g2 p hp).1 (g2 p hp).2) e p hp
  rw [this, Int.toNat_of_nonneg (g2 p hp).1]

/-- Instance: `5 X + 3` becomes `3 - 5 X^4095`. -/
example := C43_flip 12 1073184769 (FourStep.nttPrime fourStep_64_64)
  (fun j => if j = 0 then 3 else if j = 1 then 5 else 0) (fun j => if j = 0 then 3 else if j = 4095 then -5 else 0) rfl (by
    intro j h0 hj
    split_ifs <;> omega)

/-- C43: flipping is the automorphism with `g = 2N - 1`, the inverse of `X ↦ X`. -/
theorem C43_flip_is_inverse (k q : Nat) :
    x (ZMod q) (2 ^ k) ^ (2 * 2 ^ k - 1) * x (ZMod q) (2 ^ k) = 1 := by
  have hN := Nat.one_le_two_pow (n := k)
  rw [← pow_succ]
  have : 2 * 2 ^ k - 1 + 1 = 2 * 2 ^ k := by omega
  rw [this, x_pow_2N]

/-- The hypotheses are met: degree 4096 with a 30-bit prime of the tests, and `y` for `N = 4`, `g = 3`. -/
example : NttPrime 12 1073184769 := FourStep.nttPrime fourStep_64_64
example : IsSubst 4 3 (fun j => [10, 11, 12, 13].getD j 0) (fun j => [10, 13, -12, 11].getD j 0) := by
  unfold IsSubst; decide

end Verif.Props

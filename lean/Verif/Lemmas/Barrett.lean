import Verif.Model.Barrett
import Mathlib.Tactic.Ring
import Mathlib.Tactic.Linarith
import Mathlib.Data.Nat.Bitwise

/-!
# Lemmas on `floorTrueDiv` and the Barrett quotient
-/

namespace Verif.Barrett

/-- The double-precision quotient has the right floor unless the exact quotient is within half a unit in the
last place below an integer. -/
theorem floorTrueDiv_eq (a b : Nat) (hb : 0 < b)
    (h : b < 2 ^ (53 - Nat.log 2 (a / b)) * (b - a % b)) (hlog : Nat.log 2 (a / b) ≤ 52) :
    floorTrueDiv a b = a / b := by
  unfold floorTrueDiv
  simp only
  set k := 52 - Nat.log 2 (a / b) with hk
  have hk1 : 53 - Nat.log 2 (a / b) = k + 1 := by omega
  rw [hk1] at h
  have hq : a * 2 ^ k / b / 2 ^ k = a / b := by
    rw [Nat.div_div_eq_div_mul, Nat.mul_comm b, ← Nat.div_div_eq_div_mul, Nat.mul_div_cancel _ (by positivity)]
  split
  · rename_i hr
    set q := a * 2 ^ k / b
    set r := a * 2 ^ k % b
    have hqr : b * q + r = a * 2 ^ k := Nat.div_add_mod _ _
    have hA : b * (a / b) + a % b = a := Nat.div_add_mod _ _
    set A := a / b
    set s := a % b
    have hs : s < b := Nat.mod_lt _ hb
    have h2r : b ≤ 2 * r := by omega
    have hP : 0 < 2 ^ k := by positivity
    have hlt : q < 2 ^ k * (A + 1) := by
      have : q / 2 ^ k < A + 1 := by omega
      rwa [Nat.div_lt_iff_lt_mul hP, Nat.mul_comm] at this
    have hne : q + 1 ≠ 2 ^ k * (A + 1) := by
      intro he
      obtain ⟨d, hd⟩ : ∃ d, b = s + d := ⟨b - s, by omega⟩
      have hd' : b - s = d := by omega
      rw [hd'] at h
      have e1 : b * (q + 1) + r = a * 2 ^ k + b := by rw [Nat.mul_add, Nat.mul_one]; omega
      rw [he, ← hA] at e1
      have e2 : b * (2 ^ k * (A + 1)) = 2 ^ k * (b * A) + 2 ^ k * s + 2 ^ k * d := by
        rw [hd]; ring
      have e3 : (b * A + s) * 2 ^ k = 2 ^ k * (b * A) + 2 ^ k * s := by ring
      have e4 : 2 ^ (k + 1) * d = 2 * (2 ^ k * d) := by ring
      omega
    have hle : A ≤ (q + 1) / 2 ^ k := by rw [← hq]; exact Nat.div_le_div_right (by omega)
    have hlt' : (q + 1) / 2 ^ k < A + 1 := by
      rw [Nat.div_lt_iff_lt_mul hP, Nat.mul_comm]; omega
    omega
  · exact hq

theorem two_pow_clog_lt {m : Nat} (hm : 2 ≤ m) : 2 ^ Nat.clog 2 m < 2 * m := by
  have h := Nat.pow_pred_clog_lt_self (b := 2) (by norm_num) (x := m) (by omega)
  have hpos : 0 < Nat.clog 2 m := Nat.clog_pos (by norm_num) hm
  obtain ⟨c, hc⟩ : ∃ c, Nat.clog 2 m = c + 1 := ⟨Nat.clog 2 m - 1, by omega⟩
  rw [hc] at h ⊢
  simp only [Nat.pred_eq_sub_one, Nat.add_sub_cancel] at h
  rw [pow_succ]; omega

/-- The exact quotient `2^(2L)/m` has its leading bit at position `L`. -/
theorem log_quotient {m : Nat} (hm : 1 ≤ m) :
    Nat.log 2 (2 ^ (2 * Nat.clog 2 m) / m) = Nat.clog 2 m := by
  rcases Nat.lt_or_ge m 2 with h | h
  · have : m = 1 := by omega
    subst this; simp
  · set L := Nat.clog 2 m
    have h1 : m ≤ 2 ^ L := Nat.le_pow_clog (by norm_num) m
    have h2 : 2 ^ L < 2 * m := two_pow_clog_lt h
    have hsq : 2 ^ (2 * L) = 2 ^ L * 2 ^ L := by ring
    rw [Nat.log_eq_iff (Or.inr ⟨by norm_num, ?_⟩)]
    · constructor
      · rw [Nat.le_div_iff_mul_le (by omega), hsq]; exact Nat.mul_le_mul_left _ h1
      · rw [Nat.div_lt_iff_lt_mul (by omega), hsq, pow_succ, Nat.mul_assoc]
        exact Nat.mul_lt_mul_of_pos_left h2 (by positivity)
    · have : 1 ≤ 2 ^ (2 * L) / m := by
        rw [Nat.le_div_iff_mul_le (by omega), hsq]
        nlinarith [Nat.one_le_two_pow (n := L)]
      omega

/-- The Barrett quotient is within one of the true one, for a reciprocal `mm` that is the floor of `2^s/m` or,
by a rounding error of `k/m`, the integer above it. -/
theorem barrett_quotient (z m s mm k : Nat) (hm : 0 < m) (hz : z < 2 ^ s)
    (h1 : mm * m ≤ 2 ^ s + k) (h2 : 2 ^ s < (mm + 1) * m) (hk : z * k < 2 ^ s) :
    let t := z * mm / 2 ^ s
    t * m ≤ z ∧ z < t * m + 2 * m := by
  intro t
  have hP : 0 < 2 ^ s := by positivity
  have h3 : t * 2 ^ s ≤ z * mm := Nat.div_mul_le_self _ _
  have h4 : z * mm < (t + 1) * 2 ^ s := by
    have := Nat.lt_div_mul_add (a := z * mm) hP
    rw [Nat.add_mul, Nat.one_mul]; exact this
  constructor
  · have : t * m * 2 ^ s < (z + 1) * 2 ^ s := by
      calc t * m * 2 ^ s = (t * 2 ^ s) * m := by ring
        _ ≤ z * mm * m := Nat.mul_le_mul_right _ h3
        _ = z * (mm * m) := by ring
        _ ≤ z * (2 ^ s + k) := Nat.mul_le_mul_left _ h1
        _ = z * 2 ^ s + z * k := by ring
        _ < z * 2 ^ s + 2 ^ s := by omega
        _ = (z + 1) * 2 ^ s := by ring
    have := Nat.lt_of_mul_lt_mul_right this
    omega
  · have : z * 2 ^ s < (t * m + 2 * m) * 2 ^ s := by
      rcases Nat.eq_zero_or_pos z with h0 | h0
      · rw [h0, Nat.zero_mul]; positivity
      calc z * 2 ^ s < z * ((mm + 1) * m) := Nat.mul_lt_mul_of_pos_left h2 h0
        _ = (z * mm) * m + z * m := by ring
        _ ≤ ((t + 1) * 2 ^ s) * m + 2 ^ s * m := by
            apply Nat.add_le_add
            · exact Nat.mul_le_mul_right _ h4.le
            · exact Nat.mul_le_mul_right _ hz.le
        _ = (t * m + 2 * m) * 2 ^ s := by ring
    exact Nat.lt_of_mul_lt_mul_right this

/-- The two-word evaluation of the high product is exact. -/
theorem split_shift (z mm w sw : Nat) :
    ((z % 2 ^ w * mm) / 2 ^ w + z / 2 ^ w * mm) / 2 ^ sw = z * mm / 2 ^ (w + sw) := by
  have h : (z % 2 ^ w * mm) / 2 ^ w + z / 2 ^ w * mm = z * mm / 2 ^ w := by
    conv_rhs => rw [← Nat.mod_add_div z (2 ^ w), Nat.add_mul, Nat.mul_assoc]
    rw [Nat.add_mul_div_left _ _ (by positivity)]
  rw [h, Nat.div_div_eq_div_mul, ← pow_add]

theorem sub64_of_le {a b : Nat} (h : b ≤ a) (ha : a < 2 ^ 64) : sub64 a b = a - b := by
  unfold sub64; omega

/-- The exact quotient fits in 32 bits, strictly. -/
theorem quotient_lt {m : Nat} (hm : 0 < m) (hm31 : m ≤ 2 ^ 31) : 2 ^ (2 * Nat.clog 2 m) / m < 2 ^ 32 := by
  set L := Nat.clog 2 m with hL
  have hL31 : L ≤ 31 := by rw [hL, Nat.clog_le_iff_le_pow (by norm_num)]; exact hm31
  rw [Nat.div_lt_iff_lt_mul hm]
  rcases Nat.lt_or_ge m 2 with h | h
  · have h1 : m = 1 := by omega
    rw [h1] at hL
    simp at hL
    rw [hL, h1]; norm_num
  · have h2 : 2 ^ L < 2 * m := two_pow_clog_lt h
    have : 2 ^ (2 * L) = 2 ^ L * 2 ^ L := by ring
    rw [this]
    have h31 : 2 ^ L ≤ 2 ^ 31 := Nat.pow_le_pow_right (by norm_num) hL31
    calc 2 ^ L * 2 ^ L < 2 ^ L * (2 * m) := Nat.mul_lt_mul_of_pos_left h2 (by positivity)
      _ ≤ 2 ^ 31 * (2 * m) := Nat.mul_le_mul_right _ h31
      _ = 2 ^ 32 * m := by ring

/-- The reduction is right for a reciprocal whose rounding error `k/m` is small against `z`, all `m ≤ 2^31`
and `z < 2^s`. -/
theorem modularReduction_general (m z k mm : Nat) (hm : 0 < m) (hm31 : m ≤ 2 ^ 31)
    (hz : z < 2 ^ (2 * Nat.clog 2 m)) (hexact : (precompute m).m = mm) (hmmlt : mm ≤ 2 ^ 32)
    (h1 : mm * m ≤ 2 ^ (2 * Nat.clog 2 m) + k) (h2 : 2 ^ (2 * Nat.clog 2 m) < (mm + 1) * m)
    (hk : z * k < 2 ^ (2 * Nat.clog 2 m)) :
    modularReduction z (precompute m) = z % m := by
  set L := Nat.clog 2 m with hL
  have hL31 : L ≤ 31 := by rw [hL, Nat.clog_le_iff_le_pow (by norm_num)]; exact hm31
  have hmL : m ≤ 2 ^ L := Nat.le_pow_clog (by norm_num) m
  have hz62 : z < 2 ^ 62 := lt_of_lt_of_le hz (Nat.pow_le_pow_right (by norm_num) (by omega))
  have hbar := barrett_quotient z m (2 * L) mm k hm hz h1 h2 hk
  have hw : (precompute m).w = min (2 * L) 32 := rfl
  have hsw : (precompute m).sw = 2 * L - min (2 * L) 32 := rfl
  have hmod : (precompute m).modulus = m := rfl
  unfold modularReduction
  simp only [hw, hsw, hmod, hexact, Nat.shiftRight_eq_div_pow]
  have hand : z &&& 0xFFFFFFFF = z % 2 ^ 32 := by
    have : (0xFFFFFFFF : Nat) = 2 ^ 32 - 1 := by norm_num
    rw [this, Nat.and_two_pow_sub_one_eq_mod]
  -- the quotient
  have ht : add64 (mul64 (z &&& 0xFFFFFFFF) mm / 2 ^ min (2 * L) 32) (mul64 (z / 2 ^ min (2 * L) 32) mm) /
      2 ^ (2 * L - min (2 * L) 32) = z * mm / 2 ^ (2 * L) := by
    rw [hand]
    have hz1 : z % 2 ^ 32 < 2 ^ 32 := Nat.mod_lt _ (by positivity)
    have hprod : z % 2 ^ 32 * mm < 2 ^ 64 := by
      calc z % 2 ^ 32 * mm ≤ (2 ^ 32 - 1) * 2 ^ 32 := Nat.mul_le_mul (by omega) hmmlt
        _ < 2 ^ 64 := by norm_num
    have m1 : mul64 (z % 2 ^ 32) mm = z % 2 ^ 32 * mm := Nat.mod_eq_of_lt hprod
    rw [m1]
    rcases Nat.lt_or_ge (2 * L) 32 with h | h
    · have hmin : min (2 * L) 32 = 2 * L := by omega
      rw [hmin, Nat.div_eq_of_lt hz]
      have hzz : z % 2 ^ 32 = z := Nat.mod_eq_of_lt
        (lt_of_lt_of_le hz (Nat.pow_le_pow_right (by norm_num) (by omega)))
      rw [hzz] at hprod ⊢
      have : add64 (z * mm / 2 ^ (2 * L)) (mul64 0 mm) = z * mm / 2 ^ (2 * L) := by
        unfold add64 mul64
        have := Nat.div_le_self (z * mm) (2 ^ (2 * L))
        rw [Nat.zero_mul, Nat.zero_mod, Nat.add_zero]
        exact Nat.mod_eq_of_lt (by omega)
      rw [this, Nat.sub_self]; simp
    · have hmin : min (2 * L) 32 = 32 := by omega
      rw [hmin]
      have hz2 : z / 2 ^ 32 < 2 ^ 30 := by
        rw [Nat.div_lt_iff_lt_mul (by positivity)]; omega
      have hp2 : z / 2 ^ 32 * mm < 2 ^ 62 := by
        calc z / 2 ^ 32 * mm ≤ (2 ^ 30 - 1) * 2 ^ 32 := Nat.mul_le_mul (by omega) hmmlt
          _ < 2 ^ 62 := by norm_num
      have m2 : mul64 (z / 2 ^ 32) mm = z / 2 ^ 32 * mm := Nat.mod_eq_of_lt (by omega)
      rw [m2]
      have hd : z % 2 ^ 32 * mm / 2 ^ 32 < 2 ^ 32 := by
        rw [Nat.div_lt_iff_lt_mul (by positivity)]; omega
      have m3 : add64 (z % 2 ^ 32 * mm / 2 ^ 32) (z / 2 ^ 32 * mm) =
          z % 2 ^ 32 * mm / 2 ^ 32 + z / 2 ^ 32 * mm := Nat.mod_eq_of_lt (by omega)
      rw [m3, split_shift]
      congr 2; omega
  rw [ht]
  set t := z * mm / 2 ^ (2 * L)
  have m4 : mul64 t m = t * m := Nat.mod_eq_of_lt (by omega)
  rw [m4, sub64_of_le hbar.1 (by omega)]
  have hfin : ∀ r, r < m → (∃ q, z = q * m + r) → r % 2 ^ 32 = z % m := by
    rintro r hr ⟨q, hq⟩
    rw [hq, Nat.mul_comm q m, Nat.mul_add_mod, Nat.mod_eq_of_lt hr, Nat.mod_eq_of_lt (by omega)]
  split
  · rename_i hge
    rw [sub64_of_le hge (by omega)]
    exact hfin _ (by omega) ⟨t + 1, by rw [Nat.add_mul, Nat.one_mul]; omega⟩
  · exact hfin _ (by omega) ⟨t, by omega⟩

/-- Exactness of the precomputed reciprocal. -/
theorem precompute_exact (m : Nat) (hm : 0 < m) (hm31 : m ≤ 2 ^ 31)
    (h : m < 2 ^ (53 - Nat.clog 2 m) * (m - 2 ^ (2 * Nat.clog 2 m) % m)) :
    (precompute m).m = 2 ^ (2 * Nat.clog 2 m) / m := by
  have hL31 : Nat.clog 2 m ≤ 31 := by rw [Nat.clog_le_iff_le_pow (by norm_num)]; exact hm31
  show floorTrueDiv _ _ = _
  apply floorTrueDiv_eq _ _ hm
  · rw [log_quotient hm]; exact h
  · rw [log_quotient hm]; omega

/-- The reduction with the exact reciprocal. -/
theorem modularReduction_exact (m z : Nat) (hm : 0 < m) (hm31 : m ≤ 2 ^ 31)
    (hz : z < 2 ^ (2 * Nat.clog 2 m)) (hexact : (precompute m).m = 2 ^ (2 * Nat.clog 2 m) / m) :
    modularReduction z (precompute m) = z % m := by
  refine modularReduction_general m z 0 _ hm hm31 hz hexact (quotient_lt hm hm31).le ?_ ?_ (by positivity)
  · exact Nat.div_mul_le_self _ _
  · have := Nat.lt_div_mul_add (a := 2 ^ (2 * Nat.clog 2 m)) hm
    rw [Nat.add_mul, Nat.one_mul]; exact this

/-- The floating-point quotient is the floor, or the next integer if that is within half a unit in the last
place. -/
theorem floorTrueDiv_cases (a b : Nat) (hb : 0 < b) (hlog : Nat.log 2 (a / b) ≤ 52) :
    floorTrueDiv a b = a / b ∨
    (floorTrueDiv a b = a / b + 1 ∧ 2 ^ (53 - Nat.log 2 (a / b)) * (b - a % b) ≤ b) := by
  rcases Nat.lt_or_ge b (2 ^ (53 - Nat.log 2 (a / b)) * (b - a % b)) with h | h
  · exact Or.inl (floorTrueDiv_eq a b hb h hlog)
  · have hle : a / b ≤ floorTrueDiv a b ∧ floorTrueDiv a b ≤ a / b + 1 := by
      unfold floorTrueDiv
      simp only
      set k := 52 - Nat.log 2 (a / b)
      have hP : 0 < 2 ^ k := by positivity
      have hq : a * 2 ^ k / b / 2 ^ k = a / b := by
        rw [Nat.div_div_eq_div_mul, Nat.mul_comm b, ← Nat.div_div_eq_div_mul, Nat.mul_div_cancel _ hP]
      have h1 : a / b ≤ (a * 2 ^ k / b + 1) / 2 ^ k := by rw [← hq]; exact Nat.div_le_div_right (by omega)
      have h2 : (a * 2 ^ k / b + 1) / 2 ^ k ≤ a / b + 1 := by
        rw [← hq, ← Nat.add_div_right _ hP]; exact Nat.div_le_div_right (by omega)
      split
      · exact ⟨h1, h2⟩
      · rw [hq]; exact ⟨le_refl _, by omega⟩
    omega

/-- For every modulus up to `2^31`, inputs below `2^53` are reduced correctly whatever the rounding. -/
theorem modularReduction_lt53 (m z : Nat) (hm : 0 < m) (hm31 : m ≤ 2 ^ 31)
    (hz : z < 2 ^ (2 * Nat.clog 2 m)) (hz53 : z < 2 ^ 53) :
    modularReduction z (precompute m) = z % m := by
  have hL31 : Nat.clog 2 m ≤ 31 := by rw [Nat.clog_le_iff_le_pow (by norm_num)]; exact hm31
  have hmL : m ≤ 2 ^ Nat.clog 2 m := Nat.le_pow_clog (by norm_num) m
  have hlq := log_quotient (m := m) hm
  rcases floorTrueDiv_cases (2 ^ (2 * Nat.clog 2 m)) m hm (by rw [hlq]; omega) with h | ⟨h, h'⟩
  · exact modularReduction_exact m z hm hm31 hz h
  · rw [hlq] at h'
    set L := Nat.clog 2 m
    have hql := quotient_lt hm hm31
    have hdm : m * (2 ^ (2 * L) / m) + 2 ^ (2 * L) % m = 2 ^ (2 * L) := Nat.div_add_mod _ _
    have hml := Nat.mod_lt (2 ^ (2 * L)) hm
    obtain ⟨k, hk⟩ : ∃ k, k = m - 2 ^ (2 * L) % m := ⟨_, rfl⟩
    obtain ⟨A, hA⟩ : ∃ A, A = 2 ^ (2 * L) / m := ⟨_, rfl⟩
    rw [← hA] at h hql hdm
    refine modularReduction_general m z k (A + 1) hm hm31 hz h (by omega) ?_ ?_ ?_
    · show (A + 1) * m ≤ 2 ^ (2 * L) + k
      have := Nat.mul_comm A m
      rw [Nat.add_mul, Nat.one_mul]; omega
    · show 2 ^ (2 * L) < (A + 1 + 1) * m
      have := Nat.mul_comm A m
      rw [Nat.add_mul, Nat.add_mul, Nat.one_mul]; omega
    · rw [← hk] at h'
      have hz' : z * k * 2 ^ (53 - L) ≤ z * m := by
        calc z * k * 2 ^ (53 - L) = z * (2 ^ (53 - L) * k) := by ring
          _ ≤ z * m := Nat.mul_le_mul_left _ h'
      have h3 : z * m < 2 ^ (2 * L) * 2 ^ (53 - L) := by
        have e : 2 ^ (2 * L) * 2 ^ (53 - L) = 2 ^ 53 * 2 ^ L := by rw [← pow_add, ← pow_add]; congr 1; omega
        rw [e]
        calc z * m ≤ z * 2 ^ L := Nat.mul_le_mul_left _ hmL
          _ < 2 ^ 53 * 2 ^ L := Nat.mul_lt_mul_of_pos_right hz53 (by positivity)
      exact Nat.lt_of_mul_lt_mul_right (lt_of_le_of_lt hz' h3)

end Verif.Barrett

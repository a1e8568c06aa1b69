import Verif.Lemmas.EcRns

/-!
# The import-time tables of the residue number system
-/

namespace Verif.EcRns
open Verif.EcChunks Finset

set_option exponentiation.threshold 2000

/-! ## The moduli of util.py -/

theorem MODULI_len : MODULI.length = 50 := by decide +kernel
theorem RNS_T_len : RNS_T.length = 50 := by decide +kernel
theorem MODULI_range : ∀ m ∈ MODULI, 32707 ≤ m ∧ m ≤ 65536 := by decide +kernel
theorem RNS_T_lt : ∀ t ∈ RNS_T, t < 256 := by decide +kernel
theorem RNS_T_pos (i : Nat) (h0 : 0 < i) (hi : i < 50) : 0 < RNS_T.getD i 0 := by
  have h : ∀ i, i < 50 → 0 < i → 0 < RNS_T.getD i 0 := by decide +kernel
  exact h i hi h0

attribute [local irreducible] BIGM

theorem MODULI_pos : ∀ m ∈ MODULI, 0 < m := (findModuli_spec TOTAL 16 (by norm_num)).1
theorem MODULI_co : MODULI.Pairwise Nat.Coprime := (findModuli_spec TOTAL 16 (by norm_num)).2.1

theorem md_eq {j : Nat} (hj : j < 50) : MODULI.getD j 0 = MODULI[j]'(by rw [ MODULI_len]; exact hj) :=
  List.getD_eq_getElem _ _ _

theorem md_mem {j : Nat} (hj : j < 50) : MODULI.getD j 0 ∈ MODULI := by rw [md_eq hj]; exact List.getElem_mem _

theorem t_lt {j : Nat} (hj : j < 50) : RNS_T.getD j 0 < 256 := by
  rw [List.getD_eq_getElem _ _ (by rw [RNS_T_len]; exact hj)]
  exact RNS_T_lt _ (List.getElem_mem _)

theorem off {j : Nat} (hj : j < 50) : 2 ^ 16 ≡ RNS_T.getD j 0 [MOD MODULI.getD j 0] := by
  rw [md_eq hj]
  exact (findModuli_spec TOTAL 16 (by norm_num)).2.2.2 j _

theorem BIGM_eq : BIGM = Crt.product MODULI := by unfold BIGM; rfl

theorem BIGM_pos : 0 < BIGM := by rw [BIGM_eq]; exact Crt.product_pos MODULI_pos

theorem md_dvd {m : Nat} (hm : m ∈ MODULI) : m ∣ BIGM := by rw [BIGM_eq]; exact Crt.product_dvd hm

attribute [local irreducible] MODULI RNS_T FACTORS TOTAL

/-! ## The reconstruction factors -/

theorem factors_spec : FACTORS.length = 50 ∧ ∀ i, i < 50 →
    FACTORS.getD i 0 < BIGM ∧ FACTORS.getD i 0 % MODULI.getD i 0 = 1 ∧
    BIGM / MODULI.getD i 0 ∣ FACTORS.getD i 0 ∧ ∀ j, j < 50 → j ≠ i → FACTORS.getD i 0 % MODULI.getD j 0 = 0 := by
  have hone : ∀ m ∈ MODULI, ∃ v : Nat, CkksMath.invMod ((BIGM / m % m : Nat) : Int) m = .ok (v : Int) ∧
      ((BIGM / m * v : Nat) : ZMod m) = 1 := by
    intro m hm
    obtain ⟨i, hi, rfl⟩ := List.mem_iff_getElem.1 hm
    obtain ⟨c1, -⟩ := Crt.cofactor MODULI_co MODULI_pos i hi
    have hp := MODULI_pos _ hm
    obtain ⟨v, hv, h0, -, hv1⟩ := CkksMath.invMod_ok ((BIGM / MODULI[i] % MODULI[i] : Nat) : Int) MODULI[i]
      (by omega) (by
        rw [Int.gcd_natCast_natCast, ← Nat.gcd_rec, Nat.gcd_comm, BIGM_eq]
        exact c1)
    refine ⟨v.toNat, by rw [hv, Int.toNat_of_nonneg h0], ?_⟩
    have hv2 : ((v : Int) : ZMod MODULI[i]) = ((v.toNat : Nat) : ZMod MODULI[i]) := by
      rw [← Int.cast_natCast (R := ZMod MODULI[i]), Int.toNat_of_nonneg h0]
    rw [hv2] at hv1
    simp only [Int.cast_natCast, ZMod.natCast_mod] at hv1
    rw [Nat.cast_mul]
    exact hv1
  obtain ⟨pre, h1, h2, h3⟩ := Crt.mapM_ok (fun m : Nat => (do
      let rest := BIGM / m
      let inverse ← CkksMath.invMod ((rest % m : Nat) : Int) m
      pure ((rest * inverse) % (BIGM : Int)) : Except String Int)) MODULI (by
    intro m hm
    obtain ⟨v, hv, -⟩ := hone m hm
    exact ⟨((BIGM / m : Nat) : Int) * (v : Int) % (BIGM : Int), by simp only [hv, bind, Except.bind, pure, Except.pure]⟩)
  have hF : FACTORS = pre.map Int.toNat := by
    unfold FACTORS
    have : Crt.rnsPrecompute MODULI = .ok pre := by rw [BIGM_eq] at h1; exact h1
    rw [this]
  have hlen : pre.length = 50 := by rw [h2, MODULI_len]
  refine ⟨by rw [hF, List.length_map, hlen], ?_⟩
  intro i hi
  have hi' : i < MODULI.length := by rw [ MODULI_len]; exact hi
  have hmem := List.getElem_mem hi'
  obtain ⟨v, hv, hv1⟩ := hone _ hmem
  have hb := h3 i hi' (by omega)
  simp only [hv, bind, Except.bind, pure, Except.pure, Except.ok.injEq] at hb
  have hval : FACTORS.getD i 0 = BIGM / MODULI[i] * v % BIGM := by
    rw [hF, List.getD_eq_getElem _ _ (by rw [List.length_map]; omega), List.getElem_map, ← hb]
    have : ((BIGM / MODULI[i] : Nat) : Int) * (v : Int) % (BIGM : Int) = ((BIGM / MODULI[i] * v % BIGM : Nat) : Int) := by
      push_cast; rfl
    rw [this, Int.toNat_natCast]
  have hdvd : MODULI[i] ∣ BIGM := md_dvd hmem
  rw [md_eq hi]
  refine ⟨by rw [hval]; exact Nat.mod_lt _ BIGM_pos, ?_, ?_, ?_⟩
  · rw [hval, Nat.mod_mod_of_dvd _ hdvd]
    have hm1 : 1 < MODULI[i] := by have := MODULI_range _ hmem; omega
    have := (ZMod.natCast_eq_natCast_iff' (BIGM / MODULI[i] * v) 1 MODULI[i]).1 (by rw [hv1, Nat.cast_one])
    rwa [Nat.mod_eq_of_lt hm1] at this
  · rw [hval]
    exact (Nat.dvd_mod_iff (Nat.div_dvd_of_dvd hdvd)).2 (Dvd.intro _ rfl)
  · intro j hj hne
    have hj' : j < MODULI.length := by rw [ MODULI_len]; exact hj
    rw [md_eq hj, hval, Nat.mod_mod_of_dvd _ (md_dvd (List.getElem_mem hj'))]
    obtain ⟨-, c2⟩ := Crt.cofactor MODULI_co MODULI_pos i hi'
    rw [BIGM_eq]
    exact Nat.mod_eq_zero_of_dvd (Dvd.dvd.mul_right (c2 j hj' hne) _)

/-! ## Flattened pairs -/

theorem flatMap_pair_len {α : Type} (f g : α → Nat) (l : List α) : (l.flatMap fun v => [f v, g v]).length = 2 * l.length := by
  induction l with
  | nil => rfl
  | cons a l ih => simp only [List.flatMap_cons, List.length_append, ih, List.length_cons, List.length_nil]; omega

theorem flatMap_pair_getD {α : Type} (f g : α → Nat) (l : List α) (i : Nat) (h : i < l.length) :
    (l.flatMap fun v => [f v, g v]).getD (2 * i) 0 = f l[i] ∧
    (l.flatMap fun v => [f v, g v]).getD (2 * i + 1) 0 = g l[i] := by
  induction l generalizing i with
  | nil => simp at h
  | cons a l ih =>
    rcases i with _ | i
    · simp
    · simp only [List.length_cons, Nat.add_lt_add_iff_right] at h
      have := ih i h
      simpa [Nat.mul_add] using this

theorem bytes_len (l : List Nat) : (bytes l).length = 2 * l.length := flatMap_pair_len _ _ l

theorem bytes_getD (l : List Nat) (i : Nat) (h : i < l.length) :
    (bytes l).getD (2 * i) 0 = l.getD i 0 % 256 ∧ (bytes l).getD (2 * i + 1) 0 = l.getD i 0 / 256 % 256 := by
  rw [List.getD_eq_getElem l _ h]
  exact flatMap_pair_getD _ _ l i h

theorem bytes_lt (l : List Nat) (r : Nat) : (bytes l).getD r 0 < 256 := by
  apply getD_lt _ _ (by norm_num)
  intro v hv
  unfold bytes at hv
  rw [List.mem_flatMap] at hv
  obtain ⟨a, -, ha⟩ := hv
  simp only [List.mem_cons, List.not_mem_nil, or_false] at ha
  omega

theorem sum_range_double (f : Nat → Nat) (n : Nat) :
    ∑ r ∈ range (2 * n), f r = ∑ i ∈ range n, (f (2 * i) + f (2 * i + 1)) := by
  induction n with
  | zero => simp
  | succ n ih => rw [show 2 * (n + 1) = 2 * n + 1 + 1 by ring, sum_range_succ, sum_range_succ, ih, sum_range_succ]; ring

/-! ## Byte-shifted factors -/

/-- Entry `r` of the flattened table. -/
def shiftAt (r : Nat) : Nat := (byteShifted FACTORS 2 BIGM).getD r 0

theorem byteShifted_eq : byteShifted FACTORS 2 BIGM = FACTORS.flatMap fun f => [f % BIGM, 256 * f % BIGM] := by
  unfold byteShifted
  congr 1
  funext f
  simp [List.range_succ]

theorem byteShifted_len : (byteShifted FACTORS 2 BIGM).length = 100 := by
  rw [byteShifted_eq, flatMap_pair_len, factors_spec.1]

theorem shiftAt_even (i : Nat) (hi : i < 50) : shiftAt (2 * i) = FACTORS.getD i 0 % BIGM := by
  have hl : i < FACTORS.length := by rw [factors_spec.1]; exact hi
  unfold shiftAt
  rw [byteShifted_eq, (flatMap_pair_getD _ _ _ i hl).1, List.getD_eq_getElem _ _ hl]

theorem shiftAt_odd (i : Nat) (hi : i < 50) : shiftAt (2 * i + 1) = 256 * FACTORS.getD i 0 % BIGM := by
  have hl : i < FACTORS.length := by rw [factors_spec.1]; exact hi
  unfold shiftAt
  rw [byteShifted_eq, (flatMap_pair_getD _ _ _ i hl).2, List.getD_eq_getElem _ _ hl]

theorem shiftAt_lt (r : Nat) : shiftAt r < BIGM := by
  unfold shiftAt
  apply getD_lt _ _ BIGM_pos
  intro v hv
  rw [byteShifted_eq, List.mem_flatMap] at hv
  obtain ⟨f, -, hf⟩ := hv
  simp only [List.mem_cons, List.not_mem_nil, or_false] at hf
  rcases hf with h | h <;> rw [h] <;> exact Nat.mod_lt _ BIGM_pos

theorem shiftAt_mult (r : Nat) (hr : r < 100) : ∃ m ∈ MODULI, BIGM / m ∣ shiftAt r := by
  rcases Nat.even_or_odd' r with ⟨i, h | h⟩
  all_goals
    subst h
    have hi : i < 50 := by omega
    refine ⟨_, md_mem hi, ?_⟩
    have h := (factors_spec.2 i hi).2.2.1
    have hd : BIGM / MODULI.getD i 0 ∣ BIGM := Nat.div_dvd_of_dvd (md_dvd (md_mem hi))
  · rw [shiftAt_even i hi]
    exact (Nat.dvd_mod_iff hd).2 h
  · rw [shiftAt_odd i hi]
    exact (Nat.dvd_mod_iff hd).2 (h.mul_left _)

theorem shiftAt_mod (i j : Nat) (hi : i < 50) (hj : j < 50) :
    shiftAt (2 * i) ≡ (if j = i then 1 else 0) [MOD MODULI.getD j 0] ∧
    shiftAt (2 * i + 1) ≡ (if j = i then 256 else 0) [MOD MODULI.getD j 0] := by
  have hd : MODULI.getD j 0 ∣ BIGM := md_dvd (md_mem hj)
  obtain ⟨-, h1, -, h2⟩ := factors_spec.2 i hi
  have hF : FACTORS.getD i 0 ≡ (if j = i then 1 else 0) [MOD MODULI.getD j 0] := by
    by_cases h : j = i
    · subst h
      have := (MODULI_range _ (md_mem hj)).1
      rw [if_pos rfl]
      unfold Nat.ModEq
      rw [h1, Nat.mod_eq_of_lt (by omega)]
    · rw [if_neg h]
      unfold Nat.ModEq
      rw [h2 j hj h, Nat.zero_mod]
  rw [shiftAt_even i hi, shiftAt_odd i hi]
  constructor
  · refine Nat.ModEq.trans ?_ hF
    exact Nat.mod_mod_of_dvd _ hd
  · have h3 : 256 * FACTORS.getD i 0 ≡ (if j = i then 256 else 0) [MOD MODULI.getD j 0] := by
      have := hF.mul_left 256
      by_cases h : j = i
      · rw [if_pos h] at this ⊢; exact this
      · rw [if_neg h] at this ⊢; exact this
    refine Nat.ModEq.trans ?_ h3
    exact Nat.mod_mod_of_dvd _ hd

/-! ## The quotient estimate -/

/-- What is assumed of the rounding of a Python integer division: exact when the quotient is an integer, and
otherwise off by at most a relative `2^-53` (IEEE double, round to nearest), for quotients up to `2^16`. -/
structure FloatRound (rd : ℚ → ℚ) : Prop where
  int : ∀ n : ℕ, n ≤ 65536 → rd n = n
  near : ∀ x : ℚ, 0 ≤ x → x ≤ 65536 → |rd x - x| ≤ x / 2 ^ 53

theorem sqe_spec (rd : ℚ → ℚ) (hrd : FloatRound rd) (r : Nat) (hr : r < 100) :
    ∃ c : Nat, sqe rd 65536 BIGM (shiftAt r) = (c : Int) ∧ c < 65536 ∧ shiftAt r * 65536 ≤ c * BIGM ∧
      c * BIGM < shiftAt r * 65536 + BIGM := by
  obtain ⟨m, hm, k, hk⟩ := shiftAt_mult r hr
  have hM := BIGM_pos
  obtain ⟨hm1, hm2⟩ := MODULI_range m hm
  obtain ⟨R, hR⟩ := md_dvd hm
  have hmR : BIGM / m = R := by rw [hR, Nat.mul_div_cancel_left _ (by omega)]
  rw [hmR] at hk
  have hRpos : 0 < R := by
    rcases Nat.eq_zero_or_pos R with h | h
    · rw [h, Nat.mul_zero] at hR; omega
    · exact h
  have hkm : k < m := by
    have := shiftAt_lt r
    rw [hk, hR, Nat.mul_comm m] at this
    exact Nat.lt_of_mul_lt_mul_left this
  -- the quotient is k * 2^16 / m
  have hx : (((shiftAt r * 65536 : Nat) : ℚ) / (BIGM : ℚ)) = ((k * 65536 : Nat) : ℚ) / (m : ℚ) := by
    have h1 : (R : ℚ) ≠ 0 := by positivity
    have h2 : (m : ℚ) ≠ 0 := by
      have : (0 : ℚ) < m := by exact_mod_cast (by omega : 0 < m)
      exact ne_of_gt this
    rw [hk, hR]
    push_cast
    field_simp
  have hmq : (0 : ℚ) < m := by exact_mod_cast (by omega : 0 < m)
  have hxle : ((k * 65536 : Nat) : ℚ) / (m : ℚ) ≤ 65536 := by
    rw [div_le_iff₀ hmq]
    have : k * 65536 ≤ 65536 * m := by omega
    exact_mod_cast this
  have hx0 : (0 : ℚ) ≤ ((k * 65536 : Nat) : ℚ) / (m : ℚ) := by positivity
  obtain ⟨c, hc1, hc2⟩ : ∃ c : Nat, k * 65536 ≤ c * m ∧ c * m < k * 65536 + m := by
    refine ⟨(k * 65536 + (m - 1)) / m, ?_, ?_⟩
    · have := Nat.div_add_mod (k * 65536 + (m - 1)) m
      have h2 := Nat.mod_lt (k * 65536 + (m - 1)) (show 0 < m by omega)
      have h3 := Nat.mul_comm m ((k * 65536 + (m - 1)) / m)
      omega
    · have := Nat.div_mul_le_self (k * 65536 + (m - 1)) m
      omega
  have hcu : c < 65536 := by
    by_contra h
    have h1 : 65536 * m ≤ c * m := Nat.mul_le_mul_right _ (by omega)
    omega
  refine ⟨c, ?_, hcu, ?_, ?_⟩
  · unfold sqe
    rw [hx]
    rw [Int.ceil_eq_iff]
    have hc1q : (k * 65536 : ℚ) ≤ c * m := by exact_mod_cast hc1
    have hc2q : (c * m : ℚ) < k * 65536 + m := by exact_mod_cast hc2
    rcases Nat.eq_or_lt_of_le hc1 with he | hl
    · have : ((k * 65536 : Nat) : ℚ) / (m : ℚ) = ((c : Nat) : ℚ) := by
        rw [he]; push_cast; field_simp
      rw [this, hrd.int c (by omega)]
      constructor
      · push_cast; linarith
      · push_cast; linarith
    · have hn := hrd.near _ hx0 hxle
      obtain ⟨x, hxd⟩ : ∃ x : ℚ, x = ((k * 65536 : Nat) : ℚ) / (m : ℚ) := ⟨_, rfl⟩
      rw [← hxd] at hn hxle ⊢
      have hxm : x * m = k * 65536 := by
        rw [hxd]; push_cast; field_simp
      -- distances to the neighbouring integers are at least 1/m
      have hl' : (k * 65536 : ℚ) + 1 ≤ c * m := by exact_mod_cast hl
      have hl2 : (c * m : ℚ) + 1 ≤ k * 65536 + m := by exact_mod_cast hc2
      have hmle : (m : ℚ) ≤ 65536 := by exact_mod_cast hm2
      have d1 : x + 1 / 65536 ≤ c := by
        have : 1 / (65536 : ℚ) ≤ 1 / m := one_div_le_one_div_of_le hmq hmle
        have h3 : (x + 1 / m) * m ≤ c * m := by
          rw [add_mul, hxm]; rw [one_div, inv_mul_cancel₀ (ne_of_gt hmq)]; exact hl'
        have := le_of_mul_le_mul_right h3 hmq
        linarith
      have d2 : (c : ℚ) - 1 + 1 / 65536 ≤ x := by
        have : 1 / (65536 : ℚ) ≤ 1 / m := one_div_le_one_div_of_le hmq hmle
        have h3 : ((c : ℚ) - 1 + 1 / m) * m ≤ x * m := by
          rw [add_mul, hxm, one_div, inv_mul_cancel₀ (ne_of_gt hmq)]
          linarith
        have := le_of_mul_le_mul_right h3 hmq
        linarith
      have hb : x / 2 ^ 53 ≤ 1 / 2 ^ 37 := by
        rw [div_le_div_iff₀ (by positivity) (by positivity)]
        nlinarith
      rw [abs_le] at hn
      have hs : (1 : ℚ) / 2 ^ 37 < 1 / 65536 := by norm_num
      constructor
      · push_cast; linarith [hn.1]
      · push_cast; linarith [hn.2]
  · rw [hk, hR]
    have := Nat.mul_le_mul_right R hc1
    linarith [this, Nat.mul_comm R k]
  · rw [hk, hR]
    have := Nat.mul_lt_mul_of_pos_right hc2 hRpos
    nlinarith [this]

end Verif.EcRns

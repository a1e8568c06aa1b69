import Verif.Lemmas.EcRnsTable

/-!
# Reduction by quotient estimation
-/

namespace Verif.EcRns
open Verif.EcChunks Finset

set_option exponentiation.threshold 2000
attribute [local irreducible] BIGM MODULI RNS_T FACTORS TOTAL

/-- `l` is a residue vector of the integer `x`: fifty 16-bit limbs, limb `i` congruent to `x` modulo the `i`-th
modulus (not necessarily reduced). -/
structure IsRns (l : List Nat) (x : Int) : Prop where
  len : l.length = 50
  lt : ∀ v ∈ l, v < 65536
  mod : ∀ i, i < 50 → (l.getD i 0 : Int) ≡ x [ZMOD (MODULI.getD i 0 : Nat)]

/-- The two tables passed around as `rns_mat`, for the target modulus `q`. -/
structure Good (q : Nat) (mat : List (List Nat) × List Nat) : Prop where
  rows : ∀ r, r < 100 → ∀ j, j < 50 →
    (mat.1.getD r []).getD (2 * j) 0 + 256 * (mat.1.getD r []).getD (2 * j + 1) 0 = shiftAt r % q % MODULI.getD j 0
  est : ∀ r, r < 100 → ∃ c, (mat.1.getD r []).getD 100 0 + 256 * (mat.1.getD r []).getD 101 0 = c ∧
    c < 65536 ∧ shiftAt r * 65536 ≤ c * BIGM ∧ c * BIGM ≤ shiftAt r * 65536 + BIGM
  byte : ∀ r col, (mat.1.getD r []).getD col 0 < 256
  corlen : mat.2.length = 50
  cor : ∀ j, j < 50 → mat.2.getD j 0 = ((-(BIGM : Int)) % (q : Int)).toNat % MODULI.getD j 0

theorem getD_map' {α β : Type} (f : α → β) (l : List α) (d : β) (e : α) (i : Nat) (h : i < l.length) :
    (l.map f).getD i d = f (l.getD i e) := by
  rw [List.getD_eq_getElem _ _ (by simpa using h), List.getElem_map, List.getD_eq_getElem _ _ h]

theorem getD_zipWith' {α β γ : Type} (f : α → β → γ) (a : List α) (b : List β) (d : γ) (d1 : α) (d2 : β) (i : Nat)
    (h1 : i < a.length) (h2 : i < b.length) : (List.zipWith f a b).getD i d = f (a.getD i d1) (b.getD i d2) := by
  rw [List.getD_eq_getElem _ _ (by simp; omega), List.getElem_zipWith, List.getD_eq_getElem _ _ h1,
    List.getD_eq_getElem _ _ h2]

theorem constructMatrix_good (rd : ℚ → ℚ) (hrd : FloatRound rd) (q : Nat) :
    ∃ mat, constructMatrix rd q = .ok mat ∧ Good q mat := by
  have hshl := byteShifted_len
  have hsh : ∀ r, r < 100 → (byteShifted FACTORS 2 BIGM).getD r 0 = shiftAt r := fun r _ => rfl
  have hmemr : ∀ c ∈ byteShifted FACTORS 2 BIGM, ∃ r, r < 100 ∧ c = shiftAt r := by
    intro c hc
    obtain ⟨r, hr, rfl⟩ := List.mem_iff_getElem.1 hc
    exact ⟨r, by omega, by unfold shiftAt; rw [List.getD_eq_getElem _ _ hr]⟩
  have hmlt : ∀ (c : Nat), ∀ m ∈ MODULI, c % m < 65536 := by
    intro c m hm
    have := MODULI_range m hm
    have := Nat.mod_lt c (show 0 < m by omega)
    omega
  unfold constructMatrix rnsCoefficients
  dsimp only
  rw [if_pos]
  · refine ⟨_, rfl, ?_⟩
    have hrow : ∀ r, r < 100 → ((List.zipWith (fun r s => bytes r ++ bytes [Int.toNat s])
        ((byteShifted FACTORS 2 BIGM).map fun c => MODULI.map fun m => c % q % m)
        ((byteShifted FACTORS 2 BIGM).map fun c => sqe rd (1 <<< 16) BIGM c)).getD r []) =
        bytes (MODULI.map fun m => shiftAt r % q % m) ++ bytes [(sqe rd 65536 BIGM (shiftAt r)).toNat] := by
      intro r hr
      rw [getD_zipWith' _ _ _ _ [] 0 _ (by rw [List.length_map]; omega) (by rw [List.length_map]; omega),
        getD_map' _ _ _ 0 _ (by omega), getD_map' _ _ _ 0 _ (by omega)]
      rfl
    have hlen : ∀ r, (bytes (MODULI.map fun m => shiftAt r % q % m)).length = 100 := by
      intro r
      rw [bytes_len, List.length_map, MODULI_len]
    refine ⟨?_, ?_, ?_, by rw [List.length_map, MODULI_len], ?_⟩
    · intro r hr j hj
      simp only
      rw [hrow r hr, List.getD_append _ _ _ _ (by rw [hlen]; omega), List.getD_append _ _ _ _ (by rw [hlen]; omega)]
      obtain ⟨h1, h2⟩ := bytes_getD (MODULI.map fun m => shiftAt r % q % m) j (by rw [List.length_map, MODULI_len]; exact hj)
      have hv : (MODULI.map fun m => shiftAt r % q % m).getD j 0 = shiftAt r % q % MODULI.getD j 0 :=
        getD_map' _ _ _ 0 _ (by rw [ MODULI_len]; exact hj)
      rw [h1, h2, hv]
      have := hmlt (shiftAt r % q) _ (md_mem hj)
      omega
    · intro r hr
      obtain ⟨c, h1, h2, h3, h4⟩ := sqe_spec rd hrd r hr
      refine ⟨c, ?_, h2, h3, le_of_lt h4⟩
      simp only
      rw [hrow r hr, h1, Int.toNat_natCast, List.getD_append_right _ _ _ _ (by rw [hlen]),
        List.getD_append_right _ _ _ _ (by rw [hlen]; omega), hlen]
      simp only [bytes, List.flatMap_cons, List.flatMap_nil, List.append_nil, Nat.sub_self, List.getD_cons_zero,
        show 101 - 100 = 1 from rfl, List.getD_cons_succ]
      omega
    · intro r col
      by_cases hr : r < 100
      · simp only
        rw [hrow r hr]
        by_cases hc : col < 100
        · rw [List.getD_append _ _ _ _ (by rw [hlen]; omega)]
          exact bytes_lt _ _
        · rw [List.getD_append_right _ _ _ _ (by rw [hlen]; omega)]
          exact bytes_lt _ _
      · rw [List.getD_eq_default (n := r) _ _ (by simp [hshl]; omega)]
        simp
    · intro j hj
      simp only
      exact getD_map' _ _ _ 0 _ (by rw [ MODULI_len]; exact hj)
  · refine ⟨?_, ?_, ?_⟩
    · rw [List.all_eq_true]
      intro x hx
      rw [List.mem_map] at hx
      obtain ⟨c, -, rfl⟩ := hx
      rw [List.all_eq_true]
      intro y hy
      rw [List.mem_map] at hy
      obtain ⟨m, hm, rfl⟩ := hy
      exact decide_eq_true (hmlt _ m hm)
    · rw [List.all_eq_true]
      intro x hx
      rw [List.mem_map] at hx
      obtain ⟨c, hc, rfl⟩ := hx
      obtain ⟨r, hr, rfl⟩ := hmemr c hc
      obtain ⟨c, h1, h2, -⟩ := sqe_spec rd hrd r hr
      have : sqe rd (1 <<< 16) BIGM (shiftAt r) = (c : Int) := h1
      rw [this]
      simp only [decide_eq_true_eq]
      omega
    · rw [List.all_eq_true]
      intro x hx
      rw [List.mem_map] at hx
      obtain ⟨m, hm, rfl⟩ := hx
      exact decide_eq_true (hmlt _ m hm)

/-! ## Evaluating the reduction -/

/-- The integer before the fold, limb `j`. -/
theorem matVec_getD (c : Nat) (h : List Nat) (m : List (List Nat)) (col : Nat) (hcol : col < c) :
    (matVec c h m).getD col 0 = (∑ r ∈ range h.length, h.getD r 0 * (m.getD r []).getD col 0) % 2 ^ 32 := by
  unfold matVec
  rw [getD_map' _ _ _ 0 _ (by simpa using hcol), list_sum_range]
  rw [List.getD_eq_getElem _ _ (by simpa using hcol), List.getElem_range]

theorem sum_bytes_le (l : List Nat) (w : Nat → Nat) (B : Nat) (hw : ∀ r, r < 100 → w r ≤ B) :
    ∑ r ∈ range 100, (bytes l).getD r 0 * w r ≤ 25500 * B := by
  calc _ ≤ ∑ r ∈ range 100, 255 * B := by
        apply sum_le_sum
        intro r hr
        have := bytes_lt l r
        exact Nat.mul_le_mul (by omega) (hw r (mem_range.1 hr))
    _ = 25500 * B := by rw [sum_const, card_range, smul_eq_mul]; ring

/-- Quotient estimate of the reduction. -/
def estK (mat : List (List Nat) × List Nat) (l : List Nat) : Nat :=
  (∑ r ∈ range 100, (bytes l).getD r 0 * ((mat.1.getD r []).getD 100 0 + 256 * (mat.1.getD r []).getD 101 0)) / 65536

/-- Limb `j` before the fold. -/
def preFold (q : Nat) (mat : List (List Nat) × List Nat) (l : List Nat) (j : Nat) : Nat :=
  ∑ r ∈ range 100, (bytes l).getD r 0 * (shiftAt r % q % MODULI.getD j 0) +
    estK mat l * (((-(BIGM : Int)) % (q : Int)).toNat % MODULI.getD j 0)

theorem estK_lt {q : Nat} {mat : List (List Nat) × List Nat} (hg : Good q mat) (l : List Nat) : estK mat l < 25500 := by
  unfold estK
  have := sum_bytes_le l (fun r => (mat.1.getD r []).getD 100 0 + 256 * (mat.1.getD r []).getD 101 0) 65535 (by
    intro r hr
    obtain ⟨c, h1, h2, -⟩ := hg.est r hr
    omega)
  omega

theorem md_range {j : Nat} (hj : j < 50) : 32707 ≤ MODULI.getD j 0 ∧ MODULI.getD j 0 ≤ 65536 :=
  MODULI_range _ (md_mem hj)

theorem preFold_lt {q : Nat} {mat : List (List Nat) × List Nat} (hg : Good q mat) (l : List Nat) (j : Nat) (hj : j < 50) :
    preFold q mat l j < 2 ^ 32 := by
  unfold preFold
  have hr := md_range hj
  have h1 := sum_bytes_le l (fun r => shiftAt r % q % MODULI.getD j 0) 65535 (by
    intro r _
    have := Nat.mod_lt (shiftAt r % q) (show 0 < MODULI.getD j 0 by omega)
    omega)
  have h2 := estK_lt hg l
  have h3 := Nat.mod_lt ((-(BIGM : Int)) % (q : Int)).toNat (show 0 < MODULI.getD j 0 by omega)
  have h4 : estK mat l * (((-(BIGM : Int)) % (q : Int)).toNat % MODULI.getD j 0) ≤ 25500 * 65535 :=
    Nat.mul_le_mul (by omega) (by omega)
  omega

theorem modRed_getD {q : Nat} {mat : List (List Nat) × List Nat} (hg : Good q mat) (l : List Nat) (hl : l.length = 50) :
    (modRed mat 50 l).length = 50 ∧
    ∀ j, j < 50 → (modRed mat 50 l).getD j 0 = foldRed (RNS_T.getD j 0) (preFold q mat l j) := by
  have hb : (bytes l).length = 100 := by rw [bytes_len, hl]
  have hcol : ∀ col, col < 102 → (matVec (2 * (50 + 1)) (bytes l) mat.1).getD col 0 =
      ∑ r ∈ range 100, (bytes l).getD r 0 * (mat.1.getD r []).getD col 0 ∧
      ∑ r ∈ range 100, (bytes l).getD r 0 * (mat.1.getD r []).getD col 0 ≤ 25500 * 255 := by
    intro col hc
    have := sum_bytes_le l (fun r => (mat.1.getD r []).getD col 0) 255 (by
      intro r _
      have := hg.byte r col
      omega)
    refine ⟨?_, this⟩
    rw [matVec_getD _ _ _ _ hc, hb, Nat.mod_eq_of_lt (by omega)]
  obtain ⟨pairs, hp⟩ : ∃ p, p = (List.range (50 + 1)).map fun j =>
      ((matVec (2 * (50 + 1)) (bytes l) mat.1).getD (2 * j) 0 +
        ((matVec (2 * (50 + 1)) (bytes l) mat.1).getD (2 * j + 1) 0 <<< 8) % 2 ^ 32) % 2 ^ 32 := ⟨_, rfl⟩
  have hplen : pairs.length = 51 := by rw [hp]; simp
  have hpair : ∀ j, j < 51 → pairs.getD j 0 = ∑ r ∈ range 100, (bytes l).getD r 0 *
      ((mat.1.getD r []).getD (2 * j) 0 + 256 * (mat.1.getD r []).getD (2 * j + 1) 0) := by
    intro j hj
    rw [hp, getD_map' _ _ _ 0 _ (by simpa using hj), List.getD_eq_getElem (List.range _) _ (by simpa using hj),
      List.getElem_range]
    obtain ⟨e1, b1⟩ := hcol (2 * j) (by omega)
    obtain ⟨e2, b2⟩ := hcol (2 * j + 1) (by omega)
    rw [e1, e2, Nat.shiftLeft_eq]
    have hs : ∑ r ∈ range 100, (bytes l).getD r 0 *
        ((mat.1.getD r []).getD (2 * j) 0 + 256 * (mat.1.getD r []).getD (2 * j + 1) 0) =
        ∑ r ∈ range 100, (bytes l).getD r 0 * (mat.1.getD r []).getD (2 * j) 0 +
        (∑ r ∈ range 100, (bytes l).getD r 0 * (mat.1.getD r []).getD (2 * j + 1) 0) * 2 ^ 8 := by
      rw [sum_mul, ← sum_add_distrib]
      apply sum_congr rfl
      intro r _
      ring
    rw [hs]
    generalize ∑ r ∈ range 100, (bytes l).getD r 0 * (mat.1.getD r []).getD (2 * j) 0 = A at *
    generalize ∑ r ∈ range 100, (bytes l).getD r 0 * (mat.1.getD r []).getD (2 * j + 1) 0 = B at *
    omega
  have hk : (pairs.getD 50 0 >>> 16) % 2 ^ 16 = estK mat l := by
    have h1 := estK_lt hg l
    rw [hpair 50 (by norm_num), Nat.shiftRight_eq_div_pow, show 2 * 50 = 100 from rfl, show 100 + 1 = 101 from rfl]
    unfold estK at h1 ⊢
    omega
  have hdef : modRed mat 50 l = redInternal (List.zipWith (fun r w => (r + estK mat l * w % 2 ^ 32) % 2 ^ 32)
      (pairs.take 50) mat.2) := by
    unfold modRed
    dsimp only
    rw [← hp, hk]
  have hzlen : (List.zipWith (fun r w => (r + estK mat l * w % 2 ^ 32) % 2 ^ 32) (pairs.take 50) mat.2).length = 50 := by
    rw [List.length_zipWith, List.length_take, hplen, hg.corlen]; rfl
  rw [hdef]
  unfold redInternal
  refine ⟨by rw [List.length_zipWith, hzlen, RNS_T_len]; rfl, ?_⟩
  intro j hj
  rw [getD_zipWith' _ _ _ _ 0 0 _ (by rw [RNS_T_len]; exact hj) (by rw [hzlen]; exact hj),
    getD_zipWith' _ _ _ _ 0 0 _ (by rw [List.length_take, hplen]; omega) (by rw [hg.corlen]; exact hj)]
  congr 1
  have h1 : (pairs.take 50).getD j 0 = ∑ r ∈ range 100, (bytes l).getD r 0 * (shiftAt r % q % MODULI.getD j 0) := by
    rw [List.getD_eq_getElem _ _ (by rw [List.length_take, hplen]; omega), List.getElem_take,
      ← List.getD_eq_getElem _ 0, hpair j (by omega)]
    apply sum_congr rfl
    intro r hr
    rw [hg.rows r (mem_range.1 hr) j hj]
  rw [h1, hg.cor j hj]
  have h2 := preFold_lt hg l j hj
  unfold preFold at h2 ⊢
  generalize estK mat l * (((-(BIGM : Int)) % (q : Int)).toNat % MODULI.getD j 0) = A at *
  generalize ∑ r ∈ range 100, (bytes l).getD r 0 * (shiftAt r % q % MODULI.getD j 0) = B at *
  omega

/-- The weighted sum of the bytes with the byte-shifted factors is the represented integer modulo `M`. -/
theorem weighted_sum (l : List Nat) (c : Int) (h : IsRns l c) (hc0 : 0 ≤ c) (hcM : c < BIGM) :
    ((∑ r ∈ range 100, (bytes l).getD r 0 * shiftAt r : Nat) : Int) % (BIGM : Int) = c := by
  obtain ⟨S, hS⟩ : ∃ S, S = ∑ r ∈ range 100, (bytes l).getD r 0 * shiftAt r := ⟨_, rfl⟩
  rw [← hS]
  have hM := BIGM_pos
  have hres : ∀ j, j < 50 → S ≡ l.getD j 0 [MOD MODULI.getD j 0] := by
    intro j hj
    have hd : ∑ r ∈ range 100, (bytes l).getD r 0 * shiftAt r =
        ∑ i ∈ range 50, ((bytes l).getD (2 * i) 0 * shiftAt (2 * i) + (bytes l).getD (2 * i + 1) 0 * shiftAt (2 * i + 1)) :=
      sum_range_double (fun r => (bytes l).getD r 0 * shiftAt r) 50
    rw [hS, hd]
    have e : l.getD j 0 = ∑ i ∈ range 50, if i = j then l.getD i 0 else 0 := by
      rw [Finset.sum_ite_eq' (range 50) j]
      rw [if_pos (mem_range.2 hj)]
    rw [e]
    apply Nat.ModEq.sum
    intro i hi
    rw [mem_range] at hi
    obtain ⟨s1, s2⟩ := shiftAt_mod i j hi hj
    obtain ⟨b1, b2⟩ := bytes_getD l i (by rw [h.len]; exact hi)
    have h3 := (s1.mul_left ((bytes l).getD (2 * i) 0)).add (s2.mul_left ((bytes l).getD (2 * i + 1) 0))
    refine h3.trans ?_
    rw [b1, b2]
    have hlt : l.getD i 0 < 65536 := getD_lt l 65536 (by norm_num) h.lt i
    by_cases hij : i = j
    · rw [if_pos hij.symm, if_pos hij.symm, if_pos hij]
      have : l.getD i 0 % 256 * 1 + l.getD i 0 / 256 % 256 * 256 = l.getD i 0 := by omega
      rw [this]
    · rw [if_neg (Ne.symm hij), if_neg (Ne.symm hij), if_neg hij]
      simp only [Nat.mul_zero, Nat.add_zero]
      exact Nat.ModEq.refl _
  apply Verif.Props.crt_unique MODULI_co (x := ((S : Nat) : Int) % (BIGM : Int)) (y := c)
  · rw [← BIGM_eq]
    exact ⟨Int.emod_nonneg _ (by omega), Int.emod_lt_of_pos _ (by omega)⟩
  · rw [← BIGM_eq]
    exact ⟨hc0, hcM⟩
  · intro m hm
    obtain ⟨j, hj, rfl⟩ := List.mem_iff_getElem.1 hm
    have hj' : j < 50 := by rw [ MODULI_len] at hj; exact hj
    rw [BIGM_eq, Verif.Props.emod_product_emod hm, ← md_eq hj']
    have h1 := Int.natCast_modEq_iff.2 (hres j hj')
    exact h1.trans (h.mod j hj')

theorem estimate {q : Nat} {mat : List (List Nat) × List Nat} (hg : Good q mat) (l : List Nat) (S k x : Nat)
    (hS : S = ∑ r ∈ range 100, (bytes l).getD r 0 * shiftAt r) (hSk : S = x + k * BIGM)
    (hx : x * 65536 < 40036 * BIGM) : estK mat l = k := by
  unfold estK
  obtain ⟨Q, hQ⟩ : ∃ Q, Q = ∑ r ∈ range 100, (bytes l).getD r 0 *
    ((mat.1.getD r []).getD 100 0 + 256 * (mat.1.getD r []).getD 101 0) := ⟨_, rfl⟩
  rw [← hQ]
  have lo : S * 65536 ≤ Q * BIGM := by
    rw [hS, hQ, sum_mul, sum_mul]
    apply sum_le_sum
    intro r hr
    obtain ⟨c, h1, h2, h3, h4⟩ := hg.est r (mem_range.1 hr)
    rw [h1, mul_assoc, mul_assoc]
    exact Nat.mul_le_mul_left _ h3
  have hi : Q * BIGM ≤ S * 65536 + 25500 * BIGM := by
    have h5 : ∑ r ∈ range 100, (bytes l).getD r 0 * BIGM ≤ 25500 * BIGM :=
      sum_bytes_le l (fun _ => BIGM) BIGM (fun _ _ => le_refl _)
    refine le_trans ?_ (Nat.add_le_add_left h5 _)
    rw [hS, hQ, sum_mul, sum_mul, ← sum_add_distrib]
    apply sum_le_sum
    intro r hr
    obtain ⟨c, h1, h2, h3, h4⟩ := hg.est r (mem_range.1 hr)
    rw [h1, mul_assoc, mul_assoc, ← Nat.mul_add]
    exact Nat.mul_le_mul_left _ h4
  have hM := BIGM_pos
  have d1 : k * 65536 ≤ Q := by
    have : k * 65536 * BIGM ≤ Q * BIGM := by
      refine le_trans ?_ lo
      rw [hSk]
      nlinarith
    exact Nat.le_of_mul_le_mul_right this hM
  have d2 : Q < (k + 1) * 65536 := by
    have : Q * BIGM < (k + 1) * 65536 * BIGM := by
      refine lt_of_le_of_lt hi ?_
      rw [hSk]
      nlinarith
    exact Nat.lt_of_mul_lt_mul_right this
  rw [Nat.div_eq_of_lt_le]
  · exact d1
  · exact d2

/-- The estimate is at most `25500 / 2^16` too large. -/
theorem est_le {q : Nat} {mat : List (List Nat) × List Nat} (hg : Good q mat) (l : List Nat) (S : Nat)
    (hS : S = ∑ r ∈ range 100, (bytes l).getD r 0 * shiftAt r) :
    estK mat l * (65536 * BIGM) ≤ S * 65536 + 25500 * BIGM := by
  unfold estK
  obtain ⟨Q, hQ⟩ : ∃ Q, Q = ∑ r ∈ range 100, (bytes l).getD r 0 *
    ((mat.1.getD r []).getD 100 0 + 256 * (mat.1.getD r []).getD 101 0) := ⟨_, rfl⟩
  rw [← hQ]
  have hi : Q * BIGM ≤ S * 65536 + 25500 * BIGM := by
    have h5 : ∑ r ∈ range 100, (bytes l).getD r 0 * BIGM ≤ 25500 * BIGM :=
      sum_bytes_le l (fun _ => BIGM) BIGM (fun _ _ => le_refl _)
    refine le_trans ?_ (Nat.add_le_add_left h5 _)
    rw [hS, hQ, sum_mul, sum_mul, ← sum_add_distrib]
    apply sum_le_sum
    intro r hr
    obtain ⟨c, h1, h2, h3, h4⟩ := hg.est r (mem_range.1 hr)
    rw [h1, mul_assoc, mul_assoc, ← Nat.mul_add]
    exact Nat.mul_le_mul_left _ h4
  refine le_trans ?_ hi
  rw [← mul_assoc]
  exact Nat.mul_le_mul_right _ (Nat.div_mul_le_self _ _)

/-- Reduction of a residue vector, given the quotient estimate. -/
theorem modRed_of_est {q : Nat} (hq : 0 < q) {mat : List (List Nat) × List Nat} (hg : Good q mat) (l : List Nat) (c : Int)
    (hl : l.length = 50)
    (hk : ((∑ r ∈ range 100, (bytes l).getD r 0 * shiftAt r : Nat) : Int) - (estK mat l : Int) * BIGM = c) :
    ∃ c' : Int, IsRns (modRed mat 50 l) c' ∧ 0 ≤ c' ∧ c' < 51000 * q ∧ c' ≡ c [ZMOD q] := by
  obtain ⟨S, hS⟩ : ∃ S, S = ∑ r ∈ range 100, (bytes l).getD r 0 * shiftAt r := ⟨_, rfl⟩
  rw [← hS] at hk
  have hk2 := estK_lt hg l
  obtain ⟨hlen, hget⟩ := modRed_getD hg l hl
  obtain ⟨N, hN⟩ : ∃ N : Nat, N = ((-(BIGM : Int)) % (q : Int)).toNat := ⟨_, rfl⟩
  have hNi : (N : Int) = (-(BIGM : Int)) % (q : Int) := by
    rw [hN, Int.toNat_of_nonneg (Int.emod_nonneg _ (by omega))]
  have hNlt : N < q := by
    have := Int.emod_lt_of_pos (-(BIGM : Int)) (show (0 : Int) < q by omega)
    omega
  obtain ⟨A, hA⟩ : ∃ A, A = ∑ r ∈ range 100, (bytes l).getD r 0 * (shiftAt r % q) := ⟨_, rfl⟩
  have hAle : A ≤ 25500 * (q - 1) := by
    rw [hA]
    apply sum_bytes_le
    intro r _
    have := Nat.mod_lt (shiftAt r) hq
    omega
  refine ⟨((A + estK mat l * N : Nat) : Int), ⟨hlen, ?_, ?_⟩, by omega, ?_, ?_⟩
  · intro v hv
    obtain ⟨j, hj, rfl⟩ := List.mem_iff_getElem.1 hv
    rw [← List.getD_eq_getElem _ 0, hget j (by omega)]
    exact foldRed_lt _ _ (t_lt (by omega)) (preFold_lt hg l j (by omega))
  · intro j hj
    rw [hget j hj]
    apply Int.natCast_modEq_iff.2
    refine (foldRed_modEq _ _ _ (off hj) (t_lt hj) (preFold_lt hg l j hj)).trans ?_
    unfold preFold
    rw [← hN, hA]
    apply Nat.ModEq.add
    · apply Nat.ModEq.sum
      intro r _
      exact (Nat.mod_modEq _ _).mul_left _
    · exact (Nat.mod_modEq _ _).mul_left _
  · have h1 : estK mat l * N ≤ 25500 * (q - 1) := Nat.mul_le_mul (by omega) (by omega)
    have : A + estK mat l * N < 51000 * q := by omega
    exact_mod_cast this
  · have h1 : (A : Int) ≡ (S : Int) [ZMOD q] := by
      apply Int.natCast_modEq_iff.2
      rw [hA, hS]
      apply Nat.ModEq.sum
      intro r _
      exact (Nat.mod_modEq _ _).mul_left _
    have h2 : (N : Int) ≡ -(BIGM : Int) [ZMOD q] := by rw [hNi]; exact Int.mod_modEq _ _
    have h3 := h1.add (h2.mul_left (estK mat l : Int))
    push_cast
    refine h3.trans ?_
    have : (S : Int) + (estK mat l : Int) * -(BIGM : Int) = c := by rw [← hk]; ring
    rw [this]

/-- Reduction of a residue vector. -/
theorem modRed_spec {q : Nat} (hq : 0 < q) {mat : List (List Nat) × List Nat} (hg : Good q mat) (l : List Nat) (c : Int)
    (h : IsRns l c) (hc0 : 0 ≤ c) (hc : c * 65536 < 40036 * BIGM) :
    ∃ c' : Int, IsRns (modRed mat 50 l) c' ∧ 0 ≤ c' ∧ c' < 51000 * q ∧ c' ≡ c [ZMOD q] := by
  have hM := BIGM_pos
  have hcM : c < BIGM := by omega
  obtain ⟨S, hS⟩ : ∃ S, S = ∑ r ∈ range 100, (bytes l).getD r 0 * shiftAt r := ⟨_, rfl⟩
  have hw := weighted_sum l c h hc0 hcM
  rw [← hS] at hw
  obtain ⟨x, rfl⟩ : ∃ x : Nat, c = (x : Int) := ⟨c.toNat, (Int.toNat_of_nonneg hc0).symm⟩
  have hxS : S % BIGM = x := by exact_mod_cast hw
  have hSk : S = x + S / BIGM * BIGM := by
    have := Nat.mod_add_div S BIGM
    rw [hxS, Nat.mul_comm] at this
    exact this.symm
  have hk := estimate hg l S (S / BIGM) x hS hSk (by exact_mod_cast hc)
  refine modRed_of_est hq hg l _ h.len ?_
  rw [← hS, hk]
  have : (S : Int) = (x : Int) + ((S / BIGM : Nat) : Int) * (BIGM : Int) := by exact_mod_cast hSk
  linarith

/-- The quotient estimate exceeds the true quotient: the roundings of the table entries, which all go up, add up to the
missing part of the next multiple of `M`. -/
def RoundsUp (mat : List (List Nat) × List Nat) (l : List Nat) : Prop :=
  (∑ r ∈ range 100, (bytes l).getD r 0 * shiftAt r) / BIGM < estK mat l

/-- Residue vectors do not distinguish integers that differ by `M`. -/
theorem IsRns.add_BIGM {l : List Nat} {c : Int} (h : IsRns l c) : IsRns l (c + BIGM) := by
  refine ⟨h.len, h.lt, fun i hi => ?_⟩
  refine (h.mod i hi).trans ?_
  have hd : ((MODULI.getD i 0 : Nat) : Int) ∣ BIGM := by
    rw [BIGM_eq]
    exact_mod_cast Crt.product_dvd (md_mem hi)
  obtain ⟨k, hk⟩ := hd
  rw [hk]
  exact (Int.modEq_iff_dvd.2 ⟨k, by ring⟩)

/-- Reduction of a residue vector of a negative integer, provided that the estimate rounds up. -/
theorem modRed_neg {q : Nat} (hq : 0 < q) {mat : List (List Nat) × List Nat} (hg : Good q mat) (l : List Nat) (c : Int)
    (h : IsRns l c) (hc0 : c < 0) (hc : -(BIGM : Int) ≤ c) (hr : RoundsUp mat l) :
    ∃ c' : Int, IsRns (modRed mat 50 l) c' ∧ 0 ≤ c' ∧ c' < 51000 * q ∧ c' ≡ c [ZMOD q] := by
  have hM := BIGM_pos
  obtain ⟨S, hS⟩ : ∃ S, S = ∑ r ∈ range 100, (bytes l).getD r 0 * shiftAt r := ⟨_, rfl⟩
  have hw := weighted_sum l _ h.add_BIGM (by omega) (by omega)
  unfold RoundsUp at hr
  rw [← hS] at hw hr
  have hSk : (S : Int) = c + BIGM + ((S / BIGM : Nat) : Int) * (BIGM : Int) := by
    have := Int.emod_add_mul_ediv (S : Int) (BIGM : Int)
    rw [hw] at this
    push_cast
    rw [mul_comm] at this
    exact this.symm
  have hk : estK mat l = S / BIGM + 1 := by
    refine le_antisymm ?_ hr
    have := est_le hg l S hS
    have hlt : S < (S / BIGM + 1) * BIGM := by
      have := Nat.lt_div_mul_add (a := S) hM
      rw [Nat.add_mul, Nat.one_mul]
      exact this
    generalize estK mat l = e at *
    generalize S / BIGM = k at *
    by_contra hcon
    have : (k + 2) * (65536 * BIGM) ≤ e * (65536 * BIGM) := Nat.mul_le_mul_right _ (by omega)
    nlinarith
  refine modRed_of_est hq hg l _ h.len ?_
  rw [← hS, hk, hSk]
  push_cast
  ring

end Verif.EcRns

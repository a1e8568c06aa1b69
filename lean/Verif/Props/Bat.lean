import Verif.Lemmas.Bat
import Verif.Props.Barrett
import Verif.Props.Crt

/-!
# Properties C36 and C37: the basis-aligned transformation and approximate basis conversion
-/

namespace Verif.Props
open Verif.Bat Verif.Barrett Verif.Crt Finset

/-- C37: for every inner dimension `K` with `K · 4 · 255² < 2^32`, every `uint32` left operand and every matrix of
reduced entries, the transformed product is congruent to the plain dot product modulo `q` and at most
`1020 · K · (q - 1)`. -/
theorem C37_congruent (K q : Nat) (hK : K * (4 * 255 ^ 2) < 2 ^ 32) (hq : 0 < q) (hq32 : q ≤ 2 ^ 32)
    (x m : Nat → Nat) (hx : ∀ k, k < K → x k < 2 ^ 32) (hm : ∀ k, k < K → m k < 2 ^ 32) :
    matmulBat K x (fun k b p => batEntry (m k) q b p) % q = (∑ k ∈ range K, x k * m k) % q ∧
    matmulBat K x (fun k b p => batEntry (m k) q b p) ≤ 1020 * K * (q - 1) := by
  have h := matmulBat_eq K (by norm_num at hK ⊢; omega) x m q hq hq32 hm
  rw [h]
  exact ⟨matmulBat_congr K x m q hx, matmulBat_bound K x m q hq⟩

example := C37_congruent 256 1073184769 (by norm_num) (by norm_num) (by norm_num) (fun k => 4294967295 - k)
  (fun k => 1073184768 - k) (fun k _ => by omega) (fun k _ => by omega)

/-- C37: with the flattened byte dimension the result is the same. -/
theorem C37_merged (K : Nat) (x : Nat → Nat) (bat : Nat → Nat → Nat → Nat) :
    matmulBatMerged K x (fun t p => bat (t / 4) (t % 4) p) = matmulBat K x bat := matmulBatMerged_eq K x bat

/-- C37: a following Barrett reduction returns the dot product modulo `q`, when `1020 · K ≤ 2^L` with
`L = ceil(log2 q)`. -/
theorem C37_reduced (K q : Nat) (hK : 1020 * K ≤ 2 ^ Nat.clog 2 q) (hq : GoodModulus q)
    (x m : Nat → Nat) (hx : ∀ k, k < K → x k < 2 ^ 32) (hm : ∀ k, k < K → m k < 2 ^ 32)
    (hK2 : K * (4 * 255 ^ 2) < 2 ^ 32) :
    modularReduction (matmulBat K x (fun k b p => batEntry (m k) q b p)) (precompute q) =
      (∑ k ∈ range K, x k * m k) % q := by
  have h2 := hq.pos
  have h3 := hq.lt
  obtain ⟨h4, h5⟩ := C37_congruent K q hK2 (by omega) (by omega) x m hx hm
  rw [C28_reduction_partial q _ hq, h4]
  have hle : q ≤ 2 ^ Nat.clog 2 q := Nat.le_pow_clog (by norm_num) q
  have e : 2 ^ (2 * Nat.clog 2 q) = 2 ^ Nat.clog 2 q * 2 ^ Nat.clog 2 q := by rw [two_mul, pow_add]
  rw [e]
  generalize 2 ^ Nat.clog 2 q = P at hle hK
  generalize matmulBat K x _ = v at h5
  have hlt : q - 1 < P := by omega
  have h6 : 1020 * K * (q - 1) ≤ P * (q - 1) := Nat.mul_le_mul_right _ hK
  have h7 : P * (q - 1) < P * P := (Nat.mul_lt_mul_left (by omega)).2 hlt
  omega

example := C37_reduced 256 1073184769 (by rw [show Nat.clog 2 1073184769 = 30 by decide +kernel]; norm_num)
  goodModulus_1073184769 (fun k => 4294967295 - k) (fun k => 1073184768 - k) (fun k _ => by omega)
  (fun k _ => by omega) (by norm_num)

/-- The hypotheses are satisfiable: `K = 256` and a 30-bit modulus. -/
example : 1020 * 256 ≤ 2 ^ Nat.clog 2 1073184769 ∧ GoodModulus 1073184769 ∧ 256 * (4 * 255 ^ 2) < 2 ^ 32 := by
  refine ⟨?_, goodModulus_1073184769, by norm_num⟩
  calc 1020 * 256 ≤ 2 ^ 18 := by norm_num
    _ ≤ 2 ^ Nat.clog 2 1073184769 := by
      apply Nat.pow_le_pow_right (by norm_num)
      have : 17 < Nat.clog 2 1073184769 := by rw [Nat.lt_clog_iff_pow_lt (by norm_num)]; norm_num
      exact this

/-- C36: the stored tables are what their names say: `qHatModP[i][j] = (Q / q_i) mod p_j`. -/
theorem C36_tables (original target : List Nat) (i j : Nat) (hi : i < original.length) (hj : j < target.length) :
    ((qHatModP original target).getD i []).getD j 0 = original.prod / original[i] % target[j] := by
  unfold qHatModP
  simp only [List.getD_eq_getElem?_getD, List.getElem?_map, List.getElem?_eq_getElem hi, Option.map_some,
    Option.getD_some, List.getElem?_eq_getElem hj, product_eq]

example := C36_tables [1073184769, 17, 19] [23, 29] 1 1 (by simp) (by simp)

/-- C36: the basis conversion maps the residues of `x` (any `x` in `[0, Q)`) to the residues of `x + u Q` with
`0 ≤ u < #moduli`, the same `u` for all target moduli. -/
theorem C36_basis_change (original target : List Nat) (x : Nat)
    (hne : original ≠ []) (hco : original.Pairwise Nat.Coprime)
    (ho : ∀ q ∈ original, GoodModulus q) (ht : ∀ q ∈ target, GoodModulus q)
    (hK : ∀ q ∈ target, 1020 * original.length ≤ 2 ^ Nat.clog 2 q) (hK2 : original.length * (4 * 255 ^ 2) < 2 ^ 32)
    (hx : x < original.prod) :
    ∃ out u, basisChange original target (original.map (fun q => x % q)) = .ok out ∧
      u < original.length ∧ out = target.map (fun p => (x + u * original.prod) % p) := by
  have hpos : ∀ m ∈ original, 0 < m := fun m hm => by have := (ho m hm).pos; omega
  obtain ⟨inv, h1, h2, h3⟩ := qHatInv_spec hco hpos
  have hQ := product_pos hpos
  rw [← product_eq] at hx ⊢
  have hlen : 0 < original.length := List.length_pos_iff.2 hne
  -- the reduced products
  obtain ⟨c, hc⟩ : ∃ c : Nat → Nat, c = fun i => modularReduction
      (mul64 ((original.map (fun q => x % q)).getD i 0) (inv.getD i 0).toNat) (precompute (original.getD i 0)) := ⟨_, rfl⟩
  have hcv : ∀ i (hi : i < original.length), c i = x % original[i] * (inv[i]'(by omega)).toNat % original[i] := by
    intro i hi
    obtain ⟨a, b, -⟩ := h3 i hi (by omega)
    have hm := hpos _ (List.getElem_mem hi)
    have hg := ho _ (List.getElem_mem hi)
    have hlt := hg.lt
    rw [hc]
    simp only
    rw [List.getD_eq_getElem _ _ (by simpa using hi), List.getElem_map, List.getD_eq_getElem inv _ (by omega),
      List.getD_eq_getElem original _ hi]
    have hxl := Nat.mod_lt x hm
    have hvl : (inv[i]'(by omega)).toNat < original[i] := by omega
    have hprod : x % original[i] * (inv[i]'(by omega)).toNat < original[i] * original[i] :=
      Nat.mul_lt_mul_of_lt_of_lt hxl hvl
    have h64 : original[i] * original[i] ≤ 2 ^ 31 * 2 ^ 31 := Nat.mul_le_mul hlt.le hlt.le
    unfold mul64
    rw [Nat.mod_eq_of_lt (a := x % original[i] * _) (b := 2 ^ 64) (by norm_num at h64 ⊢; omega)]
    exact C28_reduction_partial _ _ hg (lt_two_pow_of_lt_sq hprod)
  have hclt : ∀ i (hi : i < original.length), c i < original[i] := fun i hi => by
    rw [hcv i hi]; exact Nat.mod_lt _ (hpos _ (List.getElem_mem hi))
  -- the exact integer
  obtain ⟨S, hS⟩ : ∃ S : Nat, S = ∑ i ∈ range original.length, c i * (product original / original.getD i 0) := ⟨_, rfl⟩
  have hSres : ∀ i (hi : i < original.length), ((S : Nat) : ZMod original[i]) = (x : ZMod original[i]) := by
    intro i hi
    have hw := weighted_residue hco hpos (fun i => (c i : Int)) i hi
    obtain ⟨a, b, h4⟩ := h3 i hi (by omega)
    have e : ((∑ t ∈ range original.length, (c t : Int) * ((product original / original.getD t 0 : Nat) : Int) : Int)) =
        ((S : Nat) : Int) := by
      rw [hS]; push_cast; rfl
    rw [e, Int.cast_natCast] at hw
    rw [hw, Int.cast_natCast, hcv i hi, ZMod.natCast_mod, Nat.cast_mul, ZMod.natCast_mod]
    have hv : (((inv[i]'(by omega)).toNat : Nat) : ZMod original[i]) = ((inv[i]'(by omega) : Int) : ZMod original[i]) := by
      rw [← Int.cast_natCast, Int.toNat_of_nonneg a]
    rw [hv]
    rw [Int.cast_natCast] at h4
    linear_combination (x : ZMod original[i]) * h4
  have hdvd : ((product original : Nat) : Int) ∣ (S : Int) - x := prod_dvd_of_pairwise hco (fun m hm => by
    obtain ⟨i, hi, rfl⟩ := List.mem_iff_getElem.1 hm
    rw [← ZMod.intCast_zmod_eq_zero_iff_dvd]
    push_cast
    rw [hSres i hi, sub_self])
  have hSlt : S < original.length * product original := by
    rw [hS]
    calc ∑ i ∈ range original.length, c i * (product original / original.getD i 0)
        < ∑ i ∈ range original.length, product original := by
          apply Finset.sum_lt_sum_of_nonempty ⟨0, Finset.mem_range.2 hlen⟩
          intro i hi
          rw [Finset.mem_range] at hi
          rw [List.getD_eq_getElem _ _ hi]
          have hm := hpos _ (List.getElem_mem hi)
          have hd := product_dvd (List.getElem_mem hi)
          have hpos' : 0 < product original / original[i] := Nat.div_pos (Nat.le_of_dvd hQ hd) hm
          calc c i * (product original / original[i]) < original[i] * (product original / original[i]) :=
                Nat.mul_lt_mul_of_pos_right (hclt i hi) hpos'
            _ = product original := Nat.mul_div_cancel' hd
      _ = original.length * product original := by simp
  obtain ⟨u, hu⟩ : ∃ u : Nat, S = x + u * product original := by
    obtain ⟨w, hw⟩ := hdvd
    have hw0 : 0 ≤ w := by
      by_contra hneg
      have : w ≤ -1 := by omega
      have : (product original : Int) * w ≤ (product original : Int) * (-1) :=
        mul_le_mul_of_nonneg_left this (by omega)
      omega
    refine ⟨w.toNat, ?_⟩
    zify
    rw [Int.toNat_of_nonneg hw0]
    linarith
  refine ⟨_, u, by unfold basisChange; rw [h1], ?_, ?_⟩
  · by_contra hge
    have hge' : original.length ≤ u := by omega
    have := Nat.mul_le_mul_right (product original) hge'
    omega
  · apply List.ext_getElem (by simp)
    intro j hj1 hj2
    have hj : j < target.length := by simpa using hj2
    have hg := ht _ (List.getElem_mem hj)
    rw [List.getElem_map, List.getElem_range, List.getElem_map, List.getD_eq_getElem target _ hj]
    show _ = (x + u * product original) % target[j]
    rw [← hu, hS, ← hc]
    have hb := C37_merged original.length c (fun k b p => batEntry
      (((qHatModP original target).getD k []).getD j 0) target[j] b p)
    rw [hb]
    have hhat : ∀ k, k < original.length → ((qHatModP original target).getD k []).getD j 0 =
        product original / original.getD k 0 % target[j] := by
      intro k hk
      rw [C36_tables original target k j hk hj, product_eq, List.getD_eq_getElem _ _ hk]
    have htlt := hg.lt
    have htp := hg.pos
    rw [C37_reduced original.length target[j] (hK _ (List.getElem_mem hj)) hg c
      (fun k => ((qHatModP original target).getD k []).getD j 0)
      (fun k hk => by have := hclt k hk; have := (ho _ (List.getElem_mem hk)).lt; omega)
      (fun k hk => by rw [hhat k hk]; have := Nat.mod_lt (product original / original.getD k 0) (y := target[j]) (by omega); omega)
      hK2]
    show Nat.ModEq target[j] _ _
    rw [← ZMod.natCast_eq_natCast_iff]
    push_cast
    apply Finset.sum_congr rfl
    intro k hk
    rw [Finset.mem_range] at hk
    rw [hhat k hk, ZMod.natCast_mod]

theorem goodModulus_17 : GoodModulus 17 := by
  refine ⟨by norm_num, by norm_num, ?_⟩
  unfold ReciprocalExact
  rw [show Nat.clog 2 17 = 5 by decide +kernel]
  decide +kernel

theorem goodModulus_65537 : GoodModulus 65537 := by
  refine ⟨by norm_num, by norm_num, ?_⟩
  unfold ReciprocalExact
  rw [show Nat.clog 2 65537 = 17 by decide +kernel]
  decide +kernel

/-- Instance of `C36_basis_change`: from the moduli 1073184769 and 17 to 65537. -/
example := C36_basis_change [1073184769, 17] [65537] 12345678901 (by simp) (by decide +kernel)
  (by simp only [List.mem_cons, List.not_mem_nil, or_false]
      rintro q (rfl | rfl)
      · exact goodModulus_1073184769
      · exact goodModulus_17)
  (by simp only [List.mem_singleton]
      rintro q rfl
      exact goodModulus_65537)
  (by simp only [List.mem_singleton]
      rintro q rfl
      rw [show Nat.clog 2 65537 = 17 by decide +kernel]
      norm_num) (by norm_num) (by norm_num)

end Verif.Props

import Verif.Lemmas.Crt

/-!
# Properties C35 and C47: Chinese remaindering
-/

namespace Verif.Props
open Verif.Crt Verif.CkksMath Finset

/-- Congruent modulo pairwise coprime moduli, both in `[0, Q)`: equal. -/
theorem crt_unique {l : List Nat} (hco : l.Pairwise Nat.Coprime) {x y : Int} (hx : 0 ≤ x ∧ x < product l)
    (hy : 0 ≤ y ∧ y < product l) (h : ∀ m ∈ l, x % (m : Int) = y % (m : Int)) : x = y := by
  have hd : ((product l : Nat) : Int) ∣ x - y := prod_dvd_of_pairwise hco (fun m hm =>
    Int.dvd_of_emod_eq_zero (Int.emod_eq_emod_iff_emod_sub_eq_zero.1 (h m hm)))
  have := Int.eq_zero_of_abs_lt_dvd hd (by rw [abs_lt]; constructor <;> omega)
  omega

theorem emod_product_emod {l : List Nat} {m : Nat} (hm : m ∈ l) (x : Int) :
    x % (product l : Int) % (m : Int) = x % (m : Int) :=
  Int.emod_emod_of_dvd x (by exact_mod_cast product_dvd hm)

theorem emod_eq_of_zmod {m : Nat} {x y : Int} (h : (x : ZMod m) = (y : ZMod m)) : x % (m : Int) = y % (m : Int) :=
  (ZMod.intCast_eq_intCast_iff' _ _ _).1 h

/-- C35: for pairwise coprime positive moduli and rows that are not shorter than the first one, `reconstruct_crt` returns, for each
column, the unique integer in `[0, Q)` with the given residues. -/
theorem C35_reconstruct (residues : List (List Int)) (moduli : List Nat) (hne : moduli ≠ [])
    (hrows : ∀ i, i < moduli.length → ∃ row, residues[i]? = some row ∧ (residues.getD 0 []).length ≤ row.length)
    (hco : moduli.Pairwise Nat.Coprime) (hpos : ∀ m ∈ moduli, 0 < m) :
    ∃ r, reconstructCrt residues moduli = .ok r ∧ r.length = (residues.getD 0 []).length ∧
      ∀ j, j < r.length → 0 ≤ r.getD j 0 ∧ r.getD j 0 < moduli.prod ∧
        ∀ i (hi : i < moduli.length),
          r.getD j 0 % (moduli[i] : Int) = (residues.getD i []).getD j 0 % (moduli[i] : Int) := by
  have hQ := product_pos hpos
  rw [← product_eq]
  obtain ⟨first, rest, hres⟩ : ∃ first rest, residues = first :: rest := by
    obtain ⟨row, h0, -⟩ := hrows 0 (List.length_pos_iff.2 hne)
    cases residues with
    | nil => simp at h0
    | cons a l => exact ⟨a, l, rfl⟩
  have hf : first = residues.getD 0 [] := by rw [hres]; rfl
  have hunf : reconstructCrt residues moduli = reconstructCrt (first :: rest) moduli := by rw [hres]
  rw [hunf]
  unfold reconstructCrt
  simp only
  rw [← hres, hf]
  split
  · rename_i h1
    obtain ⟨m, rfl⟩ : ∃ m, moduli = [m] := List.length_eq_one_iff.1 h1
    refine ⟨_, rfl, by simp, ?_⟩
    intro j hj
    have hm : 0 < m := hpos m (by simp)
    have hp : product [m] = m := by simp [product]
    rw [hp]
    rw [List.length_map] at hj
    have hg : ((residues.getD 0 []).map (fun r => r % (([m] : List Nat).getD 0 0 : Int))).getD j 0 =
        (residues.getD 0 []).getD j 0 % (m : Int) := by
      rw [List.getD_eq_getElem _ _ (by simpa using hj), List.getElem_map, List.getD_eq_getElem _ _ hj]
      rfl
    rw [hg]
    refine ⟨Int.emod_nonneg _ (by omega), Int.emod_lt_of_pos _ (by omega), ?_⟩
    intro i hi
    obtain rfl : i = 0 := by simpa using hi
    simp
  · obtain ⟨inv, h1, h2, h3⟩ := qHatInv_spec hco hpos
    rw [h1]
    simp only
    rw [if_neg (by
      rw [List.any_eq_true]
      rintro ⟨i, hi, hd⟩
      obtain ⟨row, e1, e2⟩ := hrows i (List.mem_range.1 hi)
      rw [List.getD_eq_getElem?_getD (l := residues) (i := i), e1] at hd
      simp only [Option.getD_some, decide_eq_true_eq] at hd
      omega)]
    refine ⟨_, rfl, by simp, ?_⟩
    intro j hj
    rw [List.length_map, List.length_range] at hj
    rw [List.getD_eq_getElem _ _ (by simpa using hj), List.getElem_map, List.getElem_range, foldl_add_sum]
    refine ⟨Int.emod_nonneg _ (by omega), Int.emod_lt_of_pos _ (by omega), ?_⟩
    intro i hi
    rw [emod_product_emod (List.getElem_mem hi)]
    apply emod_eq_of_zmod
    have hw := weighted_residue hco hpos (fun i => (residues.getD i []).getD j 0 * inv.getD i 0) i hi
    rw [zero_add]
    have e : ∀ i, (residues.getD i []).getD j 0 * (inv.getD i 0 * ((product moduli / moduli.getD i 0 : Nat) : Int)) =
        (residues.getD i []).getD j 0 * inv.getD i 0 * ((product moduli / moduli.getD i 0 : Nat) : Int) := by
      intro i; ring
    simp only [e]
    rw [hw]
    obtain ⟨-, -, h4⟩ := h3 i hi (by omega)
    rw [List.getD_eq_getElem inv _ (by omega)]
    rw [Int.cast_natCast] at h4
    rw [Int.cast_mul]
    linear_combination ((residues.getD i []).getD j 0 : ZMod moduli[i]) * h4

example := C35_reconstruct [[16, 3], [40, -7]] [17, 41] (by simp)
  (fun i hi => by match i, hi with | 0, _ => exact ⟨_, rfl, by decide⟩ | 1, _ => exact ⟨_, rfl, by decide⟩) (by decide +kernel) (by decide)

/-- C35: reconstructing the residues of integers `xs` in `[0, Q)` gives them back. -/
theorem C35_roundtrip (xs : List Int) (moduli : List Nat) (hne : moduli ≠ []) (hco : moduli.Pairwise Nat.Coprime)
    (hpos : ∀ m ∈ moduli, 0 < m) (hxs : ∀ x ∈ xs, 0 ≤ x ∧ x < moduli.prod) :
    reconstructCrt (moduli.map (fun (m : Nat) => xs.map (fun x => x % (m : Int)))) moduli = .ok xs := by
  obtain ⟨r, h1, h2, h3⟩ := C35_reconstruct (moduli.map (fun (m : Nat) => xs.map (fun x => x % (m : Int)))) moduli hne
    (fun i hi => ⟨_, by rw [List.getElem?_map, List.getElem?_eq_getElem hi]; rfl, by
      rw [List.getD_eq_getElem _ _ (by simp; omega), List.getElem_map, List.length_map, List.length_map]⟩) hco hpos
  rw [h1]
  congr 1
  have hml : 0 < moduli.length := List.length_pos_iff.2 hne
  have hget : ∀ i (hi : i < moduli.length), (moduli.map (fun (m : Nat) => xs.map (fun x => x % (m : Int)))).getD i [] =
      xs.map (fun x => x % (moduli[i] : Int)) := by
    intro i hi
    rw [List.getD_eq_getElem _ _ (by simpa using hi), List.getElem_map]
  rw [hget 0 hml, List.length_map] at h2
  apply List.ext_getElem h2
  intro j hj1 hj2
  obtain ⟨a, b, c⟩ := h3 j hj1
  rw [List.getD_eq_getElem _ _ hj1] at a b c
  rw [← product_eq] at b hxs
  apply crt_unique hco ⟨a, b⟩ (hxs _ (List.getElem_mem hj2))
  intro m hm
  obtain ⟨i, hi, rfl⟩ := List.mem_iff_getElem.1 hm
  rw [c i hi, hget i hi, List.getD_eq_getElem _ _ (by simpa using hj2), List.getElem_map,
    Int.emod_emod_of_dvd _ (dvd_refl _)]

example := C35_roundtrip [696, 0, 5] [17, 41] (by simp) (by decide +kernel) (by decide) (by decide)

/-- C35: two moduli with a common factor are rejected. -/
theorem C35_rejects (first : List Int) (rest : List (List Int)) (a b : Nat) (h : Nat.gcd a b ≠ 1) (ha : 0 < a) (hb : 0 < b) :
    reconstructCrt (first :: rest) [a, b] = .error "ValueError" := by
  have : invMod ((product [a, b] / a : Nat) : Int) a = .error "ValueError" := by
    unfold invMod
    have e : product [a, b] / a = b := by simp [product, Nat.mul_div_cancel_left _ ha]
    rw [e, Int.gcd_natCast_natCast, if_neg (by rw [Nat.gcd_comm]; exact h)]
  unfold reconstructCrt qHatInvModQ
  simp only [List.mapM_cons, this, bind, Except.bind]
  simp

example := C35_rejects [1] [[2]] 15 21 (by decide) (by decide) (by decide)

/-- C35: residues are never made up: of two or more moduli every row must exist and be as long as the first one when there is an
integer to reconstruct; with a single modulus only the first row is read. -/
theorem C35_rows (residues : List (List Int)) (moduli : List Nat) (r : List Int) (h : reconstructCrt residues moduli = .ok r) :
    ∃ first, residues[0]? = some first ∧ r.length = first.length ∧
      (2 ≤ moduli.length → first ≠ [] → ∀ i, i < moduli.length → ∃ row, residues[i]? = some row ∧ first.length ≤ row.length) := by
  cases residues with
  | nil => simp [reconstructCrt] at h
  | cons first rest =>
    refine ⟨first, rfl, ?_⟩
    unfold reconstructCrt at h
    simp only at h
    split at h
    · rename_i h1
      exact ⟨by rw [← Except.ok.inj h, List.length_map], fun h2 => by omega⟩
    · split at h
      · simp at h
      · split at h
        · simp at h
        · rename_i hany
          refine ⟨by rw [← Except.ok.inj h, List.length_map, List.length_range], fun _ hne i hi => ?_⟩
          have hx : ¬ ((first :: rest).getD i []).length < first.length := by
            intro hlt
            exact hany (List.any_eq_true.2 ⟨i, List.mem_range.2 hi, by simpa using hlt⟩)
          rw [List.getD_eq_getElem?_getD] at hx
          cases hrow : (first :: rest)[i]? with
          | none =>
            rw [hrow] at hx
            have := List.length_pos_iff.2 hne
            simp only [Option.getD_none, List.length_nil] at hx
            omega
          | some row =>
            rw [hrow] at hx
            simp only [Option.getD_some] at hx
            exact ⟨row, rfl, by omega⟩

example : (reconstructCrt [[16, 3], [40, -7]] [17, 41]).toOption = some [696, 649] ∧
    (reconstructCrt [[16, 3], [40]] [17, 41]).toOption = none ∧ (reconstructCrt [[16, 3]] [17, 41]).toOption = none := by
  refine ⟨?_, ?_, ?_⟩ <;> decide +kernel

/-- C35: `rns_reconstruct` of `jaxite_ec` refuses lists of different lengths. -/
theorem C35_ec_rejects (residues precomputed : List Int) (moduli : List Nat) (r : Int)
    (h : rnsReconstruct residues moduli precomputed = .ok r) :
    residues.length = moduli.length ∧ precomputed.length = moduli.length := by
  unfold rnsReconstruct at h
  split at h
  · simp at h
  · split at h
    · simp at h
    · omega

example : (rnsReconstruct [16, 40] [17, 41] [205, 493]).toOption = some 696 ∧
    (rnsReconstruct [16, 40] [17, 41] [205, 493, 1]).toOption = none := by
  constructor <;> decide +kernel

/-- C35: the same for `jaxite_ec`: `rns_precompute` succeeds and `rns_reconstruct` of arbitrary residues is the unique
number in `[0, Q)` with these residues. -/
theorem C35_ec_reconstruct (residues : List Int) (moduli : List Nat) (hlen : residues.length = moduli.length)
    (hco : moduli.Pairwise Nat.Coprime) (hpos : ∀ m ∈ moduli, 0 < m) :
    ∃ pre r, rnsPrecompute moduli = .ok pre ∧ rnsReconstruct residues moduli pre = .ok r ∧
      0 ≤ r ∧ r < moduli.prod ∧ ∀ i (hi : i < moduli.length), r % (moduli[i] : Int) = residues[i] % (moduli[i] : Int) := by
  have hQ := product_pos hpos
  rw [← product_eq]
  have hone : ∀ i (h1 : i < moduli.length), ∃ b : Int,
      (do let rest := product moduli / moduli[i]
          let inverse ← invMod ((rest % moduli[i] : Nat) : Int) moduli[i]
          pure ((rest * inverse) % (product moduli : Int)) : Except String Int) = .ok b ∧
      ((b : Int) : ZMod moduli[i]) = 1 ∧ ∀ j (hj : j < moduli.length), j ≠ i → ((b : Int) : ZMod moduli[j]) = 0 := by
    intro i hi
    have hm := hpos _ (List.getElem_mem hi)
    obtain ⟨c1, c2⟩ := cofactor hco hpos i hi
    obtain ⟨v, hv, -, -, hv1⟩ := invMod_ok ((product moduli / moduli[i] % moduli[i] : Nat) : Int) moduli[i] (by omega)
      (by rw [Int.gcd_natCast_natCast, Nat.gcd_comm, ← c1, Nat.gcd_comm (product moduli / moduli[i]),
        Nat.gcd_comm, ← Nat.gcd_rec])
    refine ⟨((product moduli / moduli[i] : Nat) : Int) * v % (product moduli : Int),
      by simp only [hv, bind, Except.bind, pure, Except.pure], ?_, ?_⟩
    · have h := emod_product_emod (List.getElem_mem hi) (((product moduli / moduli[i] : Nat) : Int) * v)
      have h' := (ZMod.intCast_eq_intCast_iff' _ _ _).2 h
      rw [h']
      rw [Int.cast_mul]
      simp only [Int.cast_natCast, ZMod.natCast_mod] at hv1 ⊢
      exact hv1
    · intro j hj hne
      have h := emod_product_emod (List.getElem_mem hj) (((product moduli / moduli[i] : Nat) : Int) * v)
      have h' := (ZMod.intCast_eq_intCast_iff' _ _ _).2 h
      rw [h', Int.cast_mul, Int.cast_natCast, (ZMod.natCast_eq_zero_iff _ _).2 (c2 j hj hne), zero_mul]
  obtain ⟨pre, h1, h2, h3⟩ := mapM_ok (fun m : Nat => (do
      let rest := product moduli / m
      let inverse ← invMod ((rest % m : Nat) : Int) m
      pure ((rest * inverse) % (product moduli : Int)) : Except String Int)) moduli (by
    intro a ha
    obtain ⟨i, hi, rfl⟩ := List.mem_iff_getElem.1 ha
    obtain ⟨b, hb, -⟩ := hone i hi
    exact ⟨b, hb⟩)
  have hpre : ∀ i (hi : i < moduli.length), ((pre.getD i 0 : Int) : ZMod moduli[i]) = 1 ∧
      ∀ j (hj : j < moduli.length), j ≠ i → ((pre.getD i 0 : Int) : ZMod moduli[j]) = 0 := by
    intro i hi
    obtain ⟨b, hb, hb1, hb2⟩ := hone i hi
    have := h3 i hi (by omega)
    rw [hb] at this
    rw [List.getD_eq_getElem _ _ (by omega)]
    cases this
    exact ⟨hb1, hb2⟩
  refine ⟨pre, _, h1, by unfold rnsReconstruct; rw [if_neg (by omega), if_neg (by omega)],
    Int.emod_nonneg _ (by omega), Int.emod_lt_of_pos _ (by omega), ?_⟩
  intro i hi
  rw [emod_product_emod (List.getElem_mem hi)]
  apply emod_eq_of_zmod
  have hfold : ∀ (l : List Int) (s : Nat) (a : Int),
      (l.zipIdx s).foldl (fun (out : Int) (p : Int × Nat) => out + pre.getD p.2 0 * p.1) a =
        a + ∑ t ∈ range l.length, pre.getD (s + t) 0 * l.getD t 0 := by
    intro l
    induction l with
    | nil => intro s a; simp
    | cons x t ih =>
      intro s a
      rw [List.zipIdx_cons, List.foldl_cons, ih, List.length_cons, Finset.sum_range_succ']
      simp only [List.getD_cons_succ, List.getD_cons_zero, Nat.add_zero]
      have : ∀ u, s + 1 + u = s + (u + 1) := by intro u; omega
      simp only [this]
      ring
  rw [hfold, zero_add, Int.cast_sum, Finset.sum_eq_single i]
  · rw [Int.cast_mul, Nat.zero_add, (hpre i hi).1, one_mul, List.getD_eq_getElem _ _ (by omega)]
  · intro t ht hne
    rw [Finset.mem_range] at ht
    rw [Int.cast_mul, Nat.zero_add, (hpre t (by omega)).2 i hi (Ne.symm hne), zero_mul]
  · intro h
    rw [Finset.mem_range] at h
    omega

example := C35_ec_reconstruct [16, -5, 3] [17, 41, 9] rfl (by decide +kernel) (by decide)

/-- C35: `rns_reconstruct(to_rns(x)) = x` for `0 ≤ x < Q`; `to_rns` asserts `x < Q`, and for negative `x` the
composite returns `x mod Q`. -/
theorem C35_ec_roundtrip (x : Int) (moduli : List Nat) (hco : moduli.Pairwise Nat.Coprime)
    (hpos : ∀ m ∈ moduli, 0 < m) :
    (x < moduli.prod → ∃ pre rs, rnsPrecompute moduli = .ok pre ∧ toRns x moduli = .ok rs ∧
      rnsReconstruct rs moduli pre = .ok (x % (moduli.prod : Int))) ∧
    ((moduli.prod : Int) ≤ x → toRns x moduli = .error "AssertionError") := by
  have hQ := product_pos hpos
  rw [← product_eq]
  constructor
  · intro hx
    obtain ⟨pre, r, h1, h2, h3, h4, h5⟩ := C35_ec_reconstruct (moduli.map (fun (m : Nat) => x % (m : Int))) moduli
      (by simp) hco hpos
    refine ⟨pre, _, h1, by unfold toRns; rw [if_pos hx], ?_⟩
    rw [h2]
    congr 1
    rw [← product_eq] at h4
    apply crt_unique hco ⟨h3, h4⟩ ⟨Int.emod_nonneg _ (by omega), Int.emod_lt_of_pos _ (by omega)⟩
    intro m hm
    obtain ⟨i, hi, rfl⟩ := List.mem_iff_getElem.1 hm
    rw [h5 i hi, emod_product_emod (List.getElem_mem hi), List.getElem_map, Int.emod_emod_of_dvd _ (dvd_refl _)]
  · intro hx
    unfold toRns
    rw [if_neg (by omega)]

example := C35_ec_roundtrip (-1) [17, 41, 9] (by decide +kernel) (by decide)

/-- C47: the lift returns the representative in `(-Q/2, Q/2]`. -/
theorem C47_range (Q : Nat) (c : Int) (hc : 0 ≤ c ∧ c < Q) :
    -(Q : Int) < 2 * centredLift Q c ∧ 2 * centredLift Q c ≤ Q ∧ centredLift Q c % (Q : Int) = c % (Q : Int) := by
  unfold centredLift
  split
  · rename_i h
    push_cast at h
    refine ⟨by omega, by omega, by simp⟩
  · rename_i h
    push_cast at h
    exact ⟨by omega, by omega, rfl⟩

example := C47_range 697 500 (by norm_num)

/-- C47: reconstructing the residues of signed integers and lifting recovers them, for `-Q/2 < x ≤ Q/2`. -/
theorem C47_roundtrip (xs : List Int) (moduli : List Nat) (hne : moduli ≠ []) (hco : moduli.Pairwise Nat.Coprime)
    (hpos : ∀ m ∈ moduli, 0 < m) (hxs : ∀ x ∈ xs, -(moduli.prod : Int) < 2 * x ∧ 2 * x ≤ moduli.prod) :
    ∃ r, reconstructCrt (moduli.map (fun (m : Nat) => xs.map (fun x => x % (m : Int)))) moduli = .ok r ∧
      r.map (centredLift (product moduli)) = xs := by
  have hQ := product_pos hpos
  have hrt := C35_roundtrip (xs.map (fun x => x % (product moduli : Int))) moduli hne hco hpos (by
    intro x hx
    rw [List.mem_map] at hx
    obtain ⟨y, -, rfl⟩ := hx
    rw [← product_eq]
    exact ⟨Int.emod_nonneg _ (by omega), Int.emod_lt_of_pos _ (by omega)⟩)
  have hsame : moduli.map (fun (m : Nat) => (xs.map (fun x => x % (product moduli : Int))).map (fun x => x % (m : Int))) =
      moduli.map (fun (m : Nat) => xs.map (fun x => x % (m : Int))) := by
    apply List.map_congr_left
    intro m hm
    rw [List.map_map]
    apply List.map_congr_left
    intro x _
    exact emod_product_emod hm x
  rw [hsame] at hrt
  refine ⟨_, hrt, ?_⟩
  rw [List.map_map]
  conv_rhs => rw [← List.map_id xs]
  apply List.map_congr_left
  intro x hx
  obtain ⟨h1, h2⟩ := hxs x hx
  rw [← product_eq] at h1 h2
  unfold centredLift
  simp only [Function.comp_apply, id_eq]
  rcases lt_or_ge x 0 with hneg | hge
  · have e : x % (product moduli : Int) = x + product moduli := by
      rw [← Int.add_emod_right, Int.emod_eq_of_lt (by omega) (by omega)]
    rw [e]
    split <;> omega
  · rw [Int.emod_eq_of_lt hge (by omega)]
    split <;> omega

example := C47_roundtrip [-348, 0, 5, 348] [17, 41] (by simp) (by decide +kernel) (by decide) (by decide)

example : ([17, 41] : List Nat).Pairwise Nat.Coprime ∧ (∀ m ∈ ([17, 41] : List Nat), 0 < m) ∧
    ∀ x ∈ ([-348, 0, 5, 348] : List Int), -((([17, 41] : List Nat).prod : Nat) : Int) < 2 * x ∧
      2 * x ≤ (([17, 41] : List Nat).prod : Nat) := by decide

end Verif.Props

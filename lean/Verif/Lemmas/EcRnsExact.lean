import Verif.Lemmas.EcRnsOps

/-!
# The concrete tables of util.py

The literal inverses below are checked against the defining congruences; they let the kernel evaluate the tables.
-/

namespace Verif.EcRns
open Verif.EcChunks Finset

set_option exponentiation.threshold 2000

/-- `pow(rest % m, -1, m)` for each modulus. -/
def INV : List Nat := [43933, 51122, 23782, 62880, 20918, 59609, 46729, 14767, 39160, 54675, 52511, 60159, 37405, 34007,
  6333, 12978, 30035, 11456, 49861, 40755, 24962, 29306, 5154, 53092, 38418, 49983, 19398, 11699, 46694, 47806, 30538,
  13826, 5601, 14878, 31345, 30554, 39797, 51180, 39625, 8490, 48851, 322, 30321, 9109, 7458, 9917, 19166, 9419, 19988,
  15306]

/-- The factors computed from the literal inverses. -/
def FLIT : List Nat := List.zipWith (fun m i => BIGM / m * i % BIGM) MODULI INV

theorem FLIT_check : FLIT.length = 50 ∧ (∀ f ∈ FLIT, f < BIGM) ∧
    ∀ i, i < 50 → ∀ j, j < 50 → FLIT.getD i 0 % MODULI.getD j 0 = if j = i then 1 else 0 := by decide +kernel

theorem weights_check : (byteShifted FLIT 2 BIGM).all (fun c => MODULI.all fun m => c % P % m != 0) = true := by
  decide +kernel

/-- The exact tables for `q`. -/
def exactMatrix (q : Nat) : List (List Nat) × List Nat :=
  ((byteShifted FLIT 2 BIGM).map fun c =>
    bytes (MODULI.map fun m => c % q % m) ++ bytes [(c * 65536 + (BIGM - 1)) / BIGM],
   MODULI.map fun m => ((-(BIGM : Int)) % (q : Int)).toNat % m)

/-- `1 % 65536` and the first modulus. -/
theorem md_zero : MODULI.getD 0 0 = 65536 := by decide +kernel

attribute [local irreducible] BIGM MODULI RNS_T FACTORS TOTAL P FLIT

theorem FACTORS_eq : FACTORS = FLIT := by
  obtain ⟨h1, h2⟩ := factors_spec
  obtain ⟨g1, g2, g3⟩ := FLIT_check
  apply List.ext_getElem (by omega)
  intro i hi hi'
  have hi2 : i < 50 := by omega
  obtain ⟨a1, a2, -, a4⟩ := h2 i hi2
  rw [← List.getD_eq_getElem _ 0, ← List.getD_eq_getElem FLIT 0]
  have hb : FLIT.getD i 0 < BIGM := getD_lt _ _ BIGM_pos g2 i
  have : ((FACTORS.getD i 0 : Nat) : Int) = ((FLIT.getD i 0 : Nat) : Int) := by
    apply Verif.Props.crt_unique MODULI_co
    · rw [← BIGM_eq]; omega
    · rw [← BIGM_eq]; omega
    · intro m hm
      obtain ⟨j, hj, rfl⟩ := List.mem_iff_getElem.1 hm
      have hj' : j < 50 := by rw [ MODULI_len] at hj; exact hj
      rw [← md_eq hj']
      have e : FACTORS.getD i 0 % MODULI.getD j 0 = FLIT.getD i 0 % MODULI.getD j 0 := by
        rw [g3 i hi2 j hj']
        by_cases h : j = i
        · subst h; rw [if_pos rfl]; exact a2
        · rw [if_neg h]; exact a4 j hj' h
      exact_mod_cast congrArg (Nat.cast (R := Int)) e
  exact_mod_cast this

/-- Every weight of the table for `p` is non-zero. -/
theorem weight_pos (r j : Nat) (hr : r < 100) (hj : j < 50) : 0 < shiftAt r % P % MODULI.getD j 0 := by
  have h := weights_check
  rw [← FACTORS_eq, List.all_eq_true] at h
  have h1 := h (shiftAt r) (by
    unfold shiftAt
    rw [List.getD_eq_getElem _ _ (by rw [byteShifted_len]; exact hr)]
    exact List.getElem_mem _)
  rw [List.all_eq_true] at h1
  have := h1 _ (md_mem hj)
  simp only [bne_iff_ne, ne_eq] at this
  omega

theorem constructMatrix_exact (rd : ℚ → ℚ) (hrd : FloatRound rd) (q : Nat) :
    constructMatrix rd q = .ok (exactMatrix q) := by
  obtain ⟨mat, h, -⟩ := constructMatrix_good rd hrd q
  rw [h]
  unfold constructMatrix rnsCoefficients at h
  dsimp only at h
  split at h
  · cases h
    congr 1
    unfold exactMatrix
    rw [← FACTORS_eq, List.zipWith_map, List.zipWith_self]
    congr 1
    apply List.map_congr_left
    intro c hc
    obtain ⟨r, hr, rfl⟩ := List.mem_iff_getElem.1 hc
    have hr' : r < 100 := by rw [byteShifted_len] at hr; exact hr
    obtain ⟨v, h1, h2, h3, h4⟩ := sqe_spec rd hrd r hr'
    have e : (byteShifted FACTORS 2 BIGM)[r] = shiftAt r := by
      unfold shiftAt; rw [List.getD_eq_getElem _ _ hr]
    rw [e]
    have h5 : sqe rd (1 <<< 16) BIGM (shiftAt r) = (v : Int) := h1
    rw [h5, Int.toNat_natCast]
    have h6 : (shiftAt r * 65536 + (BIGM - 1)) / BIGM = v := by
      have hM := BIGM_pos
      apply Nat.div_eq_of_lt_le
      · omega
      · rw [Nat.add_mul, Nat.one_mul]
        omega
    rw [h6]
  · cases h

theorem exact_good (q : Nat) : Good q (exactMatrix q) := by
  obtain ⟨mat, h, hg⟩ := constructMatrix_good id ⟨fun _ _ => rfl, fun x h0 _ => by
    rw [id, sub_self, abs_zero]; positivity⟩ q
  rw [constructMatrix_exact id ⟨fun _ _ => rfl, fun x h0 _ => by rw [id, sub_self, abs_zero]; positivity⟩ q] at h
  cases h
  exact hg

/-! ## Zero limbs of products -/

theorem replicate_zero_of (l : List Nat) (hl : l.length = 50) (h : ∀ j, j < 50 → l.getD j 0 = 0) :
    l = List.replicate 50 0 := by
  apply List.ext_getElem (by simpa using hl)
  intro j h1 h2
  rw [← List.getD_eq_getElem _ 0, h j (by omega), List.getElem_replicate]

/-- A reduced vector is zero, or no limb but possibly the first is zero. -/
theorem modRed_zero_or {mat : List (List Nat) × List Nat} (hg : Good P mat) (l : List Nat) (hl : l.length = 50)
    (hlt : ∀ v ∈ l, v < 65536) :
    (l = List.replicate 50 0 ∧ modRed mat 50 l = List.replicate 50 0) ∨ NZ (modRed mat 50 l) := by
  obtain ⟨h1, h2⟩ := modRed_getD hg l hl
  by_cases hz : ∀ r, r < 100 → (bytes l).getD r 0 = 0
  · left
    constructor
    · apply replicate_zero_of l hl
      intro j hj
      obtain ⟨b1, b2⟩ := bytes_getD l j (by omega)
      have e1 := hz (2 * j) (by omega)
      have e2 := hz (2 * j + 1) (by omega)
      have := getD_lt l 65536 (by norm_num) hlt j
      omega
    · apply replicate_zero_of _ h1
      intro j hj
      rw [h2 j hj]
      have e1 : ∀ w : Nat → Nat, ∑ r ∈ range 100, (bytes l).getD r 0 * w r = 0 := by
        intro w
        apply sum_eq_zero
        intro r hr
        rw [hz r (mem_range.1 hr), Nat.zero_mul]
      have e2 : preFold P mat l j = 0 := by
        unfold preFold estK
        rw [e1, e1]
        simp
      rw [e2, foldRed_zero]
  · right
    push Not at hz
    obtain ⟨r, hr, hne⟩ := hz
    intro j h0 hj
    rw [h2 j hj]
    apply foldRed_pos _ _ (RNS_T_pos j h0 hj) (t_lt hj) (preFold_lt hg l j hj)
    unfold preFold
    apply Nat.add_pos_left
    have h3 := single_le_sum (f := fun r => (bytes l).getD r 0 * (shiftAt r % P % MODULI.getD j 0))
      (fun _ _ => Nat.zero_le _) (mem_range.2 hr)
    exact lt_of_lt_of_le (Nat.mul_pos (Nat.pos_of_ne_zero hne) (weight_pos r j hr hj)) h3

/-- A product of residue vectors is the zero vector exactly when one of the integers is zero; otherwise no limb but
possibly the first vanishes. -/
theorem modMul_zero_or {mat : List (List Nat) × List Nat} (hg : Good P mat) {a b : List Nat} {x y : Int}
    (ha : IsRns a x) (hb : IsRns b y) (h0 : 0 ≤ x * y) (hxy : x * y < BIGM) :
    (x * y = 0 ∧ modMul mat a b = List.replicate 50 0) ∨ NZ (modMul mat a b) := by
  have h := mulUnreduced_spec ha hb
  rcases modRed_zero_or hg _ h.len h.lt with ⟨h1, h2⟩ | h1
  · left
    refine ⟨?_, h2⟩
    rw [h1] at h
    have h3 : IsRns (List.replicate 50 0) 0 := by simpa using isRns_const 0 (by norm_num)
    exact h.unique h3 ⟨h0, hxy⟩ ⟨le_rfl, by have := BIGM_pos; omega⟩
  · exact Or.inr h1

end Verif.EcRns

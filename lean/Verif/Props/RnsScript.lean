import Verif.Lemmas.RnsScript
import Verif.Props.EcRns

/-!
# Property C90: the residue-number-system reduction of `algorithm/rns_mod_reduce.py`
-/

namespace Verif.Props
open Verif.EcRns Verif.EcChunks Verif.RnsScript

set_option exponentiation.threshold 2000

section
attribute [local irreducible] BIGM MODULI RNS_T FACTORS TOTAL

/-- C90: the tables are built for every modulus, and `rns_mod_reduce` maps rows of residues of integers `x` and `y` with
`0 ≤ x y < 0.61 M` to integers below `51000 q` that are congruent to `x y` modulo `q`, for every number of rows. -/
theorem C90_mod_reduce (rd : ℚ → ℚ) (hrd : FloatRound rd) (q : Nat) (hq : 0 < q) (hqM : 51000 * q ≤ MODULI.prod) :
    ∃ mat, coefficients rd FACTORS MODULI 2 16 BIGM q = .ok mat ∧
      ∀ (as bs : List (List Nat)) (xs ys : List Int), List.Forall₂ IsRns as xs → List.Forall₂ IsRns bs ys →
        as.length = bs.length →
        (∀ i, i < as.length → 0 ≤ xs.getD i 0 * ys.getD i 0 ∧ xs.getD i 0 * ys.getD i 0 * 65536 < 40036 * (MODULI.prod : Nat)) →
        ∃ cs, rnsModReduce (some 16) as bs RNS_T mat FACTORS BIGM = .ok cs ∧ cs.length = as.length ∧
          ∀ i, i < as.length → cs.getD i 0 < 51000 * q ∧ (cs.getD i 0 : Int) % q = xs.getD i 0 * ys.getD i 0 % q := by
  obtain ⟨mat, hm⟩ := C56_table rd hrd q
  obtain ⟨mat', h1, h2, h3⟩ := coefficients_eq rd FACTORS MODULI 2 16 BIGM q hm
  rw [ MODULI_len] at h3
  refine ⟨mat', h1, ?_⟩
  intro as bs xs ys ha hb hlen hprod
  refine ⟨_, rfl, by rw [List.length_zipWith]; omega, ?_⟩
  intro i hi
  have hib : i < bs.length := by omega
  rw [getD_zipWith' _ _ _ _ [] [] _ hi hib, reduceRow_eq mat mat' h2 h3]
  have hax : IsRns (as.getD i []) (xs.getD i 0) := by
    rw [List.getD_eq_getElem _ _ hi, List.getD_eq_getElem _ _ (by rw [← ha.length_eq]; exact hi)]
    exact ha.get hi (by rw [← ha.length_eq]; exact hi)
  have hby : IsRns (bs.getD i []) (ys.getD i 0) := by
    rw [List.getD_eq_getElem _ _ hib, List.getD_eq_getElem _ _ (by rw [← hb.length_eq]; exact hib)]
    exact hb.get hib (by rw [← hb.length_eq]; exact hib)
  obtain ⟨p0, p1⟩ := hprod i hi
  obtain ⟨c, c1, c2, c3, c4⟩ := C56_mod_mul rd hrd q hq mat hm _ _ _ _ hax hby p0 p1
  have hM : (51000 * q : Int) ≤ BIGM := by
    rw [BIGM_eq, Crt.product_eq]
    exact_mod_cast hqM
  have hc := reconstructRow_spec _ c c1 c2 (lt_of_lt_of_le c3 hM)
  rw [hc]
  refine ⟨?_, c4⟩
  have : ((reconstructRow (modMul mat (as.getD i []) (bs.getD i [])) BIGM FACTORS : Nat) : Int) < 51000 * q := by rw [hc]; exact c3
  exact_mod_cast this

/-- C90: after an import of the module, every call of `rns_mod_reduce` fails: the variable `moduli_precision` only exists when
the file is run as a script. -/
theorem C90_import (as bs : List (List Nat)) (ts : List Nat) (mat : List (List Nat) × List Nat) (factors : List Nat) (M : Nat) :
    rnsModReduce none as bs ts mat factors M = .error "NameError" := rfl

end

theorem Script.Q_eq : Q = P := by decide +kernel

theorem Script.size_Q : Nat.size Q = 377 := by
  apply le_antisymm
  · rw [Nat.size_le]; decide +kernel
  · have : 376 < Nat.size Q := by rw [Nat.lt_size]; decide +kernel
    omega

theorem Script.bound_eq : (Q * 256 * (16 / 8) * ((377 + 16 - 1) / 16 + 1)) ^ 2 * 4 * 2 = TOTAL := by decide +kernel

theorem Script.total_eq : Q * Q * 256 * 256 * 50 * 50 * 4 * 2 = TOTAL := by decide +kernel

theorem Script.moduli_eq : MODULI = literalModuli := by decide +kernel

theorem Script.size_M : Nat.size BIGM = 792 := by
  apply le_antisymm
  · rw [Nat.size_le]; decide +kernel
  · have : 791 < Nat.size BIGM := by rw [Nat.lt_size]; decide +kernel
    omega

theorem Script.Q_pos : 0 < Q := by decide +kernel

theorem Script.Q_large : 12345 ≤ Q := by decide +kernel

theorem Script.small : 51000 * Q ≤ BIGM := by decide +kernel

theorem Script.found : findModuli TOTAL 16 = (MODULI, RNS_T) := by
  unfold MODULI RNS_T
  generalize TOTAL = t
  rfl

theorem Script.cor_eq : (MODULI.map fun m => ((-(BIGM : Int)) % (Q : Int)).toNat % m) = literalCor := by decide +kernel

theorem Script.factors_ok : icrtFactors MODULI = .ok FACTORS := by
  obtain ⟨pre, r, h1, -⟩ := C35_ec_reconstruct (List.replicate MODULI.length 0) MODULI (by simp) MODULI_co MODULI_pos
  unfold icrtFactors FACTORS
  rw [h1]
  rfl

section
attribute [local irreducible] BIGM MODULI RNS_T FACTORS TOTAL Q literalModuli literalCor

/-- The residues of the moduli are rows of 16-bit numbers for every number up to the modulus. -/
theorem Script.bounds (x : Nat) (hx : x ≤ Q) :
    0 ≤ (x : Int) * x ∧ (x : Int) * x * 65536 < 40036 * (MODULI.prod : Nat) := by
  rw [Script.Q_eq] at hx
  rw [← Crt.product_eq, ← BIGM_eq]
  exact prod_bound 1 1 (by positivity) (by rw [Nat.cast_one, one_mul]; exact_mod_cast hx) (by positivity)
    (by rw [Nat.cast_one, one_mul]; exact_mod_cast hx) (by norm_num)

/-- C90: run as a script, the file succeeds whatever numbers in `[0, q]` are drawn, and however many: none of its assertions
fails, and the result is the list of the squares modulo `q`. -/
theorem C90_script (rd : ℚ → ℚ) (hrd : FloatRound rd) (xs : List Nat) (hxs : ∀ x ∈ xs, x ≤ Q) :
    script rd xs = .ok (xs.map fun x => x * x % Q) := by
  have hsmall : 51000 * Q ≤ MODULI.prod := by
    rw [← Crt.product_eq, ← BIGM_eq]
    exact Script.small
  obtain ⟨mat, hm, hrun⟩ := C90_mod_reduce rd hrd Q Script.Q_pos hsmall
  have hcor : mat.2 = literalCor := by
    rw [← Script.cor_eq]
    unfold coefficients at hm
    dsimp only at hm
    split at hm
    · rw [← Except.ok.inj hm]
    · exact absurd hm (by simp)
  have hrows : List.Forall₂ IsRns (xs.map fun x => MODULI.map fun m => x % m) (xs.map (Nat.cast : Nat → Int)) := by
    rw [List.forall₂_map_left_iff, List.forall₂_map_right_iff]
    exact List.forall₂_same.2 fun x _ => isRns_toRns x
  have hget : ∀ i, i < xs.length → (xs.map (Nat.cast : Nat → Int)).getD i 0 = (xs.getD i 0 : Nat) ∧ xs.getD i 0 ≤ Q := by
    intro i hi
    rw [getD_map' _ _ _ 0 _ hi]
    refine ⟨rfl, hxs _ ?_⟩
    rw [List.getD_eq_getElem _ _ hi]
    exact List.getElem_mem hi
  obtain ⟨cs, h1, h2, h3⟩ := hrun _ _ _ _ hrows hrows rfl (by
    intro i hi
    rw [List.length_map] at hi
    rw [(hget i hi).1]
    exact Script.bounds _ (hget i hi).2)
  rw [List.length_map] at h2 h3
  have hres : cs.map (· % Q) = xs.map fun x => x * x % Q := by
    apply List.ext_getElem
    · simp [h2]
    · intro i hi _
      have hi' : i < xs.length := by simpa [h2] using hi
      have := (h3 i hi').2
      rw [(hget i hi').1] at this
      rw [List.getElem_map, List.getElem_map, ← List.getD_eq_getElem _ 0, ← List.getD_eq_getElem _ 0]
      exact_mod_cast this
  have hfound : findModuli TOTAL 16 = (MODULI, RNS_T) := Script.found
  have hprod : Crt.product MODULI = BIGM := BIGM_eq.symm
  unfold script
  simp only [Script.size_Q, Script.bound_eq, Script.total_eq, hfound, hprod, Script.factors_ok, Script.size_M, ← Script.moduli_eq, MODULI_len]
  have hc : ∀ b, b = true → check b = .ok () := fun b h => by rw [h]; rfl
  simp only [hc _ (beq_self_eq_true _), show (16 / 8 : Nat) = 2 from rfl, show (50 == (792 + 16 - 1) / 16) = true from rfl,
    hc true rfl, hm, hcor, h1, hres, bind, Except.bind, pure, Except.pure]

/-- Exact division is an admissible rounding, and the boundary `q` itself may be drawn. -/
example : FloatRound id ∧ (∀ x ∈ [0, Q, Q - 1, 12345], x ≤ Q) ∧ 0 < Q ∧ 51000 * Q ≤ MODULI.prod := by
  refine ⟨⟨fun _ _ => rfl, fun x h0 _ => by rw [id, sub_self, abs_zero]; positivity⟩, ?_, Script.Q_pos, ?_⟩
  · have h : 12345 ≤ Q := Script.Q_large
    intro x hx
    simp only [List.mem_cons, List.not_mem_nil, or_false] at hx
    omega
  · rw [← Crt.product_eq, ← BIGM_eq]
    exact Script.small

end

end Verif.Props

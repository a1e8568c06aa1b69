import Verif.Lemmas.EcRnsRed

/-!
# Products, sums and negation of residue vectors
-/

namespace Verif.EcRns
open Verif.EcChunks Finset

set_option exponentiation.threshold 2000

theorem BIGM_big : 219000000000 * P * P * 65536 < 40036 * BIGM := by decide +kernel
theorem P_pos' : 0 < P := by decide +kernel
theorem MODULI_SUB_len : MODULI_SUB.length = 50 := by decide +kernel
theorem sub_spec : ∀ j, j < 50 → MODULI_SUB.getD j 0 < 65536 ∧
    (MODULI_SUB.getD j 0 + 65536) % MODULI.getD j 0 = 102400 * P % MODULI.getD j 0 := by decide +kernel
theorem TWIST_D_RNS_spec : TWIST_D_RNS.length = 50 ∧ ∀ j, j < 50 → TWIST_D_RNS.getD j 0 < 65536 ∧
    TWIST_D_RNS.getD j 0 = TWIST_D % MODULI.getD j 0 := by decide +kernel
theorem TWIST_D_lt : TWIST_D < P := by decide +kernel

attribute [local irreducible] BIGM MODULI RNS_T FACTORS TOTAL P MODULI_SUB TWIST_D TWIST_D_RNS

theorem IsRns.get_lt {l : List Nat} {x : Int} (h : IsRns l x) (i : Nat) : l.getD i 0 < 65536 :=
  getD_lt l 65536 (by norm_num) h.lt i

theorem IsRns.congr {l : List Nat} {x y : Int} (h : IsRns l x) (hxy : x = y) : IsRns l y := hxy ▸ h

/-- A residue vector determines the integer modulo `M`. -/
theorem IsRns.unique {l : List Nat} {x y : Int} (h1 : IsRns l x) (h2 : IsRns l y) (hx : 0 ≤ x ∧ x < BIGM)
    (hy : 0 ≤ y ∧ y < BIGM) : x = y := by
  rw [BIGM_eq] at hx hy
  apply Verif.Props.crt_unique MODULI_co hx hy
  intro m hm
  obtain ⟨j, hj, rfl⟩ := List.mem_iff_getElem.1 hm
  have hj' : j < 50 := by rw [ MODULI_len] at hj; exact hj
  rw [← md_eq hj']
  exact (h1.mod j hj').symm.trans (h2.mod j hj')

theorem redInternal_getD (l : List Nat) (hl : l.length = 50) : (redInternal l).length = 50 ∧
    ∀ j, j < 50 → (redInternal l).getD j 0 = foldRed (RNS_T.getD j 0) (l.getD j 0) := by
  unfold redInternal
  refine ⟨by rw [List.length_zipWith, RNS_T_len, hl]; rfl, ?_⟩
  intro j hj
  exact getD_zipWith' _ _ _ _ 0 0 _ (by rw [RNS_T_len]; exact hj) (by rw [hl]; exact hj)

theorem mulUnreduced_getD {a b : List Nat} {x y : Int} (ha : IsRns a x) (hb : IsRns b y) :
    (mulUnreduced a b).length = 50 ∧ ∀ j, j < 50 →
      (mulUnreduced a b).getD j 0 = foldRed (RNS_T.getD j 0) (a.getD j 0 * b.getD j 0) ∧
      a.getD j 0 * b.getD j 0 < 2 ^ 32 := by
  have hl : (List.zipWith (fun x y => x * y % 2 ^ 32) a b).length = 50 := by
    rw [List.length_zipWith, ha.len, hb.len]; rfl
  obtain ⟨h1, h2⟩ := redInternal_getD _ hl
  refine ⟨h1, ?_⟩
  intro j hj
  have hlt : a.getD j 0 * b.getD j 0 ≤ 65535 * 65535 :=
    Nat.mul_le_mul (by have := ha.get_lt j; omega) (by have := hb.get_lt j; omega)
  refine ⟨?_, by omega⟩
  unfold mulUnreduced
  rw [h2 j hj, getD_zipWith' _ _ _ _ 0 0 _ (by rw [ha.len]; exact hj) (by rw [hb.len]; exact hj),
    Nat.mod_eq_of_lt (by omega)]

theorem mulUnreduced_spec {a b : List Nat} {x y : Int} (ha : IsRns a x) (hb : IsRns b y) :
    IsRns (mulUnreduced a b) (x * y) := by
  obtain ⟨h1, h2⟩ := mulUnreduced_getD ha hb
  refine ⟨h1, ?_, ?_⟩
  · intro v hv
    obtain ⟨j, hj, rfl⟩ := List.mem_iff_getElem.1 hv
    obtain ⟨e, hlt⟩ := h2 j (by omega)
    rw [← List.getD_eq_getElem _ 0, e]
    exact foldRed_lt _ _ (t_lt (by omega)) hlt
  · intro j hj
    obtain ⟨e, hlt⟩ := h2 j hj
    rw [e]
    refine (Int.natCast_modEq_iff.2 (foldRed_modEq _ _ _ (off hj) (t_lt hj) hlt)).trans ?_
    push_cast
    exact (ha.mod j hj).mul (hb.mod j hj)

theorem modMul_spec {q : Nat} (hq : 0 < q) {mat : List (List Nat) × List Nat} (hg : Good q mat) {a b : List Nat}
    {x y : Int} (ha : IsRns a x) (hb : IsRns b y) (h0 : 0 ≤ x * y) (hxy : x * y * 65536 < 40036 * BIGM) :
    ∃ c : Int, IsRns (modMul mat a b) c ∧ 0 ≤ c ∧ c < 51000 * q ∧ c ≡ x * y [ZMOD q] :=
  modRed_spec hq hg _ _ (mulUnreduced_spec ha hb) h0 hxy

/-- Size condition for a product, in multiples of `p`. -/
theorem prod_bound {x y : Int} (A B : Nat) (hx0 : 0 ≤ x) (hx : x ≤ A * P) (hy0 : 0 ≤ y) (hy : y ≤ B * P)
    (hAB : A * B ≤ 219000000000) : 0 ≤ x * y ∧ x * y * 65536 < 40036 * BIGM := by
  refine ⟨Int.mul_nonneg hx0 hy0, ?_⟩
  have h1 : x * y ≤ (A * P) * (B * P) := Int.mul_le_mul hx hy hy0 (by positivity)
  have h2 : ((A * P : Int)) * (B * P) ≤ 219000000000 * P * P := by
    have : A * P * (B * P) ≤ 219000000000 * P * P := by
      calc A * P * (B * P) = A * B * (P * P) := by ring
        _ ≤ 219000000000 * (P * P) := Nat.mul_le_mul_right _ hAB
        _ = _ := by ring
    exact_mod_cast this
  have h3 : (219000000000 * P * P * 65536 : Int) < 40036 * BIGM := by exact_mod_cast BIGM_big
  calc x * y * 65536 ≤ 219000000000 * P * P * 65536 := by
        apply Int.mul_le_mul_of_nonneg_right (h1.trans h2) (by norm_num)
    _ < _ := h3

theorem modMul_P {mat : List (List Nat) × List Nat} (hg : Good P mat) {a b : List Nat} {x y : Int}
    (ha : IsRns a x) (hb : IsRns b y) (A B : Nat) (hx0 : 0 ≤ x) (hx : x ≤ A * P) (hy0 : 0 ≤ y) (hy : y ≤ B * P)
    (hAB : A * B ≤ 219000000000) :
    ∃ c : Int, IsRns (modMul mat a b) c ∧ 0 ≤ c ∧ c < 51000 * P ∧ c ≡ x * y [ZMOD P] := by
  obtain ⟨h1, h2⟩ := prod_bound A B hx0 hx hy0 hy hAB
  exact modMul_spec P_pos' hg ha hb h1 h2

/-! ## Sums -/

/-- Operands of `add_sub_rns_var`: limbs below `B`, congruent to `x`. -/
structure Term (B : Nat) (l : List Nat) (x : Int) : Prop where
  len : l.length = 50
  lt : ∀ i, i < 50 → l.getD i 0 < B
  mod : ∀ i, i < 50 → (l.getD i 0 : Int) ≡ x [ZMOD (MODULI.getD i 0 : Nat)]

theorem IsRns.term {l : List Nat} {x : Int} (h : IsRns l x) {B : Nat} (hB : 65536 ≤ B) : Term B l x :=
  ⟨h.len, fun i _ => lt_of_lt_of_le (h.get_lt i) hB, h.mod⟩

theorem acc_spec (B : Nat) (vs : List (List Nat)) (xs : List Int) (hs : List.Forall₂ (Term B) vs xs) (v : List Nat)
    (x : Int) (N : Nat) (h : Term N v x) (hN : N + vs.length * B ≤ 2 ^ 24) :
    Term (N + vs.length * B) (vs.foldl (fun acc w => List.zipWith (fun x y => (x + y) % 2 ^ 32) w acc) v) (x + xs.sum) ∧
    ∀ j, j < 50 → v.getD j 0 ≤
      (vs.foldl (fun acc w => List.zipWith (fun x y => (x + y) % 2 ^ 32) w acc) v).getD j 0 := by
  induction hs generalizing v x N with
  | nil => simpa using h
  | @cons w y ws ys hw hws ih =>
    simp only [List.length_cons, Nat.add_mul, Nat.one_mul, List.foldl_cons, List.sum_cons] at hN ⊢
    have hj : ∀ j, j < 50 → (List.zipWith (fun x y => (x + y) % 2 ^ 32) w v).getD j 0 = w.getD j 0 + v.getD j 0 := by
      intro j hj
      rw [getD_zipWith' _ _ _ _ 0 0 _ (by rw [hw.len]; exact hj) (by rw [h.len]; exact hj)]
      have h1 := hw.lt j hj
      have h2 := h.lt j hj
      rw [Nat.mod_eq_of_lt (by omega)]
    have hnew : Term (N + B) (List.zipWith (fun x y => (x + y) % 2 ^ 32) w v) (x + y) := by
      refine ⟨by rw [List.length_zipWith, hw.len, h.len]; rfl, ?_, ?_⟩
      · intro j hj'
        rw [hj j hj']
        have h1 := hw.lt j hj'
        have h2 := h.lt j hj'
        omega
      · intro j hj'
        rw [hj j hj', Nat.add_comm]
        push_cast
        exact (h.mod j hj').add (hw.mod j hj')
    obtain ⟨h1, h2⟩ := ih _ _ (N + B) hnew (by omega)
    constructor
    · have e1 : N + B + ws.length * B = N + (ws.length * B + B) := by omega
      have e2 : x + y + ys.sum = x + (y + ys.sum) := by ring
      rw [e1, e2] at h1
      exact h1
    · intro j hj'
      refine le_trans ?_ (h2 j hj')
      rw [hj j hj']
      omega

/-- `add_sub_rns_var` adds. -/
theorem addSubVals_spec (B : Nat) (v : List Nat) (vs : List (List Nat)) (x : Int) (xs : List Int) (h : Term B v x)
    (hs : List.Forall₂ (Term B) vs xs) (hB : (vs.length + 1) * B ≤ 2 ^ 24) : IsRns (addSubVals v vs) (x + xs.sum) := by
  obtain ⟨h1, -⟩ := acc_spec B vs xs hs v x B h (by rw [Nat.add_mul] at hB; omega)
  unfold addSubVals
  generalize vs.foldl (fun acc w => List.zipWith (fun x y => (x + y) % 2 ^ 32) w acc) v = acc at *
  have hj : ∀ j, j < 50 → (List.zipWith foldAdd RNS_T acc).getD j 0 = foldAdd (RNS_T.getD j 0) (acc.getD j 0) :=
    fun j hj => getD_zipWith' _ _ _ _ 0 0 _ (by rw [RNS_T_len]; exact hj) (by rw [h1.len]; exact hj)
  have hlen : (List.zipWith foldAdd RNS_T acc).length = 50 := by rw [List.length_zipWith, RNS_T_len, h1.len]; rfl
  have hlt : ∀ j, j < 50 → acc.getD j 0 < 2 ^ 24 := by
    intro j hj
    have := h1.lt j hj
    rw [Nat.add_mul] at hB
    omega
  refine ⟨hlen, ?_, ?_⟩
  · intro u hu
    obtain ⟨j, hj', rfl⟩ := List.mem_iff_getElem.1 hu
    rw [← List.getD_eq_getElem _ 0, hj j (by omega)]
    exact foldAdd_lt _ _ (t_lt (by omega)) (hlt j (by omega))
  · intro j hj'
    rw [hj j hj']
    exact (Int.natCast_modEq_iff.2 (foldAdd_modEq _ _ _ (off hj') (t_lt hj') (hlt j hj'))).trans (h1.mod j hj')

/-- All limbs but the first (whose modulus is `2^16`) are non-zero. -/
def NZ (l : List Nat) : Prop := ∀ i, 0 < i → i < 50 → 0 < l.getD i 0

/-- A sum whose first operand has no zero limb has no zero limb. -/
theorem addSubVals_NZ (B : Nat) (v : List Nat) (vs : List (List Nat)) (x : Int) (xs : List Int) (h : Term B v x)
    (hs : List.Forall₂ (Term B) vs xs) (hB : (vs.length + 1) * B ≤ 2 ^ 24) (hn : NZ v) : NZ (addSubVals v vs) := by
  obtain ⟨h1, h2⟩ := acc_spec B vs xs hs v x B h (by rw [Nat.add_mul] at hB; omega)
  intro j h0 hj
  unfold addSubVals
  rw [getD_zipWith' _ _ _ _ 0 0 _ (by rw [RNS_T_len]; exact hj) (by rw [h1.len]; exact hj)]
  have hlt := h1.lt j hj
  rw [Nat.add_mul] at hB
  exact foldAdd_pos _ _ (RNS_T_pos j h0 hj) (t_lt hj) (by omega) (lt_of_lt_of_le (hn j h0 hj) (h2 j hj))

theorem add2_spec {a b : List Nat} {x y : Int} (ha : IsRns a x) (hb : IsRns b y) : IsRns (add2 a b) (x + y) := by
  have := addSubVals_spec 65536 a [b] x [y] (ha.term le_rfl) (.cons (hb.term le_rfl) .nil) (by norm_num)
  simpa [add2] using this

theorem add3_spec {a b c : List Nat} {x y z : Int} (ha : IsRns a x) (hb : IsRns b y) (hc : IsRns c z) :
    IsRns (add3 a b c) (x + y + z) := by
  have := addSubVals_spec 65536 a [b, c] x [y, z] (ha.term le_rfl)
    (.cons (hb.term le_rfl) (.cons (hc.term le_rfl) .nil)) (by norm_num)
  simpa [add3, add_assoc] using this

/-! ## Negation -/

theorem neg_limb (j : Nat) (hj : j < 50) (a : Nat) (ha : a < 65536) (h : a ≠ 0 ∨ j = 0) :
    negLimb (MODULI_SUB.getD j 0) a < 131072 ∧ ∀ x : Int, (a : Int) ≡ x [ZMOD (MODULI.getD j 0 : Nat)] →
      (negLimb (MODULI_SUB.getD j 0) a : Int) ≡ 102400 * P - x [ZMOD (MODULI.getD j 0 : Nat)] := by
  obtain ⟨h1, h2⟩ := sub_spec j hj
  have hS : ((MODULI_SUB.getD j 0 : Nat) : Int) + 65536 ≡ 102400 * P [ZMOD (MODULI.getD j 0 : Nat)] := by
    have : MODULI_SUB.getD j 0 + 65536 ≡ 102400 * P [MOD MODULI.getD j 0] := h2
    exact_mod_cast Int.natCast_modEq_iff.2 this
  generalize MODULI_SUB.getD j 0 = s at *
  unfold negLimb
  rw [Nat.mod_eq_of_lt (show a < 2 ^ 16 by omega)]
  refine ⟨by omega, ?_⟩
  intro x hx
  by_cases ha0 : a = 0
  · have hj0 : j = 0 := by tauto
    subst hj0 ha0
    have hm : MODULI.getD 0 0 = 65536 := by
      clear hS h1 h2 hx
      have : MODULI.getD 0 0 = 65536 := by decide +kernel
      exact this
    rw [hm] at hS hx ⊢
    rw [show ((2 ^ 16 - 0) % 2 ^ 16 + s) % 2 ^ 32 = s by omega]
    have h3 : (s : Int) ≡ (s : Int) + 65536 [ZMOD (65536 : Nat)] := by
      unfold Int.ModEq; simp
    have h4 := (h3.trans hS).sub hx
    simpa using h4
  · rw [show ((2 ^ 16 - a) % 2 ^ 16 + s) % 2 ^ 32 = s + 65536 - a by omega]
    have : ((s + 65536 - a : Nat) : Int) = (s : Int) + 65536 - (a : Int) := by
      have : a ≤ s + 65536 := by omega
      push_cast [Nat.cast_sub this]
      ring
    rw [this]
    exact hS.sub hx

/-- `negate_rns_for_var_add` on a vector without zero limbs. -/
theorem negate_spec {a : List Nat} {x : Int} (ha : IsRns a x) (hn : NZ a) : Term 131072 (negate a) (102400 * P - x) := by
  have hj : ∀ j, j < 50 → (negate a).getD j 0 = negLimb (MODULI_SUB.getD j 0) (a.getD j 0) := fun j hj =>
    getD_zipWith' _ _ _ _ 0 0 _ (by rw [ MODULI_SUB_len]; exact hj) (by rw [ha.len]; exact hj)
  have hk : ∀ j, j < 50 → a.getD j 0 ≠ 0 ∨ j = 0 := by
    intro j hj
    by_cases h : j = 0
    · exact Or.inr h
    · exact Or.inl (Nat.pos_iff_ne_zero.1 (hn j (Nat.pos_of_ne_zero h) hj))
  refine ⟨by unfold negate; rw [List.length_zipWith, MODULI_SUB_len, ha.len]; rfl, ?_, ?_⟩
  · intro j hj'
    rw [hj j hj']
    exact (neg_limb j hj' _ (ha.get_lt j) (hk j hj')).1
  · intro j hj'
    rw [hj j hj']
    exact (neg_limb j hj' _ (ha.get_lt j) (hk j hj')).2 x (ha.mod j hj')

/-- `negate_rns_for_var_add_zero_check` on a vector without zero limbs, the first included. -/
theorem negateZ_spec {a : List Nat} {x : Int} (ha : IsRns a x) (hn : ∀ i, i < 50 → 0 < a.getD i 0) :
    Term 131072 (negateZ a) (102400 * P - x) := by
  have hj : ∀ j, j < 50 → (negateZ a).getD j 0 = negLimb (MODULI_SUB.getD j 0) (a.getD j 0) := by
    intro j hj
    unfold negateZ
    rw [getD_zipWith' _ _ _ _ 0 0 _ (by rw [ MODULI_SUB_len]; exact hj) (by rw [ha.len]; exact hj)]
    have h1 := ha.get_lt j
    have h2 := hn j hj
    have h3 := (neg_limb j hj _ h1 (Or.inl (by omega))).1
    unfold negLimbZ
    rw [if_pos (by rw [Nat.mod_eq_of_lt (show a.getD j 0 < 2 ^ 16 by omega)]; omega)]
    unfold negLimb at h3 ⊢
    omega
  refine ⟨by unfold negateZ; rw [List.length_zipWith, MODULI_SUB_len, ha.len]; rfl, ?_, ?_⟩
  · intro j hj'
    rw [hj j hj']
    exact (neg_limb j hj' _ (ha.get_lt j) (Or.inl (by have := hn j hj'; omega))).1
  · intro j hj'
    rw [hj j hj']
    exact (neg_limb j hj' _ (ha.get_lt j) (Or.inl (by have := hn j hj'; omega))).2 x (ha.mod j hj')

/-- The zero vector is mapped to the zero vector. -/
theorem negateZ_zero : negateZ (List.replicate 50 0) = List.replicate 50 0 := by decide +kernel

theorem isRns_const (c : Nat) (hc : c < 65536) : IsRns (List.replicate 50 c) c := by
  refine ⟨by simp, ?_, ?_⟩
  · intro v hv
    rw [List.eq_of_mem_replicate hv]
    exact hc
  · intro i hi
    rw [List.getD_eq_getElem (List.replicate 50 c) _ (by simpa using hi), List.getElem_replicate]

theorem isRns_toRns (x : Nat) : IsRns (MODULI.map fun m => x % m) x := by
  refine ⟨by rw [List.length_map, MODULI_len], ?_, ?_⟩
  · intro v hv
    rw [List.mem_map] at hv
    obtain ⟨m, hm, rfl⟩ := hv
    have := MODULI_range m hm
    have := Nat.mod_lt x (show 0 < m by omega)
    omega
  · intro i hi
    rw [getD_map' _ _ _ 0 _ (by rw [ MODULI_len]; exact hi)]
    exact Int.natCast_modEq_iff.2 (Nat.mod_modEq _ _)

theorem isRns_twistD : IsRns TWIST_D_RNS TWIST_D := by
  obtain ⟨h1, h2⟩ := TWIST_D_RNS_spec
  refine ⟨h1, ?_, ?_⟩
  · intro v hv
    obtain ⟨j, hj, rfl⟩ := List.mem_iff_getElem.1 hv
    rw [← List.getD_eq_getElem _ 0]
    exact (h2 j (by omega)).1
  · intro i hi
    rw [(h2 i hi).2]
    exact Int.natCast_modEq_iff.2 (Nat.mod_modEq _ _)

end Verif.EcRns

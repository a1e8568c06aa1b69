import Verif.Lemmas.EcRnsExact

/-!
# Properties C55, C56 and C57: the residue number system of jaxite_ec

`IsRns l x` says that `l` consists of fifty 16-bit limbs, limb `i` congruent to the integer `x` modulo the `i`-th
modulus.  The moduli are the literal list of `C55_moduli`.
-/

namespace Verif.Props
open Verif.EcRns Verif.EcChunks

set_option exponentiation.threshold 2000

/-! ## C55 -/

/-- C55: `find_moduli` returns pairwise coprime positive moduli with `2^precision ≡ t` for the offset `t` of each, for
every bound and precision. -/
theorem C55_find_moduli (total precision : Nat) (hp : 1 ≤ precision) :
    (∀ m ∈ (findModuli total precision).1, 0 < m) ∧ (findModuli total precision).1.Pairwise Nat.Coprime ∧
    (findModuli total precision).2.length = (findModuli total precision).1.length ∧
    ∀ i (h : i < (findModuli total precision).1.length),
      2 ^ precision % (findModuli total precision).1[i] =
        (findModuli total precision).2.getD i 0 % (findModuli total precision).1[i] :=
  findModuli_spec total precision hp

example := C55_find_moduli 800 16 (by norm_num)

/-- C55: the moduli and offsets of util.py are the literal lists of util.py L60-111, and their product has the headroom
that `find_moduli` was asked for. -/
theorem C55_moduli : RNS_T = [0, 1, 3, 5, 9, 15, 17, 27, 33, 39, 45, 47, 57, 59, 63, 77, 87, 89, 99, 105, 113, 117, 123,
      125, 129, 143, 153, 155, 165, 167, 173, 179, 183, 189, 197, 209, 213, 215, 225, 227, 243, 249, 14, 38, 50, 54, 98,
      102, 110, 122] ∧
    MODULI = RNS_T.map (fun i => if i = 0 then 2 ^ 16 else if i % 2 = 1 then 2 ^ 16 - i else 2 ^ 15 - i / 2) ∧
    P * P * 256 * 256 * 50 * 50 * 4 * 2 < MODULI.prod := by decide +kernel

/-- C55: one limb of `moduli_rns_red_internal_2u16`: 16 bits, congruent, for every 32-bit value, every offset below 256
and every modulus `m` with `2^16 ≡ t (mod m)`. -/
theorem C55_fold (m t v : Nat) (ht : t < 256) (hm : 2 ^ 16 % m = t % m) (hv : v < 2 ^ 32) :
    foldRed t v < 2 ^ 16 ∧ foldRed t v % m = v % m :=
  ⟨foldRed_lt t v ht hv, foldRed_modEq m t v hm ht hv⟩

example := C55_fold 65533 3 4294967295 (by norm_num) (by norm_num) (by norm_num)

/-- C55: the reference fold computes the same limb. -/
theorem C55_reference (m t v : Nat) (ht : t < 256) (hm : 2 ^ 16 % m = t % m) (hv : v < 2 ^ 32) :
    hardwareReduce t v < 2 ^ 16 ∧ hardwareReduce t v % m = v % m := by
  rw [hardwareReduce_eq t v ht hv]
  exact C55_fold m t v ht hm hv

example := C55_reference 65533 3 4294967295 (by norm_num) (by norm_num) (by norm_num)

/-- C55: the whole vector. -/
theorem C55_fold_vector (l : List Nat) (hl : l.length = 50) (hv : ∀ v ∈ l, v < 2 ^ 32) :
    (redInternal l).length = 50 ∧ ∀ i, i < 50 → (redInternal l).getD i 0 < 2 ^ 16 ∧
      (redInternal l).getD i 0 % MODULI.getD i 0 = l.getD i 0 % MODULI.getD i 0 := by
  obtain ⟨h1, h2⟩ := redInternal_getD l hl
  refine ⟨h1, ?_⟩
  intro i hi
  rw [h2 i hi]
  have := getD_lt l (2 ^ 32) (by norm_num) hv i
  exact C55_fold _ _ _ (t_lt hi) (off hi) this

example := C55_fold_vector (List.replicate 50 4294967295) (by simp) (by simp)

/-- C55: `add_sub_rns_var` on one to 255 residue vectors returns a residue vector of the sum. -/
theorem C55_add (vs : List (List Nat)) (xs : List Int) (hs : List.Forall₂ IsRns vs xs) (h0 : 0 < vs.length)
    (h1 : vs.length < 256) : ∃ r, addSub vs = .ok r ∧ IsRns r xs.sum := by
  cases hs with
  | nil => simp at h0
  | @cons v x ws ys hv hws =>
    refine ⟨addSubVals v ws, ?_, ?_⟩
    · exact if_pos h1
    · rw [List.sum_cons]
      refine addSubVals_spec 65536 v ws x ys (hv.term le_rfl) ?_ ?_
      · exact hws.imp (fun a b h => h.term le_rfl)
      · simp only [List.length_cons] at h1
        calc (ws.length + 1) * 65536 ≤ 256 * 65536 := Nat.mul_le_mul_right _ (by omega)
          _ = 2 ^ 24 := by norm_num

example := C55_add [ MODULI.map fun m => 5 % m, MODULI.map fun m => 7 % m] [(5 : Nat), (7 : Nat)]
  (.cons (isRns_toRns 5) (.cons (isRns_toRns 7) .nil)) (by simp) (by simp)

/-- C55: zero operands, or 256 and more, are rejected. -/
theorem C55_add_rejects (vs : List (List Nat)) (h : vs.length = 0 ∨ 256 ≤ vs.length) :
    addSub vs = .error "AssertionError" := by
  cases vs with
  | nil => rfl
  | cons v ws =>
    refine if_neg ?_
    simp only [List.length_cons] at h ⊢
    omega

example := C55_add_rejects (List.replicate 256 [1]) (Or.inr (by rw [List.length_replicate]))

/-- C55: `rns_constant` represents its argument, and accepts exactly `0 ≤ c < 2^14`. -/
theorem C55_constant (c : Int) :
    (0 ≤ c ∧ c < 2 ^ 14 → ∃ l, rnsConstant c = .ok l ∧ IsRns l c) ∧
    (¬ (0 ≤ c ∧ c < 2 ^ 14) → rnsConstant c = .error "AssertionError") := by
  unfold rnsConstant
  constructor
  · intro h
    rw [if_pos h]
    refine ⟨_, rfl, ?_⟩
    have := isRns_const c.toNat (by omega)
    rwa [Int.toNat_of_nonneg h.1] at this
  · intro h
    rw [if_neg h]

example : (2 : Nat) ^ 16 % 65533 = 3 % 65533 ∧ (3 : Nat) < 256 ∧ foldRed 3 4294967295 % 65533 = 4294967295 % 65533 := by
  decide

/-! ## C56 -/

/-- C56: the tables are built without overflow for every target modulus, whatever the rounding of the float division
(within IEEE accuracy). -/
theorem C56_table (rd : ℚ → ℚ) (hrd : FloatRound rd) (q : Nat) : ∃ mat, constructMatrix rd q = .ok mat :=
  (constructMatrix_good rd hrd q).imp fun _ h => h.1

/-- C56: `mod_red_rns_2u16` maps a residue vector of `c`, `0 ≤ c < 0.61 M`, to a residue vector of some `c' ≡ c (mod q)`
with `0 ≤ c' < 51000 q`, for every target modulus. -/
theorem C56_reduction (rd : ℚ → ℚ) (hrd : FloatRound rd) (q : Nat) (hq : 0 < q) (mat : List (List Nat) × List Nat)
    (hm : constructMatrix rd q = .ok mat) (l : List Nat) (c : Int) (h : IsRns l c) (hc0 : 0 ≤ c)
    (hc : c * 65536 < 40036 * (MODULI.prod : Nat)) :
    ∃ c' : Int, IsRns (modRed mat 50 l) c' ∧ 0 ≤ c' ∧ c' < 51000 * q ∧ c' % q = c % q := by
  obtain ⟨mat', h1, h2⟩ := constructMatrix_good rd hrd q
  rw [hm] at h1
  cases h1
  rw [← Crt.product_eq, ← BIGM_eq] at hc
  exact modRed_spec hq h2 l c h hc0 hc

/-- C56: `mod_mul_rns_2u16`: the product of residue vectors, reduced. -/
theorem C56_mod_mul (rd : ℚ → ℚ) (hrd : FloatRound rd) (q : Nat) (hq : 0 < q) (mat : List (List Nat) × List Nat)
    (hm : constructMatrix rd q = .ok mat) (a b : List Nat) (x y : Int) (ha : IsRns a x) (hb : IsRns b y)
    (h0 : 0 ≤ x * y) (hxy : x * y * 65536 < 40036 * (MODULI.prod : Nat)) :
    ∃ c : Int, IsRns (modMul mat a b) c ∧ 0 ≤ c ∧ c < 51000 * q ∧ c % q = x * y % q := by
  obtain ⟨mat', h1, h2⟩ := constructMatrix_good rd hrd q
  rw [hm] at h1
  cases h1
  rw [← Crt.product_eq, ← BIGM_eq] at hxy
  exact modMul_spec hq h2 ha hb h0 hxy

/-- C56: with the field modulus of util.py, factors up to `467000 p` may be multiplied: outputs (`< 51000 p`) can be
summed up to nine times before the next product. -/
theorem C56_mod_mul_field (rd : ℚ → ℚ) (hrd : FloatRound rd) (mat : List (List Nat) × List Nat)
    (hm : constructMatrix rd P = .ok mat) (a b : List Nat) (x y : Int) (ha : IsRns a x) (hb : IsRns b y)
    (hx0 : 0 ≤ x) (hx : x ≤ 467000 * P) (hy0 : 0 ≤ y) (hy : y ≤ 467000 * P) :
    ∃ c : Int, IsRns (modMul mat a b) c ∧ 0 ≤ c ∧ c < 51000 * P ∧ c % P = x * y % P := by
  obtain ⟨mat', h1, h2⟩ := constructMatrix_good rd hrd P
  rw [hm] at h1
  cases h1
  exact modMul_P h2 ha hb 467000 467000 hx0 hx hy0 hy (by norm_num)

/-- C56: a residue vector determines the integer below `M`. -/
theorem C56_unique (l : List Nat) (x y : Int) (h1 : IsRns l x) (h2 : IsRns l y) (hx : 0 ≤ x ∧ x < (MODULI.prod : Nat))
    (hy : 0 ≤ y ∧ y < (MODULI.prod : Nat)) : x = y := by
  rw [← Crt.product_eq, ← BIGM_eq] at hx hy
  exact h1.unique h2 hx hy

/-- The largest element of the field meets the hypotheses of `C56_reduction`, `C56_mod_mul`, `C56_mod_mul_field` and `C57_products`, with
exact rounding. -/
example : FloatRound id ∧ IsRns (MODULI.map fun m => (P - 1) % m) ((P - 1 : Nat) : Int) ∧
    ((P - 1 : Nat) : Int) ≤ 467000 * P ∧ ∃ mat, constructMatrix id P = .ok mat := by
  have hid : FloatRound id := ⟨fun _ _ => rfl, fun x h0 _ => by rw [id, sub_self, abs_zero]; positivity⟩
  refine ⟨hid, isRns_toRns _, ?_, C56_table id hid P⟩
  have := P_pos'
  push_cast [Nat.cast_sub (show 1 ≤ P by omega)]
  omega

/-! ## C57 -/

/-- C57 (partial): the operand produced by `negate_rns_for_var_add` represents `102400 p - x` in every limb, *provided*
no limb but the first is zero.  Missing: vectors with a zero limb, where the claim is false (`C57_negate_false`). -/
theorem C57_negate_partial (a : List Nat) (x : Int) (ha : IsRns a x) (hn : ∀ i, 0 < i → i < 50 → a.getD i 0 ≠ 0) :
    ∀ i, i < 50 → (negate a).getD i 0 < 2 ^ 17 ∧
      (((negate a).getD i 0 : Nat) : Int) % (MODULI.getD i 0 : Nat) = (102400 * P - x) % (MODULI.getD i 0 : Nat) := by
  have h := negate_spec ha (fun i h0 hi => Nat.pos_of_ne_zero (hn i h0 hi))
  exact fun i hi => ⟨h.lt i hi, h.mod i hi⟩

example := C57_negate_partial (MODULI.map fun m => 5 % m) (5 : Nat) (isRns_toRns 5) (fun i _ => (by decide +kernel :
  ∀ i, i < 50 → (MODULI.map fun m => 5 % m).getD i 0 ≠ 0) i)

/-- C57 (partial): the zero-check variant, for vectors without any zero limb and for the zero vector. -/
theorem C57_zero_check_partial (a : List Nat) (x : Int) (ha : IsRns a x) :
    ((∀ i, i < 50 → a.getD i 0 ≠ 0) → ∀ i, i < 50 → (negateZ a).getD i 0 < 2 ^ 17 ∧
      (((negateZ a).getD i 0 : Nat) : Int) % (MODULI.getD i 0 : Nat) = (102400 * P - x) % (MODULI.getD i 0 : Nat)) ∧
    (a = List.replicate 50 0 → negateZ a = List.replicate 50 0) := by
  constructor
  · intro hn
    have h := negateZ_spec ha (fun i hi => Nat.pos_of_ne_zero (hn i hi))
    exact fun i hi => ⟨h.lt i hi, h.mod i hi⟩
  · rintro rfl
    exact negateZ_zero

example := (C57_zero_check_partial (MODULI.map fun m => 5 % m) (5 : Nat) (isRns_toRns 5)).1 (by decide +kernel)

/-- C57 is false for `negate_rns_for_var_add`: for `x = 65535`, whose second limb is zero, that limb of the result is
not `102400 p - x`. -/
theorem C57_negate_false : ∃ (a : List Nat) (x : Int), IsRns a x ∧ 0 ≤ x ∧ x < P ∧
    (((negate a).getD 1 0 : Nat) : Int) % (MODULI.getD 1 0 : Nat) ≠ (102400 * P - x) % (MODULI.getD 1 0 : Nat) :=
  ⟨MODULI.map fun m => 65535 % m, (65535 : Nat), isRns_toRns 65535, by decide +kernel, by decide +kernel,
    by decide +kernel⟩

/-- C57 is false for the zero-check variant: for `x = 65536`, whose first limb is zero, the first limb of the result is
not `102400 p - x`, although the unchecked variant is right there. -/
theorem C57_zero_check_false : ∃ (a : List Nat) (x : Int), IsRns a x ∧ 0 ≤ x ∧ x < P ∧
    (((negateZ a).getD 0 0 : Nat) : Int) % (MODULI.getD 0 0 : Nat) ≠ (102400 * P - x) % (MODULI.getD 0 0 : Nat) ∧
    (((negate a).getD 0 0 : Nat) : Int) % (MODULI.getD 0 0 : Nat) = (102400 * P - x) % (MODULI.getD 0 0 : Nat) :=
  ⟨MODULI.map fun m => 65536 % m, (65536 : Nat), isRns_toRns 65536, by decide +kernel, by decide +kernel,
    by decide +kernel, by decide +kernel⟩

/-- C57: for products (the documented kind of operand) a zero limb other than the first appears only when the product of
the two integers is zero, and then the whole vector is zero. -/
theorem C57_products (rd : ℚ → ℚ) (hrd : FloatRound rd) (mat : List (List Nat) × List Nat)
    (hm : constructMatrix rd P = .ok mat) (a b : List Nat) (x y : Int) (ha : IsRns a x) (hb : IsRns b y)
    (h0 : 0 ≤ x * y) (hxy : x * y < (MODULI.prod : Nat)) :
    (x * y = 0 ∧ modMul mat a b = List.replicate 50 0) ∨
      ∀ i, 0 < i → i < 50 → (modMul mat a b).getD i 0 ≠ 0 := by
  obtain ⟨mat', h1, h2⟩ := constructMatrix_good rd hrd P
  rw [hm] at h1
  cases h1
  rw [← Crt.product_eq, ← BIGM_eq] at hxy
  rcases modMul_zero_or h2 ha hb h0 hxy with h | h
  · exact Or.inl h
  · exact Or.inr fun i hi hi' => Nat.pos_iff_ne_zero.1 (h i hi hi')

/-- C57: the zero vector is negated by `negate_rns_for_var_add` to `102400 p - 65536`, that is to `-2^16` modulo `p`
instead of zero. -/
theorem C57_negate_zero : (∀ i, i < 50 → (negate (List.replicate 50 0)).getD i 0 % MODULI.getD i 0 =
    (102400 * P - 65536) % MODULI.getD i 0) ∧ (102400 * P - 65536) % P = P - 65536 := by decide +kernel

example : IsRns (MODULI.map fun m => 5 % m) (5 : Nat) ∧ ∀ i, i < 50 → (MODULI.map fun m => 5 % m).getD i 0 ≠ 0 :=
  ⟨isRns_toRns 5, by decide +kernel⟩

end Verif.Props

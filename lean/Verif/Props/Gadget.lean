import Verif.Lemmas.Gadget
import Mathlib.Tactic.IntervalCases

/-!
# Property C88: the gadget matrix and its inverse

The documentation of `gadget_matrix` promises `inverse_gadget(v).dot(gadget_matrix.T) ~ v`, up to the limited number of levels.
-/

namespace Verif.Props
open Verif.Gadget Verif.Decomposition Verif.Rgsw

/-- What is assumed of the conversion to `uint32`: it is right where the number fits. -/
def ConvOk (conv : ℤ → W) : Prop := ∀ z : ℤ, 0 ≤ z → z < 2 ^ 32 → conv z = BitVec.ofInt 32 z

theorem convOk_wrap : ConvOk (BitVec.ofInt 32) := fun _ _ _ => rfl

/-- A conversion that turns negative numbers into 0. -/
def saturate (z : ℤ) : W := BitVec.ofNat 32 z.toNat

theorem convOk_saturate : ConvOk saturate := by
  intro z h _
  unfold saturate
  conv_rhs => rw [← Int.toNat_of_nonneg h]
  rw [BitVec.ofInt_natCast]

theorem rint_range (v : ℚ) (n : Nat) (h0 : 0 ≤ v) (h1 : v ≤ 1 / 2) :
    0 ≤ rint (v * 2 ^ n) ∧ rint (v * 2 ^ n) < 2 ^ n ∧ 2 * rint (v * 2 ^ n) ≤ 2 ^ n := by
  have hp : (1 : ℚ) ≤ 2 ^ n := one_le_pow₀ (by norm_num)
  have hv : v * 2 ^ n ≤ 2 ^ n / 2 := by nlinarith
  have hv0 : 0 ≤ v * 2 ^ n := by positivity
  have h := abs_le.1 (rint_near (v * 2 ^ n))
  have hnn : 0 ≤ rint (v * 2 ^ n) := by
    have : (-1 : ℚ) < rint (v * 2 ^ n) := by linarith
    have : (-1 : ℤ) < rint (v * 2 ^ n) := by exact_mod_cast this
    omega
  rcases Nat.eq_zero_or_pos n with rfl | hn
  · have hz : rint (v * 2 ^ 0) = 0 := by
      rw [pow_zero, mul_one]
      unfold rint
      rcases lt_or_eq_of_le h1 with hlt | heq
      · have hf : ⌊v⌋ = 0 := by rw [Int.floor_eq_zero_iff]; exact ⟨h0, by linarith⟩
        have : Int.fract v = v := by unfold Int.fract; rw [hf]; simp
        rw [this, if_pos hlt, hf]
      · subst heq; decide +kernel
    rw [hz]; norm_num
  · obtain ⟨m, rfl⟩ : ∃ m, n = m + 1 := ⟨n - 1, by omega⟩
    have e : ((2 : ℚ) ^ (m + 1)) / 2 = ((2 ^ m : ℤ) : ℚ) := by push_cast; rw [pow_succ]; ring
    rw [e] at hv
    have hle : rint (v * 2 ^ (m + 1)) ≤ 2 ^ m := by
      have : (rint (v * 2 ^ (m + 1)) : ℚ) < ((2 ^ m : ℤ) : ℚ) + 1 := by linarith
      have : rint (v * 2 ^ (m + 1)) < 2 ^ m + 1 := by exact_mod_cast this
      omega
    have hpz : (0 : ℤ) < 2 ^ m := by positivity
    generalize rint (v * 2 ^ (m + 1)) = z at *
    rw [pow_succ]
    exact ⟨hnn, by omega, by omega⟩

/-- C88: `gadget_matrix` raises exactly if the digits do not fit into the bit length. -/
theorem C88_rejects (dp : DecompositionParameters) (M T : Nat) :
    (∃ e, gadgetMatrix dp M T = .error e) ↔ T < dp.levelCount * dp.logBase := by
  unfold gadgetMatrix
  dsimp only
  rw [← pow_mul, Nat.mul_comm dp.logBase]
  have : 2 ^ T % 2 ^ (dp.levelCount * dp.logBase) ≠ 0 ↔ T < dp.levelCount * dp.logBase := by
    rw [not_iff_comm, not_lt, ← Nat.dvd_iff_mod_eq_zero, Nat.pow_dvd_pow_iff_le_right (by norm_num)]
  constructor
  · rintro ⟨e, he⟩
    by_contra hc
    rw [if_neg (fun h => hc (this.1 h))] at he
    simp at he
  · intro h
    rw [if_pos (this.2 h)]
    exact ⟨_, rfl⟩

example : gadgetMatrix ⟨5, 7, 32⟩ 3 32 = .error "ValueError" ∧ gadgetMatrix ⟨2, 3, 32⟩ 2 32 =
    .ok [[1 / 4, 1 / 16, 1 / 64, 0, 0, 0], [0, 0, 0, 1 / 4, 1 / 16, 1 / 64]] := by decide +kernel

/-- C88: `inverse_gadget` returns `levels` digits per entry, each below the base. -/
theorem C88_digits (conv : ℤ → W) (v : List ℚ) (dp : DecompositionParameters) (T : Nat) (hT : T ≤ 32)
    (hL : dp.levelCount * dp.logBase ≤ T) :
    (inverseGadget conv v dp T).length = v.length * dp.levelCount ∧
      ∀ d ∈ inverseGadget conv v dp T, d.toNat < 2 ^ dp.logBase := by
  unfold inverseGadget
  constructor
  · induction v with
    | nil => simp
    | cons x v ih =>
      dsimp only at ih ⊢
      rw [List.map_cons, List.map_cons, List.flatMap_cons]
      rw [List.length_append, ih, List.length_ofFn, List.length_cons, Nat.succ_mul, Nat.add_comm]
  · intro d hd
    obtain ⟨x, -, hx⟩ := List.mem_flatMap.1 hd
    obtain ⟨i, rfl⟩ := (List.mem_ofFn' _ _).1 hx
    rw [decompose_toNat x _ _ _ hT hL i]
    exact Nat.mod_lt _ (by positivity)

example := C88_digits (BitVec.ofInt 32) [1 / 4, 3 / 8] ⟨4, 3, 32⟩ 32 (by norm_num) (by norm_num)

/-- C88: what the round trip gives, for every accepted choice of parameters: the rounded multiple of `1 / B^levels` loses its
low `total - levels * log_base` bits. -/
theorem C88_value (conv : ℤ → W) (hc : ConvOk conv) (v : List ℚ) (hv : ∀ x ∈ v, 0 ≤ x ∧ x ≤ 1 / 2) (dp : DecompositionParameters)
    (T : Nat) (hT : T ≤ 32) (hL : dp.levelCount * dp.logBase ≤ T) :
    roundTrip conv v dp T = .ok (v.map fun x =>
      ((rint (x * 2 ^ (dp.levelCount * dp.logBase)) / 2 ^ (T - dp.levelCount * dp.logBase) : ℤ) : ℚ) /
        2 ^ (dp.levelCount * dp.logBase)) := by
  rw [roundTrip_eq conv v dp T hT hL]
  congr 1
  apply List.map_congr_left
  intro x hx
  obtain ⟨h0, h1⟩ := hv x hx
  generalize hn : dp.levelCount * dp.logBase = n at *
  obtain ⟨r0, r1, -⟩ := rint_range x n h0 h1
  generalize rint (x * 2 ^ n) = z at *
  have hp1 : (2 : ℤ) ^ n ≤ 2 ^ T := pow_le_pow_right₀ (by norm_num) hL
  have hp2 : (2 : ℤ) ^ T ≤ 2 ^ 32 := pow_le_pow_right₀ (by norm_num) hT
  rw [hc z r0 (by omega)]
  obtain ⟨k, rfl⟩ := Int.eq_ofNat_of_zero_le r0
  have hk : k < 2 ^ T := by exact_mod_cast lt_of_lt_of_le r1 hp1
  have hk' : k < 2 ^ 32 := by exact_mod_cast lt_of_lt_of_le r1 (hp1.trans hp2)
  rw [BitVec.ofInt_natCast, BitVec.toNat_ofNat, Nat.mod_eq_of_lt hk', Nat.mod_eq_of_lt hk]
  have e : ((k : ℤ) / 2 ^ (T - n)) = ((k / 2 ^ (T - n) : Nat) : ℤ) := by push_cast; rfl
  rw [e, Int.cast_natCast]

example := C88_value _ convOk_saturate [1 / 3, 3 / 8] (by intro x hx; simp at hx; rcases hx with rfl | rfl <;> norm_num) ⟨4, 7, 32⟩ 32
  (by norm_num) (by norm_num)

/-- C88 (what holds): with `B ^ levels = 2 ^ total` the round trip returns each entry of `[0, 1/2]` to within half of `2 ^ -total`,
and exactly if the entry is a multiple of it. For fewer levels the promise fails, see `C88_lost` and `C88_negation`, and for
negative entries see `C88_negative`. -/
theorem C88_exact_partial (conv : ℤ → W) (hc : ConvOk conv) (v : List ℚ) (hv : ∀ x ∈ v, 0 ≤ x ∧ x ≤ 1 / 2) (dp : DecompositionParameters)
    (T : Nat) (hT : T ≤ 32) (hL : dp.levelCount * dp.logBase = T) :
    ∃ r, roundTrip conv v dp T = .ok r ∧ List.Forall₂ (fun (y x : ℚ) => |y - x| ≤ 1 / 2 ^ (T + 1) ∧
      ((∃ k : ℤ, x = (k : ℚ) / 2 ^ T) → y = x)) r v := by
  refine ⟨_, C88_value conv hc v hv dp T hT hL.le, ?_⟩
  rw [hL, Nat.sub_self, pow_zero]
  rw [List.forall₂_map_left_iff, List.forall₂_same]
  intro x _
  have hp : (0 : ℚ) < 2 ^ T := by positivity
  rw [Int.ediv_one]
  constructor
  · have := rint_near (x * 2 ^ T)
    have e : (rint (x * 2 ^ T) : ℚ) / 2 ^ T - x = (rint (x * 2 ^ T) - x * 2 ^ T) / 2 ^ T := by field_simp
    rw [e, abs_div, abs_of_pos hp, div_le_iff₀ hp, pow_succ]
    refine this.trans (le_of_eq ?_)
    field_simp
  · rintro ⟨k, rfl⟩
    rw [div_mul_cancel₀ _ hp.ne', rint_int]

example : roundTrip saturate [1 / 4, 3 / 8, 1 / 3] ⟨8, 4, 32⟩ 32 = .ok [1 / 4, 3 / 8, 1431655765 / 4294967296] := by decide +kernel

/-- C88 (violated): if fewer than all levels are kept, each entry comes back divided by `2 ^ (total - levels * log_base)`, to
within half of `2 ^ -total`, instead of rounded: `inverse_gadget` scales by `B ^ levels` and then takes the digits of a `total`-bit
number. -/
theorem C88_shrunk (conv : ℤ → W) (hc : ConvOk conv) (v : List ℚ) (hv : ∀ x ∈ v, 0 ≤ x ∧ x ≤ 1 / 2) (dp : DecompositionParameters)
    (T : Nat) (hT : T ≤ 32) (hL : dp.levelCount * dp.logBase ≤ T) :
    ∃ r, roundTrip conv v dp T = .ok r ∧ List.Forall₂ (fun y x =>
      0 ≤ y ∧ y ≤ x / 2 ^ (T - dp.levelCount * dp.logBase) + 1 / 2 ^ (T + 1)) r v := by
  refine ⟨_, C88_value conv hc v hv dp T hT hL, ?_⟩
  rw [List.forall₂_map_left_iff, List.forall₂_same]
  intro x hx
  obtain ⟨h0, h1⟩ := hv x hx
  generalize hn : dp.levelCount * dp.logBase = n at *
  obtain ⟨r0, r1, -⟩ := rint_range x n h0 h1
  have hz := (abs_le.1 (rint_near (x * 2 ^ n))).2
  generalize rint (x * 2 ^ n) = z at *
  have hpd : (0 : ℤ) < 2 ^ (T - n) := by positivity
  have hq : ((z / 2 ^ (T - n) : ℤ) : ℚ) * 2 ^ (T - n) ≤ z := by
    have := Int.ediv_mul_le z hpd.ne'
    exact_mod_cast this
  have hT' : (2 : ℚ) ^ T = 2 ^ (T - n) * 2 ^ n := by rw [← pow_add, Nat.sub_add_cancel hL]
  constructor
  · have : (0 : ℤ) ≤ z / 2 ^ (T - n) := Int.ediv_nonneg r0 hpd.le
    have : (0 : ℚ) ≤ ((z / 2 ^ (T - n) : ℤ) : ℚ) := by exact_mod_cast this
    positivity
  · rw [pow_succ, hT']
    have ha : (0 : ℚ) < 2 ^ (T - n) := by positivity
    have hb : (0 : ℚ) < 2 ^ n := by positivity
    generalize ((z / 2 ^ (T - n) : ℤ) : ℚ) = q at *
    generalize (2 : ℚ) ^ (T - n) = a at *
    generalize (2 : ℚ) ^ n = c at *
    rw [div_le_iff₀ hb]
    have e : (x / a + 1 / (a * c * 2)) * c = (x * c + 1 / 2) / a := by field_simp
    rw [e, le_div_iff₀ ha]
    linarith

example := C88_shrunk _ convOk_wrap [1 / 3, 1 / 2] (by intro x hx; simp at hx; rcases hx with rfl | rfl <;> norm_num) ⟨4, 7, 32⟩ 32
  (by norm_num) (by norm_num)

/-- C88 (violated): with at most half of the digits kept nothing is left: every vector comes back as zeros. -/
theorem C88_lost (conv : ℤ → W) (hc : ConvOk conv) (v : List ℚ) (hv : ∀ x ∈ v, 0 ≤ x ∧ x ≤ 1 / 2) (dp : DecompositionParameters)
    (T : Nat) (hT : T ≤ 32) (hL : 2 * (dp.levelCount * dp.logBase) ≤ T) :
    roundTrip conv v dp T = .ok (v.map fun _ => 0) := by
  rw [C88_value conv hc v hv dp T hT (by omega)]
  congr 1
  apply List.map_congr_left
  intro x hx
  obtain ⟨h0, h1⟩ := hv x hx
  generalize hn : dp.levelCount * dp.logBase = n at *
  obtain ⟨r0, r1, -⟩ := rint_range x n h0 h1
  have hp : (2 : ℤ) ^ n ≤ 2 ^ (T - n) := pow_le_pow_right₀ (by norm_num) (by omega)
  rw [Int.ediv_eq_zero_of_lt r0 (by omega)]
  simp

example := C88_lost _ convOk_wrap [1 / 3, 1 / 2] (by intro x hx; simp at hx; rcases hx with rfl | rfl <;> norm_num) ⟨4, 3, 32⟩ 32
  (by norm_num) (by norm_num)

/-- C88 (violated): the documented approximation, with the error of the omitted levels, does not hold: base 16, three levels and
32 bits turn `1/4` into 0. -/
theorem C88_negation : ¬ ∀ (conv : ℤ → W), ConvOk conv → ∀ (v : List ℚ), (∀ x ∈ v, -1 / 2 ≤ x ∧ x < 1 / 2) →
    ∀ (dp : DecompositionParameters) (T : Nat), T ≤ 32 → dp.levelCount * dp.logBase ≤ T →
    ∃ r, roundTrip conv v dp T = .ok r ∧ List.Forall₂ (fun y x => |y - x| ≤ 1 / 2 ^ (dp.levelCount * dp.logBase)) r v := by
  intro h
  obtain ⟨r, hr, hf⟩ := h _ convOk_saturate [1 / 4] (by intro x hx; simp at hx; subst hx; norm_num) ⟨4, 3, 32⟩ 32 (by norm_num) (by norm_num)
  rw [C88_lost _ convOk_saturate [1 / 4] (by intro x hx; simp at hx; subst hx; norm_num) ⟨4, 3, 32⟩ 32 (by norm_num) (by norm_num)] at hr
  injection hr with hr
  subst hr
  rw [List.map_cons, List.forall₂_cons] at hf
  have := hf.1
  norm_num at this

/-- C88 (violated): the result is never negative, whatever the conversion of negative numbers does, so no negative entry comes
back. -/
theorem C88_negative (conv : ℤ → W) (v : List ℚ) (dp : DecompositionParameters) (T : Nat) (hT : T ≤ 32)
    (hL : dp.levelCount * dp.logBase ≤ T) :
    ∃ r, roundTrip conv v dp T = .ok r ∧ List.Forall₂ (fun y x => 0 ≤ y ∧ (x < 0 → -x ≤ |y - x|)) r v := by
  refine ⟨_, roundTrip_eq conv v dp T hT hL, ?_⟩
  rw [List.forall₂_map_left_iff, List.forall₂_same]
  intro x _
  have h : (0 : ℚ) ≤ (((conv (rint (x * 2 ^ (dp.levelCount * dp.logBase)))).toNat % 2 ^ T / 2 ^ (T - dp.levelCount * dp.logBase) : Nat) : ℚ) /
        2 ^ (dp.levelCount * dp.logBase) := by positivity
  refine ⟨h, fun _ => ?_⟩
  have := le_abs_self ((((conv (rint (x * 2 ^ (dp.levelCount * dp.logBase)))).toNat % 2 ^ T / 2 ^ (T - dp.levelCount * dp.logBase) : Nat) : ℚ) /
        2 ^ (dp.levelCount * dp.logBase) - x)
  linarith

example : roundTrip saturate [-1 / 4] ⟨8, 4, 32⟩ 32 = .ok [0] ∧ roundTrip (BitVec.ofInt 32) [-1 / 4] ⟨8, 4, 32⟩ 32 = .ok [3 / 4] := by
  decide +kernel

/-- C88: where the conversion of negative numbers wraps around, the round trip with all levels is right modulo 1 for every
vector. -/
theorem C88_torus (v : List ℚ) (dp : DecompositionParameters) (T : Nat) (hT : T ≤ 32) (hL : dp.levelCount * dp.logBase = T) :
    ∃ r, roundTrip (BitVec.ofInt 32) v dp T = .ok r ∧ List.Forall₂ (fun (y x : ℚ) => ∃ k : ℤ, |y - x - (k : ℚ)| ≤ 1 / 2 ^ (T + 1)) r v := by
  refine ⟨_, roundTrip_eq _ v dp T hT hL.le, ?_⟩
  rw [hL, Nat.sub_self, pow_zero]
  rw [List.forall₂_map_left_iff, List.forall₂_same]
  intro x _
  have hp : (0 : ℚ) < 2 ^ T := by positivity
  have hz := rint_near (x * 2 ^ T)
  generalize rint (x * 2 ^ T) = z at *
  rw [Nat.div_one]
  have hm : (((BitVec.ofInt 32 z).toNat % 2 ^ T : Nat) : ℤ) = z % 2 ^ T := by
    rw [BitVec.toNat_ofInt, Int.natCast_mod, Int.toNat_of_nonneg (Int.emod_nonneg _ (by norm_num))]
    push_cast
    exact Int.emod_emod_of_dvd _ (pow_dvd_pow 2 hT)
  have hd := Int.emod_add_mul_ediv z (2 ^ T)
  refine ⟨-(z / 2 ^ T), ?_⟩
  have e : ((((BitVec.ofInt 32 z).toNat % 2 ^ T : Nat) : ℤ) : ℚ) = z - 2 ^ T * (z / 2 ^ T : ℤ) := by
    rw [hm]
    have : z % 2 ^ T = z - 2 ^ T * (z / 2 ^ T) := by omega
    rw [this]; push_cast; ring
  rw [Int.cast_natCast] at e
  rw [e]
  have e2 : (z - 2 ^ T * (z / 2 ^ T : ℤ)) / 2 ^ T - x - ((-(z / 2 ^ T) : ℤ) : ℚ) = (z - x * 2 ^ T) / 2 ^ T := by
    push_cast; field_simp; ring
  rw [e2, abs_div, abs_of_pos hp, div_le_iff₀ hp, pow_succ]
  refine hz.trans (le_of_eq ?_)
  field_simp

example := C88_torus [-1 / 3, 5 / 7, -1 / 2] ⟨8, 4, 32⟩ 32 (by norm_num) (by norm_num)

end Verif.Props

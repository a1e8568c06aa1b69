import Verif.Model.RandomBounds
import Verif.Props.RlweRandom
import Mathlib.Data.Int.CardIntervalMod
import Mathlib.SetTheory.Cardinal.Finite
import Mathlib.Algebra.BigOperators.Fin

/-!
# C103: uniform samples are uniform
-/

namespace Verif.Props
open Verif.Arith Verif.Helpers Verif.Session Verif.RandomBounds

/-- The number of ways to make `N` choices, each out of `R`, for which the call returns this array (and has used
exactly these choices). The probability of the array is this number divided by `R ^ N`. -/
noncomputable def ways (run : List Nat → Except String (Array' × List Nat)) (R N : Nat) (arr : Array') : Nat :=
  Nat.card {c : Fin N → Fin R // run (List.ofFn fun i => (c i).val) = .ok (arr, [])}

theorem draw_randint (lo hi : Int) (rest : List Nat) :
    ∀ l : List Nat, (∀ x ∈ l, x < (hi - lo + 1).toNat) →
      draw (randint lo hi) l.length (l ++ rest) = (l.map (fun x : Nat => lo + (x : Int)), rest)
  | [], _ => rfl
  | x :: t, h => by
    have ih := draw_randint lo hi rest t (fun y hy => h y (List.mem_cons_of_mem _ hy))
    have hx : x % (hi - lo + 1).toNat = x := Nat.mod_eq_of_lt (h x List.mem_cons_self)
    have hr : randint lo hi (x :: t ++ rest) = (lo + (x : Int), t ++ rest) := by
      simp only [randint, List.cons_append, List.headD_cons, List.tail_cons, hx]
    simp only [List.length_cons, draw, hr, ih, List.map_cons]

theorem toNat_foldl_ofNat (shape : List Nat) :
    ((shape.map Int.ofNat).foldl (fun a b => a * b) 1).toNat = shape.foldl (fun a b => a * b) 1 := by
  have : ∀ (l : List Nat) (a : Nat), (l.map Int.ofNat).foldl (fun a b => a * b) (a : Int) =
      ((l.foldl (fun a b => a * b) a : Nat) : Int) := by
    intro l
    induction l with
    | nil => intro a; rfl
    | cons x t ih => intro a; simp only [List.map_cons, List.foldl_cons]; rw [← ih (a * x)]; push_cast; rfl
  have := this shape 1
  rw [Nat.cast_one] at this
  rw [this]; rfl

theorem map_toNat (shape : List Nat) : (shape.map Int.ofNat).map Int.toNat = shape := by
  rw [List.map_map]; exact List.map_id'' (fun _ => rfl) _

theorem generator_randint (lo hi : Int) (shape : List Nat) (w : Nat)
    (c : Fin (shape.foldl (fun a b => a * b) 1) → Fin (hi - lo + 1).toNat) :
    shapeGenerator (randint lo hi) (shape.map Int.ofNat) (.unsigned w) (List.ofFn fun i => (c i).val) =
      .ok (⟨shape, List.ofFn fun i => (lo + ((c i).val : Int)) % 2 ^ w⟩, []) := by
  have hd := draw_randint lo hi [] (List.ofFn fun i => (c i).val) (by
    intro x hx
    obtain ⟨i, rfl⟩ := List.mem_ofFn.1 hx
    exact (c i).isLt)
  rw [List.length_ofFn, List.append_nil] at hd
  unfold shapeGenerator
  rw [if_neg (by
    rw [List.any_eq_true]
    rintro ⟨d, hd, h⟩
    obtain ⟨x, -, rfl⟩ := List.mem_map.1 hd
    simp at h; omega)]
  simp only [toNat_foldl_ofNat, hd, map_toNat, List.length_map, List.length_ofFn, if_true]
  rw [List.map_map, List.map_ofFn]
  simp only [normalizeValue, sub_add_cancel]
  rfl

theorem ways_pi {N R : Nat} (P : Fin N → Fin R → Prop) :
    Nat.card {c : Fin N → Fin R // ∀ i, P i (c i)} = ∏ i, Nat.card {x : Fin R // P i x} := by
  rw [Nat.card_congr Equiv.subtypePiEquivPi, Nat.card_pi]

/-- Choices out of `R` that give `v` modulo `2 ^ w`. -/
noncomputable def fibre (lo : Int) (R w : Nat) (v : Int) : Nat :=
  Nat.card {x : Fin R // (lo + (x.val : Int)) % 2 ^ w = v}

theorem ways_generator (lo hi : Int) (shape : List Nat) (w : Nat) (t : List Int)
    (ht : t.length = shape.foldl (fun a b => a * b) 1) :
    ways (shapeGenerator (randint lo hi) (shape.map Int.ofNat) (.unsigned w)) (hi - lo + 1).toNat
      (shape.foldl (fun a b => a * b) 1) ⟨shape, t⟩ =
      ∏ i : Fin (shape.foldl (fun a b => a * b) 1), fibre lo (hi - lo + 1).toNat w (t.get (i.cast ht.symm)) := by
  unfold ways fibre
  rw [← ways_pi (fun i x => (lo + (x.val : Int)) % 2 ^ w = t.get (i.cast ht.symm))]
  refine Nat.card_congr (Equiv.subtypeEquivRight fun c => ?_)
  rw [generator_randint]
  constructor
  · intro h i
    have h1 : (List.ofFn fun i => (lo + ((c i).val : Int)) % 2 ^ w) = t :=
      congrArg (fun r : Array' × List Nat => r.1.data) (Except.ok.inj h)
    subst h1
    simp
  · intro h
    congr 3
    apply List.ext_get (by simp [ht])
    intro n h1 h2
    rw [List.get_ofFn]
    exact h _

theorem fibre_card (lo : Int) (R w : Nat) (v : Int) (hv0 : 0 ≤ v) (hv1 : v < 2 ^ w) :
    (fibre lo R w v : Int) = ((Finset.Ico lo (lo + R)).filter (fun x => x ≡ v [ZMOD 2 ^ w])).card := by
  unfold fibre
  rw [Nat.card_eq_fintype_card, Fintype.card_subtype]
  congr 1
  refine Finset.card_bij (fun x _ => lo + (x.val : Int)) ?_ ?_ ?_
  · intro x hx
    rw [Finset.mem_filter] at hx ⊢
    refine ⟨Finset.mem_Ico.2 ⟨by omega, by have := x.isLt; omega⟩, ?_⟩
    rw [Int.ModEq, hx.2, Int.emod_eq_of_lt hv0 hv1]
  · intro x _ y _ h
    apply Fin.ext; omega
  · intro y hy
    rw [Finset.mem_filter, Finset.mem_Ico] at hy
    obtain ⟨⟨h1, h2⟩, h3⟩ := hy
    refine ⟨⟨(y - lo).toNat, by omega⟩, ?_, by simp only; omega⟩
    rw [Finset.mem_filter]
    refine ⟨Finset.mem_univ _, ?_⟩
    simp only
    rw [show lo + (((y - lo).toNat : Nat) : Int) = y by omega, h3, Int.emod_eq_of_lt hv0 hv1]

theorem fibre_of_dvd (lo : Int) (q w : Nat) (v : Int) (hv0 : 0 ≤ v) (hv1 : v < 2 ^ w) :
    fibre lo (q * 2 ^ w) w v = q := by
  have h := fibre_card lo (q * 2 ^ w) w v hv0 hv1
  rw [Int.Ico_filter_modEq_card _ _ (by positivity)] at h
  have hM : ((2 ^ w : Int) : ℚ) ≠ 0 := by positivity
  have e : (((lo + ((q * 2 ^ w : Nat) : Int) : Int) : ℚ) - (v : ℚ)) / ((2 ^ w : Int) : ℚ) =
      ((lo : ℚ) - v) / ((2 ^ w : Int) : ℚ) + (q : Int) := by
    push_cast at hM ⊢
    field_simp
    ring
  rw [e, Int.ceil_add_intCast] at h
  omega

theorem fibre_sum (lo : Int) (R w : Nat) : ∑ v ∈ Finset.range (2 ^ w), fibre lo R w (v : Int) = R := by
  have hp : (0 : Int) < 2 ^ w := by positivity
  have := Finset.card_eq_sum_card_fiberwise (s := (Finset.univ : Finset (Fin R))) (t := Finset.range (2 ^ w))
    (f := fun x => ((lo + (x.val : Int)) % 2 ^ w).toNat) (by
      intro x _
      have h1 := Int.emod_lt_of_pos (lo + (x.val : Int)) hp
      have h0 := Int.emod_nonneg (lo + (x.val : Int)) hp.ne'
      simp only [Finset.coe_range, Set.mem_Iio]
      zify
      omega)
  rw [Finset.card_univ, Fintype.card_fin] at this
  refine Eq.trans (Finset.sum_congr rfl fun v _ => ?_) this.symm
  unfold fibre
  rw [Nat.card_eq_fintype_card, Fintype.card_subtype]
  refine congrArg Finset.card (Finset.ext fun x => ?_)
  simp only [Finset.mem_filter, Finset.mem_univ, true_and]
  have h0 := Int.emod_nonneg (lo + (x.val : Int)) hp.ne'
  omega

/-- C103: if the number of integers between the bounds is a multiple of `2 ^ w`, every array of the requested shape
with entries in `[0, 2 ^ w)` comes out of `uniform` for the same number of choices. -/
theorem C103_uniform (r : PythonRng) (shape : List Nat) (w : Nat)
    (hb : r.uniformBounds.1 ≤ r.uniformBounds.2) (hdvd : (2 ^ w : Int) ∣ r.uniformBounds.2 - r.uniformBounds.1 + 1)
    (t : List Int) (ht : t.length = shape.foldl (fun a b => a * b) 1) (hrange : ∀ x ∈ t, 0 ≤ x ∧ x < 2 ^ w) :
    ways (r.uniform (shape.map Int.ofNat) (.unsigned w)) (r.uniformBounds.2 - r.uniformBounds.1 + 1).toNat
      (shape.foldl (fun a b => a * b) 1) ⟨shape, t⟩ =
      ((r.uniformBounds.2 - r.uniformBounds.1 + 1).toNat / 2 ^ w) ^ shape.foldl (fun a b => a * b) 1 := by
  have hu : r.uniform (shape.map Int.ofNat) (.unsigned w) =
      shapeGenerator (randint r.uniformBounds.1 r.uniformBounds.2) (shape.map Int.ofNat) (.unsigned w) := by
    funext c
    unfold PythonRng.uniform
    rw [if_neg (fun h => by have := h.1; omega)]
  rw [hu, ways_generator _ _ _ _ _ ht]
  obtain ⟨q, hq⟩ := hdvd
  have hq0 : 0 ≤ q := by
    by_contra hneg
    have : (2 ^ w : Int) * q ≤ 0 := mul_nonpos_of_nonneg_of_nonpos (by positivity) (by omega)
    omega
  have hR : (r.uniformBounds.2 - r.uniformBounds.1 + 1).toNat = q.toNat * 2 ^ w := by
    rw [hq]
    zify
    rw [Int.toNat_of_nonneg (by positivity), Int.toNat_of_nonneg hq0]
    ring
  rw [hR, Nat.mul_div_cancel _ (by positivity)]
  rw [Finset.prod_congr rfl (fun i _ => fibre_of_dvd _ _ _ _
    (hrange _ (List.get_mem _ _)).1 (hrange _ (List.get_mem _ _)).2)]
  simp

/-- C103: and only then. If all the scalars come out of `uniform` for the same number of choices, the number of
integers between the bounds is a multiple of `2 ^ w`. -/
theorem C103_uniform_only (r : PythonRng) (w : Nat) (hb : r.uniformBounds.1 ≤ r.uniformBounds.2)
    (h : ∀ x y : Int, 0 ≤ x → x < 2 ^ w → 0 ≤ y → y < 2 ^ w →
      ways (r.uniform [1] (.unsigned w)) (r.uniformBounds.2 - r.uniformBounds.1 + 1).toNat 1 ⟨[1], [x]⟩ =
      ways (r.uniform [1] (.unsigned w)) (r.uniformBounds.2 - r.uniformBounds.1 + 1).toNat 1 ⟨[1], [y]⟩) :
    (2 ^ w : Int) ∣ r.uniformBounds.2 - r.uniformBounds.1 + 1 := by
  have hw : ∀ x : Int, ways (r.uniform [1] (.unsigned w)) (r.uniformBounds.2 - r.uniformBounds.1 + 1).toNat 1
      ⟨[1], [x]⟩ = fibre r.uniformBounds.1 (r.uniformBounds.2 - r.uniformBounds.1 + 1).toNat w x := by
    intro x
    have hu : r.uniform [1] (.unsigned w) =
        shapeGenerator (randint r.uniformBounds.1 r.uniformBounds.2) ([1].map Int.ofNat) (.unsigned w) := by
      funext c
      unfold PythonRng.uniform
      rw [if_neg (fun h => by have := h.1; omega)]
      rfl
    rw [hu]
    refine (ways_generator r.uniformBounds.1 r.uniformBounds.2 [1] w [x] rfl).trans ?_
    exact Fin.prod_univ_one (M := Nat) _
  simp only [hw] at h
  have hs := fibre_sum r.uniformBounds.1 (r.uniformBounds.2 - r.uniformBounds.1 + 1).toNat w
  rw [Finset.sum_congr rfl (fun (v : Nat) hv => h (v : Int) 0 (by positivity) (by
    have := Finset.mem_range.1 hv; exact_mod_cast this) le_rfl (by positivity)), Finset.sum_const, Finset.card_range,
    smul_eq_mul] at hs
  refine ⟨fibre r.uniformBounds.1 (r.uniformBounds.2 - r.uniformBounds.1 + 1).toNat w 0, ?_⟩
  zify at hs
  rw [hs]
  omega

/-- C103, partial (without the source for tests): the sources of the library for production, and every source made without bounds, return each `uint32` array
of the requested shape for exactly one sequence of choices. -/
theorem C103_production_partial (r : PythonRng)
    (hr : r = getLweRngFor128BitSecurity ∨ r = getRlweRngFor128BitSecurity ∨ ∃ std, r = newSource (normalStd := std))
    (shape : List Nat) (t : List Int) (ht : t.length = shape.foldl (fun a b => a * b) 1)
    (hrange : ∀ x ∈ t, 0 ≤ x ∧ x < 2 ^ 32) :
    ways (r.uniform (shape.map Int.ofNat) (.unsigned 32)) (2 ^ 32) (shape.foldl (fun a b => a * b) 1) ⟨shape, t⟩ = 1 := by
  have hbounds : r.uniformBounds = (0, 2 ^ 32 - 1) := by
    rcases hr with rfl | rfl | ⟨std, rfl⟩ <;> rfl
  have h := C103_uniform r shape 32 (by rw [hbounds]; norm_num) (by rw [hbounds]; norm_num) t ht hrange
  rw [hbounds] at h
  rw [show ((2 ^ 32 - 1 : Int) - 0 + 1).toNat = 2 ^ 32 by decide, Nat.div_self (by positivity), one_pow] at h
  exact h

/-- C103: secret keys. Whatever its bounds, a source returns each array of bits from `sk_uniform` for exactly one
sequence of choices. -/
theorem C103_secret (r : PythonRng) (shape : List Nat) (w : Nat) (hw : 1 ≤ w) (t : List Int)
    (ht : t.length = shape.foldl (fun a b => a * b) 1) (hrange : ∀ x ∈ t, x = 0 ∨ x = 1) :
    ways (r.skUniform (shape.map Int.ofNat) (.unsigned w)) 2 (shape.foldl (fun a b => a * b) 1) ⟨shape, t⟩ = 1 := by
  have hu : r.skUniform (shape.map Int.ofNat) (.unsigned w) =
      shapeGenerator (randint 0 1) (shape.map Int.ofNat) (.unsigned w) := rfl
  have hg := ways_generator 0 1 shape w t ht
  rw [hu, show (2 : Nat) = ((1 : Int) - 0 + 1).toNat from rfl, hg]
  refine Finset.prod_eq_one fun i _ => ?_
  have hx := hrange _ (List.get_mem t (i.cast ht.symm))
  generalize t.get (i.cast ht.symm) = x at hx ⊢
  have hp : (2 : Int) ≤ 2 ^ w := by
    calc (2 : Int) = 2 ^ 1 := rfl
      _ ≤ 2 ^ w := pow_le_pow_right₀ (by norm_num) hw
  unfold fibre
  rw [Nat.card_eq_fintype_card, Fintype.card_subtype, Finset.card_eq_one]
  refine ⟨⟨x.toNat, by rcases hx with rfl | rfl <;> decide⟩, ?_⟩
  ext y
  simp only [Finset.mem_filter, Finset.mem_univ, true_and, Finset.mem_singleton]
  have hy : (y.val : Int) < 2 := by have := y.isLt; simp at this; omega
  rw [zero_add, Int.emod_eq_of_lt (by omega) (by omega), Fin.ext_iff]
  simp only
  rcases hx with rfl | rfl <;> omega

theorem fibre_test (v : Int) (hv0 : 0 ≤ v) (hv1 : v < 2 ^ 32) :
    fibre 0 (2 ^ 32 + 1) 32 v = if v = 0 then 2 else 1 := by
  unfold fibre
  rw [Nat.card_eq_fintype_card, Fintype.card_subtype]
  split
  · next h =>
    subst h
    rw [Finset.card_eq_two]
    refine ⟨⟨0, by norm_num⟩, ⟨2 ^ 32, by norm_num⟩, by simp, ?_⟩
    apply Finset.ext
    intro y
    simp only [Finset.mem_filter, Finset.mem_univ, true_and, Finset.mem_insert, Finset.mem_singleton, Fin.ext_iff]
    have := y.isLt
    omega
  · next h =>
    rw [Finset.card_eq_one]
    refine ⟨⟨v.toNat, by omega⟩, ?_⟩
    apply Finset.ext
    intro y
    simp only [Finset.mem_filter, Finset.mem_univ, true_and, Finset.mem_singleton, Fin.ext_iff]
    have := y.isLt
    omega

/-- C103: what `get_rng_for_test` returns. Its bounds contain one integer too many: an array comes out for
`2 ^ z` sequences of choices, where `z` is the number of its zeros. -/
theorem C103_test (shape : List Nat) (t : List Int) (ht : t.length = shape.foldl (fun a b => a * b) 1)
    (hrange : ∀ x ∈ t, 0 ≤ x ∧ x < 2 ^ 32) :
    ways (getRngForTest.uniform (shape.map Int.ofNat) (.unsigned 32)) (2 ^ 32 + 1) (shape.foldl (fun a b => a * b) 1)
      ⟨shape, t⟩ = 2 ^ t.count 0 := by
  have hu : getRngForTest.uniform (shape.map Int.ofNat) (.unsigned 32) =
      shapeGenerator (randint 0 (2 ^ 32)) (shape.map Int.ofNat) (.unsigned 32) := by
    funext c
    unfold PythonRng.uniform
    rw [if_neg (fun h => absurd h.1 (by decide))]
    rfl
  have hg := ways_generator 0 (2 ^ 32) shape 32 t ht
  rw [show ((2 ^ 32 : Int) - 0 + 1).toNat = 2 ^ 32 + 1 by decide] at hg
  rw [hu, hg]
  rw [Finset.prod_congr rfl (fun i _ => fibre_test _ (hrange _ (List.get_mem _ _)).1 (hrange _ (List.get_mem _ _)).2)]
  clear hg hu hrange
  have key : ∀ l : List Int, (∏ i : Fin l.length, if l.get i = 0 then 2 else 1) = 2 ^ l.count 0 := by
    intro l
    induction l with
    | nil => rfl
    | cons x l ih =>
      refine (Fin.prod_univ_succ (M := Nat) _).trans ?_
      simp only [List.get_cons_zero, List.get_cons_succ']
      rw [ih, List.count_cons]
      by_cases hx : x = 0
      · subst hx; simp [pow_succ, mul_comm]
      · simp [hx]
  rw [← key t]
  exact Fintype.prod_equiv (finCongr ht.symm) _ _ (fun i => rfl)

/-- C103, negation: the claim fails for `get_rng_for_test`, where zero comes out twice as often as any other value. -/
theorem C103_negation :
    ways (getRngForTest.uniform [1] (.unsigned 32)) (2 ^ 32 + 1) 1 ⟨[1], [0]⟩ = 2 ∧
      ways (getRngForTest.uniform [1] (.unsigned 32)) (2 ^ 32 + 1) 1 ⟨[1], [1]⟩ = 1 :=
  ⟨C103_test [1] [0] rfl (by simp), C103_test [1] [1] rfl (by simp)⟩

/-- C103: of the sources in `VARYING_MAGNITUDE_TEST_RNGS`, those with upper bound `2 ^ 32 - 1` and no others return
all `uint32` values for the same number of choices. -/
theorem C103_varying (r : PythonRng) (hr : r ∈ varyingMagnitudeTestRngs) :
    (∀ x y : Int, 0 ≤ x → x < 2 ^ 32 → 0 ≤ y → y < 2 ^ 32 →
      ways (r.uniform [1] (.unsigned 32)) (r.uniformBounds.2 - r.uniformBounds.1 + 1).toNat 1 ⟨[1], [x]⟩ =
      ways (r.uniform [1] (.unsigned 32)) (r.uniformBounds.2 - r.uniformBounds.1 + 1).toNat 1 ⟨[1], [y]⟩) ↔
    r.uniformBounds.2 = 2 ^ 32 - 1 := by
  have htab : ∀ r ∈ varyingMagnitudeTestRngs, r.uniformBounds.1 = 0 ∧ 0 ≤ r.uniformBounds.2 ∧
      r.uniformBounds.2 ≤ 2 ^ 32 - 1 := by decide
  obtain ⟨h1, h2, h3⟩ := htab r hr
  constructor
  · intro h
    have := C103_uniform_only r 32 (by omega) h
    omega
  · intro h x y hx0 hx1 hy0 hy1
    have e := fun z hz => C103_uniform r [1] 32 (by omega) (by omega) [z] rfl hz
    exact (e x (by simp; omega)).trans (e y (by simp; omega)).symm

/-! ## Keys and ciphertexts -/

theorem stateAfter_randint (lo hi : Int) (rest : List Nat) (l : List Nat)
    (h : ∀ x ∈ l, x < (hi - lo + 1).toNat) : stateAfter (randint lo hi) l.length (l ++ rest) = rest := by
  rw [← draw_state, draw_randint lo hi rest l h]

theorem nthDraw_randint (lo hi : Int) (rest : List Nat) (l : List Nat) (h : ∀ x ∈ l, x < (hi - lo + 1).toNat)
    (t : Nat) (ht : t < l.length) : nthDraw (randint lo hi) t (l ++ rest) = lo + (l[t] : Int) := by
  have h1 := draw_getElem? (randint lo hi) l.length (l ++ rest) t ht
  rw [draw_randint lo hi rest l h, List.getElem?_map, List.getElem?_eq_getElem ht] at h1
  exact (Option.some.inj h1).symm

theorem sample_randint (lo hi : Int) (rest : List Nat) (d : Nat) (c : Fin d → Fin (hi - lo + 1).toNat) :
    ∃ arr, sample (randint lo hi) [d] ((List.ofFn fun i => (c i).val) ++ rest) = .ok (arr, rest) ∧
      ∀ i : Fin d, word arr [i.val] = BitVec.ofInt 32 (lo + ((c i).val : Int)) := by
  have hl : ∀ x ∈ (List.ofFn fun i => (c i).val), x < (hi - lo + 1).toNat := by
    intro x hx
    obtain ⟨i, rfl⟩ := List.mem_ofFn.1 hx
    exact (c i).isLt
  obtain ⟨arr, e, w⟩ := sample_exact (randint lo hi) [d] ((List.ofFn fun i => (c i).val) ++ rest)
  have hs := stateAfter_randint lo hi rest _ hl
  rw [List.length_ofFn] at hs
  rw [show ([d].foldl (fun a b => a * b) 1) = d by simp, hs] at e
  refine ⟨arr, e, fun i => ?_⟩
  rw [w [i.val] rfl (by
    intro j hj
    have h0 : j = 0 := by simp only [List.length_singleton] at hj; omega
    subst h0
    exact i.isLt)]
  rw [show flatIndex [d] [i.val] = i.val by simp [flatIndex],
    nthDraw_randint lo hi rest _ hl i.val (by rw [List.length_ofFn]; exact i.isLt)]
  simp

/-- C103: `lwe.gen_key` returns each key of bits for exactly one sequence of choices, for every source backed by
Python's generator. -/
theorem C103_lwe_key (p : SchemeParameters) (r : PythonRng) (normal : Int → List Nat → Int × List Nat)
    (bits : Fin p.lweDimension → Bool) :
    Nat.card {c : Fin p.lweDimension → Fin 2 // lweGenKey p (r.source normal) (List.ofFn fun i => (c i).val) =
      .ok (⟨p.logPlaintextModulus, fun i => if bits i then 1 else 0⟩, [])} = 1 := by
  rw [Nat.card_congr (Equiv.subtypeEquivRight
    (q := fun c : Fin p.lweDimension → Fin 2 => ∀ i, c i = if bits i then 1 else 0) fun c => ?_)]
  · rw [ways_pi (fun i x => x = if bits i then 1 else 0)]
    exact Finset.prod_eq_one fun i _ => by simp
  · obtain ⟨arr, e, hw⟩ := sample_randint 0 1 [] p.lweDimension c
    rw [List.append_nil] at e
    replace e : sample (r.source normal).skUniform [p.lweDimension] (List.ofFn fun i => (c i).val) = _ := e
    have hk : lweGenKey p (r.source normal) (List.ofFn fun i => (c i).val) =
        .ok (⟨p.logPlaintextModulus, fun i => word arr [i.val]⟩, []) := by
      unfold lweGenKey
      rw [draw_bind _ _ _ _ _ e]
      rfl
    rw [hk]
    have hbit : ∀ (x : Fin 2) (b : Bool),
        (BitVec.ofInt 32 (0 + (x.val : Int)) = (if b then 1 else 0 : W)) ↔ x = if b then 1 else 0 := by decide
    constructor
    · intro h i
      have h1 := congrArg (fun q : Lwe.LweSecretKey p.lweDimension × List Nat => q.1.keyData i) (Except.ok.inj h)
      simp only [hw i] at h1
      exact (hbit _ _).1 h1
    · intro h
      congr 3
      funext i
      rw [hw i]
      exact (hbit _ _).2 (h i)

/-- C103: the mask of a fresh ciphertext. If the number of integers between the bounds is a multiple of `2 ^ 32`,
`encrypt` returns a ciphertext with a given mask for the same number of choices, whatever the mask, the Boolean that is
encrypted, the key, and what the source does after the mask has been drawn. -/
theorem C103_mask {d k logN : Nat} (r : PythonRng) (hb : r.uniformBounds.1 ≤ r.uniformBounds.2)
    (hdvd : (2 ^ 32 : Int) ∣ r.uniformBounds.2 - r.uniformBounds.1 + 1)
    (normal : Int → List Nat → Int × List Nat) (rest : List Nat) (value : Bool)
    (cks : JaxiteBool.ClientKeySet d k logN) (mask : Fin d → W) :
    Nat.card {c : Fin d → Fin (r.uniformBounds.2 - r.uniformBounds.1 + 1).toNat //
      ∃ ct s', Session.encrypt value cks (r.source normal) ((List.ofFn fun i => (c i).val) ++ rest) = .ok (ct, s') ∧
        ∀ i : Fin d, ct i.castSucc = mask i} =
      ((r.uniformBounds.2 - r.uniformBounds.1 + 1).toNat / 2 ^ 32) ^ d := by
  rw [Nat.card_congr (Equiv.subtypeEquivRight
    (q := fun c : Fin d → Fin (r.uniformBounds.2 - r.uniformBounds.1 + 1).toNat =>
      ∀ i, (r.uniformBounds.1 + ((c i).val : Int)) % 2 ^ 32 = ((mask i).toNat : Int)) fun c => ?_)]
  · rw [ways_pi (fun i x => (r.uniformBounds.1 + ((x : Fin _).val : Int)) % 2 ^ 32 = ((mask i).toNat : Int))]
    obtain ⟨q, hq⟩ := hdvd
    have hR : (r.uniformBounds.2 - r.uniformBounds.1 + 1).toNat = q.toNat * 2 ^ 32 := by omega
    rw [hR, Nat.mul_div_cancel _ (by positivity)]
    refine (Finset.prod_congr rfl (fun i _ => fibre_of_dvd r.uniformBounds.1 q.toNat 32 ((mask i).toNat : Int)
      (by omega) (by have := (mask i).isLt; omega))).trans ?_
    simp
  · obtain ⟨a1, e1, w1⟩ := sample_randint r.uniformBounds.1 r.uniformBounds.2 rest d c
    obtain ⟨a2, e2, -⟩ := sample_exact (normal r.normalStd) [1] rest
    replace e1 : sample (r.source normal).uniform [d] ((List.ofFn fun i => (c i).val) ++ rest) = _ := e1
    replace e2 : sample (r.source normal).roundedNormal [1] rest = _ := e2
    obtain ⟨ct, hct⟩ := boolEncrypt_ok value cks.lweSk (fun i => word a1 [i.val]) (word a2 [0])
    have henc : Session.encrypt value cks (r.source normal) ((List.ofFn fun i => (c i).val) ++ rest) =
        .ok (ct, stateAfter (normal r.normalStd) ([1].foldl (fun a b => a * b) 1) rest) := by
      unfold Session.encrypt
      rw [draw_bind _ _ _ _ _ e1, draw_bind _ _ _ _ _ e2]
      exact ofExcept_ok _ _ hct _
    have hmask : ∀ i : Fin d, ct i.castSucc = word a1 [i.val] := by
      intro i
      have hencode : Encoding.encode (if value then 1 else 0) Encoding.boolParams =
          .ok (BitVec.ofInt 32 ((if value then 1 else 0) * 2 ^ 28)) := by
        cases value <;> decide
      unfold Lwe.boolEncrypt at hct
      simp only [hencode, bind, Except.bind, pure, Except.pure] at hct
      rw [← Except.ok.inj hct]
      unfold Lwe.jitEncrypt
      simp only [Fin.snoc_castSucc]
    have hone : ∀ i : Fin d, ct i.castSucc = mask i ↔
        (r.uniformBounds.1 + ((c i).val : Int)) % 2 ^ 32 = ((mask i).toNat : Int) := by
      intro i
      rw [hmask i, w1 i]
      constructor
      · intro h
        rw [← h, BitVec.toNat_ofInt]
        omega
      · intro h
        apply BitVec.eq_of_toNat_eq
        rw [BitVec.toNat_ofInt]
        omega
    constructor
    · rintro ⟨ct', s', h, hm⟩ i
      rw [henc] at h
      have := congrArg Prod.fst (Except.ok.inj h)
      simp only at this
      exact (hone i).1 (by rw [this]; exact hm i)
    · intro h
      exact ⟨ct, _, henc, fun i => (hone i).2 (h i)⟩

/-! ## Instances -/

example : ways (PythonRng.uniform ⟨(-3, 4), 1⟩ [2, 1] (.unsigned 2)) 8 2 ⟨[2, 1], [3, 0]⟩ = 4 :=
  C103_uniform ⟨(-3, 4), 1⟩ [2, 1] 2 (by decide) (by decide) [3, 0] rfl (by decide)

example : (2 ^ 0 : Int) ∣ (7 : Int) - 5 + 1 :=
  C103_uniform_only ⟨(5, 7), 1⟩ 0 (by decide) (fun x y hx0 hx1 hy0 hy1 => by
    obtain rfl : x = 0 := by omega
    obtain rfl : y = 0 := by omega
    rfl)

example : ways (getLweRngFor128BitSecurity.uniform [2] (.unsigned 32)) (2 ^ 32) 2 ⟨[2], [7, 4294967295]⟩ = 1 :=
  C103_production_partial _ (.inl rfl) [2] [7, 4294967295] rfl (by decide)

example : ways (getRngForTest.skUniform [3] (.unsigned 32)) 2 3 ⟨[3], [1, 0, 1]⟩ = 1 :=
  C103_secret getRngForTest [3] 32 (by decide) [1, 0, 1] rfl (by decide)

example : ways (getRngForTest.uniform [3] (.unsigned 32)) (2 ^ 32 + 1) 3 ⟨[3], [0, 9, 0]⟩ = 4 :=
  C103_test [3] [0, 9, 0] rfl (by decide)

example : (⟨(0, 2 ^ 30), 1⟩ : PythonRng) ∈ varyingMagnitudeTestRngs := by decide

example (bits : Fin 4 → Bool) : Nat.card {c : Fin 4 → Fin 2 // lweGenKey getParamsForTest.schemeParams
    (getRngForTest.source fun _ l => (0, l)) (List.ofFn fun i => (c i).val) =
      .ok (⟨32, fun i => if bits i then 1 else 0⟩, [])} = 1 := by
  have h := C103_lwe_key getParamsForTest.schemeParams getRngForTest (fun _ l => (0, l)) bits
  rw [show getParamsForTest.schemeParams.logPlaintextModulus = 32 by decide +kernel] at h
  exact h

example (cks : JaxiteBool.ClientKeySet 2 1 9) (normal : Int → List Nat → Int × List Nat) (mask : Fin 2 → W) :
    Nat.card {c : Fin 2 → Fin (2 ^ 32) //
      ∃ ct s', Session.encrypt true cks (getLweRngFor128BitSecurity.source normal)
        ((List.ofFn fun i => (c i).val) ++ [5]) = .ok (ct, s') ∧ ∀ i : Fin 2, ct i.castSucc = mask i} = 1 :=
  C103_mask getLweRngFor128BitSecurity (by decide) (by decide) normal [5] true cks mask

end Verif.Props

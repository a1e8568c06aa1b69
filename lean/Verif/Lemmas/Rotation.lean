import Verif.Lemmas.CkksRotate

/-! # Lemmas on the rotation of ciphertexts -/

namespace Verif.CkksRotate
open Verif.Barrett Verif.NttBat Verif.Slots Verif.CkksKeys Verif.CkksMul Verif.Crt Verif.Props Verif.Automorphism Verif.CkksMath

variable {kr kc : Nat}

/-- `pow(5, -j, 2N)` is the inverse of `5^j`. -/
theorem rotationGenerator_spec (k j : Nat) : ∃ g : Nat, rotationGenerator (2 ^ k) j = .ok (g : Int) ∧ g % 2 = 1 ∧
    g < 2 * 2 ^ k ∧ (5 ^ j * g) % (2 * 2 ^ k) = 1 := by
  have hpos : 0 < 2 * 2 ^ k := by positivity
  have h2 : 1 < 2 * 2 ^ k := by have := Nat.one_le_two_pow (n := k); omega
  have hg : Int.gcd 5 ((2 * 2 ^ k : Nat) : Int) = 1 := by
    rw [show (5 : Int) = ((5 : Nat) : Int) by rfl, Int.gcd_natCast_natCast, ← pow_succ']
    exact Nat.Coprime.pow_right _ (by norm_num)
  obtain ⟨y, h3, h4, h5, h6⟩ := invMod_ok 5 (2 * 2 ^ k) hpos hg
  obtain ⟨b1, b2⟩ := powMod_bounds y j (2 * 2 ^ k) hpos
  obtain ⟨g, hgdef⟩ : ∃ g : Nat, (g : Int) = powMod y j ((2 * 2 ^ k : Nat) : Int) := ⟨(powMod y j _).toNat, Int.toNat_of_nonneg b1⟩
  have hz : ((5 ^ j * g : Nat) : ZMod (2 * 2 ^ k)) = ((1 : Nat) : ZMod (2 * 2 ^ k)) := by
    have e1 : ((g : Nat) : ZMod (2 * 2 ^ k)) = (y : ZMod (2 * 2 ^ k)) ^ j := by
      rw [← Int.cast_natCast, hgdef]
      unfold powMod
      rw [ZMod.intCast_mod, Int.cast_pow]
    rw [Nat.cast_mul, Nat.cast_pow, e1, ← mul_pow]
    have : ((5 : Nat) : ZMod (2 * 2 ^ k)) * (y : ZMod (2 * 2 ^ k)) = 1 := by exact_mod_cast h6
    rw [this, one_pow, Nat.cast_one]
  have hm : (5 ^ j * g) % (2 * 2 ^ k) = 1 := by
    have := (ZMod.natCast_eq_natCast_iff' _ _ _).1 hz
    rwa [Nat.mod_eq_of_lt h2] at this
  refine ⟨g, ?_, ?_, by omega, hm⟩
  · unfold rotationGenerator
    have e : (2 * ((2 ^ k : Nat) : Int)) = ((2 * 2 ^ k : Nat) : Int) := by push_cast; ring
    rw [e, h3, hgdef]
    rfl
  · have h7 : (5 ^ j * g) % 2 = 1 := by
      have := congrArg (· % 2) hm
      simp only [Nat.mod_mul_right_mod] at this
      exact this
    by_contra hc
    have h8 : g % 2 = 0 := by omega
    rw [Nat.mul_mod, h8] at h7
    simp at h7

theorem degree_le {k m : Nat} (h : NttPrime k m) (hm : m < 2 ^ 32) : k ≤ 31 := by
  by_contra hc
  have h1 := Nat.le_of_dvd (by have := h.prime.two_le; omega) h.dvd
  have : 2 ^ 32 ≤ 2 ^ k := Nat.pow_le_pow_right (by norm_num) (by omega)
  omega

/-- Rotation of all limbs. -/
theorem rotate_spec {k : Nat} {ms : List Nat} (h : Moduli k ms) (g : Nat) (hg : g % 2 = 1) (hlt : g < 2 * 2 ^ k) (data : Mat)
    (hd : Reduced k ms data) :
    ∃ out, rotate (2 ^ k) (g : Int) ms.length data = .ok out ∧ Reduced k ms out ∧
      ∀ i, i < ms.length → ringOf k (ms.getD i 0) (out i) = sigma g hg (ringOf k (ms.getD i 0) (data i)) := by
  have hex : ∀ i, i < ms.length → ∃ π : Nat → Nat, (∀ p, π p < 2 ^ k) ∧
      (∀ f, applyAutomorphism (2 ^ k) (g : Int) f = .ok (fun p => f (π p))) ∧
      ∀ f, ringOf k (ms.getD i 0) (fun p => f (π p)) = sigma g hg (ringOf k (ms.getD i 0) f) := by
    intro i hi
    have hk := degree_le (h.at hi).1 (h.at hi).2
    refine applyAutomorphism_ringOf (h.at hi).1 hk g hg ?_
    have : 2 ^ k ≤ 2 ^ 31 := Nat.pow_le_pow_right (by norm_num) hk
    omega
  choose! π h1 h2 h3 using hex
  have hm := mapM_eq_map (fun (i : Nat) => applyAutomorphism (2 ^ k) (g : Int) (data i)) (fun i p => data i (π i p))
    (List.range ms.length) (fun i hi => h2 i (List.mem_range.1 hi) (data i))
  have hget : ∀ i, i < ms.length → ((List.range ms.length).map (fun i p => data i (π i p))).getD i (fun _ => 0) =
      fun p => data i (π i p) := by
    intro i hi
    rw [List.getD_eq_getElem _ _ (by simpa using hi)]
    simp
  refine ⟨fun i => ((List.range ms.length).map (fun i p => data i (π i p))).getD i (fun _ => 0), ?_, ?_, ?_⟩
  · unfold rotate
    rw [hm]
    rfl
  · intro i hi p hp
    simp only [hget i hi]
    exact hd i hi _ (h1 i hi p)
  · intro i hi
    simp only [hget i hi]
    exact h3 i hi (data i)

/-- Composition of substitutions. -/
theorem sigma_comp {R : Type*} [CommRing R] {N : Nat} (g g' : Nat) (hg : g % 2 = 1) (hg' : g' % 2 = 1)
    (h : (g * g') % 2 = 1) (a : Nega.Q R N) : sigma g hg (sigma g' hg' a) = sigma (g * g') h a := by
  have : (sigma g hg).comp (sigma g' hg') = sigma (R := R) (N := N) (g * g') h := by
    apply AdjoinRoot.ringHom_ext
    · ext c
      change sigma g hg (sigma g' hg' (Nega.cst N c)) = sigma (g * g') h (Nega.cst N c)
      rw [sigma_cst, sigma_cst, sigma_cst]
    · change sigma g hg (sigma g' hg' (Nega.x R N)) = sigma (g * g') h (Nega.x R N)
      rw [sigma_x, map_pow, sigma_x, sigma_x, pow_mul]
  rw [← this]; rfl

/-- The substitution only depends on the exponent modulo `2N`. -/
theorem sigma_mod {R : Type*} [CommRing R] {N : Nat} (g g' : Nat) (hg : g % 2 = 1) (hg' : g' % 2 = 1)
    (h : g % (2 * N) = g' % (2 * N)) (a : Nega.Q R N) : sigma g hg a = sigma g' hg' a := by
  have : sigma g hg = sigma (R := R) (N := N) g' hg' := by
    apply AdjoinRoot.ringHom_ext
    · ext c
      change sigma g hg (Nega.cst N c) = sigma g' hg' (Nega.cst N c)
      rw [sigma_cst, sigma_cst]
    · change sigma g hg (Nega.x R N) = sigma g' hg' (Nega.x R N)
      rw [sigma_x, sigma_x]
      have hx : Nega.x R N ^ (2 * N) = 1 := Nega.x_pow_2N
      have hr : ∀ e, Nega.x R N ^ e = Nega.x R N ^ (e % (2 * N)) := by
        intro e
        conv_lhs => rw [← Nat.div_add_mod e (2 * N), pow_add, pow_mul, hx, one_pow, one_mul]
      rw [hr g, hr g', h]
  rw [this]

/-- A substitution keeps the largest coefficient. -/
theorem isSubst_abs {k g : Nat} (hg : g % 2 = 1) {x y : Nat → Int} (h : IsSubst (2 ^ k) g x y) {c A : Int}
    (hx : ∀ t, t < 2 ^ k → c * |x t| ≤ A) : ∀ t, t < 2 ^ k → c * |y t| ≤ A := by
  intro t ht
  have hc : Nat.Coprime g (2 ^ k) := Nat.Coprime.pow_right _ (by
    rw [Nat.coprime_two_right]; exact Nat.odd_iff.2 hg)
  have : t ∈ (Finset.range (2 ^ k)).image (fun j => g * j % 2 ^ k) := by
    rw [image_mul_mod _ _ hc]; exact Finset.mem_range.2 ht
  obtain ⟨j, hj, rfl⟩ := Finset.mem_image.1 this
  have hj' := Finset.mem_range.1 hj
  rw [h j hj']
  split_ifs
  · exact hx j hj'
  · rw [abs_neg]; exact hx j hj'

/-- Slots of a ring element. -/
theorem exists_slots {k m : Nat} (h : NttPrime k m) (a : Rq k m) : ∃ f : Nat → Nat, (∀ t, f t < m) ∧ ringOf k m f = a := by
  have : NeZero m := ⟨h.prime.ne_zero⟩
  refine ⟨fun t => (slot h t a).val, fun t => ZMod.val_lt _, ?_⟩
  rw [ringOf_eq_iff h]
  intro p _
  exact ZMod.natCast_zmod_val _

theorem inPart_one {n i : Nat} : InPart n 1 0 i ↔ i < n := by
  unfold InPart
  constructor
  · exact fun h => h.1
  · intro h
    refine ⟨h, ?_⟩
    simp only [Nat.add_sub_cancel, Nat.div_one]
    exact Nat.div_eq_of_lt h

theorem partModuli_one (q : List Nat) : partModuli q 1 0 = q := by
  unfold partModuli
  rw [List.filter_eq_self.2]
  · apply List.ext_getElem (by simp)
    intro i h1 h2
    rw [List.getElem_map, List.getElem_range, List.getD_eq_getElem _ _ h2]
  · intro a ha
    simpa using inPart_one.2 (List.mem_range.1 ha)

theorem bcPairs_eq (q p : List Nat) (dnum : Nat) (hd : 0 < dnum) (part : Nat) (hp : part < dnum) :
    (bcPairs q p dnum)[part]? = some (partModuli q dnum part, otherModuli q p dnum part) := by
  rw [partModuli_eq q p dnum part hd, otherModuli_eq q p dnum part hd]
  unfold bcPairs
  simp only
  rw [List.getElem?_map, List.getElem?_range hp]
  rfl
end Verif.CkksRotate

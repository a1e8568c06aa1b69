import Verif.Lemmas.NttCpu
import Verif.Props.CkksMath

/-!
# Property C31: the CPU number-theoretic transform
-/

namespace Verif.Props
open Verif.CkksMath Verif.BitReversal Verif.NttCore Verif.NttCpu Finset

/-- C31: for every power-of-two length, every modulus `q ≥ 2`, every `ψ` with `ψ^n = -1` modulo `q` and all
integers `a`, entry `i` of the forward transform is `a(ψ^(2i+1))`, reduced. -/
theorem C31_forward (k q : Nat) (hq : 2 ≤ q) (psi : Int) (hpsi : (psi : ZMod q) ^ 2 ^ k = -1) (a : Nat → Int) :
    ∃ r, nttNegacyclic (2 ^ k) q psi a = .ok r ∧
      (∀ i, i < 2 ^ k → 0 ≤ r i ∧ r i < q ∧
        (r i : ZMod q) = ∑ j ∈ range (2 ^ k), (a j : ZMod q) * (psi : ZMod q) ^ ((2 * i + 1) * j)) := by
  unfold nttNegacyclic
  simp only
  have hom : ((powMod psi 2 q : Int) : ZMod q) = (psi : ZMod q) ^ 2 := cast_powMod psi 2 q
  obtain ⟨r, h1, h2⟩ := nttCyclic_spec k q (powMod psi 2 q) (by
    intro hk
    rw [hom, ← pow_mul, ← pow_succ', Nat.sub_add_cancel hk, hpsi]) (fun i => a i * powersAt psi q i % q)
  refine ⟨r, h1, ?_⟩
  intro i hi
  have hb : 0 ≤ r i ∧ r i < q := by
    unfold nttCyclic at h1
    rw [checkLength_two_pow] at h1
    cases h1
    exact ditLoop_bounds _ q (by omega) _ _ _ (fun i =>
      ⟨Int.emod_nonneg _ (by omega), Int.emod_lt_of_pos _ (by omega)⟩) i
  refine ⟨hb.1, hb.2, ?_⟩
  rw [h2 i hi]
  apply Finset.sum_congr rfl
  intro t _
  rw [hom, ZMod.intCast_mod]
  push_cast
  rw [cast_powersAt, mul_assoc, ← pow_mul, ← pow_add]
  congr 2
  ring

example := C31_forward 2 17 (by norm_num) 2 (by decide) (fun i => 100 - 7 * i)

/-- Reduced integers are equal when congruent. -/
theorem eq_emod_of_cast {q : Nat} {x y : Int} (hx : 0 ≤ x ∧ x < q) (h : (x : ZMod q) = (y : ZMod q)) :
    x = y % q := by
  rw [ZMod.intCast_eq_intCast_iff] at h
  have h' : x % q = y % q := h
  rw [← h', Int.emod_eq_of_lt hx.1 hx.2]

theorem gcd_of_unit {q : Nat} (hq : 2 ≤ q) {x : Int} {y : ZMod q} (h : (x : ZMod q) * y = 1) :
    Int.gcd x q = 1 := by
  have hu : IsUnit (x : ZMod q) := IsUnit.of_mul_eq_one _ h
  rw [ZMod.coe_int_isUnit_iff_isCoprime] at hu
  rw [Int.gcd_comm]
  exact Int.isCoprime_iff_gcd_eq_one.1 hu

theorem psi_unit {q k : Nat} {psi : ZMod q} (hpsi : psi ^ 2 ^ k = -1) :
    psi * (-psi ^ (2 ^ k - 1)) = 1 := by
  have : 2 ^ k = (2 ^ k - 1) + 1 := by have := Nat.one_le_two_pow (n := k); omega
  rw [mul_neg, ← pow_succ', ← this, hpsi, neg_neg]

theorem natPow_gcd {q k : Nat} (hq : q % 2 = 1) : Int.gcd ((2 ^ k : Nat) : Int) q = 1 := by
  rw [Int.gcd_natCast_natCast]
  apply Nat.Coprime.pow_left
  rw [Nat.coprime_two_left, Nat.odd_iff]
  exact hq

/-- The inverse transform in `ZMod q`. -/
theorem inttNegacyclic_run (k q : Nat) (hq : 2 ≤ q) (hodd : q % 2 = 1) (psi : Int)
    (hpsi : (psi : ZMod q) ^ 2 ^ k = -1) (b : Nat → Int) :
    ∃ (r : Nat → Int) (c p v : ZMod q), inttNegacyclic (2 ^ k) q psi b = .ok r ∧
      2 ^ k * c = 1 ∧ (psi : ZMod q) * p = 1 ∧ (psi : ZMod q) ^ 2 * v = 1 ∧
      (∀ i, 0 ≤ r i ∧ r i < q) ∧
      ∀ i, (r i : ZMod q) =
        difAll (fun s => v ^ 2 ^ (k - (s + 1))) k (red q b) (bitReversal i k) * c * p ^ i := by
  have hom : ((powMod psi 2 q : Int) : ZMod q) = (psi : ZMod q) ^ 2 := cast_powMod psi 2 q
  have hu := psi_unit hpsi
  have hu2 : ((powMod psi 2 q : Int) : ZMod q) * (-(psi : ZMod q) ^ (2 ^ k - 1)) ^ 2 = 1 := by
    rw [hom, ← mul_pow, hu, one_pow]
  obtain ⟨v, hv, -, -, hv1⟩ := invMod_ok (powMod psi 2 q) q (by omega) (gcd_of_unit hq hu2)
  obtain ⟨p, hp, -, -, hp1⟩ := invMod_ok psi q (by omega) (gcd_of_unit hq hu)
  obtain ⟨c, hc, -, -, hc1⟩ := invMod_ok ((2 ^ k : Nat) : Int) q (by omega) (natPow_gcd hodd)
  refine ⟨fun i => (difLoop (2 ^ k) q v k b (perm (2 ^ k) i) * c % q) * powersAt p q i % q,
    (c : ZMod q), (p : ZMod q), (v : ZMod q), ?_, ?_, hp1, by rw [← hom]; exact hv1, ?_, ?_⟩
  · unfold inttNegacyclic inttCyclic
    simp only [hv, hp, hc, checkLength_two_pow, bind, Except.bind, pure, Except.pure, size_two_pow]
  · push_cast at hc1; exact hc1
  · intro i
    exact ⟨Int.emod_nonneg _ (by omega), Int.emod_lt_of_pos _ (by omega)⟩
  · intro i
    simp only
    rw [ZMod.intCast_mod]
    push_cast
    rw [cast_powersAt, perm_two_pow]
    have h := congrFun (red_difLoop k q v k le_rfl b) (bitReversal i k)
    rw [← h]
    rfl

/-- The forward transform in `ZMod q`. -/
theorem nttNegacyclic_run (k q : Nat) (hq : 2 ≤ q) (psi : Int) (a : Nat → Int) :
    ∃ (r : Nat → Int), nttNegacyclic (2 ^ k) q psi a = .ok r ∧ (∀ i, 0 ≤ r i ∧ r i < q) ∧
      red q r = ditAll (fun s => ((psi : ZMod q) ^ 2) ^ 2 ^ (k - (s + 1))) k
        (fun i => (a (bitReversal i k) : ZMod q) * (psi : ZMod q) ^ bitReversal i k) := by
  have hom : ((powMod psi 2 q : Int) : ZMod q) = (psi : ZMod q) ^ 2 := cast_powMod psi 2 q
  refine ⟨ditLoop (2 ^ k) q (powMod psi 2 q) k
    (fun i => a (perm (2 ^ k) i) * powersAt psi q (perm (2 ^ k) i) % q), ?_, ?_, ?_⟩
  · unfold nttNegacyclic nttCyclic
    simp only [checkLength_two_pow, bind, Except.bind, pure, Except.pure, size_two_pow]
  · intro i
    exact ditLoop_bounds _ q (by omega) _ _ _ (fun i =>
      ⟨Int.emod_nonneg _ (by omega), Int.emod_lt_of_pos _ (by omega)⟩) i
  · rw [red_ditLoop _ _ _ _ le_rfl, hom]
    congr 1
    funext i
    show (((a (perm (2 ^ k) i) * powersAt psi q (perm (2 ^ k) i) % q : Int)) : ZMod q) = _
    rw [ZMod.intCast_mod]
    push_cast
    rw [cast_powersAt, perm_two_pow]

/-- C31: the inverse transform undoes the forward one, entry by entry, for odd `q`; any representatives `r'` of
the transformed vector will do. -/
theorem C31_inverse_left (k q : Nat) (hq : 2 ≤ q) (hodd : q % 2 = 1) (psi : Int)
    (hpsi : (psi : ZMod q) ^ 2 ^ k = -1) (a : Nat → Int) :
    ∃ r, nttNegacyclic (2 ^ k) q psi a = .ok r ∧
      ∀ r' : Nat → Int, (∀ i, i < 2 ^ k → r' i % q = r i % q) →
        ∃ s, inttNegacyclic (2 ^ k) q psi r' = .ok s ∧ ∀ i, i < 2 ^ k → s i = a i % q := by
  obtain ⟨r, h1, h2, h3⟩ := nttNegacyclic_run k q hq psi a
  refine ⟨r, h1, ?_⟩
  intro r' hr'
  obtain ⟨s, c, p, v, g1, g2, g3, g4, g5, g6⟩ := inttNegacyclic_run k q hq hodd psi hpsi r'
  refine ⟨s, g1, ?_⟩
  intro i hi
  apply eq_emod_of_cast (g5 i)
  rw [g6, difAll_congr k _ k le_rfl (red q r') (red q r)
    (fun j hj => (ZMod.intCast_eq_intCast_iff' _ _ _).2 (hr' j hj)) _ (rev_lt i k), h3,
    difAll_ditAll _ _ _ (fun t _ => by rw [← mul_pow, g4, one_pow])]
  simp only [rev_rev_of_lt hi]
  have e1 : (psi : ZMod q) ^ i * p ^ i = 1 := by rw [← mul_pow, g3, one_pow]
  linear_combination ((a i : ZMod q) * 2 ^ k * c) * e1 + (a i : ZMod q) * g2

example := C31_inverse_left 2 17 (by norm_num) (by norm_num) 2 (by decide) (fun i => 100 - 7 * i)

/-- C31: the forward transform undoes the inverse one, for odd `q`. -/
theorem C31_inverse_right (k q : Nat) (hq : 2 ≤ q) (hodd : q % 2 = 1) (psi : Int)
    (hpsi : (psi : ZMod q) ^ 2 ^ k = -1) (b : Nat → Int) :
    ∃ s r, inttNegacyclic (2 ^ k) q psi b = .ok s ∧ nttNegacyclic (2 ^ k) q psi s = .ok r ∧
      ∀ i, i < 2 ^ k → r i = b i % q := by
  obtain ⟨s, c, p, v, g1, g2, g3, g4, g5, g6⟩ := inttNegacyclic_run k q hq hodd psi hpsi b
  obtain ⟨r, h1, h2, h3⟩ := nttNegacyclic_run k q hq psi s
  refine ⟨s, r, g1, h1, ?_⟩
  intro i hi
  apply eq_emod_of_cast (h2 i)
  have h4 := congrFun h3 i
  show red q r i = _
  rw [h4]
  have hcongr := ditAll_congr k (fun s => ((psi : ZMod q) ^ 2) ^ 2 ^ (k - (s + 1))) k le_rfl
    (fun i => (s (bitReversal i k) : ZMod q) * (psi : ZMod q) ^ bitReversal i k)
    (fun i => c * difAll (fun s => v ^ 2 ^ (k - (s + 1))) k (red q b) i) (by
      intro j hj
      rw [g6, rev_rev_of_lt hj]
      have e1 : (psi : ZMod q) ^ (bitReversal j k) * p ^ (bitReversal j k) = 1 := by
        rw [← mul_pow, g3, one_pow]
      linear_combination (difAll (fun s => v ^ 2 ^ (k - (s + 1))) k (red q b) j * c) * e1) i hi
  rw [hcongr, ditAll_smul, ditAll_difAll _ _ _ (fun t _ => by rw [← mul_pow, g4, one_pow])]
  show c * (2 ^ k * (b i : ZMod q)) = _
  linear_combination (b i : ZMod q) * g2

example := C31_inverse_right 2 17 (by norm_num) (by norm_num) 2 (by decide) (fun i => 100 - 7 * i)

/-- Evaluation of a coefficient vector at `ζ` with `ζ^N = -1`, as a ring homomorphism from the quotient ring. -/
noncomputable def evalAt {R : Type*} [CommRing R] {N : Nat} (ζ : R) (hζ : ζ ^ N = -1) : Nega.Q R N →+* R :=
  AdjoinRoot.lift (RingHom.id R) ζ (by unfold Nega.modulus; simp [hζ])

theorem evalAt_ev {R : Type*} [CommRing R] {N : Nat} (ζ : R) (hζ : ζ ^ N = -1) (a : Fin N → R) :
    evalAt ζ hζ (Nega.ev a) = ∑ i, a i * ζ ^ (i : ℕ) := by
  unfold evalAt Nega.ev Nega.toPoly
  rw [map_sum, map_sum]
  apply Finset.sum_congr rfl
  intro i _
  rw [AdjoinRoot.lift_mk]
  simp

/-- C31: pointwise multiplication of transforms is multiplication modulo `X^n + 1`: if `c` is congruent to the
negacyclic product of `a` and `b` then the transform of `c` is the pointwise product. -/
theorem C31_product (k q : Nat) (hq : 2 ≤ q) (psi : Int) (hpsi : (psi : ZMod q) ^ 2 ^ k = -1)
    (a b c : Nat → Int)
    (hc : (Nega.ev (fun i : Fin (2 ^ k) => (c i : ZMod q))) =
      Nega.ev (fun i : Fin (2 ^ k) => (a i : ZMod q)) * Nega.ev (fun i : Fin (2 ^ k) => (b i : ZMod q))) :
    ∃ ra rb rc, nttNegacyclic (2 ^ k) q psi a = .ok ra ∧ nttNegacyclic (2 ^ k) q psi b = .ok rb ∧
      nttNegacyclic (2 ^ k) q psi c = .ok rc ∧ ∀ i, i < 2 ^ k → rc i = ra i * rb i % q := by
  obtain ⟨ra, ha1, ha2⟩ := C31_forward k q hq psi hpsi a
  obtain ⟨rb, hb1, hb2⟩ := C31_forward k q hq psi hpsi b
  obtain ⟨rc, hc1, hc2⟩ := C31_forward k q hq psi hpsi c
  refine ⟨ra, rb, rc, ha1, hb1, hc1, ?_⟩
  intro i hi
  obtain ⟨h1, h2, h3⟩ := hc2 i hi
  apply eq_emod_of_cast ⟨h1, h2⟩
  push_cast
  rw [h3, (ha2 i hi).2.2, (hb2 i hi).2.2]
  have hz : ((psi : ZMod q) ^ (2 * i + 1)) ^ 2 ^ k = -1 := by
    rw [← pow_mul, Nat.mul_comm, pow_mul, hpsi, pow_succ, pow_mul]; simp
  have conv : ∀ f : Nat → Int, ∑ j ∈ range (2 ^ k), (f j : ZMod q) * (psi : ZMod q) ^ ((2 * i + 1) * j) =
      evalAt _ hz (Nega.ev (fun i : Fin (2 ^ k) => (f i : ZMod q))) := by
    intro f
    rw [evalAt_ev, ← Fin.sum_univ_eq_sum_range (fun j => (f j : ZMod q) * (psi : ZMod q) ^ ((2 * i + 1) * j))]
    apply Finset.sum_congr rfl
    intro j _
    rw [← pow_mul]
  rw [conv, conv, conv, hc, map_mul]

/-- An element of order `2n` modulo a prime satisfies `ψ^n = -1`. -/
theorem pow_half_order {q k : Nat} (hq : q.Prime) {w : ZMod q} (h : orderOf w = 2 * 2 ^ k) : w ^ 2 ^ k = -1 := by
  haveI : Fact q.Prime := ⟨hq⟩
  have h1 : w ^ (2 * 2 ^ k) = 1 := by rw [← h]; exact pow_orderOf_eq_one w
  have h2 : w ^ 2 ^ k ≠ 1 := by
    apply pow_ne_one_of_lt_orderOf
    · positivity
    · rw [h]; have := Nat.one_le_two_pow (n := k); omega
  have h3 : (w ^ 2 ^ k - 1) * (w ^ 2 ^ k + 1) = 0 := by
    have : (w ^ 2 ^ k) * (w ^ 2 ^ k) = 1 := by rw [← pow_add, ← two_mul, h1]
    linear_combination this
  rcases mul_eq_zero.1 h3 with h4 | h4
  · exact absurd (sub_eq_zero.1 h4) h2
  · exact eq_neg_of_add_eq_zero_left h4

/-- C31: the `_poly` variants, for every prime `q` with `2n ∣ q - 1`: entry `i` is the evaluation at
`ψ^(2 rev(i) + 1)` for a fixed `ψ` of order `2n` (the least one), and the inverse recovers the coefficients. -/
theorem C31_poly (k q : Nat) (hq : q.Prime) (hd : 2 * 2 ^ k ∣ q - 1) :
    ∃ psi : Int, rootOfUnity (2 * 2 ^ k) q = .ok psi ∧ orderOf (psi : ZMod q) = 2 * 2 ^ k ∧
      ∀ a : Nat → Int, ∃ r s, nttPoly (2 ^ k) q a = .ok r ∧ inttPoly (2 ^ k) q r = .ok s ∧
        (∀ i, i < 2 ^ k → 0 ≤ r i ∧ r i < q ∧ (r i : ZMod q) =
          ∑ j ∈ range (2 ^ k), (a j : ZMod q) * (psi : ZMod q) ^ ((2 * bitReversal i k + 1) * j)) ∧
        (∀ i, i < 2 ^ k → s i = a i % q) := by
  have hq2 := hq.two_le
  have hpos := Nat.one_le_two_pow (n := k)
  obtain ⟨psi, h1, h2, h3, h4, -⟩ := C34_root_of_unity q (2 * 2 ^ k) hq (by omega) hd
  have hodd : q % 2 = 1 := by
    obtain ⟨m, hm⟩ := hd
    have : q - 1 = 2 * (2 ^ k * m) := by rw [hm]; ring
    omega
  have hpsi := pow_half_order hq h4
  refine ⟨psi, h1, h4, ?_⟩
  intro a
  obtain ⟨r, ha1, ha2⟩ := C31_forward k q hq2 psi hpsi a
  obtain ⟨r', hs1, hs2⟩ := C31_inverse_left k q hq2 hodd psi hpsi a
  rw [ha1] at hs1
  cases hs1
  obtain ⟨s, g1, g2⟩ := hs2 (fun i => r (perm (2 ^ k) (perm (2 ^ k) i)) % q) (by
    intro i hi
    simp only [perm_two_pow, rev_rev_of_lt hi, Int.emod_emod_of_dvd _ (dvd_refl _)])
  refine ⟨fun i => r (perm (2 ^ k) i) % q, s, ?_, ?_, ?_, g2⟩
  · unfold nttPoly
    simp only [h1, ha1, bind, Except.bind, pure, Except.pure]
  · unfold inttPoly
    simp only [h1, bind, Except.bind]
    exact g1
  · intro i hi
    obtain ⟨b1, b2, b3⟩ := ha2 (bitReversal i k) (rev_lt i k)
    simp only [perm_two_pow]
    rw [Int.emod_eq_of_lt b1 b2]
    exact ⟨b1, b2, b3⟩

example := C31_poly 2 17 (by decide) (by norm_num)

/-- Hypotheses of the C31 theorems are met by `n = 4`, `q = 17`, `ψ = 2` (`2^4 = -1`). -/
example : (2 : Nat) ≤ 17 ∧ 17 % 2 = 1 ∧ (((2 : Int) : ZMod 17)) ^ 2 ^ 2 = -1 ∧ Nat.Prime 17 ∧ 2 * 2 ^ 2 ∣ 17 - 1 :=
  ⟨by norm_num, by norm_num, by decide, by decide, by norm_num⟩

end Verif.Props

import Verif.Lemmas.NttBat
import Verif.Props.NttCpu
import Verif.Props.Bat
import Verif.Props.BitReversal

/-!
# Property C33: the four-step transform equals the reference transform
-/

namespace Verif.Props
open Verif.CkksMath Verif.BitReversal Verif.NttCpu Verif.NttBat Verif.Bat Verif.Barrett Finset

/-- Shapes and moduli the four-step transform supports: an `r × c` grid with power-of-two sides, a prime modulus
with the required root of unity and an exact reciprocal, and few enough summands for the 32-bit accumulators and the
Barrett range. -/
structure FourStep (kr kc q : Nat) : Prop where
  prime : q.Prime
  dvd : 2 * (2 ^ kr * 2 ^ kc) ∣ q - 1
  good : GoodModulus q
  rows : 1020 * 2 ^ kr ≤ 2 ^ Nat.clog 2 q
  cols : 1020 * 2 ^ kc ≤ 2 ^ Nat.clog 2 q
  rows32 : 2 ^ kr * (4 * 255 ^ 2) < 2 ^ 32
  cols32 : 2 ^ kc * (4 * 255 ^ 2) < 2 ^ 32

theorem getD_perm (k i : Nat) (hi : i < 2 ^ k) : (getBitReversePerm (2 ^ k)).getD i 0 = bitReversal i k := by
  rw [(C30_perm k).1]
  simp [List.getD_eq_getElem?_getD, List.getElem?_map, List.getElem?_range, hi]

theorem cast_toNat {q : Nat} {x : Int} (h : 0 ≤ x) : ((x.toNat : Nat) : ZMod q) = (x : ZMod q) := by
  conv_rhs => rw [← Int.toNat_of_nonneg h]
  rw [Int.cast_natCast]

theorem toNat_lt {q : Nat} {x : Int} (h0 : 0 ≤ x) (h : x < q) : x.toNat < q := by omega

theorem emod_bounds {q : Nat} (hq : 0 < q) (x : Int) : 0 ≤ x % (q : Int) ∧ x % (q : Int) < q :=
  ⟨Int.emod_nonneg _ (by omega), Int.emod_lt_of_pos _ (by omega)⟩

/-- What the tables hold, modulo `q`. -/
structure TablesOk (kr kc q : Nat) (ψ φ : ZMod q) (T : Tables) : Prop where
  lt : ∀ i j, T.tf1 i j < q ∧ T.tf2 i j < q ∧ T.tf3 i j < q ∧ T.itf1 i j < q ∧ T.itf2 i j < q ∧ T.itf3 i j < q
  tf1 : ∀ z i, z < 2 ^ kr → (T.tf1 z i : ZMod q) = ((ψ ^ 2) ^ 2 ^ kc) ^ (bitReversal z kr * i) * ψ ^ (2 ^ kc * i)
  tf2 : ∀ z j, z < 2 ^ kr → (T.tf2 z j : ZMod q) = (ψ ^ 2) ^ (bitReversal z kr * j) * ψ ^ j
  tf3 : ∀ j n, n < 2 ^ kc → (T.tf3 j n : ZMod q) = ((ψ ^ 2) ^ 2 ^ kr) ^ (j * bitReversal n kc)
  itf1 : ∀ j l, j < 2 ^ kc → (T.itf1 j l : ZMod q) = ((φ ^ 2) ^ 2 ^ kr) ^ (bitReversal j kc * l)
  itf2 : ∀ z l, z < 2 ^ kr → (T.itf2 z l : ZMod q) =
    (φ ^ 2) ^ (bitReversal z kr * l) * φ ^ l * ((2 ^ kc : Nat) : ZMod q)⁻¹
  itf3 : ∀ t z, z < 2 ^ kr → (T.itf3 t z : ZMod q) =
    ((φ ^ 2) ^ 2 ^ kc) ^ (t * bitReversal z kr) * φ ^ (2 ^ kc * t) * ((2 ^ kr : Nat) : ZMod q)⁻¹

theorem tables_ok (kr kc q : Nat) (h : FourStep kr kc q) :
    ∃ (psi : Int) (T : Tables), rootOfUnity (2 * (2 ^ kr * 2 ^ kc)) q = .ok psi ∧
      orderOf (psi : ZMod q) = 2 * (2 ^ kr * 2 ^ kc) ∧
      precomputeTables (2 ^ kr) (2 ^ kc) q = .ok T ∧ TablesOk kr kc q (psi : ZMod q) (psi : ZMod q)⁻¹ T := by
  haveI : Fact q.Prime := ⟨h.prime⟩
  have hq2 := h.prime.two_le
  have hpr := Nat.one_le_two_pow (n := kr)
  have hpc := Nat.one_le_two_pow (n := kc)
  have hN : 1 ≤ 2 ^ kr * 2 ^ kc := Nat.mul_pos hpr hpc
  obtain ⟨psi, h1, h2, h3, h4, -⟩ := C34_root_of_unity q (2 * (2 ^ kr * 2 ^ kc)) h.prime (by omega) h.dvd
  have hodd : q % 2 = 1 := by
    obtain ⟨m, hm⟩ := h.dvd
    have : q - 1 = 2 * (2 ^ kr * 2 ^ kc * m) := by rw [hm]; ring
    omega
  have hne : (psi : ZMod q) ≠ 0 := by
    intro h0
    rw [h0, orderOf_zero] at h4
    omega
  have hunit : (psi : ZMod q) * (psi : ZMod q)⁻¹ = 1 := mul_inv_cancel₀ hne
  have hinv : ∀ e (x : Int), (x : ZMod q) = (psi : ZMod q) ^ e → ∃ y, invMod x q = .ok y ∧ 0 ≤ y ∧ y < q ∧
      (y : ZMod q) = (psi : ZMod q)⁻¹ ^ e := by
    intro e x hx
    obtain ⟨y, g1, g2, g3, g4⟩ := invMod_ok x q (by omega) (gcd_of_unit hq2 (y := (psi : ZMod q)⁻¹ ^ e) (by
      rw [hx, ← mul_pow, hunit, one_pow]))
    refine ⟨y, g1, g2, g3, ?_⟩
    rw [hx] at g4
    have := eq_inv_of_mul_eq_one_right g4
    rw [this, inv_pow]
  have hinvN : ∀ k, ∃ y, invMod ((2 ^ k : Nat) : Int) q = .ok y ∧ 0 ≤ y ∧ y < q ∧
      (y : ZMod q) = ((2 ^ k : Nat) : ZMod q)⁻¹ := by
    intro k
    obtain ⟨y, g1, g2, g3, g4⟩ := invMod_ok ((2 ^ k : Nat) : Int) q (by omega) (natPow_gcd hodd)
    refine ⟨y, g1, g2, g3, ?_⟩
    rw [Int.cast_natCast] at g4
    exact eq_inv_of_mul_eq_one_right g4
  have hom : ((powMod psi 2 q : Int) : ZMod q) = (psi : ZMod q) ^ 2 := cast_powMod psi 2 q
  have hoc : ((powMod (powMod psi 2 q) (2 ^ kc) q : Int) : ZMod q) = ((psi : ZMod q) ^ 2) ^ 2 ^ kc := by
    rw [cast_powMod, hom]
  have hor : ((powMod (powMod psi 2 q) (2 ^ kr) q : Int) : ZMod q) = ((psi : ZMod q) ^ 2) ^ 2 ^ kr := by
    rw [cast_powMod, hom]
  obtain ⟨ioc, c1, c2, c3, c4⟩ := hinv (2 * 2 ^ kc) _ (hoc.trans (pow_mul _ _ _).symm)
  obtain ⟨ior, r1, r2, r3, r4⟩ := hinv (2 * 2 ^ kr) _ (hor.trans (pow_mul _ _ _).symm)
  obtain ⟨io, o1, o2, o3, o4⟩ := hinv 2 _ hom
  obtain ⟨ip, p1, p2, p3, p4⟩ := hinv 1 psi (pow_one _).symm
  obtain ⟨ic, d1, d2, d3, d4⟩ := hinvN kc
  obtain ⟨ir, e1, e2, e3, e4⟩ := hinvN kr
  rw [pow_mul] at c4 r4
  rw [pow_one] at p4
  have hq0 : 0 < q := by omega
  have hrun : ∃ T, precomputeTables (2 ^ kr) (2 ^ kc) q = .ok T := by
    unfold precomputeTables genTwiddleMatrixInv
    simp only [h1, c1, r1, o1, p1, d1, e1, bind, Except.bind, pure, Except.pure]
    exact ⟨_, rfl⟩
  obtain ⟨T, hrun⟩ := hrun
  refine ⟨psi, T, h1, h4, hrun, ?_⟩
  unfold precomputeTables genTwiddleMatrixInv at hrun
  simp only [h1, c1, r1, o1, p1, d1, e1, bind, Except.bind, pure, Except.pure] at hrun
  cases hrun
  · constructor
    · intro i j
      refine ⟨?_, ?_, ?_, ?_, ?_, ?_⟩
      · exact toNat_lt (emod_bounds hq0 _).1 (emod_bounds hq0 _).2
      · exact toNat_lt (emod_bounds hq0 _).1 (emod_bounds hq0 _).2
      · exact toNat_lt (powersAt_bounds _ q _ (by omega)).1 (powersAt_bounds _ q _ (by omega)).2
      · exact toNat_lt (powersAt_bounds _ q _ (by omega)).1 (powersAt_bounds _ q _ (by omega)).2
      · exact toNat_lt (emod_bounds hq0 _).1 (emod_bounds hq0 _).2
      · exact toNat_lt (emod_bounds hq0 _).1 (emod_bounds hq0 _).2
    · intro z i hz
      simp only [getD_perm kr z hz]
      rw [cast_toNat (emod_bounds hq0 _).1, ZMod.intCast_mod]
      simp only [Int.cast_mul, genTwiddleMatrix]
      rw [cast_powersAt, hoc, cast_powMod]
    · intro z j hz
      simp only [getD_perm kr z hz]
      rw [cast_toNat (emod_bounds hq0 _).1, ZMod.intCast_mod]
      simp only [Int.cast_mul, genTwiddleMatrix]
      rw [cast_powersAt, hom, cast_powMod]
    · intro j n hn
      simp only [getD_perm kc n hn, genTwiddleMatrix]
      rw [cast_toNat (powersAt_bounds _ q _ (by omega)).1, cast_powersAt, hor]
    · intro j l hj
      simp only [getD_perm kc j hj, genTwiddleMatrix]
      rw [cast_toNat (powersAt_bounds _ q _ (by omega)).1, cast_powersAt, r4]
    · intro z l hz
      simp only [getD_perm kr z hz]
      rw [cast_toNat (emod_bounds hq0 _).1, ZMod.intCast_mod]
      simp only [Int.cast_mul, genTwiddleMatrix, ZMod.intCast_mod]
      rw [cast_powersAt, cast_powMod, o4, p4, d4]
    · intro t z hz
      simp only [getD_perm kr z hz]
      rw [cast_toNat (emod_bounds hq0 _).1, ZMod.intCast_mod]
      simp only [Int.cast_mul, genTwiddleMatrix, ZMod.intCast_mod]
      rw [cast_powersAt, cast_powMod, c4, p4, e4]

/-- One matrix step. -/
theorem bat_step (K q : Nat) (hK : 1020 * K ≤ 2 ^ Nat.clog 2 q) (hq : GoodModulus q) (x m : Nat → Nat)
    (hx : ∀ k, k < K → x k < 2 ^ 32) (hm : ∀ k, m k < q) (hK2 : K * (4 * 255 ^ 2) < 2 ^ 32) :
    modularReduction (matmulBat K x (fun k b p => batEntry (m k) q b p)) (precompute q) < q ∧
    ((modularReduction (matmulBat K x (fun k b p => batEntry (m k) q b p)) (precompute q) : Nat) : ZMod q) =
      ∑ k ∈ range K, (x k : ZMod q) * (m k : ZMod q) := by
  have h2 := hq.pos
  have h3 := hq.lt
  rw [C37_reduced K q hK hq x m hx (fun k _ => by have := hm k; omega) hK2]
  refine ⟨Nat.mod_lt _ (by omega), ?_⟩
  rw [ZMod.natCast_mod]
  push_cast
  rfl

/-- One pointwise step. -/
theorem mul_step (q : Nat) (hq : GoodModulus q) (x y : Nat) (hx : x < q) (hy : y < q) :
    modularReduction (mul64 x y) (precompute q) < q ∧
    ((modularReduction (mul64 x y) (precompute q) : Nat) : ZMod q) = (x : ZMod q) * (y : ZMod q) := by
  have h2 := hq.pos
  have h3 := hq.lt
  have hxy : x * y < q * q := Nat.mul_lt_mul_of_lt_of_lt hx hy
  have hqq : q * q ≤ 2 ^ 31 * 2 ^ 31 := Nat.mul_le_mul h3.le h3.le
  have h64 : mul64 x y = x * y := by
    unfold mul64
    exact Nat.mod_eq_of_lt (lt_of_lt_of_le hxy (le_trans hqq (by norm_num)))
  rw [h64, C28_reduction_partial q _ hq (lt_two_pow_of_lt_sq hxy)]
  refine ⟨Nat.mod_lt _ (by omega), ?_⟩
  rw [ZMod.natCast_mod]
  push_cast
  rfl

/-- The forward transform evaluates. -/
theorem ntt_eval {kr kc q : Nat} (h : FourStep kr kc q) {ψ φ : ZMod q} {T : Tables} (hT : TablesOk kr kc q ψ φ T)
    (hψ : ψ ^ (2 * (2 ^ kr * 2 ^ kc)) = 1) (v : Nat → Nat → Nat)
    (hv : ∀ i j, i < 2 ^ kr → j < 2 ^ kc → v i j < 2 ^ 32) (z n : Nat) (hz : z < 2 ^ kr) (hn : n < 2 ^ kc) :
    ntt (2 ^ kr) (2 ^ kc) q T v z n < q ∧
    (ntt (2 ^ kr) (2 ^ kc) q T v z n : ZMod q) = ∑ m ∈ range (2 ^ kr * 2 ^ kc),
      (v (m / 2 ^ kc) (m % 2 ^ kc) : ZMod q) * ψ ^ ((2 * (bitReversal z kr + 2 ^ kr * bitReversal n kc) + 1) * m) := by
  have h3 := h.good.lt
  have s1 : ∀ j, j < 2 ^ kc → _ := fun j hj => bat_step (2 ^ kr) q h.rows h.good (fun i => v i j) (fun i => T.tf1 z i)
    (fun i hi => hv i j hi hj) (fun i => (hT.lt z i).1) h.rows32
  have s2 : ∀ j, j < 2 ^ kc → _ := fun j hj => mul_step q h.good _ (T.tf2 z j) (s1 j hj).1 (hT.lt z j).2.1
  obtain ⟨s3, s4⟩ := bat_step (2 ^ kc) q h.cols h.good _ (fun j => T.tf3 j n)
    (fun j hj => lt_trans (s2 j hj).1 (by omega)) (fun j => (hT.lt j n).2.2.1) h.cols32
  refine ⟨s3, ?_⟩
  unfold ntt
  simp only
  rw [s4, ← fwd_eval (2 ^ kr) (2 ^ kc) (by positivity) ψ hψ (fun i j => (v i j : ZMod q))]
  apply sum_congr rfl
  intro j hj
  rw [mem_range] at hj
  rw [(s2 j hj).2, (s1 j hj).2, hT.tf2 z j hz, hT.tf3 j n hn]
  congr 2
  apply sum_congr rfl
  intro i hi
  rw [hT.tf1 z i hz]

/-- The inverse transform interpolates. -/
theorem intt_eval {kr kc q : Nat} (h : FourStep kr kc q) {ψ φ : ZMod q} {T : Tables} (hT : TablesOk kr kc q ψ φ T)
    (hφ : φ ^ (2 * (2 ^ kr * 2 ^ kc)) = 1) (v : Nat → Nat → Nat) (B : Nat → ZMod q)
    (hB : ∀ z j, z < 2 ^ kr → j < 2 ^ kc → (v z j : ZMod q) = B (bitReversal z kr + 2 ^ kr * bitReversal j kc))
    (hv : ∀ i j, i < 2 ^ kr → j < 2 ^ kc → v i j < 2 ^ 32) (t l : Nat) :
    intt (2 ^ kr) (2 ^ kc) q T v t l < q ∧
    (intt (2 ^ kr) (2 ^ kc) q T v t l : ZMod q) =
      ((2 ^ kr : Nat) : ZMod q)⁻¹ * ((2 ^ kc : Nat) : ZMod q)⁻¹ *
        ∑ e ∈ range (2 ^ kr * 2 ^ kc), B e * φ ^ ((2 * e + 1) * (2 ^ kc * t + l)) := by
  have h3 := h.good.lt
  have s1 : ∀ z, z < 2 ^ kr → _ := fun z hz => bat_step (2 ^ kc) q h.cols h.good (fun j => v z j) (fun j => T.itf1 j l)
    (fun j hj => hv z j hz hj) (fun j => (hT.lt j l).2.2.2.1) h.cols32
  have s2 : ∀ z, z < 2 ^ kr → _ := fun z hz => mul_step q h.good _ (T.itf2 z l) (s1 z hz).1 (hT.lt z l).2.2.2.2.1
  obtain ⟨s3, s4⟩ := bat_step (2 ^ kr) q h.rows h.good _ (fun z => T.itf3 t z)
    (fun z hz => lt_trans (s2 z hz).1 (by omega)) (fun z => (hT.lt t z).2.2.2.2.2) h.rows32
  refine ⟨s3, ?_⟩
  unfold intt
  simp only
  rw [s4, ← inv_eval kr kc φ hφ B]
  apply sum_congr rfl
  intro z hz
  rw [mem_range] at hz
  rw [(s2 z hz).2, (s1 z hz).2, hT.itf2 z l hz, hT.itf3 t z hz]
  congr 2
  apply sum_congr rfl
  intro j hj
  rw [mem_range] at hj
  rw [hB z j hz hj, hT.itf1 j l hj]

theorem eq_of_cast {q x y : Nat} (hx : x < q) (hy : y < q) (h : (x : ZMod q) = (y : ZMod q)) : x = y := by
  rw [ZMod.natCast_eq_natCast_iff] at h
  exact Nat.ModEq.eq_of_lt_of_lt h hx hy

theorem grid_index {kr kc m : Nat} (hm : m < 2 ^ kr * 2 ^ kc) : m / 2 ^ kc < 2 ^ kr ∧ m % 2 ^ kc < 2 ^ kc :=
  ⟨Nat.div_lt_of_lt_mul (by rwa [Nat.mul_comm]), Nat.mod_lt _ (by positivity)⟩

/-- C33: on every supported shape the constants exist, and the four-step transform of the row-major matrix of a
vector `a` of 32-bit words is, entry by entry, the reference transform `ntt_negacyclic_poly` of `a`. -/
theorem C33_forward (kr kc q : Nat) (h : FourStep kr kc q) :
    ∃ T, precomputeTables (2 ^ kr) (2 ^ kc) q = .ok T ∧
      ∀ a : Nat → Nat, (∀ i, i < 2 ^ kr * 2 ^ kc → a i < 2 ^ 32) →
        ∃ ref, nttPoly (2 ^ kr * 2 ^ kc) q (fun i => (a i : Int)) = .ok ref ∧
          ∀ z n, z < 2 ^ kr → n < 2 ^ kc →
            (ntt (2 ^ kr) (2 ^ kc) q T (fun i j => a (i * 2 ^ kc + j)) z n : Int) = ref (z * 2 ^ kc + n) := by
  obtain ⟨psi, T, h1, h2, h3, hT⟩ := tables_ok kr kc q h
  refine ⟨T, h3, ?_⟩
  intro a ha
  have hN : 2 ^ kr * 2 ^ kc = 2 ^ (kr + kc) := (pow_add 2 kr kc).symm
  obtain ⟨psi', g1, g2, g3⟩ := C31_poly (kr + kc) q h.prime (by rw [← hN]; exact h.dvd)
  rw [← hN] at g1 g3
  rw [h1] at g1
  cases g1
  obtain ⟨ref, s, f1, -, f2, -⟩ := g3 (fun i => (a i : Int))
  refine ⟨ref, f1, ?_⟩
  intro z n hz hn
  have hlt : ∀ i j, i < 2 ^ kr → j < 2 ^ kc → i * 2 ^ kc + j < 2 ^ kr * 2 ^ kc := by
    intro i j hi hj
    calc i * 2 ^ kc + j < (i + 1) * 2 ^ kc := by rw [Nat.succ_mul]; omega
      _ ≤ _ := Nat.mul_le_mul_right _ hi
  obtain ⟨e1, e2⟩ := ntt_eval h hT (by rw [← h2]; exact pow_orderOf_eq_one _) (fun i j => a (i * 2 ^ kc + j))
    (fun i j hi hj => ha _ (hlt i j hi hj)) z n hz hn
  obtain ⟨b1, b2, b3⟩ := f2 (z * 2 ^ kc + n) (by have := hlt z n hz hn; omega)
  have key : ((ntt (2 ^ kr) (2 ^ kc) q T (fun i j => a (i * 2 ^ kc + j)) z n : Int) : ZMod q) =
      (ref (z * 2 ^ kc + n) : ZMod q) := by
    rw [Int.cast_natCast, e2, b3, rev_flat kr kc z n hn]
    apply sum_congr rfl
    intro m _
    rw [Nat.mul_comm (m / 2 ^ kc), Nat.div_add_mod, Int.cast_natCast]
  have := eq_emod_of_cast ⟨by omega, by exact_mod_cast e1⟩ key
  rw [this, Int.emod_eq_of_lt b1 b2]

/-- C33: `intt` after `ntt` returns every matrix of 32-bit words reduced modulo `q`. -/
theorem C33_inverse_left (kr kc q : Nat) (h : FourStep kr kc q) :
    ∃ T, precomputeTables (2 ^ kr) (2 ^ kc) q = .ok T ∧
      ∀ v : Nat → Nat → Nat, (∀ i j, i < 2 ^ kr → j < 2 ^ kc → v i j < 2 ^ 32) →
        ∀ i j, i < 2 ^ kr → j < 2 ^ kc →
          intt (2 ^ kr) (2 ^ kc) q T (ntt (2 ^ kr) (2 ^ kc) q T v) i j = v i j % q := by
  haveI : Fact q.Prime := ⟨h.prime⟩
  obtain ⟨psi, T, h1, h2, h3, hT⟩ := tables_ok kr kc q h
  refine ⟨T, h3, ?_⟩
  intro v hv i j hi hj
  obtain ⟨N, hN⟩ : ∃ N, N = 2 ^ kr * 2 ^ kc := ⟨_, rfl⟩
  have hNpos : 0 < N := by rw [hN]; positivity
  have h31 := h.good.lt
  have hψ : (psi : ZMod q) ^ (2 * (2 ^ kr * 2 ^ kc)) = 1 := by rw [← h2]; exact pow_orderOf_eq_one _
  have hne : (psi : ZMod q) ≠ 0 := by
    intro h0
    rw [h0, zero_pow (by rw [← hN]; omega)] at hψ
    exact zero_ne_one hψ
  have hφ : (psi : ZMod q)⁻¹ ^ (2 * (2 ^ kr * 2 ^ kc)) = 1 := by rw [inv_pow, hψ, inv_one]
  have fw := fun z n hz hn => ntt_eval h hT hψ v hv z n hz hn
  obtain ⟨e1, e2⟩ := intt_eval h hT hφ (ntt (2 ^ kr) (2 ^ kc) q T v)
    (fun e => ∑ m ∈ range (2 ^ kr * 2 ^ kc), (v (m / 2 ^ kc) (m % 2 ^ kc) : ZMod q) * (psi : ZMod q) ^ ((2 * e + 1) * m))
    (fun z n hz hn => (fw z n hz hn).2) (fun z n hz hn => lt_trans (fw z n hz hn).1 (by omega)) i j
  have hlt : 2 ^ kc * i + j < N := by
    rw [hN]
    calc 2 ^ kc * i + j < 2 ^ kc * (i + 1) := by rw [Nat.mul_succ]; omega
      _ ≤ _ := by rw [Nat.mul_comm (2 ^ kr)]; exact Nat.mul_le_mul_left _ hi
  have hs : ((2 ^ kr : Nat) : ZMod q)⁻¹ * ((2 ^ kc : Nat) : ZMod q)⁻¹ * (N : ZMod q) = 1 := by
    have hN0 : ((N : Nat) : ZMod q) ≠ 0 := by
      intro h0
      rw [ZMod.natCast_eq_zero_iff] at h0
      have := Nat.le_of_dvd hNpos h0
      have h5 := Nat.le_of_dvd (by have := h.prime.two_le; omega) h.dvd
      omega
    rw [hN] at hN0 ⊢
    rw [Nat.cast_mul] at hN0 ⊢
    rw [← mul_inv, inv_mul_cancel₀ hN0]
  rw [← hN] at e2
  rw [eval_inverse N _ _ _ (by rw [h2, hN]) hNpos (mul_inv_cancel₀ hne) hs
    (fun m => (v (m / 2 ^ kc) (m % 2 ^ kc) : ZMod q)) _ hlt] at e2
  rw [Nat.mul_add_div (by positivity), Nat.mul_add_mod, Nat.div_eq_of_lt hj, Nat.mod_eq_of_lt hj, Nat.add_zero] at e2
  apply eq_of_cast e1 (Nat.mod_lt _ h.prime.pos)
  rw [e2, ZMod.natCast_mod]

/-- C33: `ntt` after `intt` likewise. -/
theorem C33_inverse_right (kr kc q : Nat) (h : FourStep kr kc q) :
    ∃ T, precomputeTables (2 ^ kr) (2 ^ kc) q = .ok T ∧
      ∀ v : Nat → Nat → Nat, (∀ i j, i < 2 ^ kr → j < 2 ^ kc → v i j < 2 ^ 32) →
        ∀ i j, i < 2 ^ kr → j < 2 ^ kc →
          ntt (2 ^ kr) (2 ^ kc) q T (intt (2 ^ kr) (2 ^ kc) q T v) i j = v i j % q := by
  haveI : Fact q.Prime := ⟨h.prime⟩
  obtain ⟨psi, T, h1, h2, h3, hT⟩ := tables_ok kr kc q h
  refine ⟨T, h3, ?_⟩
  intro v hv i j hi hj
  obtain ⟨N, hN⟩ : ∃ N, N = 2 ^ kr * 2 ^ kc := ⟨_, rfl⟩
  have hNpos : 0 < N := by rw [hN]; positivity
  have h31 := h.good.lt
  have hψ : (psi : ZMod q) ^ (2 * (2 ^ kr * 2 ^ kc)) = 1 := by rw [← h2]; exact pow_orderOf_eq_one _
  have hne : (psi : ZMod q) ≠ 0 := by
    intro h0
    rw [h0, zero_pow (by rw [← hN]; omega)] at hψ
    exact zero_ne_one hψ
  have hφ : (psi : ZMod q)⁻¹ ^ (2 * (2 ^ kr * 2 ^ kc)) = 1 := by rw [inv_pow, hψ, inv_one]
  have hr0 : 0 < 2 ^ kr := by positivity
  -- the values of `v` by evaluation index
  obtain ⟨B, hB⟩ : ∃ B : Nat → ZMod q, B = fun e =>
    (v (bitReversal (e % 2 ^ kr) kr) (bitReversal (e / 2 ^ kr) kc) : ZMod q) := ⟨_, rfl⟩
  have hBv : ∀ z n, z < 2 ^ kr → n < 2 ^ kc → (v z n : ZMod q) = B (bitReversal z kr + 2 ^ kr * bitReversal n kc) := by
    intro z n hz hn
    rw [hB]
    simp only
    rw [Nat.add_mul_mod_self_left, Nat.add_mul_div_left _ _ hr0, Nat.mod_eq_of_lt (rev_lt z kr),
      Nat.div_eq_of_lt (rev_lt z kr), Nat.zero_add, rev_rev_of_lt hz, rev_rev_of_lt hn]
  have bw := fun t l => intt_eval h hT hφ v B hBv hv t l
  obtain ⟨e1, e2⟩ := ntt_eval h hT hψ (intt (2 ^ kr) (2 ^ kc) q T v)
    (fun t l _ _ => lt_trans (bw t l).1 (by omega)) i j hi hj
  have hs : ((2 ^ kr : Nat) : ZMod q)⁻¹ * ((2 ^ kc : Nat) : ZMod q)⁻¹ * (N : ZMod q) = 1 := by
    have hN0 : ((N : Nat) : ZMod q) ≠ 0 := by
      intro h0
      rw [ZMod.natCast_eq_zero_iff] at h0
      have := Nat.le_of_dvd hNpos h0
      have h5 := Nat.le_of_dvd (by have := h.prime.two_le; omega) h.dvd
      omega
    rw [hN] at hN0 ⊢
    rw [Nat.cast_mul] at hN0 ⊢
    rw [← mul_inv, inv_mul_cancel₀ hN0]
  have hlt : bitReversal i kr + 2 ^ kr * bitReversal j kc < N := by
    rw [hN]
    have := rev_lt i kr
    calc bitReversal i kr + 2 ^ kr * bitReversal j kc < 2 ^ kr * (bitReversal j kc + 1) := by rw [Nat.mul_succ]; omega
      _ ≤ _ := Nat.mul_le_mul_left _ (rev_lt j kc)
  apply eq_of_cast e1 (Nat.mod_lt _ h.prime.pos)
  rw [e2, ZMod.natCast_mod, hBv i j hi hj,
    ← inverse_eval N _ _ _ (by rw [h2, hN]) hNpos (mul_inv_cancel₀ hne) hs B _ hlt, ← hN]
  apply sum_congr rfl
  intro m _
  rw [(bw _ _).2, Nat.div_add_mod, ← hN]

theorem prime_1073184769 : Nat.Prime 1073184769 :=
  PrimeCheck.prime_of_noDiv _ 15 (by norm_num) (by decide +kernel) (by norm_num)

/-- The hypotheses hold for a grid of 64 by 64 and a 30-bit modulus of the package's tests. -/
theorem fourStep_64_64 : FourStep 6 6 1073184769 := by
  have hL : Nat.clog 2 1073184769 = 30 := by
    apply le_antisymm
    · rw [Nat.clog_le_iff_le_pow (by norm_num)]; norm_num
    · have : 29 < Nat.clog 2 1073184769 := by rw [Nat.lt_clog_iff_pow_lt (by norm_num)]; norm_num
      exact this
  refine ⟨prime_1073184769, by norm_num, goodModulus_1073184769, ?_, ?_, by norm_num, by norm_num⟩ <;>
    rw [hL] <;> norm_num

example : ∃ T, precomputeTables (2 ^ 6) (2 ^ 6) 1073184769 = .ok T := by
  obtain ⟨T, h, -⟩ := C33_forward 6 6 1073184769 fourStep_64_64
  exact ⟨T, h⟩

end Verif.Props

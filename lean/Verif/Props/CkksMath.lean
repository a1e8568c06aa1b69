import Verif.Lemmas.CkksMath
import Verif.Lemmas.PrimeCheck
import Mathlib.Data.Nat.Bitwise

/-!
# Property C34: roots of unity
-/

namespace Verif.Props
open Verif.CkksMath

theorem and_pred_eq_zero {m : Nat} (hm : 0 < m) : m &&& (m - 1) = 0 ↔ ∃ k, m = 2 ^ k := by
  constructor
  · intro h
    induction m using Nat.strong_induction_on with
    | _ m ih =>
      rcases Nat.mod_two_eq_zero_or_one m with h0 | h1
      · have hd : (m / 2) &&& (m / 2 - 1) = 0 := by
          have h2 : (m &&& (m - 1)) / 2 = 0 := by rw [h]
          rw [Nat.and_div_two] at h2
          have : (m - 1) / 2 = m / 2 - 1 := by omega
          rwa [this] at h2
        obtain ⟨k, hk⟩ := ih (m / 2) (by omega) (by omega) hd
        exact ⟨k + 1, by rw [pow_succ]; omega⟩
      · -- odd: `m - 1` shares all higher bits
        have h2 : (m &&& (m - 1)) / 2 = 0 := by rw [h]
        rw [Nat.and_div_two] at h2
        have : (m - 1) / 2 = m / 2 := by omega
        rw [this, Nat.and_self] at h2
        exact ⟨0, by simp; omega⟩
  · rintro ⟨k, rfl⟩
    rw [Nat.and_two_pow_sub_one_eq_mod, Nat.mod_self]

/-- C34: `prime_factors(n)` is the set of primes dividing `n`, for every `n ≥ 1`; for `n = 0` it does not
return. -/
theorem C34_prime_factors (n : Nat) (hn : 1 ≤ n) :
    ∃ l, primeFactors n = .ok l ∧ ∀ r, r ∈ l ↔ r.Prime ∧ r ∣ n := primeFactors_spec n hn

example := C34_prime_factors 1073184768 (by norm_num)

/-- C34: `find_generator` returns a generator for every prime. -/
theorem C34_generator (q : Nat) (hq : q.Prime) :
    ∃ g, findGenerator q = .ok g ∧ g < q ∧ orderOf (g : ZMod q) = q - 1 := by
  haveI : Fact q.Prime := ⟨hq⟩
  obtain ⟨g, h1, -, h2, h3⟩ := findGenerator_spec (q := q)
  exact ⟨g, h1, h2, h3⟩

example := C34_generator 257 (by decide +kernel)

/-- C34: for a prime `q` and every `m ≥ 2` dividing `q - 1`, `root_of_unity(m, q)` is a residue of
multiplicative order exactly `m`, and the least such. -/
theorem C34_root_of_unity (q m : Nat) (hq : q.Prime) (hm : 2 ≤ m) (hd : m ∣ q - 1) :
    ∃ w, rootOfUnity m q = .ok w ∧ 0 ≤ w ∧ w < q ∧ orderOf (w : ZMod q) = m ∧
      ∀ v : Int, 0 ≤ v → orderOf (v : ZMod q) = m → w ≤ v := by
  haveI : Fact q.Prime := ⟨hq⟩
  have hq2 := hq.two_le
  obtain ⟨g, hg, hg1, hg2, hord⟩ := findGenerator_spec (q := q)
  have hqm : 0 < (q - 1) / m := by
    have := Nat.le_of_dvd (by omega : 0 < q - 1) hd
    exact Nat.div_pos this (by omega)
  -- the base root
  obtain ⟨r, hr⟩ : ∃ r, r = powMod g ((q - 1) / m) q := ⟨_, rfl⟩
  have hrc : (r : ZMod q) = (g : ZMod q) ^ ((q - 1) / m) := by rw [hr, cast_powMod]; simp
  have hrb : 0 ≤ r ∧ r < q := by rw [hr]; exact powMod_bounds _ _ _ (by omega)
  have hrord : orderOf (r : ZMod q) = m := by
    rw [hrc, orderOf_pow_of_dvd (by omega) (by rw [hord]; exact Nat.div_dvd_of_dvd hd), hord,
      Nat.div_div_self hd (by omega)]
  have hprim : IsPrimitiveRoot (r : ZMod q) m := by rw [← hrord]; exact IsPrimitiveRoot.orderOf _
  -- the candidates are the primitive roots
  obtain ⟨cand, hcand⟩ : ∃ cand, cand = (if m &&& (m - 1) = 0 then oddPowers q (r * r % q) (m / 2) r
        else ((List.range' 1 (m - 1)).filter (fun k => Nat.gcd k m = 1)).map (fun k => powMod r k q)) :=
    ⟨_, rfl⟩
  have hsound : ∀ c ∈ cand, (0 ≤ c ∧ c < q) ∧ orderOf (c : ZMod q) = m := by
    intro c hc
    rw [hcand] at hc
    split at hc
    · rename_i hpow
      obtain ⟨k, hk⟩ := (and_pred_eq_zero (by omega)).1 hpow
      refine ⟨oddPowers_bounds q (by omega) _ _ _ hrb c hc, ?_⟩
      obtain ⟨i, hi, he⟩ := oddPowers_spec q _ _ _ c hc
      have hcp : (c : ZMod q) = (r : ZMod q) ^ (2 * i + 1) := by
        rw [he, ZMod.intCast_mod]; push_cast; ring
      rw [hcp]
      have : IsPrimitiveRoot ((r : ZMod q) ^ (2 * i + 1)) m := by
        apply hprim.pow_of_coprime
        rw [hk]
        apply Nat.Coprime.pow_right
        rw [Nat.coprime_two_right, Nat.odd_iff]
        omega
      exact this.eq_orderOf.symm
    · rw [List.mem_map] at hc
      obtain ⟨k, hk, rfl⟩ := hc
      rw [List.mem_filter] at hk
      refine ⟨powMod_bounds _ _ _ (by omega), ?_⟩
      rw [cast_powMod]
      have : IsPrimitiveRoot ((r : ZMod q) ^ k) m := by
        apply hprim.pow_of_coprime
        simpa using hk.2
      exact this.eq_orderOf.symm
  have hcomplete : ∀ v : ZMod q, orderOf v = m → ∃ c ∈ cand, (c : ZMod q) = v := by
    intro v hv
    have hvp : IsPrimitiveRoot v m := by rw [← hv]; exact IsPrimitiveRoot.orderOf _
    haveI : NeZero m := ⟨by omega⟩
    obtain ⟨i, him, hco, he⟩ := (hprim.isPrimitiveRoot_iff).1 hvp
    have hi0 : i ≠ 0 := by
      rintro rfl
      rw [Nat.coprime_zero_left] at hco
      omega
    rw [hcand]
    split
    · rename_i hpow
      obtain ⟨k, hk⟩ := (and_pred_eq_zero (by omega)).1 hpow
      have hodd : i % 2 = 1 := by
        have hk1 : k ≠ 0 := by rintro rfl; simp at hk; omega
        have : Nat.Coprime i 2 := by
          rw [hk] at hco
          exact Nat.Coprime.coprime_dvd_right (dvd_pow_self 2 hk1) hco
        rw [Nat.coprime_two_right, Nat.odd_iff] at this
        exact this
      obtain ⟨c, hc, hce⟩ := oddPowers_complete q (r * r % q) (m / 2) r (i / 2) (by omega)
      refine ⟨c, hc, ?_⟩
      rw [hce, ← he, ZMod.intCast_mod]
      push_cast
      have hi : i = 1 + 2 * (i / 2) := by omega
      conv_rhs => rw [hi, pow_add, pow_mul, pow_one, pow_two]
    · refine ⟨powMod r i q, ?_, ?_⟩
      · rw [List.mem_map]
        refine ⟨i, ?_, rfl⟩
        rw [List.mem_filter, List.mem_range'_1]
        exact ⟨by omega, by simpa using hco⟩
      · rw [cast_powMod, he]
  obtain ⟨c0, hc0, -⟩ := hcomplete (r : ZMod q) hrord
  have hdm : (q - 1) % m = 0 := Nat.mod_eq_zero_of_dvd hd
  have hrun : ∀ c cs, cand = c :: cs → rootOfUnity m q = .ok (cs.foldl min c) := by
    intro c cs hcc
    unfold rootOfUnity
    rw [if_neg (by omega), if_neg (by simp [hdm])]
    simp only [hg, ← hr, ← hcand, hcc]
  cases hC : cand with
  | nil => rw [hC] at hc0; simp at hc0
  | cons c cs =>
    have hrun := hrun c cs hC
    obtain ⟨hmem, hmin⟩ := foldl_min_spec cs c
    rw [← hC] at hmem hmin
    obtain ⟨hb, ho⟩ := hsound _ hmem
    refine ⟨_, hrun, hb.1, hb.2, ho, ?_⟩
    intro v hv0 hvo
    obtain ⟨d, hd', hde⟩ := hcomplete _ hvo
    have hdb := (hsound d hd').1
    refine (hmin d hd').trans ?_
    -- `d` is the least non-negative representative
    rw [ZMod.intCast_eq_intCast_iff] at hde
    have h1 : d % q = v % q := hde
    rw [Int.emod_eq_of_lt hdb.1 hdb.2] at h1
    rw [h1]
    have h2 := Int.emod_add_mul_ediv v q
    have h3 : 0 ≤ (q : Int) * (v / q) := mul_nonneg (by omega) (Int.ediv_nonneg hv0 (by omega))
    linarith

example := C34_root_of_unity 257 16 (by decide +kernel) (by norm_num) (by norm_num)

/-- C34: `m` not dividing `q - 1` is rejected, as is `m = 0`; and so is `m = 1`, although `1` is a primitive
first root of unity. -/
theorem C34_rejects (m q : Nat) :
    (m ≠ 0 → ¬ m ∣ q - 1 → rootOfUnity m q = .error "ValueError") ∧
    rootOfUnity 0 q = .error "ZeroDivisionError" ∧
    (q.Prime → rootOfUnity 1 q = .error "ValueError") := by
  refine ⟨?_, ?_, ?_⟩
  · intro h0 hd
    unfold rootOfUnity
    rw [if_neg h0, if_pos]
    intro h; exact hd (Nat.dvd_of_mod_eq_zero h)
  · unfold rootOfUnity; simp
  · intro hq
    haveI : Fact q.Prime := ⟨hq⟩
    obtain ⟨g, hg, -⟩ := findGenerator_spec (q := q)
    unfold rootOfUnity
    simp [hg, Nat.mod_one, oddPowers]

/-- C34: `_mod_exp(x, n, q)` is `x^n mod q` for `q > 1`. -/
theorem C34_mod_exp (x : Int) (n q : Nat) (hq : 1 < q) : modExp x n q = x ^ n % q := by
  obtain ⟨h1, h2⟩ := modExp_bounds x n q hq
  have h3 := cast_modExp x n q
  have h4 : ((modExp x n q : Int) : ZMod q) = ((x ^ n : Int) : ZMod q) := by rw [h3]; push_cast; rfl
  rw [ZMod.intCast_eq_intCast_iff] at h4
  have h5 : modExp x n q % q = x ^ n % q := h4
  rw [← h5, Int.emod_eq_of_lt h1 h2]

example := C34_mod_exp (-3) 1000 257 (by norm_num)

/-- C34: for a prime `q` and `m = 2^(k+1)` dividing `q - 1`, `_primitive_root(m, q)` has order exactly `m`. -/
theorem C34_primitive_root (q k : Nat) (hq : q.Prime) (hd : 2 ^ (k + 1) ∣ q - 1) :
    ∃ w, primitiveRoot (2 ^ (k + 1)) q = .ok w ∧ 0 ≤ w ∧ w < q ∧ orderOf (w : ZMod q) = 2 ^ (k + 1) := by
  haveI : Fact q.Prime := ⟨hq⟩
  have hq2 := hq.two_le
  have hpos : 0 < q - 1 := by omega
  have hm2 : 2 ≤ 2 ^ (k + 1) := by rw [pow_succ]; have := Nat.one_le_two_pow (n := k); omega
  have hmle := Nat.le_of_dvd hpos hd
  have hip : isPowerOfTwo (2 ^ (k + 1)) = true := by
    unfold isPowerOfTwo
    rw [(and_pred_eq_zero (by positivity)).2 ⟨k + 1, rfl⟩]; simp
  have hshift : 2 ^ (k + 1) >>> 1 = 2 ^ k := by rw [Nat.shiftRight_one, pow_succ]; omega
  obtain ⟨K, hK⟩ : ∃ K, K = (q - 1) / 2 ^ (k + 1) := ⟨_, rfl⟩
  have hKm : K * 2 ^ (k + 1) = q - 1 := by rw [hK]; exact Nat.div_mul_cancel hd
  -- the test is the right one
  have key : ∀ t : Nat, 1 ≤ t → t < q →
      (modExp (modExp t K q) (2 ^ k) q ≠ 1 ↔ orderOf ((modExp t K q : Int) : ZMod q) = 2 ^ (k + 1)) := by
    intro t ht1 ht2
    have hc : ((modExp t K q : Int) : ZMod q) = (t : ZMod q) ^ K := by rw [cast_modExp]; simp
    have h1 : ((modExp t K q : Int) : ZMod q) ^ 2 ^ (k + 1) = 1 := by
      rw [hc, ← pow_mul, hKm]
      exact ZMod.pow_card_sub_one_eq_one (natCast_ne_zero ht1 ht2)
    have hb := modExp_bounds (modExp t K q) (2 ^ k) q (by omega)
    have h2 : modExp (modExp t K q) (2 ^ k) q = 1 ↔ ((modExp t K q : Int) : ZMod q) ^ 2 ^ k = 1 := by
      rw [← cast_modExp]
      constructor
      · intro h; rw [h]; simp
      · intro h
        have h2 : ((modExp (modExp t K q) (2 ^ k) q : Int) : ZMod q) = ((1 : Int) : ZMod q) := by rw [h]; simp
        rw [ZMod.intCast_eq_intCast_iff] at h2
        unfold Int.ModEq at h2
        rw [Int.emod_eq_of_lt hb.1 hb.2, Int.emod_eq_of_lt (by omega) (by omega)] at h2
        exact h2
    rw [Ne, h2]
    constructor
    · intro h
      exact orderOf_eq_prime_pow h h1
    · intro h hc'
      have := orderOf_dvd_of_pow_eq_one hc'
      rw [h] at this
      have := Nat.le_of_dvd (by positivity) this
      rw [pow_succ] at this
      have := Nat.one_le_two_pow (n := k)
      omega
  unfold primitiveRoot
  rw [hip]
  simp only [Bool.not_true, Bool.false_eq_true, if_false]
  rw [if_neg (by simp [Nat.mod_eq_zero_of_dvd hd]), hshift, ← hK]
  cases hf : (List.range' 2 (q - 2)).find? (fun (t : Nat) => modExp (modExp t K q) (2 ^ k) q != 1) with
  | some t =>
    have hs := List.find?_some hf
    have hm := List.mem_of_find?_eq_some hf
    rw [List.mem_range'_1] at hm
    rw [bne_iff_ne] at hs
    have hb := modExp_bounds t K q (by omega)
    exact ⟨_, rfl, hb.1, hb.2, (key t (by omega) (by omega)).1 hs⟩
  | none =>
    exfalso
    rw [List.find?_eq_none] at hf
    obtain ⟨g, hg1, hg2, hg3⟩ := exists_generator_val (q := q)
    have hne : g ≠ 1 := by
      rintro rfl
      simp at hg3
      omega
    have hgm : g ∈ List.range' 2 (q - 2) := by rw [List.mem_range'_1]; omega
    apply hf g hgm
    rw [bne_iff_ne, key g hg1 hg2, cast_modExp]
    have hKpos : K ≠ 0 := by rintro h0; rw [h0] at hKm; omega
    push_cast
    rw [orderOf_pow_of_dvd hKpos (by rw [hg3]; exact ⟨_, hKm.symm⟩), hg3, ← hKm,
      Nat.mul_div_cancel_left _ (by omega)]

example := C34_primitive_root 257 3 (by decide +kernel) (by norm_num)

/-- C34: `_primitive_root` rejects orders that are not powers of two or do not divide `q - 1`. -/
theorem C34_primitive_root_rejects (m q : Nat) :
    (isPowerOfTwo m = true ↔ ∃ k, m = 2 ^ k) ∧
    ((¬ ∃ k, m = 2 ^ k) → primitiveRoot m q = .error "ValueError") ∧
    (¬ m ∣ q - 1 → primitiveRoot m q = .error "ValueError") := by
  have h1 : isPowerOfTwo m = true ↔ ∃ k, m = 2 ^ k := by
    unfold isPowerOfTwo
    rcases Nat.eq_zero_or_pos m with h | h
    · subst h
      simp only [gt_iff_lt, lt_self_iff_false, decide_false, Bool.false_and, Bool.false_eq_true, false_iff]
      rintro ⟨k, hk⟩
      have := Nat.one_le_two_pow (n := k)
      omega
    · simp only [gt_iff_lt, h, decide_true, Bool.true_and, beq_iff_eq]
      exact and_pred_eq_zero h
  refine ⟨h1, ?_, ?_⟩
  · intro h
    unfold primitiveRoot
    rw [if_pos]
    rw [Bool.not_eq_true', Bool.eq_false_iff]
    exact fun hc => h (h1.1 hc)
  · intro h
    unfold primitiveRoot
    split
    · rfl
    · rw [if_pos]
      intro hc; exact h (Nat.dvd_of_mod_eq_zero hc)

example : (257 : Nat).Prime ∧ 2 ≤ 16 ∧ 16 ∣ 257 - 1 := by
  refine ⟨PrimeCheck.prime_of_noDiv _ 4 (by norm_num) (by decide +kernel) (by norm_num), by norm_num, by norm_num⟩
example : modExp 3 5 (7 : Nat) = 5 := by rw [C34_mod_exp 3 5 7 (by norm_num)]; norm_num

end Verif.Props

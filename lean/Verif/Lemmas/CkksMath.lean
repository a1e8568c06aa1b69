import Verif.Model.CkksMath
import Mathlib.GroupTheory.OrderOfElement
import Mathlib.RingTheory.ZMod.UnitsCyclic
import Mathlib.RingTheory.RootsOfUnity.PrimitiveRoots
import Mathlib.FieldTheory.Finite.Basic
import Mathlib.Data.Nat.Prime.Basic
import Mathlib.Tactic.Ring
import Mathlib.Tactic.Linarith

/-!
# Lemmas on the number-theoretic helpers
-/

namespace Verif.CkksMath

theorem cast_powMod (b : Int) (e q : Nat) : ((powMod b e q : Int) : ZMod q) = (b : ZMod q) ^ e := by
  unfold powMod
  rw [ZMod.intCast_mod]; push_cast; rfl

theorem powMod_bounds (b : Int) (e : Nat) (q : Nat) (hq : 0 < q) : 0 ≤ powMod b e q ∧ powMod b e q < q := by
  unfold powMod
  exact ⟨Int.emod_nonneg _ (by omega), Int.emod_lt_of_pos _ (by omega)⟩

/-- Specification of `pow(x, -1, q)`. -/
theorem invMod_ok (x : Int) (q : Nat) (hq : 0 < q) (h : Int.gcd x q = 1) :
    ∃ y, invMod x q = .ok y ∧ 0 ≤ y ∧ y < q ∧ (x : ZMod q) * (y : ZMod q) = 1 := by
  refine ⟨Int.gcdA x q % q, by unfold invMod; rw [if_pos h], Int.emod_nonneg _ (by omega),
    Int.emod_lt_of_pos _ (by omega), ?_⟩
  rw [ZMod.intCast_mod]
  have hb := Int.gcd_eq_gcd_ab x q
  rw [h] at hb
  have hb' := congrArg (fun z : Int => (z : ZMod q)) hb
  push_cast at hb'
  rw [ZMod.natCast_self, zero_mul, add_zero] at hb'
  exact hb'.symm

theorem invMod_cast (x y : Int) (q : Nat) (hq : 0 < q) (h : invMod x q = .ok y) :
    0 ≤ y ∧ y < q ∧ (x : ZMod q) * (y : ZMod q) = 1 := by
  by_cases hg : Int.gcd x q = 1
  · obtain ⟨z, h1, h2⟩ := invMod_ok x q hq hg
    rw [h1] at h
    cases h
    exact h2
  · unfold invMod at h
    rw [if_neg hg] at h
    cases h

theorem strip_spec (p n : Nat) (hp : 2 ≤ p) (hn : 1 ≤ n) :
    1 ≤ strip p n ∧ ¬ p ∣ strip p n ∧ ∃ k, n = p ^ k * strip p n := by
  induction n using Nat.strong_induction_on with
  | _ n ih =>
    unfold strip
    by_cases h : n % p = 0
    · rw [dif_pos ⟨hp, hn, h⟩]
      have hd : p ∣ n := Nat.dvd_of_mod_eq_zero h
      have hpos : 1 ≤ n / p := Nat.div_pos (Nat.le_of_dvd hn hd) (by omega)
      obtain ⟨h1, h2, k, hk⟩ := ih (n / p) (Nat.div_lt_self (by omega) (by omega)) hpos
      refine ⟨h1, h2, k + 1, ?_⟩
      have : n = p * (n / p) := (Nat.mul_div_cancel' hd).symm
      rw [pow_succ, Nat.mul_comm (p ^ k) p, Nat.mul_assoc, ← hk]; exact this
    · rw [dif_neg (by omega)]
      exact ⟨hn, fun hd => h (Nat.mod_eq_zero_of_dvd hd), 0, by simp⟩

/-- A prime other than `p` divides `n` iff it divides `strip p n`. -/
theorem strip_prime_dvd (p n r : Nat) (hp : p.Prime) (hn : 1 ≤ n) (hr : r.Prime) :
    r ∣ n ↔ (r = p ∧ p ∣ n) ∨ r ∣ strip p n := by
  obtain ⟨h1, h2, k, hk⟩ := strip_spec p n hp.two_le hn
  constructor
  · intro h
    by_cases hrp : r = p
    · left; exact ⟨hrp, hrp ▸ h⟩
    · right
      rw [hk] at h
      rcases (hr.dvd_mul).1 h with h | h
      · exact absurd ((Nat.prime_dvd_prime_iff_eq hr hp).1 (hr.dvd_of_dvd_pow h)) hrp
      · exact h
  · rintro (⟨rfl, h⟩ | h)
    · exact h
    · rw [hk]; exact Dvd.dvd.mul_left h _

theorem factorLoop_spec (n p : Nat) (acc : List Nat) (hn : 1 ≤ n) (hp : 3 ≤ p) (hodd : p % 2 = 1)
    (hmin : ∀ r, r.Prime → r ∣ n → p ≤ r) (r : Nat) :
    r ∈ factorLoop n p acc ↔ r ∈ acc ∨ (r.Prime ∧ r ∣ n) := by
  induction n, p, acc using factorLoop.induct with
  | case1 n p acc h ih =>
    unfold factorLoop
    rw [dif_pos h]
    obtain ⟨h1, h2, k, hk⟩ := strip_spec p n (by omega) hn
    have hsd : strip p n ∣ n := ⟨p ^ k, by rw [Nat.mul_comm]; exact hk⟩
    have hmin' : ∀ r, r.Prime → r ∣ strip p n → p + 2 ≤ r := by
      intro r hr hrd
      have hpr := hmin r hr (hrd.trans hsd)
      have hne : r ≠ p := fun e => h2 (e ▸ hrd)
      have hne2 : r ≠ p + 1 := by
        intro e
        have : r % 2 = 0 := by omega
        have := (Nat.Prime.even_iff hr).1 (Nat.even_iff.2 this)
        omega
      omega
    simp only [dite_eq_ite] at ih
    rw [ih h1 (by omega) (by omega) hmin']
    by_cases hd : n % p = 0
    · have hpn : p ∣ n := Nat.dvd_of_mod_eq_zero hd
      -- `p` is prime: a proper prime factor of it would be a smaller prime factor of `n`
      have hpp : p.Prime := by
        by_contra hc
        obtain ⟨s, hs, hsp⟩ := Nat.exists_prime_and_dvd (n := p) (by omega)
        have := hmin s hs (hsp.trans hpn)
        have := Nat.le_of_dvd (by omega) hsp
        have : s = p := by omega
        exact hc (this ▸ hs)
      rw [if_pos hd, List.mem_cons]
      constructor
      · rintro ((rfl | h) | ⟨h3, h4⟩)
        · exact Or.inr ⟨hpp, hpn⟩
        · exact Or.inl h
        · exact Or.inr ⟨h3, h4.trans hsd⟩
      · rintro (h | ⟨h3, h4⟩)
        · exact Or.inl (Or.inr h)
        · rcases (strip_prime_dvd p n r hpp hn h3).1 h4 with ⟨rfl, -⟩ | h5
          · exact Or.inl (Or.inl rfl)
          · exact Or.inr ⟨h3, h5⟩
    · rw [if_neg hd]
      have hse : strip p n = n := by
        unfold strip; rw [dif_neg (by omega)]
      rw [hse]
  | case2 n p acc h hn1 =>
    unfold factorLoop
    rw [dif_neg h, if_pos hn1, List.mem_cons]
    have hnp : n.Prime := by
      by_contra hc
      have h2 : (Nat.minFac n) * (Nat.minFac n) ≤ n := by
        have := Nat.minFac_sq_le_self (n := n) (by omega) hc
        rwa [pow_two] at this
      have h3 := hmin _ (Nat.minFac_prime (by omega)) (Nat.minFac_dvd n)
      have := Nat.mul_le_mul h3 h3
      omega
    constructor
    · rintro (rfl | h)
      · exact Or.inr ⟨hnp, dvd_refl _⟩
      · exact Or.inl h
    · rintro (h | ⟨h3, h4⟩)
      · exact Or.inr h
      · exact Or.inl ((Nat.prime_dvd_prime_iff_eq h3 hnp).1 h4)
  | case3 n p acc h hn1 =>
    unfold factorLoop
    rw [dif_neg h, if_neg hn1]
    have : n = 1 := by omega
    subst this
    constructor
    · exact Or.inl
    · rintro (h | ⟨h3, h4⟩)
      · exact h
      · exact absurd (Nat.dvd_one.1 h4) h3.ne_one

/-- `prime_factors` returns exactly the prime factors. -/
theorem primeFactors_spec (n : Nat) (hn : 1 ≤ n) :
    ∃ l, primeFactors n = .ok l ∧ ∀ r, r ∈ l ↔ r.Prime ∧ r ∣ n := by
  unfold primeFactors
  rw [if_neg (by omega)]
  refine ⟨_, rfl, ?_⟩
  intro r
  obtain ⟨h1, h2, k, hk⟩ := strip_spec 2 n (by omega) hn
  rw [factorLoop_spec _ _ _ h1 (by omega) (by omega)]
  · constructor
    · rintro (h | ⟨h3, h4⟩)
      · split at h
        · rename_i h0
          simp at h
          subst h
          exact ⟨Nat.prime_two, Nat.dvd_of_mod_eq_zero h0⟩
        · simp at h
      · refine ⟨h3, ?_⟩
        rw [hk]; exact Dvd.dvd.mul_left h4 _
    · rintro ⟨h3, h4⟩
      rcases (strip_prime_dvd 2 n r Nat.prime_two hn h3).1 h4 with ⟨rfl, h5⟩ | h5
      · left; rw [if_pos (Nat.mod_eq_zero_of_dvd h5)]; simp
      · exact Or.inr ⟨h3, h5⟩
  · intro s hs hsd
    have hne : s ≠ 2 := fun e => h2 (e ▸ hsd)
    have := hs.two_le
    omega

section prime
variable {q : Nat} [hq : Fact q.Prime]

theorem natCast_ne_zero {g : Nat} (h1 : 1 ≤ g) (h2 : g < q) : (g : ZMod q) ≠ 0 := by
  intro h
  rw [ZMod.natCast_eq_zero_iff] at h
  exact absurd (Nat.le_of_dvd (by omega) h) (by omega)

/-- A generator exists among the residues, as a number. -/
theorem exists_generator_val : ∃ g : Nat, 1 ≤ g ∧ g < q ∧ orderOf (g : ZMod q) = q - 1 := by
  obtain ⟨u, hu⟩ := IsCyclic.exists_generator (α := (ZMod q)ˣ)
  have hord : orderOf u = q - 1 := by
    rw [orderOf_eq_card_of_forall_mem_zpowers hu, Nat.card_eq_fintype_card, ZMod.card_units]
  refine ⟨(u : ZMod q).val, ?_, ZMod.val_lt _, ?_⟩
  · have : (u : ZMod q).val ≠ 0 := by
      rw [Ne, ZMod.val_eq_zero]; exact u.ne_zero
    omega
  · rw [ZMod.natCast_val, ZMod.cast_id', id, orderOf_units, hord]

theorem powMod_ne_one_iff (g e : Nat) (hq2 : 1 < q) : powMod g e q ≠ 1 ↔ (g : ZMod q) ^ e ≠ 1 := by
  have hb := powMod_bounds g e q (by omega)
  rw [not_iff_not]
  constructor
  · intro h
    have := cast_powMod g e q
    rw [h] at this
    push_cast at this
    exact this.symm
  · intro h
    have h1 := cast_powMod g e q
    push_cast at h1
    rw [h] at h1
    have h2 : ((powMod g e q : Int) : ZMod q) = ((1 : Int) : ZMod q) := by rw [h1]; simp
    rw [ZMod.intCast_eq_intCast_iff] at h2
    have h3 := Int.emod_eq_of_lt hb.1 hb.2
    have h4 : (1 : Int) % q = 1 := Int.emod_eq_of_lt (by omega) (by omega)
    unfold Int.ModEq at h2
    rw [h3, h4] at h2
    exact h2

/-- `find_generator` returns a generator of the multiplicative group. -/
theorem findGenerator_spec : ∃ g, findGenerator q = .ok g ∧ 1 ≤ g ∧ g < q ∧ orderOf (g : ZMod q) = q - 1 := by
  have hq2 : 2 ≤ q := hq.out.two_le
  unfold findGenerator
  by_cases h2 : q = 2
  · rw [if_pos h2]
    refine ⟨1, rfl, by omega, by omega, ?_⟩
    simp [h2]
  · rw [if_neg h2]
    obtain ⟨l, hl, hmem⟩ := primeFactors_spec (q - 1) (by omega)
    simp only [hl]
    have key : ∀ g : Nat, 1 ≤ g → g < q →
        ((l.all (fun p => powMod g ((q - 1) / p) q != 1)) = true ↔ orderOf (g : ZMod q) = q - 1) := by
      intro g hg1 hg2
      rw [List.all_eq_true]
      constructor
      · intro h
        apply orderOf_eq_of_pow_and_pow_div_prime (by omega)
        · exact ZMod.pow_card_sub_one_eq_one (natCast_ne_zero hg1 hg2)
        · intro p hp hpd
          have := h p ((hmem p).2 ⟨hp, hpd⟩)
          rw [bne_iff_ne] at this
          exact (powMod_ne_one_iff g _ (by omega)).1 this
      · intro h p hp
        obtain ⟨hpp, hpd⟩ := (hmem p).1 hp
        rw [bne_iff_ne]
        apply (powMod_ne_one_iff g _ (by omega)).2
        apply pow_ne_one_of_lt_orderOf
        · have := Nat.div_pos (Nat.le_of_dvd (by omega) hpd) hpp.pos
          omega
        · rw [h]; exact Nat.div_lt_self (by omega) hpp.one_lt
    cases hf : (List.range' 2 (q - 2)).find? (fun g : Nat => l.all (fun p => powMod g ((q - 1) / p) q != 1)) with
    | some g =>
      have hs := List.find?_some hf
      have hm := List.mem_of_find?_eq_some hf
      rw [List.mem_range'_1] at hm
      exact ⟨g, rfl, by omega, by omega, (key g (by omega) (by omega)).1 hs⟩
    | none =>
      exfalso
      rw [List.find?_eq_none] at hf
      obtain ⟨g, hg1, hg2, hg3⟩ := exists_generator_val (q := q)
      have hne : g ≠ 1 := by
        rintro rfl
        simp at hg3
        omega
      exact hf g (by rw [List.mem_range'_1]; omega) ((key g hg1 hg2).2 hg3)

end prime

theorem oddPowers_spec (q : Nat) (r2 : Int) (t : Nat) (curr : Int) (c : Int) :
    c ∈ oddPowers q r2 t curr → ∃ i < t, (c : ZMod q) = (curr : ZMod q) * (r2 : ZMod q) ^ i := by
  induction t generalizing curr with
  | zero => simp [oddPowers]
  | succ t ih =>
    intro h
    simp only [oddPowers, List.mem_cons] at h
    rcases h with rfl | h
    · exact ⟨0, by omega, by simp⟩
    · obtain ⟨i, hi, he⟩ := ih _ h
      refine ⟨i + 1, by omega, ?_⟩
      rw [he, ZMod.intCast_mod]; push_cast; ring

theorem oddPowers_complete (q : Nat) (r2 : Int) (t : Nat) (curr : Int) (i : Nat) (hi : i < t) :
    ∃ c ∈ oddPowers q r2 t curr, (c : ZMod q) = (curr : ZMod q) * (r2 : ZMod q) ^ i := by
  induction t generalizing curr i with
  | zero => omega
  | succ t ih =>
    cases i with
    | zero => exact ⟨curr, by simp [oddPowers], by simp⟩
    | succ i =>
      obtain ⟨c, hc, he⟩ := ih (curr * r2 % q) i (by omega)
      refine ⟨c, by simp [oddPowers, hc], ?_⟩
      rw [he, ZMod.intCast_mod]; push_cast; ring

theorem oddPowers_bounds (q : Nat) (hq : 0 < q) (r2 : Int) (t : Nat) (curr : Int) (hc : 0 ≤ curr ∧ curr < q) :
    ∀ c ∈ oddPowers q r2 t curr, 0 ≤ c ∧ c < q := by
  induction t generalizing curr with
  | zero => simp [oddPowers]
  | succ t ih =>
    intro c h
    simp only [oddPowers, List.mem_cons] at h
    rcases h with rfl | h
    · exact hc
    · exact ih _ ⟨Int.emod_nonneg _ (by omega), Int.emod_lt_of_pos _ (by omega)⟩ c h

theorem foldl_min_spec (l : List Int) (c : Int) :
    l.foldl min c ∈ c :: l ∧ ∀ d ∈ c :: l, l.foldl min c ≤ d := by
  induction l generalizing c with
  | nil => simp
  | cons a t ih =>
    obtain ⟨h1, h2⟩ := ih (min c a)
    simp only [List.foldl_cons]
    constructor
    · rcases List.mem_cons.1 h1 with h | h
      · rw [h]
        rcases min_choice c a with h' | h' <;> rw [h'] <;> simp
      · simp [h]
    · intro d hd
      rcases List.mem_cons.1 hd with rfl | hd
      · exact (h2 (min d a) (by simp)).trans (min_le_left _ _)
      · rcases List.mem_cons.1 hd with rfl | hd
        · exact (h2 (min c d) (by simp)).trans (min_le_right _ _)
        · exact h2 d (by simp [hd])

theorem modExpLoop_spec (result x : Int) (n q : Nat) :
    ((modExpLoop result x n q : Int) : ZMod q) = (result : ZMod q) * (x : ZMod q) ^ n := by
  induction n using Nat.strong_induction_on generalizing result x with
  | _ n ih =>
    unfold modExpLoop
    by_cases h : n > 0
    · rw [dif_pos h, Nat.shiftRight_one, ih (n / 2) (by omega), ZMod.intCast_mod, Nat.and_one_is_mod]
      push_cast
      have hn := Nat.div_add_mod n 2
      have hpow : (x : ZMod q) ^ n = ((x : ZMod q) * x) ^ (n / 2) * (x : ZMod q) ^ (n % 2) := by
        rw [← pow_two, ← pow_mul, ← pow_add, hn]
      rw [hpow]
      by_cases h1 : n % 2 ≠ 0
      · rw [if_pos h1]
        have : n % 2 = 1 := by omega
        rw [this]; push_cast; ring
      · rw [if_neg h1]
        have : n % 2 = 0 := by omega
        rw [this]; ring
    · rw [dif_neg h]
      have : n = 0 := by omega
      subst this; simp

theorem cast_modExp (x : Int) (n q : Nat) : ((modExp x n q : Int) : ZMod q) = (x : ZMod q) ^ n := by
  unfold modExp; rw [modExpLoop_spec]; simp

theorem modExpLoop_bounds (result x : Int) (n q : Nat) (hq : 0 < q) (hr : 0 ≤ result ∧ result < q) :
    0 ≤ modExpLoop result x n q ∧ modExpLoop result x n q < q := by
  induction n using Nat.strong_induction_on generalizing result x with
  | _ n ih =>
    unfold modExpLoop
    by_cases h : n > 0
    · rw [dif_pos h, Nat.shiftRight_one]
      apply ih (n / 2) (by omega)
      split
      · exact ⟨Int.emod_nonneg _ (by omega), Int.emod_lt_of_pos _ (by omega)⟩
      · exact hr
    · rw [dif_neg h]; exact hr

theorem modExp_bounds (x : Int) (n q : Nat) (hq : 1 < q) : 0 ≤ modExp x n q ∧ modExp x n q < q :=
  modExpLoop_bounds 1 x n q (by omega) ⟨by omega, by omega⟩

theorem cast_powersAt (base : Int) (q i : Nat) :
    ((powersAt base q i : Int) : ZMod q) = (base : ZMod q) ^ i := by
  induction i with
  | zero => simp [powersAt]
  | succ i ih => simp only [powersAt]; rw [ZMod.intCast_mod]; push_cast; rw [ih, pow_succ]

theorem powersAt_bounds (base : Int) (q i : Nat) (hq : 1 < q) : 0 ≤ powersAt base q i ∧ powersAt base q i < q := by
  cases i with
  | zero => simp only [powersAt]; omega
  | succ i => exact ⟨Int.emod_nonneg _ (by omega), Int.emod_lt_of_pos _ (by omega)⟩

end Verif.CkksMath

import Verif.Model.FieldClasses
import Mathlib.FieldTheory.Finite.Basic
import Mathlib.Tactic.NormNum.Prime
import Mathlib.Tactic.LinearCombination
import Mathlib.Tactic.Ring

/-!
# C63: the reference field classes compute in `GF(p)`

The specification is `ZMod p` for a prime `p`; the canonical integer of `x : ZMod p` is `x.val`.
-/

namespace Verif.Props

open Verif.FieldClasses

variable {p : Nat} [hp : Fact p.Prime]

theorem prime_pos' : (0 : Int) < p := by exact_mod_cast hp.out.pos

/-- The canonical integer of a residue class. -/
def canon (x : ZMod p) : Int := x.val

theorem canon_range (x : ZMod p) : 0 ≤ canon x ∧ canon x < p := by
  have : NeZero p := ⟨hp.out.ne_zero⟩
  exact ⟨Int.natCast_nonneg _, Int.ofNat_lt.2 (ZMod.val_lt x)⟩

theorem canon_cast (x : ZMod p) : ((canon x : Int) : ZMod p) = x := by
  have : NeZero p := ⟨hp.out.ne_zero⟩
  unfold canon
  rw [Int.cast_natCast, ZMod.natCast_zmod_val]

theorem emod_canon (x : Int) : x % p = canon (x : ZMod p) := by
  have : NeZero p := ⟨hp.out.ne_zero⟩
  unfold canon
  rw [ZMod.val_intCast]

/-- An integer in range is canonical. -/
theorem eq_canon (v : Int) (h0 : 0 ≤ v) (h1 : v < p) : v = canon (v : ZMod p) := by
  rw [← emod_canon, Int.emod_eq_of_lt h0 h1]

omit hp in
theorem toNat_sub_two : ((p : Int) - 2).toNat = p - 2 := by omega

theorem powmod_inv (x : Int) : powmod x ((p : Int) - 2).toNat p = canon ((x : ZMod p) ^ (p - 2)) := by
  unfold powmod
  rw [emod_canon, toNat_sub_two]
  push_cast
  rfl

theorem pow_inv (x : ZMod p) (h : x ≠ 0) : x ^ (p - 2) = x⁻¹ := by
  apply eq_inv_of_mul_eq_one_left
  rw [← pow_succ, show p - 2 + 1 = p - 1 by have := hp.out.two_le; omega]
  exact ZMod.pow_card_sub_one_eq_one h

theorem pow_inv_zero (h2 : 2 < p) : (0 : ZMod p) ^ (p - 2) = 0 := zero_pow (by omega)

theorem new_canon (x : ZMod p) : Plain.new (canon x) p = .ok ⟨canon x, p⟩ := by
  have := canon_range x
  unfold Plain.new
  rw [if_neg (by omega)]

/-- C63: the constructor accepts exactly the canonical values. -/
theorem C63_plain_new (v q : Int) : ((∃ a, Plain.new v q = .ok a) ↔ 0 ≤ v ∧ v < q) ∧
    (∀ a, Plain.new v q = .ok a → a = ⟨v, q⟩) := by
  unfold Plain.new
  split_ifs with h
  · refine ⟨⟨?_, fun h' => by omega⟩, fun a h => by cases h⟩
    rintro ⟨a, h⟩
    cases h
  · exact ⟨⟨fun _ => by omega, fun _ => ⟨_, rfl⟩⟩, fun a h => by cases h; rfl⟩

/-- C63: the plain class returns the canonical representative of the field result, for operands with arbitrary integer
values (also outside the range, as `copy` can create them); division by zero is treated in `C63_div_zero`. -/
theorem C63_plain (a b : Plain) (ha : a.prime = p) (hb : b.prime = p) :
    a.add b = .ok ⟨canon (p := p) ((a.value : ZMod p) + b.value), p⟩ ∧ a.sub b = .ok ⟨canon (p := p) ((a.value : ZMod p) - b.value), p⟩ ∧
    a.mul b = .ok ⟨canon (p := p) ((a.value : ZMod p) * b.value), p⟩ ∧
    ((b.value : ZMod p) ≠ 0 → a.div b = .ok ⟨canon (p := p) ((a.value : ZMod p) / b.value), p⟩) ∧
    ∀ e, a.pow e = .ok ⟨canon (p := p) ((a.value : ZMod p) ^ e), p⟩ := by
  refine ⟨?_, ?_, ?_, fun h => ?_, fun e => ?_⟩
  · unfold Plain.add
    rw [if_neg (by simp [ha, hb]), ha, emod_canon, new_canon]
    push_cast
    rfl
  · unfold Plain.sub
    rw [if_neg (by simp [ha, hb]), ha, emod_canon, new_canon]
    push_cast
    rfl
  · unfold Plain.mul
    rw [if_neg (by simp [ha, hb]), ha, emod_canon, new_canon]
    push_cast
    rfl
  · unfold Plain.div
    rw [if_neg (by simp [ha, hb]), ha, emod_canon, new_canon, powmod_inv, pow_inv _ h]
    push_cast
    rw [canon_cast]
    rfl
  · unfold Plain.pow powmod
    rw [ha, emod_canon, new_canon]
    push_cast
    rfl

example := C63_plain (p := 7) (hp := ⟨by decide⟩) ⟨5, 7⟩ ⟨-3, 7⟩ rfl rfl

/-- C63: equality of canonical elements is equality of residue classes. -/
theorem C63_plain_eq (a b : Plain) (ha : a.prime = p) (hb : b.prime = p) (h1 : 0 ≤ a.value ∧ a.value < p)
    (h2 : 0 ≤ b.value ∧ b.value < p) : a.eq b = true ↔ (a.value : ZMod p) = b.value := by
  unfold Plain.eq
  rw [ha, hb, Bool.and_eq_true, beq_iff_eq, beq_iff_eq, and_iff_left rfl]
  constructor
  · intro h
    rw [h]
  · intro h
    rw [eq_canon _ h1.1 h1.2, eq_canon _ h2.1 h2.2, h]

example := C63_plain_eq (p := 7) (hp := ⟨by decide⟩) ⟨5, 7⟩ ⟨6, 7⟩ rfl rfl (by decide) (by decide)

/-- C63: operands of different primes are rejected, in all classes. -/
theorem C63_different_primes :
    (∀ a b : Plain, a.prime ≠ b.prime → a.add b = .error "ValueError" ∧ a.sub b = .error "ValueError" ∧
      a.mul b = .error "ValueError" ∧ a.div b = .error "ValueError") ∧
    (∀ a b : Barrett, a.prime ≠ b.prime → a.add b = .error "ValueError" ∧ a.sub b = .error "ValueError" ∧
      a.mul b = .error "ValueError" ∧ a.div b = .error "ValueError") ∧
    (∀ a b : Mont, a.prime ≠ b.prime → a.add b = .error "ValueError" ∧ a.sub b = .error "ValueError" ∧
      a.mul b = .error "ValueError" ∧ a.div b = .error "ValueError") := by
  refine ⟨fun a b h => ?_, fun a b h => ?_, fun a b h => ?_⟩
  · simp [Plain.add, Plain.sub, Plain.mul, Plain.div, h]
  · simp [Barrett.add, Barrett.sub, Barrett.mul, Barrett.div, h]
  · simp [Mont.add, Mont.sub, Mont.mul, Mont.div, h]

/-! ## Barrett -/

/-- What the constructor establishes: `k` with `p ≤ 2^k`. -/
structure BOk (p : Nat) (a : Barrett) : Prop where
  prime : a.prime = p
  two_k : ∃ k : Nat, a.twoK = 2 * k ∧ (p : Int) ≤ 2 ^ k
  mu : a.mu = 2 ^ a.twoK / (p : Int)

omit hp in
theorem C63_barrett_new (clog : Int → Nat) (v : Int) (big : Bool) (k : Option Nat) (h0 : 0 ≤ v) (h1 : v < p)
    (hb : k = none → big = false) (hk : (p : Int) ≤ 2 ^ (k.getD (clog p))) :
    ∃ a, Barrett.new clog v p big k = .ok a ∧ BOk p a ∧ a.value = v := by
  unfold Barrett.new
  rw [if_neg (by omega)]
  cases k with
  | none =>
    simp only [hb rfl]
    exact ⟨_, rfl, ⟨rfl, ⟨clog p, Nat.mul_comm _ _, hk⟩, rfl⟩, rfl⟩
  | some k => exact ⟨_, rfl, ⟨rfl, ⟨k, rfl, hk⟩, rfl⟩, rfl⟩

example := C63_barrett_new (p := 7) (fun _ => 3) 5 false none (by decide) (by decide) (by simp) (by decide)

/-- `barrett_reduction` returns the canonical remainder of every `x` with `0 ≤ x ≤ p²`. -/
theorem C63_barrett_reduction (a : Barrett) (ha : BOk p a) (x : Int) (h0 : 0 ≤ x) (h1 : x ≤ p * p) :
    a.reduction x = canon (x : ZMod p) := by
  have hpos := prime_pos' (p := p)
  obtain ⟨k, hk, hpk⟩ := ha.two_k
  have hT : (p : Int) * p ≤ 2 ^ a.twoK := by
    rw [hk, two_mul, pow_add]
    exact mul_le_mul hpk hpk hpos.le (by positivity)
  have hTpos : (0 : Int) < 2 ^ a.twoK := by positivity
  have hmu := ha.mu
  unfold Barrett.reduction
  simp only [ha.prime, hmu]
  generalize (2 : Int) ^ a.twoK = T at *
  have m1 : T / p * p ≤ T := Int.ediv_mul_le _ hpos.ne'
  have m2 : T < (T / p + 1) * p := by
    have := Int.lt_ediv_add_one_mul_self T hpos
    exact this
  have m0 : 0 ≤ T / p := Int.ediv_nonneg hTpos.le hpos.le
  generalize T / p = mu at *
  have q1 : x * mu / T * T ≤ x * mu := Int.ediv_mul_le _ hTpos.ne'
  have q2 : x * mu < (x * mu / T + 1) * T := Int.lt_ediv_add_one_mul_self _ hTpos
  generalize x * mu / T = q at *
  have r0 : 0 ≤ x - q * p := by
    have : q * p * T ≤ x * T := by nlinarith
    have := le_of_mul_le_mul_right this hTpos
    omega
  have r1 : x - q * p < 2 * p := by
    have : (x - q * p) * T < 2 * p * T := by nlinarith
    exact lt_of_mul_lt_mul_right this hTpos.le
  have hcast : ((x - q * p : Int) : ZMod p) = x := by push_cast; simp
  generalize x - q * p = r at *
  split_ifs with h
  · refine (eq_canon (p := p) (r - p) (by omega) (by omega)).trans ?_
    rw [← hcast]
    congr 1
    push_cast
    simp
  · refine (eq_canon (p := p) r r0 (by omega)).trans ?_
    rw [hcast]

/-- C63 (Barrett): for operands with values in `[0, p]`, all results are again in `[0, p]` and congruent to the field
result; products and quotients are canonical. -/
theorem C63_barrett (a b : Barrett) (ha : BOk p a) (hb : BOk p b) (h1 : 0 ≤ a.value ∧ a.value ≤ p)
    (h2 : 0 ≤ b.value ∧ b.value ≤ p) :
    (∃ c, a.add b = .ok c ∧ BOk p c ∧ (0 ≤ c.value ∧ c.value ≤ p) ∧ (c.value : ZMod p) = a.value + b.value) ∧
    (∃ c, a.sub b = .ok c ∧ BOk p c ∧ (0 ≤ c.value ∧ c.value ≤ p) ∧ (c.value : ZMod p) = a.value - b.value) ∧
    (∃ c, a.mul b = .ok c ∧ BOk p c ∧ c.value = canon (p := p) ((a.value : ZMod p) * b.value)) ∧
    ((b.value : ZMod p) ≠ 0 → ∃ c, a.div b = .ok c ∧ BOk p c ∧ c.value = canon (p := p) ((a.value : ZMod p) / b.value)) := by
  have hpos := prime_pos' (p := p)
  have hne : ¬ a.prime ≠ b.prime := by rw [ha.prime, hb.prime]; simp
  refine ⟨⟨_, if_neg hne, ⟨ha.prime, ha.two_k, ha.mu⟩, ?_, ?_⟩,
    ⟨_, if_neg hne, ⟨ha.prime, ha.two_k, ha.mu⟩, ?_, ?_⟩,
    ⟨_, if_neg hne, ⟨ha.prime, ha.two_k, ha.mu⟩, ?_⟩,
    fun h => ⟨_, if_neg hne, ⟨ha.prime, ha.two_k, ha.mu⟩, ?_⟩⟩
  · dsimp only
    rw [ha.prime]
    split_ifs <;> omega
  · dsimp only
    rw [ha.prime]
    split_ifs <;> push_cast <;> simp
  · dsimp only
    rw [ha.prime]
    split_ifs <;> omega
  · dsimp only
    rw [ha.prime]
    split_ifs <;> push_cast <;> simp
  · dsimp only
    rw [C63_barrett_reduction a ha _ (mul_nonneg h1.1 h2.1) (mul_le_mul h1.2 h2.2 h2.1 hpos.le)]
    push_cast
    rfl
  · dsimp only
    rw [ha.prime, powmod_inv, pow_inv _ h]
    have hc := canon_range (p := p) ((b.value : ZMod p)⁻¹)
    rw [C63_barrett_reduction a ha _ (mul_nonneg h1.1 hc.1) (mul_le_mul h1.2 hc.2.le hc.1 hpos.le)]
    push_cast
    rw [canon_cast]
    rfl

/-- C63 (Barrett, partial): sums and differences of canonical operands are canonical unless the operands add up to the
prime.  What is missing: see `C63_barrett_add_false`. -/
theorem C63_barrett_canonical_partial (a b : Barrett) (ha : BOk p a) (hb : BOk p b) (h1 : 0 ≤ a.value ∧ a.value < p)
    (h2 : 0 ≤ b.value ∧ b.value < p) :
    (a.value + b.value ≠ p → ∃ c, a.add b = .ok c ∧ c.value = canon (p := p) ((a.value : ZMod p) + b.value)) ∧
    (∃ c, a.sub b = .ok c ∧ c.value = canon (p := p) ((a.value : ZMod p) - b.value)) := by
  obtain ⟨⟨c, e, -, hc, hv⟩, ⟨d, e', -, hd, hv'⟩, -⟩ := C63_barrett a b ha hb ⟨h1.1, h1.2.le⟩ ⟨h2.1, h2.2.le⟩
  have hne : ¬ a.prime ≠ b.prime := by rw [ha.prime, hb.prime]; simp
  refine ⟨fun h => ⟨c, e, ?_⟩, ⟨d, e', ?_⟩⟩
  · rw [← hv]
    apply eq_canon _ hc.1
    unfold Barrett.add at e
    rw [if_neg hne] at e
    cases e
    dsimp only at hc ⊢
    rw [ha.prime]
    split_ifs <;> omega
  · rw [← hv']
    apply eq_canon _ hd.1
    unfold Barrett.sub at e'
    rw [if_neg hne] at e'
    cases e'
    dsimp only at hd ⊢
    rw [ha.prime]
    split_ifs <;> omega

/-- C63 is false for the sum in the Barrett class: `a + (p - a)` has the value `p`, which is not canonical and differs
from the element zero. -/
theorem C63_barrett_add_false (a b z : Barrett) (ha : BOk p a) (hb : BOk p b) (h : a.value + b.value = p)
    (hz0 : z.value = 0) :
    ∃ c, a.add b = .ok c ∧ c.value = p ∧ ((a.value : ZMod p) + b.value = 0) ∧ c.eq z = false := by
  have hpos := prime_pos' (p := p)
  have hne : ¬ a.prime ≠ b.prime := by rw [ha.prime, hb.prime]; simp
  refine ⟨_, if_neg hne, ?_, ?_, ?_⟩
  · dsimp only
    rw [ha.prime, h, if_neg (lt_irrefl _)]
  · rw [← Int.cast_add, h]
    simp
  · unfold Barrett.eq
    dsimp only
    rw [ha.prime, h, if_neg (lt_irrefl _), hz0, Bool.and_eq_false_iff]
    left
    rw [beq_eq_false_iff_ne]
    omega

/-- C63: no class rejects division by zero: the result is zero (for `p > 2`). -/
theorem C63_div_zero (h2 : 2 < p) (a b : Plain) (ha : a.prime = p) (hb : b.prime = p) (h0 : (b.value : ZMod p) = 0) :
    a.div b = .ok ⟨0, p⟩ := by
  unfold Plain.div
  rw [if_neg (by simp [ha, hb]), ha, emod_canon, new_canon, powmod_inv, h0, pow_inv_zero h2]
  have : canon (0 : ZMod p) = 0 := by simp [canon]
  rw [this]
  simp [canon]

example := C63_div_zero (p := 7) (hp := ⟨by decide⟩) (by decide) ⟨5, 7⟩ ⟨14, 7⟩ rfl rfl (by decide +kernel)

/-! ## Montgomery -/

/-- What the constructor establishes: `k` with `p ≤ 2^k`, and `n' p = -1` modulo `2^k`. -/
structure MOk (p : Nat) (a : Mont) : Prop where
  prime : a.prime = p
  le : (p : Int) ≤ 2 ^ a.k
  nprime : (2 ^ a.k : Int) ∣ a.nPrime * p + 1

/-- The field element: the value divided by `2^k`. -/
def mval (p : Nat) [Fact p.Prime] (a : Mont) : ZMod p := (a.value : ZMod p) / (2 : ZMod p) ^ a.k

theorem two_pow_ne (h2 : 2 < p) (k : Nat) : (2 ^ k : ZMod p) ≠ 0 := by
  apply pow_ne_zero
  intro h
  have : ((2 : Nat) : ZMod p) = 0 := by exact_mod_cast h
  rw [ZMod.natCast_eq_zero_iff] at this
  have := Nat.le_of_dvd (by norm_num) this
  omega

theorem C63_mont_new (clog : Int → Nat) (v : Int) (big : Bool) (k : Option Nat) (h2 : 2 < p) (h0 : 0 ≤ v) (h1 : v < p)
    (hb : k = none → big = false) (hk0 : k ≠ some 0) (hk : (p : Int) ≤ 2 ^ (k.getD (clog p))) :
    ∃ a, Mont.new clog v p big k = .ok a ∧ MOk p a ∧ a.mont = true ∧ a.value = canon (p := p) ((v : ZMod p) * 2 ^ a.k) ∧
      mval p a = v := by
  have hpos := prime_pos' (p := p)
  have key : ∀ k : Nat, (p : Int) ≤ 2 ^ k → ∀ a : Mont, a = ⟨montgomeryize k p v, p, k,
      (2 ^ k * powmod (2 ^ k) ((p : Int) - 2).toNat p - 1) / p, true⟩ → MOk p a ∧ a.mont = true ∧
      a.value = canon (p := p) ((v : ZMod p) * 2 ^ a.k) ∧ mval p a = v := by
    rintro k hk a rfl
    have hv : montgomeryize k p v = canon (p := p) ((v : ZMod p) * 2 ^ k) := by
      unfold montgomeryize
      rw [emod_canon]
      push_cast
      rfl
    refine ⟨⟨rfl, hk, ?_⟩, rfl, hv, ?_⟩
    · dsimp only
      have hd : (p : Int) ∣ 2 ^ k * powmod (2 ^ k) ((p : Int) - 2).toNat p - 1 := by
        rw [← ZMod.intCast_zmod_eq_zero_iff_dvd, powmod_inv]
        push_cast
        rw [canon_cast, pow_inv _ (two_pow_ne h2 k), mul_inv_cancel₀ (two_pow_ne h2 k), sub_self]
      rw [Int.ediv_mul_cancel hd, sub_add_cancel]
      exact Dvd.intro _ rfl
    · unfold mval
      dsimp only
      rw [hv, canon_cast, mul_div_assoc, div_self (two_pow_ne h2 k), mul_one]
  unfold Mont.new
  rw [if_neg (by omega)]
  match k, hb, hk0, hk with
  | none, hb, _, hk =>
    simp only [hb rfl]
    exact ⟨_, rfl, key _ hk _ rfl⟩
  | some 0, _, h, _ => exact absurd rfl h
  | some (k + 1), _, _, hk => exact ⟨_, rfl, key _ hk _ rfl⟩

example := C63_mont_new (p := 7) (hp := ⟨by decide⟩) (fun _ => 3) 5 true (some 4) (by decide) (by decide) (by decide) (by simp) (by simp) (by decide)

/-- `montgomery_reduction` divides by `2^k`, for every `x` with `0 ≤ x ≤ p²`. -/
theorem C63_mont_reduction (h2 : 2 < p) (a : Mont) (ha : MOk p a) (x : Int) (h0 : 0 ≤ x) (h1 : x ≤ p * p) :
    a.reduction x = canon (p := p) ((x : ZMod p) / 2 ^ a.k) := by
  have hpos := prime_pos' (p := p)
  have hR : (0 : Int) < 2 ^ a.k := by positivity
  have hne := two_pow_ne h2 a.k
  have hle := ha.le
  have hn := ha.nprime
  have hcastR : ((2 ^ a.k : Int) : ZMod p) = 2 ^ a.k := by push_cast; rfl
  unfold Mont.reduction
  simp only [ha.prime]
  generalize (2 : Int) ^ a.k = R at *
  have m0 : 0 ≤ x % R * a.nPrime % R := Int.emod_nonneg _ hR.ne'
  have m1 : x % R * a.nPrime % R < R := Int.emod_lt_of_pos _ hR
  have hd : R ∣ x + x % R * a.nPrime % R * p := by
    have e1 : x % R * a.nPrime % R ≡ x * a.nPrime [ZMOD R] :=
      (Int.mod_modEq _ _).trans (Int.ModEq.mul_right _ (Int.mod_modEq _ _))
    have e2 : x + x % R * a.nPrime % R * p ≡ x + x * a.nPrime * p [ZMOD R] :=
      Int.ModEq.add_left _ (Int.ModEq.mul_right _ e1)
    refine (Int.ModEq.dvd_iff e2).2 ?_
    have : x + x * a.nPrime * p = x * (a.nPrime * p + 1) := by ring
    rw [this]
    exact Dvd.dvd.mul_left hn x
  obtain ⟨u, hu⟩ := hd
  generalize x % R * a.nPrime % R = m at *
  rw [hu, Int.mul_ediv_cancel_left _ hR.ne']
  have hu0 : 0 ≤ u := by
    have : 0 ≤ R * u := by rw [← hu]; positivity
    exact nonneg_of_mul_nonneg_right this hR
  have hu1 : u < 2 * p := by
    have : R * u < R * (2 * p) := by rw [← hu]; nlinarith
    exact lt_of_mul_lt_mul_left this hR.le
  have hcast : (u : ZMod p) = (x : ZMod p) / 2 ^ a.k := by
    rw [eq_div_iff hne, ← hcastR, ← Int.cast_mul, mul_comm, ← hu]
    push_cast
    simp
  split_ifs with h
  · refine (eq_canon (p := p) (u - p) (by omega) (by omega)).trans ?_
    rw [← hcast]
    congr 1
    push_cast
    simp
  · refine (eq_canon (p := p) u (by omega) (by omega)).trans ?_
    rw [← hcast]

/-- C63 (Montgomery): for operands in Montgomery form with the same `k` and values in `[0, p]`, all results are in
Montgomery form with values in `[0, p]` and represent the field result; products and quotients are canonical. -/
theorem C63_mont (h2 : 2 < p) (a b : Mont) (ha : MOk p a) (hb : MOk p b) (hk : a.k = b.k) (hm : a.mont = true)
    (hm' : b.mont = true) (h1 : 0 ≤ a.value ∧ a.value ≤ p) (h3 : 0 ≤ b.value ∧ b.value ≤ p) :
    (∃ c, a.add b = .ok c ∧ MOk p c ∧ c.mont = true ∧ (0 ≤ c.value ∧ c.value ≤ p) ∧ mval p c = mval p a + mval p b) ∧
    (∃ c, a.sub b = .ok c ∧ MOk p c ∧ c.mont = true ∧ (0 ≤ c.value ∧ c.value ≤ p) ∧ mval p c = mval p a - mval p b) ∧
    (∃ c, a.mul b = .ok c ∧ MOk p c ∧ c.mont = true ∧ c.value = canon (c.value : ZMod p) ∧
      mval p c = mval p a * mval p b) ∧
    (mval p b ≠ 0 → ∃ c, a.div b = .ok c ∧ MOk p c ∧ c.mont = true ∧ c.value = canon (c.value : ZMod p) ∧
      mval p c = mval p a / mval p b) := by
  have hpos := prime_pos' (p := p)
  have hR := two_pow_ne h2 a.k
  have hne : ¬ a.prime ≠ b.prime := by rw [ha.prime, hb.prime]; simp
  have hbm : ¬ (!b.mont) = true := by simp [hm']
  have hmc : ∀ x : ZMod p, canon x = canon (p := p) ((canon x : Int) : ZMod p) := fun x => by rw [canon_cast]
  refine ⟨⟨_, (if_neg hne).trans (if_neg hbm), ⟨ha.prime, ha.le, ha.nprime⟩, hm, ?_, ?_⟩,
    ⟨_, (if_neg hne).trans (if_neg hbm), ⟨ha.prime, ha.le, ha.nprime⟩, hm, ?_, ?_⟩,
    ⟨_, (if_neg hne).trans (if_neg hbm), ⟨ha.prime, ha.le, ha.nprime⟩, hm, ?_, ?_⟩,
    fun h => ⟨_, if_neg hne, ⟨ha.prime, ha.le, ha.nprime⟩, hm, ?_, ?_⟩⟩
  · dsimp only
    rw [ha.prime]
    split_ifs <;> omega
  · unfold mval
    dsimp only
    rw [ha.prime, ← hk, ← add_div]
    congr 1
    split_ifs <;> push_cast <;> simp
  · dsimp only
    rw [ha.prime]
    split_ifs <;> omega
  · unfold mval
    dsimp only
    rw [ha.prime, ← hk, ← sub_div]
    congr 1
    split_ifs <;> push_cast <;> simp
  · dsimp only
    rw [C63_mont_reduction h2 a ha _ (mul_nonneg h1.1 h3.1) (mul_le_mul h1.2 h3.2 h3.1 hpos.le)]
    exact hmc _
  · unfold mval
    dsimp only
    rw [C63_mont_reduction h2 a ha _ (mul_nonneg h1.1 h3.1) (mul_le_mul h1.2 h3.2 h3.1 hpos.le), canon_cast, ← hk]
    push_cast
    field_simp
  · dsimp only
    unfold montgomeryize
    rw [ha.prime, emod_canon]
    have hc := canon_range (p := p) ((powmod (if b.mont = true then a.reduction b.value else b.value)
      ((p : Int) - 2).toNat p * 2 ^ a.k : Int) : ZMod p)
    rw [C63_mont_reduction h2 a ha _ (mul_nonneg h1.1 hc.1) (mul_le_mul h1.2 hc.2.le hc.1 hpos.le)]
    exact hmc _
  · have hb' : (b.value : ZMod p) ≠ 0 := by
      intro h0
      apply h
      unfold mval
      rw [h0, zero_div]
    unfold mval
    dsimp only
    unfold montgomeryize
    rw [ha.prime, emod_canon, if_pos hm']
    have hpp : b.value ≤ p * p := by nlinarith [h3.2]
    rw [C63_mont_reduction h2 a ha b.value h3.1 hpp, powmod_inv, canon_cast, pow_inv _ (div_ne_zero hb' hR)]
    have hc := canon_range (p := p) ((canon (p := p) ((b.value : ZMod p) / 2 ^ a.k)⁻¹ * 2 ^ a.k : Int) : ZMod p)
    rw [C63_mont_reduction h2 a ha _ (mul_nonneg h1.1 hc.1) (mul_le_mul h1.2 hc.2.le hc.1 hpos.le), canon_cast, ← hk]
    push_cast
    rw [canon_cast, canon_cast]
    field_simp

/-- C63 (Montgomery, partial): sums and differences of canonical operands are canonical unless the operands add up to
the prime.  What is missing: see `C63_mont_add_false`. -/
theorem C63_mont_canonical_partial (a b : Mont) (ha : MOk p a) (hb : MOk p b)
    (hm' : b.mont = true) (h1 : 0 ≤ a.value ∧ a.value < p) (h2 : 0 ≤ b.value ∧ b.value < p) :
    (a.value + b.value ≠ p → ∃ c, a.add b = .ok c ∧ c.value = canon (p := p) ((a.value : ZMod p) + b.value)) ∧
    (∃ c, a.sub b = .ok c ∧ c.value = canon (p := p) ((a.value : ZMod p) - b.value)) := by
  have hne : ¬ a.prime ≠ b.prime := by rw [ha.prime, hb.prime]; simp
  have hbm : ¬ (!b.mont) = true := by simp [hm']
  refine ⟨fun h => ⟨_, (if_neg hne).trans (if_neg hbm), ?_⟩,
    ⟨_, (if_neg hne).trans (if_neg hbm), ?_⟩⟩
  · dsimp only
    rw [ha.prime]
    split_ifs with h'
    · refine (eq_canon (p := p) (a.value + b.value - p) (by omega) (by omega)).trans ?_
      push_cast
      simp
    · refine (eq_canon (p := p) (a.value + b.value) (by omega) (by omega)).trans ?_
      push_cast
      rfl
  · dsimp only
    rw [ha.prime]
    split_ifs with h'
    · refine (eq_canon (p := p) (a.value + p - b.value) (by omega) (by omega)).trans ?_
      push_cast
      simp
    · refine (eq_canon (p := p) (a.value - b.value) (by omega) (by omega)).trans ?_
      push_cast
      rfl

/-- C63 is false for the sum in the Montgomery class, likewise. -/
theorem C63_mont_add_false (a b z : Mont) (ha : MOk p a) (hb : MOk p b) (hm' : b.mont = true)
    (h : a.value + b.value = p) (hz0 : z.value = 0) :
    ∃ c, a.add b = .ok c ∧ c.value = p ∧ (a.value : ZMod p) + b.value = 0 ∧ c.eq z = false := by
  have hpos := prime_pos' (p := p)
  have hne : ¬ a.prime ≠ b.prime := by rw [ha.prime, hb.prime]; simp
  have hbm : ¬ (!b.mont) = true := by simp [hm']
  refine ⟨_, (if_neg hne).trans (if_neg hbm), ?_, ?_, ?_⟩
  · dsimp only
    rw [ha.prime, h, if_neg (lt_irrefl _)]
  · rw [← Int.cast_add, h]
    simp
  · unfold Mont.eq
    dsimp only
    rw [ha.prime, h, if_neg (lt_irrefl _), hz0, Bool.and_eq_false_iff]
    left
    rw [beq_eq_false_iff_ne]
    omega

example : ∃ a b z c, Mont.new (fun _ => 3) 5 7 false (some 4) = .ok a ∧ Mont.new (fun _ => 3) 2 7 false (some 4) = .ok b ∧
    Mont.new (fun _ => 3) 0 7 false (some 4) = .ok z ∧ a.add b = .ok c ∧ c.value = 7 ∧ z.value = 0 :=
  ⟨_, _, _, _, rfl, rfl, rfl, rfl, by decide, by decide⟩

/-- C63: changing to and from the Montgomery form is the identity on canonical elements, and an element that is not in
Montgomery form has the represented value. -/
theorem C63_mont_change (h2 : 2 < p) (a : Mont) (ha : MOk p a) (hm : a.mont = true) (h1 : 0 ≤ a.value ∧ a.value < p) :
    a.change.value = canon (mval p a) ∧ a.change.mont = false ∧ a.change.change = a := by
  have hpos := prime_pos' (p := p)
  have hv : a.reduction a.value = canon (mval p a) :=
    C63_mont_reduction h2 a ha _ h1.1 (by nlinarith [h1.2])
  have hc : a.change = { a with value := canon (mval p a), mont := false } := by
    unfold Mont.change
    rw [if_pos hm, hv]
  refine ⟨by rw [hc], by rw [hc], ?_⟩
  rw [hc]
  unfold Mont.change montgomeryize
  simp only [Bool.false_eq_true, if_false]
  have : canon (mval p a) * 2 ^ a.k % a.prime = a.value := by
    rw [ha.prime, emod_canon]
    push_cast
    rw [canon_cast, mval, div_mul_cancel₀ _ (two_pow_ne h2 a.k), ← eq_canon _ h1.1 h1.2]
  rw [this, ← hm]

/-- C63: the right operand of `+`, `-`, `*` is checked to be in Montgomery form, but neither the form of the left
operand nor equality of `k` is checked, and then the result is wrong: `3 + 1` in `GF(7)` with the left operand converted
back, and with `k = 3` on the left and `k = 4` on the right. -/
theorem C63_mont_form : (∀ a b : Mont, a.prime = b.prime → b.mont = false → a.add b = .error "AssertionError" ∧
      a.sub b = .error "AssertionError" ∧ a.mul b = .error "AssertionError") ∧
    (∃ a b c : Mont, Mont.new (fun _ => 0) 3 7 false (some 4) = .ok a ∧ Mont.new (fun _ => 0) 1 7 false (some 4) = .ok b ∧
      a.change.add b = .ok c ∧ c.value ≠ 4 ∧ c.mont = false) ∧
    ∃ a b c : Mont, Mont.new (fun _ => 0) 3 7 false (some 3) = .ok a ∧ Mont.new (fun _ => 0) 1 7 false (some 4) = .ok b ∧
      a.add b = .ok c ∧ c.change.value ≠ 4 := by
  refine ⟨fun a b h h' => ?_, ?_, ?_⟩
  · simp [Mont.add, Mont.sub, Mont.mul, h, h']
  · exact ⟨_, _, _, rfl, rfl, rfl, by decide, rfl⟩
  · exact ⟨_, _, _, rfl, rfl, rfl, by decide⟩

/-- C63: the inherited `__pow__` of the Barrett class is correct; that of the Montgomery class takes the power of the
Montgomery form and returns a plain element: `3 ** 2` in `GF(7)`. -/
theorem C63_pow : (∀ (a : Barrett) (e : Nat), BOk p a → a.pow e = .ok ⟨canon (p := p) ((a.value : ZMod p) ^ e), p⟩) ∧
    ∃ (a : Mont) (c : Plain), Mont.new (fun _ => 0) 3 7 false (some 4) = .ok a ∧ a.pow 2 = .ok c ∧ c.value ≠ 2 ∧
      c.value ≠ 2 * 2 ^ 4 % 7 := by
  refine ⟨fun a e ha => ?_, ⟨_, _, rfl, rfl, by decide, by decide⟩⟩
  unfold Barrett.pow powmod
  rw [ha.prime, emod_canon, new_canon]
  push_cast
  rfl

/-- C63: what `**` of the Montgomery class computes, for every element and exponent: a plain element holding the power of
the Montgomery form. It is the power of the element exactly if that is zero or `2^(k e) = 1` in the field. -/
theorem C63_mont_pow (h2 : 2 < p) (a : Mont) (ha : MOk p a) (e : Nat) :
    ∃ c : Plain, a.pow e = .ok c ∧ c = ⟨canon (mval p a ^ e * (2 ^ a.k) ^ e), p⟩ ∧
      ((c.value : ZMod p) = mval p a ^ e ↔ mval p a ^ e = 0 ∨ ((2 : ZMod p) ^ a.k) ^ e = 1) := by
  have hv : (a.value : ZMod p) = mval p a * 2 ^ a.k := by
    unfold mval
    rw [div_mul_cancel₀ _ (two_pow_ne h2 a.k)]
  refine ⟨_, ?_, rfl, ?_⟩
  · unfold Mont.pow powmod
    rw [ha.prime, emod_canon, new_canon]
    push_cast
    rw [hv, mul_pow]
  · simp only [canon_cast]
    constructor
    · intro h
      by_cases h0 : mval p a ^ e = 0
      · exact Or.inl h0
      · exact Or.inr (mul_left_cancel₀ h0 (h.trans (mul_one _).symm))
    · rintro (h | h)
      · rw [h, zero_mul]
      · rw [h, mul_one]

/-- The element `1 * 2^4 / 2^4` of `GF(7)`: the hypotheses hold. -/
example : ∃ a, Mont.new (fun _ => 0) 3 7 false (some 4) = .ok a ∧ MOk 7 a :=
  ⟨_, rfl, ⟨rfl, by decide, by decide⟩⟩

/-- C63: a prime given as `BigInt` without `k` is rejected with a `TypeError`, whatever the value. -/
theorem C63_bigint_prime (clog : Int → Nat) (v q : Int) (h0 : 0 ≤ v) (h1 : v < q) :
    Barrett.new clog v q true none = .error "TypeError" ∧ Mont.new clog v q true none = .error "TypeError" := by
  have h : ¬(v < 0 ∨ q ≤ v) := by omega
  exact ⟨if_neg h, if_neg h⟩

example := C63_bigint_prime (fun _ => 3) 5 7 (by decide) (by decide)

/-! ## C67: `copy` -/

/-- C67 (partial): `copy(v)` has the value `v` and the same prime for `v ≠ 0` (reduced or transformed when asked),
and `copy()` is the element itself.  What is missing: `v = 0`, see `C67_copy_zero`. -/
theorem C67_copy_partial (v : Int) (hv : v ≠ 0) :
    (∀ a : Plain, a.copy none = a ∧ a.copy (some v) = ⟨v, a.prime⟩) ∧
    (∀ (a : Barrett) (r : Bool), a.copy none r = a ∧ (a.copy (some v) false).value = v ∧
      (BOk p a → 0 ≤ v → v ≤ p * p → (a.copy (some v) true).value = canon (v : ZMod p))) ∧
    (∀ (a : Mont) (t r : Bool), a.copy none t r = a ∧ (a.copy (some v) false false).value = v ∧
      (MOk p a → (a.copy (some v) true false).value = canon (p := p) ((v : ZMod p) * 2 ^ a.k)) ∧
      (2 < p → MOk p a → 0 ≤ v → v ≤ p * p →
        (a.copy (some v) t true).value = canon (p := p) ((v : ZMod p) / (2 : ZMod p) ^ a.k))) := by
  refine ⟨fun a => ⟨rfl, by simp [Plain.copy, hv]⟩, fun a r => ⟨rfl, by simp [Barrett.copy, hv], fun ha h0 h1 => ?_⟩,
    fun a t r => ⟨rfl, by simp [Mont.copy, hv], fun ha => ?_, fun h2 ha h0 h1 => ?_⟩⟩
  · simp only [Barrett.copy, hv, if_false, if_true]
    exact C63_barrett_reduction a ha v h0 h1
  · simp only [Mont.copy, hv, if_false, if_true, Bool.false_eq_true, montgomeryize, ha.prime]
    rw [emod_canon]
    push_cast
    rfl
  · simp only [Mont.copy, hv, if_false, if_true]
    exact C63_mont_reduction h2 a ha v h0 h1

example := C67_copy_partial (p := 7) (hp := ⟨by decide⟩) 40 (by decide)

/-- C67 is false for the value 0: `copy(0)` returns a copy of the element itself, in all classes. -/
theorem C67_copy_zero : (∀ a : Plain, a.copy (some 0) = a) ∧ (∀ (a : Barrett) (r : Bool), a.copy (some 0) r = a) ∧
    (∀ (a : Mont) (t r : Bool), a.copy (some 0) t r = a) :=
  ⟨fun _ => rfl, fun _ _ => rfl, fun _ _ _ => rfl⟩

/-- C67: `copy` does not check the range, unlike the constructor and `set_value`. -/
theorem C67_range (a : Plain) (v : Int) : ((∃ b, a.setValue v = .ok b) ↔ 0 ≤ v ∧ v < a.prime) ∧
    (v < 0 → (a.copy (some v)).value = v) := by
  constructor
  · unfold Plain.setValue
    split_ifs with h
    · refine ⟨?_, fun h' => by omega⟩
      rintro ⟨b, h⟩
      cases h
    · exact ⟨fun _ => by omega, fun _ => ⟨_, rfl⟩⟩
  · intro h
    simp [Plain.copy, h.ne]

/-! ## Non-vacuity -/

instance : Fact (Nat.Prime 7) := ⟨by norm_num⟩

/-- The hypotheses of the Barrett theorems (`C63_barrett_reduction`, `C63_barrett`, `C63_barrett_canonical_partial`, `C63_pow`) are
met by elements of `GF(7)` with `k = 3`. -/
example : ∃ a b, Barrett.new (fun _ => 3) 5 7 false none = .ok a ∧ Barrett.new (fun _ => 3) 4 7 true (some 3) = .ok b ∧
    BOk 7 a ∧ BOk 7 b ∧ a.value = 5 ∧ b.value = 4 := by
  obtain ⟨a, ha, h1, h2⟩ := C63_barrett_new (p := 7) (fun _ => 3) 5 false none (by norm_num) (by norm_num)
    (fun _ => rfl) (by norm_num)
  obtain ⟨b, hb, h3, h4⟩ := C63_barrett_new (p := 7) (fun _ => 3) 4 true (some 3) (by norm_num) (by norm_num)
    (fun h => by cases h) (by norm_num)
  exact ⟨a, b, ha, hb, h1, h3, h2, h4⟩

/-- The hypotheses of the Montgomery theorems (`C63_mont_reduction`, `C63_mont`, `C63_mont_canonical_partial`, `C63_mont_change`) are
met by elements of `GF(7)` with `k = 4`. -/
example : ∃ a b, Mont.new (fun _ => 3) 5 7 false (some 4) = .ok a ∧ Mont.new (fun _ => 3) 4 7 true (some 4) = .ok b ∧
    MOk 7 a ∧ MOk 7 b ∧ a.mont = true ∧ b.mont = true ∧ a.k = b.k ∧ (0 ≤ a.value ∧ a.value < 7) ∧
    (0 ≤ b.value ∧ b.value < 7) ∧ mval 7 b ≠ 0 := by
  obtain ⟨a, ha, h1, h2, h3, -⟩ := C63_mont_new (p := 7) (fun _ => 3) 5 false (some 4) (by norm_num) (by norm_num)
    (by norm_num) (fun h => by cases h) (by simp) (by norm_num)
  obtain ⟨b, hb, h4, h5, h6, h7⟩ := C63_mont_new (p := 7) (fun _ => 3) 4 true (some 4) (by norm_num) (by norm_num)
    (by norm_num) (fun h => by cases h) (by simp) (by norm_num)
  refine ⟨a, b, ha, hb, h1, h4, h2, h5, ?_, ?_, ?_, ?_⟩
  · cases ha
    cases hb
    rfl
  · rw [h3]
    exact canon_range _
  · rw [h6]
    exact canon_range _
  · rw [h7]
    decide

/-- Sums to the prime exist: `3 + 4` in `GF(7)`, see `C63_barrett_add_false`. -/
example : ∃ a b c, Barrett.new (fun _ => 3) 3 7 false none = .ok a ∧ Barrett.new (fun _ => 3) 4 7 false none = .ok b ∧
    a.add b = .ok c ∧ c.value = 7 := ⟨_, _, _, rfl, rfl, rfl, by decide⟩

end Verif.Props

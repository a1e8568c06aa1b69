import Verif.Lemmas.Rotation
import Verif.Props.CkksRelin

/-!
# Property C46: blind rotation

`Rq k m` is `Z_m[X]/(X^(2^k) + 1)`; `IsSubst N g x y` says that `y` has the coefficients of `x(X^g)`.
-/

namespace Verif.Props
open Verif.Barrett Verif.NttBat Verif.Slots Verif.CkksKeys Verif.CkksMul Verif.Crt Verif.CkksRotate Verif.Automorphism

/-- A key for the conditional rotation: `key0` encrypts `P β s(X^g)` on the limbs of `Q` (and zero on those of `P`),
`key1` encrypts `P β`, under `s` with errors `e0`, `e1`. `sRot` holds the coefficients of `s(X^g)`. -/
structure RotKey (k : Nat) (q p : List Nat) (s sRot : Nat → Int) (beta : Nat) (e0 e1 : Nat → Int) (key : HMuxRotKey) : Prop where
  red00 : Reduced k (q ++ p) key.key0.c0
  red01 : Reduced k (q ++ p) key.key0.c1
  red10 : Reduced k (q ++ p) key.key1.c0
  red11 : Reduced k (q ++ p) key.key1.c1
  rel0 : ∀ i, i < (q ++ p).length →
    ringOf k ((q ++ p).getD i 0) (key.key0.c0 i) +
      ringOf k ((q ++ p).getD i 0) (key.key0.c1 i) * polyOf k ((q ++ p).getD i 0) s =
    polyOf k ((q ++ p).getD i 0) e0 + (if i < q.length then
      (p.prod : Rq k ((q ++ p).getD i 0)) * (beta * polyOf k ((q ++ p).getD i 0) sRot) else 0)
  rel1 : ∀ i, i < (q ++ p).length →
    ringOf k ((q ++ p).getD i 0) (key.key1.c0 i) +
      ringOf k ((q ++ p).getD i 0) (key.key1.c1 i) * polyOf k ((q ++ p).getD i 0) s =
    polyOf k ((q ++ p).getD i 0) e1 + (if i < q.length then
      (p.prod : Rq k ((q ++ p).getD i 0)) * (beta : Rq k ((q ++ p).getD i 0)) else 0)

theorem natCast_self_ring {k m : Nat} : ((m : Nat) : Rq k m) = 0 := by
  have h2 := cst_int (k := k) (q := m) (m : Int)
  rw [Int.cast_natCast, ZMod.natCast_self, Int.cast_natCast] at h2
  rw [← h2]; exact map_zero _

theorem prod_zero {k : Nat} {q p : List Nat} {i : Nat} (hi : i < (q ++ p).length) (hq : ¬ i < q.length) :
    ((p.prod : Nat) : Rq k ((q ++ p).getD i 0)) = 0 := by
  have hm : (q ++ p).getD i 0 ∈ p := by
    have hl : (q ++ p).length = q.length + p.length := List.length_append
    rw [List.getD_eq_getElem?_getD, List.getElem?_append_right (by omega), List.getElem?_eq_getElem (by omega),
      Option.getD_some]
    exact List.getElem_mem _
  obtain ⟨c, hc⟩ := List.dvd_prod hm
  conv_lhs => rw [hc]
  rw [Nat.cast_mul, natCast_self_ring, zero_mul]

/-- C46: `gen_hmuxrot_key` returns such keys, for a bit `beta` and a rotation by `j`, i.e. `g = 5^(-j)` modulo `2N`.
(The product of the auxiliary moduli must fit 64 bits.) -/
theorem C46_generated_key (k : Nat) (q p : List Nat) (hq : Moduli k q) (hp : Moduli k p)
    (s : Nat → Int) (sk : SecretKey) (hsk : HoldsKey k q s sk) (ext : SecretKey)
    (hext : HoldsKey k (q ++ p) s ext) (beta j : Nat) (hb : beta ≤ 1) (hP : p.prod < 2 ^ 64)
    (g : Nat) (hg : g < 2 * 2 ^ k) (hgj : (5 ^ j * g) % (2 * 2 ^ k) = 1) (sRot : Nat → Int) (hrot : IsSubst (2 ^ k) g s sRot)
    (rand0 rand1 : Mat × (Nat → Int)) :
    ∃ key, genHmuxrotKey (2 ^ k) sk beta j q p rand0 rand1 (some ext) = .ok key ∧
      RotKey k q p s sRot beta rand0.2 rand1.2 key := by
  have hall := hq.append hp
  obtain ⟨g', h1, h2, h3, h4⟩ := rotationGenerator_spec k j
  have hgg : g' = g := by
    have hc : Nat.Coprime (5 ^ j) (2 * 2 ^ k) := by
      rw [← pow_succ']
      exact Nat.Coprime.pow _ _ (by norm_num)
    have : g' ≡ g [MOD 2 * 2 ^ k] := by
      apply Nat.ModEq.cancel_left_of_coprime (c := 5 ^ j) (by rw [Nat.gcd_comm]; exact hc)
      unfold Nat.ModEq
      rw [h4, hgj]
    unfold Nat.ModEq at this
    rwa [Nat.mod_eq_of_lt h3, Nat.mod_eq_of_lt hg] at this
  subst hgg
  obtain ⟨cols, c1, c2, c3⟩ := rotate_spec hq g' h2 h3 sk.data hsk.reduced
  -- the first component
  obtain ⟨rb, hrb⟩ : ∃ rb : Mat, rb = fun i t => mul64 (cols i t) beta % q.getD i 0 := ⟨_, rfl⟩
  have hred : Reduced k q rb := fun i hi t _ => by rw [hrb]; exact Nat.mod_lt _ (hq.at hi).1.prime.pos
  obtain ⟨keys, k1, k2, k3, k4, k5⟩ := ksk_spec hq hp 1 (by norm_num) { data := rb, moduli := sk.moduli } sk ext
    (by rw [hsk.moduli]) hred (by rw [hext.moduli]) hext.reduced (fun _ => rand0)
  obtain ⟨r1, r2, r3⟩ := k5 0 (by norm_num)
  obtain ⟨A, a1, a2, a3⟩ := nttMat_ringOf hall rand1.1
  obtain ⟨E, e1, e2, e3⟩ := nttMat_ringOf hall (residues (q ++ p) rand1.2)
  have hov : ¬ (2 ^ 64 ≤ Crt.product p * beta) := by
    rw [product_eq]
    have := Nat.mul_le_mul_left p.prod hb
    omega
  refine ⟨{ key0 := { c0 := keys.b.getD 0 (fun _ _ => 0), c1 := keys.a.getD 0 (fun _ _ => 0), moduli := keys.moduli },
            key1 := { c0 := fun i t => sub64 (add64 (add64 (E i t) (Crt.product p * beta % (q ++ p).getD i 0 % (q ++ p).getD i 0))
                        ((q ++ p).getD i 0)) (mul64 (A i t) (ext.data i t) % (q ++ p).getD i 0) % (q ++ p).getD i 0 % 2 ^ 32,
                      c1 := fun i t => A i t % 2 ^ 32, moduli := q ++ p } }, ?_, ?_⟩
  · unfold genHmuxrotKey
    unfold rotate at c1
    simp only [bind, Except.bind, pure, Except.pure] at c1 ⊢
    rw [if_neg hov, h1]
    simp only
    rw [hsk.moduli]
    split at c1
    · cases c1
    · rename_i cs hcs
      simp only [Except.ok.injEq] at c1
      simp only [ne_eq, not_true_eq_false, if_false]
      have : (fun i p => mul64 (cs.getD i (fun _ => 0) p) beta % q.getD i 0) = rb := by
        rw [hrb, ← c1]
      rw [hsk.moduli] at k1
      rw [this, k1]
      simp only [a1, e1]
  · refine ⟨r2, r1, ?_, ?_, ?_, ?_⟩
    · intro i hi t _
      obtain ⟨hpr, hlt⟩ := hall.at hi
      exact lt_of_le_of_lt (Nat.mod_le _ _) (Nat.mod_lt _ hpr.prime.pos)
    · intro i hi t ht
      exact lt_of_le_of_lt (Nat.mod_le _ _) (a2 i hi t ht)
    · intro i hi
      rw [(r3 i hi).2, hext.ring i hi]
      have e : (i < q.length ∧ i / ((q.length + 1 - 1) / 1) = 0) ↔ i < q.length := inPart_one
      by_cases hi' : i < q.length
      · rw [if_pos (e.2 hi'), if_pos hi']
        have hm : (q ++ p).getD i 0 = q.getD i 0 := getD_append_left hi'
        have hrr : ringOf k ((q ++ p).getD i 0) (rb i) =
            (beta : Rq k ((q ++ p).getD i 0)) * polyOf k ((q ++ p).getD i 0) sRot := by
          rw [hm]
          obtain ⟨hpr, hlt⟩ := hq.at hi'
          rw [← sigma_isSubst k (q.getD i 0) g' h2 s sRot hrot, ← hsk.ring i hi', ← c3 i hi', ringOf_eq_iff hpr]
          intro t ht
          have hc' := c2 i hi' t ht
          rw [hrb]
          simp only
          rw [mul64_eq (by omega) (by omega), ZMod.natCast_mod, map_mul, slot_natCast, slot_ringOf hpr _ t ht,
            Nat.cast_mul, mul_comm]
        rw [hrr]
        ring
      · rw [if_neg (fun hc => hi' (e.1 hc)), if_neg hi']
        ring
    · intro i hi
      obtain ⟨hpr, hlt⟩ := hall.at hi
      have hE := e3 i hi
      rw [polyOf_residues hall _ hi] at hE
      have htgt : (if i < q.length then (p.prod : Rq k ((q ++ p).getD i 0)) * (beta : Rq k ((q ++ p).getD i 0)) else 0) =
          (p.prod : Rq k ((q ++ p).getD i 0)) * (beta : Rq k ((q ++ p).getD i 0)) := by
        split_ifs with hi'
        · rfl
        · rw [prod_zero hi hi', zero_mul]
      have hA : ringOf k ((q ++ p).getD i 0) (fun t => A i t % 2 ^ 32) = ringOf k ((q ++ p).getD i 0) (A i) := by
        apply ringOf_congr hpr
        intro t ht
        rw [Nat.mod_eq_of_lt (lt_trans (a2 i hi t ht) hlt)]
      have hB : ringOf k ((q ++ p).getD i 0) (fun t =>
          sub64 (add64 (add64 (E i t) (Crt.product p * beta % (q ++ p).getD i 0 % (q ++ p).getD i 0))
            ((q ++ p).getD i 0)) (mul64 (A i t) (ext.data i t) % (q ++ p).getD i 0) % (q ++ p).getD i 0 % 2 ^ 32) =
          ringOf k ((q ++ p).getD i 0) (E i) + (p.prod : Rq k ((q ++ p).getD i 0)) * (beta : Rq k ((q ++ p).getD i 0)) -
            ringOf k ((q ++ p).getD i 0) (A i) * ringOf k ((q ++ p).getD i 0) (ext.data i) := by
        rw [ringOf_eq_iff hpr]
        intro t ht
        rw [Nat.mod_eq_of_lt (lt_trans (Nat.mod_lt _ hpr.prime.pos) hlt),
          mask_cast hlt (e2 i hi t ht) (Nat.mod_lt _ hpr.prime.pos) (a2 i hi t ht) (hext.reduced i hi t ht),
          map_sub, map_add, map_mul, map_mul, slot_natCast, slot_natCast, slot_ringOf hpr _ t ht, slot_ringOf hpr _ t ht,
          slot_ringOf hpr _ t ht, ZMod.natCast_mod, ZMod.natCast_mod, Nat.cast_mul, product_eq]
      simp only
      rw [hA, hB, htgt, hE, hext.ring i hi]
      ring

/-- The noise added by one conditional rotation is at most this over `P`: the key-switching noise of two switches and the
rounding of the two components. -/
def rotNoise (k : Nat) (q p : List Nat) (B Bs : Int) : Int :=
  2 * (2 ^ k * ((q.length * q.prod : Nat) : Int) * B) + ((p.length * p.prod : Nat) : Int) * (1 + 2 ^ k * Bs)

/-- Key switching with the key of one part. -/
theorem switch_one (kr kc : Nat) (q p : List Nat) (h : Basis kr kc q p) (bc : BcKernel) (start : Nat)
    (hbc : bc[start]? = some (partModuli q 1 0, otherModuli q p 1 0))
    (c1 : Mat) (h1 : Reduced (kr + kc) q c1)
    (s : Nat → Int) (e : Nat → Int) (B : Int) (hB0 : 0 ≤ B) (hB : ∀ t, t < 2 ^ (kr + kc) → |e t| ≤ B)
    (kb ka : Mat) (hkb : Reduced (kr + kc) (q ++ p) kb) (hka : Reduced (kr + kc) (q ++ p) ka) (mods : List Nat)
    (M : (i : Nat) → Rq (kr + kc) ((q ++ p).getD i 0))
    (hrel : ∀ i, i < (q ++ p).length → ringOf (kr + kc) ((q ++ p).getD i 0) (kb i) +
      ringOf (kr + kc) ((q ++ p).getD i 0) (ka i) * polyOf (kr + kc) ((q ++ p).getD i 0) s =
      polyOf (kr + kc) ((q ++ p).getD i 0) e + (if i < q.length then
        (p.prod : Rq (kr + kc) ((q ++ p).getD i 0)) * M i else 0))
    (S : KeySwitcher) (hS : precomputeSwitch q p 1 (2 ^ kr) (2 ^ kc) = .ok S) :
    ∃ ct', keySwitch S ⟨fun _ _ => 0, c1, q⟩ ⟨[ka], [kb], mods⟩ p bc (some (q ++ p)) start = .ok ct' ∧
      ct'.moduli = q ++ p ∧ Reduced (kr + kc) (q ++ p) ct'.c0 ∧ Reduced (kr + kc) (q ++ p) ct'.c1 ∧
      ∃ ν : Nat → Int,
        (∀ t, t < 2 ^ (kr + kc) → |ν t| ≤ 2 ^ (kr + kc) * ((q.length * q.prod : Nat) : Int) * B) ∧
        ∀ i, i < (q ++ p).length →
          ringOf (kr + kc) ((q ++ p).getD i 0) (ct'.c0 i) +
            ringOf (kr + kc) ((q ++ p).getD i 0) (ct'.c1 i) * polyOf (kr + kc) ((q ++ p).getD i 0) s =
          (if i < q.length then (p.prod : Rq (kr + kc) ((q ++ p).getD i 0)) *
            (ringOf (kr + kc) ((q ++ p).getD i 0) (c1 i) * M i) else 0) +
          polyOf (kr + kc) ((q ++ p).getD i 0) ν := by
  have hsl : ∀ i, i < (q ++ p).length → ∃ f : Nat → Nat, (∀ t, f t < (q ++ p).getD i 0) ∧
      ringOf (kr + kc) ((q ++ p).getD i 0) f = M i := fun i hi => exists_slots (h.moduli.at hi).1 (M i)
  choose! src hsrc1 hsrc2 using hsl
  have hk : SwitchKey (kr + kc) q p 1 s src (fun _ => e) ⟨[ka], [kb], mods⟩ := by
    refine ⟨rfl, rfl, ?_, ?_, ?_⟩
    · intro part hpt
      obtain rfl : part = 0 := by omega
      exact hka
    · intro part hpt
      obtain rfl : part = 0 := by omega
      exact hkb
    · intro part hpt i hi
      obtain rfl : part = 0 := by omega
      simp only [List.getD_cons_zero]
      rw [hrel i hi]
      congr 1
      by_cases hi' : i < q.length
      · rw [if_pos hi', if_pos (inPart_one.2 hi'), hsrc2 i hi]
      · rw [if_neg hi', if_neg (fun hc => hi' (inPart_one.1 hc))]
  have hqp : 0 < q.length := List.length_pos_iff.2 h.neQ
  obtain ⟨S', ct', s1, s2, s3, s4, s5, ν, s6, s7⟩ := C45_key_switch kr kc q p h 1 (by norm_num) (by simpa using hqp) bc start
    (fun part hpt => by obtain rfl : part = 0 := by omega
                        exact hbc)
    ⟨fun _ _ => 0, c1, q⟩ rfl (fun i hi t _ => (h.left.at hi).1.prime.pos) h1 s src (fun _ => e) B hB0
    (fun _ _ => hB) _ hk
  rw [hS] at s1
  cases s1
  refine ⟨ct', s2, s3, s4, s5, ν, ?_, ?_⟩
  · intro t ht
    have := s6 t ht
    rwa [Finset.sum_range_one, partModuli_one] at this
  · intro i hi
    rw [s7 i hi]
    congr 1
    simp only
    by_cases hi' : i < q.length
    · rw [if_pos hi', if_pos hi', ringOf_zero (h.moduli.at hi).1, zero_add, hsrc2 i hi]
    · rw [if_neg hi', if_neg hi']

/-- C46: `hmuxrot` multiplies the message by the bit and rotates it: under `s`, the output is `β · m(X^g)` plus an integer
polynomial `η` (the same for all limbs) with `P |η| ≤ rotNoise`, where `m` is the message of the input under `s`. -/
theorem C46_hmuxrot (kr kc : Nat) (q p : List Nat) (h : Basis kr kc q p) (hc : Chain kr kc (q ++ p)) :
    ∃ K, CkksRotate.precompute q p 1 (2 ^ kr) (2 ^ kc) p.length = .ok K ∧
    ∀ (s sRot : Nat → Int) (Bs : Int), 0 ≤ Bs → (∀ t, t < 2 ^ (kr + kc) → |s t| ≤ Bs) →
    ∀ (beta j g : Nat) (hg2 : g % 2 = 1), g < 2 * 2 ^ (kr + kc) → (5 ^ j * g) % (2 * 2 ^ (kr + kc)) = 1 →
      IsSubst (2 ^ (kr + kc)) g s sRot →
    ∀ (e0 e1 : Nat → Int) (B : Int), 0 ≤ B → (∀ t, t < 2 ^ (kr + kc) → |e0 t| ≤ B ∧ |e1 t| ≤ B) →
    ∀ (key : HMuxRotKey), RotKey (kr + kc) q p s sRot beta e0 e1 key →
    ∀ (ct : Ciphertext), ct.moduli = q → Reduced (kr + kc) q ct.c0 → Reduced (kr + kc) q ct.c1 →
    ∃ ct', hmuxrot K (2 ^ (kr + kc)) ct key j p 0 = .ok ct' ∧ ct'.moduli = q ∧
      Reduced (kr + kc) q ct'.c0 ∧ Reduced (kr + kc) q ct'.c1 ∧
      ∃ η : Nat → Int, (∀ t, t < 2 ^ (kr + kc) → (p.prod : Int) * |η t| ≤ rotNoise (kr + kc) q p B Bs) ∧
        ∀ i, i < q.length →
          ringOf (kr + kc) (q.getD i 0) (ct'.c0 i) + ringOf (kr + kc) (q.getD i 0) (ct'.c1 i) * polyOf (kr + kc) (q.getD i 0) s =
          beta * sigma g hg2 (ringOf (kr + kc) (q.getD i 0) (ct.c0 i) +
            ringOf (kr + kc) (q.getD i 0) (ct.c1 i) * polyOf (kr + kc) (q.getD i 0) s) +
          polyOf (kr + kc) (q.getD i 0) η := by
  have hl : (q ++ p).length = q.length + p.length := List.length_append
  have hqp : 0 < q.length := List.length_pos_iff.2 h.neQ
  obtain ⟨R, hR, hres⟩ := rescaleCt_spec h hc
  obtain ⟨S, hS⟩ : ∃ S, precomputeSwitch q p 1 (2 ^ kr) (2 ^ kc) = .ok S :=
    ⟨_, precomputeSwitch_ok h 1 (by norm_num) (by simpa using hqp)⟩
  refine ⟨{ switcher := S, bc := bcPairs q p 1, mulModuli := q ++ p, rescaler := R }, ?_, ?_⟩
  · unfold CkksRotate.precompute
    rw [hS, hR]
    rfl
  intro s sRot Bs hBs0 hBs beta j g hg2 hg hgj hrot e0 e1 B hB0 hB key hkey ct hmod h0 h1
  obtain ⟨g', g1, g2, g3, g4⟩ := rotationGenerator_spec (kr + kc) j
  have hgg : g' = g := by
    have hc : Nat.Coprime (5 ^ j) (2 * 2 ^ (kr + kc)) := by
      rw [← pow_succ']
      exact Nat.Coprime.pow _ _ (by norm_num)
    have : g' ≡ g [MOD 2 * 2 ^ (kr + kc)] := by
      apply Nat.ModEq.cancel_left_of_coprime (c := 5 ^ j) (by rw [Nat.gcd_comm]; exact hc)
      unfold Nat.ModEq
      rw [g4, hgj]
    unfold Nat.ModEq at this
    rwa [Nat.mod_eq_of_lt g3, Nat.mod_eq_of_lt hg] at this
  subst hgg
  obtain ⟨al, al1, al2, al3⟩ := rotate_spec h.left g' hg2 hg ct.c1 h1
  obtain ⟨be, be1, be2, be3⟩ := rotate_spec h.left g' hg2 hg ct.c0 h0
  have hbc := bcPairs_eq q p 1 (by norm_num) 0 (by norm_num)
  obtain ⟨p0, a1, a2, a3, a4, ν0, a5, a6⟩ := switch_one kr kc q p h (bcPairs q p 1) 0 hbc al al2 s e0 B hB0
    (fun t ht => (hB t ht).1) key.key0.c0 key.key0.c1 hkey.red00 hkey.red01 key.key0.moduli _ hkey.rel0 S hS
  obtain ⟨p1, b1, b2, b3, b4, ν1, b5, b6⟩ := switch_one kr kc q p h (bcPairs q p 1) 0 hbc be be2 s e1 B hB0
    (fun t ht => (hB t ht).2) key.key1.c0 key.key1.c1 hkey.red10 hkey.red11 key.key1.moduli _ hkey.rel1 S hS
  -- the sum
  obtain ⟨sum, hsum⟩ : ∃ sum : Mat → Mat → Mat, sum = fun x y i t => add64 (x i t) (y i t) % (q ++ p).getD i 0 % 2 ^ 32 :=
    ⟨_, rfl⟩
  have hsumr : ∀ x y, Reduced (kr + kc) (q ++ p) (sum x y) := by
    intro x y i hi t _
    rw [hsum]
    exact lt_of_le_of_lt (Nat.mod_le _ _) (Nat.mod_lt _ (h.moduli.at hi).1.prime.pos)
  have hsums : ∀ x y, Reduced (kr + kc) (q ++ p) x → Reduced (kr + kc) (q ++ p) y → ∀ i, i < (q ++ p).length →
      ringOf (kr + kc) ((q ++ p).getD i 0) (sum x y i) =
        ringOf (kr + kc) ((q ++ p).getD i 0) (x i) + ringOf (kr + kc) ((q ++ p).getD i 0) (y i) := by
    intro x y hx hy i hi
    obtain ⟨hpr, hlt⟩ := h.moduli.at hi
    rw [ringOf_eq_iff hpr]
    intro t ht
    have hx' := hx i hi t ht
    have hy' := hy i hi t ht
    rw [hsum, map_add, slot_ringOf hpr _ t ht, slot_ringOf hpr _ t ht]
    simp only
    rw [Nat.mod_eq_of_lt (lt_trans (Nat.mod_lt _ hpr.prime.pos) hlt), ZMod.natCast_mod]
    unfold add64
    rw [Nat.mod_eq_of_lt (by omega), Nat.cast_add]
  obtain ⟨ct', c1, c2, c3, c4, c5⟩ := hres ⟨sum p0.c0 p1.c0, sum p0.c1 p1.c1, q ++ p⟩ rfl (hsumr _ _) (hsumr _ _)
  refine ⟨ct', ?_, c2, c3, c4, ?_⟩
  · unfold hmuxrot
    rw [g1, hmod]
    simp only [bind, Except.bind]
    rw [al1, be1]
    simp only
    rw [a1, b1]
    simp only
    rw [a2, ← c1, hsum]
  · have hphase : ∀ i, i < (q ++ p).length →
        ringOf (kr + kc) ((q ++ p).getD i 0) (sum p0.c0 p1.c0 i) +
          ringOf (kr + kc) ((q ++ p).getD i 0) (sum p0.c1 p1.c1 i) * polyOf (kr + kc) ((q ++ p).getD i 0) s =
        (if i < q.length then (p.prod : Rq (kr + kc) ((q ++ p).getD i 0)) *
          (ringOf (kr + kc) ((q ++ p).getD i 0) (al i) * (beta * polyOf (kr + kc) ((q ++ p).getD i 0) sRot) +
           ringOf (kr + kc) ((q ++ p).getD i 0) (be i) * beta) else 0) +
        polyOf (kr + kc) ((q ++ p).getD i 0) (fun t => ν0 t + ν1 t) := by
      intro i hi
      have f0 := a6 i hi
      have f1 := b6 i hi
      rw [hsums _ _ a3 b3 i hi, hsums _ _ a4 b4 i hi, polyOf_add]
      by_cases hi' : i < q.length
      · rw [if_pos hi'] at f0 f1 ⊢
        linear_combination f0 + f1
      · rw [if_neg hi'] at f0 f1 ⊢
        linear_combination f0 + f1
    obtain ⟨η, n1, n2⟩ := c5 s Bs hBs0 hBs (fun i => beta * sigma g' hg2 (ringOf (kr + kc) (q.getD i 0) (ct.c0 i) +
            ringOf (kr + kc) (q.getD i 0) (ct.c1 i) * polyOf (kr + kc) (q.getD i 0) s)) (fun t => ν0 t + ν1 t)
      (2 * (2 ^ (kr + kc) * ((q.length * q.prod : Nat) : Int) * B))
      (by
        intro t ht
        have := abs_add_le (ν0 t) (ν1 t)
        have := a5 t ht
        have := b5 t ht
        linarith)
      (by
        intro i hi
        have := hphase i (by omega)
        rw [if_pos hi, getD_append_left hi] at this
        simp only
        rw [this, map_add, map_mul, sigma_isSubst _ _ g' hg2 s sRot hrot, ← al3 i hi, ← be3 i hi]
        ring)
      (by
        intro i hi hi'
        have := hphase i hi'
        rwa [if_neg (by omega), zero_add] at this)
    exact ⟨η, n1, n2⟩

/-- The keys of `brot_mux` for the key bits `bits`, starting at rotation `2^k0 · stride`: for each bit, the key of the bit
for the rotation and the key of its complement for the identity. -/
def MuxKeys (k : Nat) (q p : List Nat) (s : Nat → Int) (stride : Nat) (B : Int) :
    Nat → List Nat → List (HMuxRotKey × HMuxRotKey) → Prop
  | _, [], keys => keys = []
  | k0, bit :: bits, keys => ∃ key0 key1 rest, keys = (key0, key1) :: rest ∧ bit ≤ 1 ∧
      (∃ g sRot e0 e1, g < 2 * 2 ^ k ∧ (5 ^ (2 ^ k0 * stride) * g) % (2 * 2 ^ k) = 1 ∧ IsSubst (2 ^ k) g s sRot ∧
        (∀ t, t < 2 ^ k → |e0 t| ≤ B ∧ |e1 t| ≤ B) ∧ RotKey k q p s sRot bit e0 e1 key0) ∧
      (∃ e0 e1, (∀ t, t < 2 ^ k → |e0 t| ≤ B ∧ |e1 t| ≤ B) ∧ RotKey k q p s s (1 - bit) e0 e1 key1) ∧
      MuxKeys k q p s stride B (k0 + 1) bits rest

/-- The rotation encoded by the bits. -/
def rotAmount : Nat → List Nat → Nat
  | _, [] => 0
  | k0, bit :: bits => bit * 2 ^ k0 + rotAmount (k0 + 1) bits

theorem isSubst_one (N : Nat) (x : Nat → Int) : IsSubst N 1 x x := by
  intro j hj
  rw [Nat.one_mul, Nat.mod_eq_of_lt hj, Nat.div_eq_of_lt hj]
  rfl

theorem odd_of_inv {k j g : Nat} (h : (5 ^ j * g) % (2 * 2 ^ k) = 1) : g % 2 = 1 := by
  have h7 : (5 ^ j * g) % 2 = 1 := by
    have := congrArg (· % 2) h
    simp only [Nat.mod_mul_right_mod] at this
    exact this
  by_contra hc
  have h8 : g % 2 = 0 := by omega
  rw [Nat.mul_mod, h8] at h7
  simp at h7

/-- The loop. -/
theorem mux_loop (kr kc : Nat) (q p : List Nat) (h : Basis kr kc q p) (K : CkksRotate.Kernel)
    (s : Nat → Int) (Bs : Int) (stride : Nat) (B : Int)
    (hK : ∀ (sRot : Nat → Int) (beta j g : Nat) (hg2 : g % 2 = 1), g < 2 * 2 ^ (kr + kc) →
      (5 ^ j * g) % (2 * 2 ^ (kr + kc)) = 1 → IsSubst (2 ^ (kr + kc)) g s sRot →
      ∀ (e0 e1 : Nat → Int), (∀ t, t < 2 ^ (kr + kc) → |e0 t| ≤ B ∧ |e1 t| ≤ B) →
      ∀ (key : HMuxRotKey), RotKey (kr + kc) q p s sRot beta e0 e1 key →
      ∀ (ct : Ciphertext), ct.moduli = q → Reduced (kr + kc) q ct.c0 → Reduced (kr + kc) q ct.c1 →
      ∃ ct', hmuxrot K (2 ^ (kr + kc)) ct key j p 0 = .ok ct' ∧ ct'.moduli = q ∧
        Reduced (kr + kc) q ct'.c0 ∧ Reduced (kr + kc) q ct'.c1 ∧
        ∃ η : Nat → Int, (∀ t, t < 2 ^ (kr + kc) → (p.prod : Int) * |η t| ≤ rotNoise (kr + kc) q p B Bs) ∧
          ∀ i, i < q.length →
            ringOf (kr + kc) (q.getD i 0) (ct'.c0 i) +
              ringOf (kr + kc) (q.getD i 0) (ct'.c1 i) * polyOf (kr + kc) (q.getD i 0) s =
            beta * sigma g hg2 (ringOf (kr + kc) (q.getD i 0) (ct.c0 i) +
              ringOf (kr + kc) (q.getD i 0) (ct.c1 i) * polyOf (kr + kc) (q.getD i 0) s) +
            polyOf (kr + kc) (q.getD i 0) η) (bits : List Nat) :
    ∀ (k0 : Nat) (keys : List (HMuxRotKey × HMuxRotKey)), MuxKeys (kr + kc) q p s stride B k0 bits keys →
    ∀ (ct : Ciphertext), ct.moduli = q → Reduced (kr + kc) q ct.c0 → Reduced (kr + kc) q ct.c1 →
    ∃ ct', muxLoop K (2 ^ (kr + kc)) p 0 stride k0 keys ct = .ok ct' ∧ ct'.moduli = q ∧
      Reduced (kr + kc) q ct'.c0 ∧ Reduced (kr + kc) q ct'.c1 ∧
      ∃ (G : Nat) (hG : G % 2 = 1) (η : Nat → Int), (5 ^ (rotAmount k0 bits * stride) * G) % (2 * 2 ^ (kr + kc)) = 1 ∧
        (∀ t, t < 2 ^ (kr + kc) → (p.prod : Int) * |η t| ≤ bits.length * (2 * rotNoise (kr + kc) q p B Bs)) ∧
        ∀ i, i < q.length →
          ringOf (kr + kc) (q.getD i 0) (ct'.c0 i) + ringOf (kr + kc) (q.getD i 0) (ct'.c1 i) * polyOf (kr + kc) (q.getD i 0) s =
          sigma G hG (ringOf (kr + kc) (q.getD i 0) (ct.c0 i) +
            ringOf (kr + kc) (q.getD i 0) (ct.c1 i) * polyOf (kr + kc) (q.getD i 0) s) +
          polyOf (kr + kc) (q.getD i 0) η := by
  have h2N : 1 < 2 * 2 ^ (kr + kc) := by have := Nat.one_le_two_pow (n := kr + kc); omega
  have hs1 : ∀ i (a : Rq (kr + kc) (q.getD i 0)), i < q.length → sigma 1 rfl a = a := by
    intro i a hi
    obtain ⟨x, rfl, -⟩ := exists_poly (h.left.at hi).1 a
    exact sigma_isSubst _ _ 1 rfl x x (isSubst_one _ x)
  induction bits with
  | nil =>
    intro k0 keys hkeys ct hmod h0 h1
    obtain rfl : keys = [] := hkeys
    refine ⟨ct, rfl, hmod, h0, h1, 1, rfl, fun _ => 0, ?_, ?_, ?_⟩
    · simp only [rotAmount]
      rw [Nat.zero_mul, pow_zero, Nat.one_mul, Nat.mod_eq_of_lt h2N]
    · intro t _; simp
    · intro i hi
      rw [polyOf_zero, add_zero, hs1 i _ hi]
  | cons bit bits ih =>
    intro k0 keys hkeys ct hmod h0 h1
    obtain ⟨key0, key1, rest, rfl, hbit, ⟨g, sRot, e0, e1, hg, hgj, hrot, hB, hkey⟩, ⟨e0', e1', hB', hkey'⟩, hrest⟩ := hkeys
    have hg2 := odd_of_inv hgj
    obtain ⟨x, x1, x2, x3, x4, ηx, x5, x6⟩ := hK sRot bit _ g hg2 hg hgj hrot e0 e1 hB key0 hkey ct hmod h0 h1
    obtain ⟨y, y1, y2, y3, y4, ηy, y5, y6⟩ := hK s (1 - bit) 0 1 rfl h2N (by rw [pow_zero, Nat.one_mul, Nat.mod_eq_of_lt h2N])
      (isSubst_one _ s) e0' e1' hB' key1 hkey' ct hmod h0 h1
    obtain ⟨sum, hsum⟩ : ∃ sum : Mat → Mat → Mat, sum = fun a b i t =>
      (if q.getD i 0 ≤ add64 (a i t) (b i t) then add64 (a i t) (b i t) - q.getD i 0 else add64 (a i t) (b i t)) % 2 ^ 32 :=
      ⟨_, rfl⟩
    have hsums : ∀ a b, Reduced (kr + kc) q a → Reduced (kr + kc) q b → ∀ i, i < q.length → ∀ t, t < 2 ^ (kr + kc) →
        sum a b i t < q.getD i 0 ∧ ((sum a b i t : Nat) : ZMod (q.getD i 0)) = (a i t : ZMod (q.getD i 0)) + b i t := by
      intro a b ha hb i hi t ht
      have ha' := ha i hi t ht
      have hb' := hb i hi t ht
      have hlt := (h.left.at hi).2
      rw [hsum]
      simp only
      generalize q.getD i 0 = m at *
      have e : add64 (a i t) (b i t) = a i t + b i t := by unfold add64; omega
      rw [e]
      split_ifs with hc
      · rw [Nat.mod_eq_of_lt (by omega), Nat.cast_sub hc, Nat.cast_add, ZMod.natCast_self, sub_zero]
        exact ⟨by omega, rfl⟩
      · rw [Nat.mod_eq_of_lt (by omega), Nat.cast_add]
        exact ⟨by omega, rfl⟩
    have hring : ∀ a b, Reduced (kr + kc) q a → Reduced (kr + kc) q b → ∀ i, i < q.length →
        ringOf (kr + kc) (q.getD i 0) (sum a b i) = ringOf (kr + kc) (q.getD i 0) (a i) + ringOf (kr + kc) (q.getD i 0) (b i) := by
      intro a b ha hb i hi
      have hpr := (h.left.at hi).1
      rw [ringOf_eq_iff hpr]
      intro t ht
      rw [(hsums a b ha hb i hi t ht).2, map_add, slot_ringOf hpr _ t ht, slot_ringOf hpr _ t ht]
    obtain ⟨ct', c1, c2, c3, c4, G, hG, η, c5, c6, c7⟩ := ih (k0 + 1) rest hrest ⟨sum x.c0 y.c0, sum x.c1 y.c1, q⟩ rfl
      (fun i hi t ht => (hsums _ _ x3 y3 i hi t ht).1) (fun i hi t ht => (hsums _ _ x4 y4 i hi t ht).1)
    obtain ⟨ηxy, hη⟩ : ∃ e : Nat → Int, e = fun t => ηx t + ηy t := ⟨_, rfl⟩
    obtain ⟨ηs, hηs⟩ := C42_subst_exists (kr + kc) G hG ηxy
    have hstep : muxStep K (2 ^ (kr + kc)) p 0 stride ct k0 (key0, key1) = .ok ⟨sum x.c0 y.c0, sum x.c1 y.c1, q⟩ := by
      unfold muxStep
      simp only [bind, Except.bind, pure, Except.pure]
      rw [x1, y1]
      simp only
      rw [x2, hsum]
    -- the exponent
    obtain ⟨g0, hg0, hg02, hg0e⟩ : ∃ g0, g0 % 2 = 1 ∧ (5 ^ (bit * 2 ^ k0 * stride) * g0) % (2 * 2 ^ (kr + kc)) = 1 ∧
        ∀ (hg0 : g0 % 2 = 1) i, i < q.length → ∀ a : Rq (kr + kc) (q.getD i 0),
          (bit : Rq (kr + kc) (q.getD i 0)) * sigma g hg2 a + ((1 - bit : Nat) : Rq (kr + kc) (q.getD i 0)) * sigma 1 rfl a =
            sigma g0 hg0 a := by
      rcases Nat.le_one_iff_eq_zero_or_eq_one.1 hbit with rfl | rfl
      · refine ⟨1, rfl, ?_, ?_⟩
        · rw [Nat.zero_mul, Nat.zero_mul, pow_zero, Nat.one_mul, Nat.mod_eq_of_lt h2N]
        · intro _ i hi a
          simp
      · refine ⟨g, hg2, ?_, ?_⟩
        · rw [Nat.one_mul]; exact hgj
        · intro _ i hi a
          simp
    have hGg : (G * g0) % 2 = 1 := by rw [Nat.mul_mod, hG, hg0]
    refine ⟨ct', ?_, c2, c3, c4, G * g0, hGg, fun t => ηs t + η t, ?_, ?_, ?_⟩
    · unfold muxLoop
      rw [hstep]
      exact c1
    · have e : 5 ^ (rotAmount k0 (bit :: bits) * stride) * (G * g0) =
          (5 ^ (rotAmount (k0 + 1) bits * stride) * G) * (5 ^ (bit * 2 ^ k0 * stride) * g0) := by
        simp only [rotAmount]
        rw [Nat.add_mul, pow_add]
        ring
      rw [e, Nat.mul_mod, c5, hg02, Nat.one_mul, Nat.mod_eq_of_lt h2N]
    · intro t ht
      have b1 := isSubst_abs hG hηs (c := (p.prod : Int)) (A := 2 * rotNoise (kr + kc) q p B Bs) (by
        intro t ht
        rw [hη]
        have a1 := x5 t ht
        have a2 := y5 t ht
        have a3 := mul_le_mul_of_nonneg_left (abs_add_le (ηx t) (ηy t)) (Int.natCast_nonneg p.prod)
        linarith) t ht
      have b2 := c6 t ht
      have b3 := mul_le_mul_of_nonneg_left (abs_add_le (ηs t) (η t)) (Int.natCast_nonneg p.prod)
      rw [List.length_cons, Nat.cast_add, Nat.cast_one]
      linarith
    · intro i hi
      rw [c7 i hi]
      simp only
      rw [hring _ _ x3 y3 i hi, hring _ _ x4 y4 i hi]
      have f1 := x6 i hi
      have f2 := y6 i hi
      have f3 := hg0e hg0 i hi (ringOf (kr + kc) (q.getD i 0) (ct.c0 i) +
            ringOf (kr + kc) (q.getD i 0) (ct.c1 i) * polyOf (kr + kc) (q.getD i 0) s)
      have f4 : ringOf (kr + kc) (q.getD i 0) (x.c0 i) + ringOf (kr + kc) (q.getD i 0) (y.c0 i) +
          (ringOf (kr + kc) (q.getD i 0) (x.c1 i) + ringOf (kr + kc) (q.getD i 0) (y.c1 i)) * polyOf (kr + kc) (q.getD i 0) s =
          sigma g0 hg0 (ringOf (kr + kc) (q.getD i 0) (ct.c0 i) +
            ringOf (kr + kc) (q.getD i 0) (ct.c1 i) * polyOf (kr + kc) (q.getD i 0) s) + polyOf (kr + kc) (q.getD i 0) ηxy := by
        rw [hη, polyOf_add, ← f3]
        linear_combination f1 + f2
      rw [f4, map_add, sigma_comp _ _ _ _ hGg, sigma_isSubst _ _ G hG _ _ hηs, polyOf_add]
      ring

/-- C46: `brot_mux` rotates by the amount encoded in the encrypted bits. If the input encrypts `m` under `s`, the output
encrypts `m(X^G)` with `5^(stride · Σ bit_k 2^k) · G = 1` modulo `2N`, plus noise `η` with
`P |η| ≤ 2 · #bits · rotNoise`, for every number and choice of bits. -/
theorem C46_brot_mux (kr kc : Nat) (q p : List Nat) (h : Basis kr kc q p) (hc : Chain kr kc (q ++ p)) :
    ∃ K, CkksRotate.precompute q p 1 (2 ^ kr) (2 ^ kc) p.length = .ok K ∧
    ∀ (s : Nat → Int) (Bs : Int), 0 ≤ Bs → (∀ t, t < 2 ^ (kr + kc) → |s t| ≤ Bs) →
    ∀ (B : Int), 0 ≤ B → ∀ (stride : Nat) (bits : List Nat) (keys : List (HMuxRotKey × HMuxRotKey)),
      MuxKeys (kr + kc) q p s stride B 0 bits keys →
    ∀ (ct : Ciphertext), ct.moduli = q → Reduced (kr + kc) q ct.c0 → Reduced (kr + kc) q ct.c1 →
    ∀ (m : Nat → Int), (∀ i, i < q.length → ringOf (kr + kc) (q.getD i 0) (ct.c0 i) +
      ringOf (kr + kc) (q.getD i 0) (ct.c1 i) * polyOf (kr + kc) (q.getD i 0) s = polyOf (kr + kc) (q.getD i 0) m) →
    ∃ ct', brotMux K (2 ^ (kr + kc)) ct keys p 0 stride = .ok ct' ∧ ct'.moduli = q ∧
      Reduced (kr + kc) q ct'.c0 ∧ Reduced (kr + kc) q ct'.c1 ∧
      ∃ (G : Nat) (mRot η : Nat → Int), (5 ^ (rotAmount 0 bits * stride) * G) % (2 * 2 ^ (kr + kc)) = 1 ∧
        IsSubst (2 ^ (kr + kc)) G m mRot ∧
        (∀ t, t < 2 ^ (kr + kc) → (p.prod : Int) * |η t| ≤ bits.length * (2 * rotNoise (kr + kc) q p B Bs)) ∧
        ∀ i, i < q.length →
          ringOf (kr + kc) (q.getD i 0) (ct'.c0 i) + ringOf (kr + kc) (q.getD i 0) (ct'.c1 i) * polyOf (kr + kc) (q.getD i 0) s =
          polyOf (kr + kc) (q.getD i 0) (fun t => mRot t + η t) := by
  obtain ⟨K, h1, h2⟩ := C46_hmuxrot kr kc q p h hc
  refine ⟨K, h1, ?_⟩
  intro s Bs hBs0 hBs B hB0 stride bits keys hkeys ct hmod r0 r1 m hm
  obtain ⟨ct', c1, c2, c3, c4, G, hG, η, c5, c6, c7⟩ := mux_loop kr kc q p h K s Bs stride B
    (fun sRot beta j g hg2 hg hgj hrot e0 e1 hB key hkey ct hmod h0 h1 =>
      h2 s sRot Bs hBs0 hBs beta j g hg2 hg hgj hrot e0 e1 B hB0 hB key hkey ct hmod h0 h1) bits 0 keys hkeys ct hmod r0 r1
  obtain ⟨mRot, hmr⟩ := C42_subst_exists (kr + kc) G hG m
  refine ⟨ct', c1, c2, c3, c4, G, mRot, η, c5, hmr, c6, ?_⟩
  intro i hi
  rw [c7 i hi, hm i hi, sigma_isSubst _ _ G hG _ _ hmr, polyOf_add]

/-- C46: `gen_mux_rotation_key` returns such keys. -/
theorem C46_generated_mux_keys (k : Nat) (q p : List Nat) (hq : Moduli k q) (hp : Moduli k p) (hne : q ≠ [])
    (s : Nat → Int) (hs : Binary s) (sk : SecretKey) (hsk : HoldsKey k q s sk) (hP : p.prod < 2 ^ 64) (stride : Nat)
    (bits : List Nat) (hbits : ∀ b ∈ bits, b ≤ 1) (rand : Nat → Nat → Mat × (Nat → Int)) (B : Int)
    (hB : ∀ a b t, |(rand a b).2 t| ≤ B) :
    ∃ keys, genMuxRotationKey (2 ^ k) sk bits q p stride rand = .ok keys ∧ MuxKeys k q p s stride B 0 bits keys := by
  obtain ⟨ext, x1, x2⟩ := C40_extend k q p hq hp hne s hs sk hsk
  have h2N : 1 < 2 * 2 ^ k := by have := Nat.one_le_two_pow (n := k); omega
  have hk0 : ∀ i, i < bits.length → ∃ key, genHmuxrotKey (2 ^ k) sk (bits.getD i 0) (2 ^ i * stride) q p (rand i 0) (rand i 1)
      (some ext) = .ok key ∧ (∃ g sRot e0 e1, g < 2 * 2 ^ k ∧ (5 ^ (2 ^ i * stride) * g) % (2 * 2 ^ k) = 1 ∧
        IsSubst (2 ^ k) g s sRot ∧ (∀ t, t < 2 ^ k → |e0 t| ≤ B ∧ |e1 t| ≤ B) ∧ RotKey k q p s sRot (bits.getD i 0) e0 e1 key) := by
    intro i hi
    obtain ⟨g, g1, g2, g3, g4⟩ := rotationGenerator_spec k (2 ^ i * stride)
    obtain ⟨sRot, hrot⟩ := C42_subst_exists k g g2 s
    obtain ⟨key, y1, y2⟩ := C46_generated_key k q p hq hp s sk hsk ext x2 (bits.getD i 0) (2 ^ i * stride)
      (hbits _ (getD_mem hi)) hP g g3 g4 sRot hrot (rand i 0) (rand i 1)
    exact ⟨key, y1, g, sRot, _, _, g3, g4, hrot, fun t _ => ⟨hB _ _ t, hB _ _ t⟩, y2⟩
  have hk1 : ∀ i, i < bits.length → ∃ key, genHmuxrotKey (2 ^ k) sk (1 - bits.getD i 0) 0 q p (rand i 2) (rand i 3)
      (some ext) = .ok key ∧ (∃ e0 e1, (∀ t, t < 2 ^ k → |e0 t| ≤ B ∧ |e1 t| ≤ B) ∧
        RotKey k q p s s (1 - bits.getD i 0) e0 e1 key) := by
    intro i _
    obtain ⟨key, y1, y2⟩ := C46_generated_key k q p hq hp s sk hsk ext x2 (1 - bits.getD i 0) 0
      (by omega) hP 1 h2N (by rw [pow_zero, Nat.one_mul, Nat.mod_eq_of_lt h2N]) s (isSubst_one _ s) (rand i 2) (rand i 3)
    exact ⟨key, y1, _, _, fun t _ => ⟨hB _ _ t, hB _ _ t⟩, y2⟩
  have : Nonempty HMuxRotKey := ⟨⟨⟨fun _ _ => 0, fun _ _ => 0, []⟩, ⟨fun _ _ => 0, fun _ _ => 0, []⟩⟩⟩
  choose! f0 hf0 hf0' using hk0
  choose! f1 hf1 hf1' using hk1
  refine ⟨(List.range bits.length).map (fun i => (f0 i, f1 i)), ?_, ?_⟩
  · unfold genMuxRotationKey
    simp only [bind, Except.bind]
    rw [x1]
    simp only
    rw [mapM_eq_map _ (fun i => (f0 i, f1 i))]
    intro i hi
    rw [hf0 i (List.mem_range.1 hi), hf1 i (List.mem_range.1 hi)]
    rfl
  · have gen : ∀ (l : List Nat) (k0 : Nat), (∀ i, i < l.length → k0 + i < bits.length ∧ l.getD i 0 = bits.getD (k0 + i) 0) →
        MuxKeys k q p s stride B k0 l ((List.range' k0 l.length).map (fun i => (f0 i, f1 i))) := by
      intro l
      induction l with
      | nil => intro k0 _; rfl
      | cons b l ih =>
        intro k0 hl
        obtain ⟨l1, l2⟩ := hl 0 (by simp)
        rw [Nat.add_zero] at l1 l2
        have l2' : b = bits.getD k0 0 := l2
        refine ⟨f0 k0, f1 k0, (List.range' (k0 + 1) l.length).map (fun i => (f0 i, f1 i)), ?_, ?_, ?_, ?_, ?_⟩
        · rw [List.length_cons, List.range'_succ, List.map_cons]
        · rw [l2']; exact hbits _ (getD_mem l1)
        · rw [l2']; exact hf0' k0 l1
        · rw [l2']; exact hf1' k0 l1
        · apply ih
          intro i hi
          obtain ⟨m1, m2⟩ := hl (i + 1) (by simpa using hi)
          rw [List.getD_cons_succ] at m2
          rw [show k0 + 1 + i = k0 + (i + 1) by ring]
          exact ⟨m1, m2⟩
    have := gen bits 0 (fun i hi => by rw [Nat.zero_add]; exact ⟨hi, rfl⟩)
    rwa [← List.range_eq_range'] at this

/-- The reduction of a sum of `L` products. -/
theorem sum_reduce (m L : Nat) (hg : GoodModulus m) (hL : L < 2 ^ Nat.clog 2 m) (x y : Nat → Nat)
    (hx : ∀ l, l < L → x l < m) (hy : ∀ l, l < L → y l < m) :
    modularReduction (((List.range L).map (fun l => modularReduction (mul64 (x l) (y l)) (Barrett.precompute m) % 2 ^ 32)).foldl add64 0)
      (Barrett.precompute m) % 2 ^ 32 = (∑ l ∈ Finset.range L, x l * y l) % m := by
  have hm31 := hg.lt
  have hpos := hg.pos
  have hx' : ∀ l, l < L → modularReduction (mul64 (x l) (y l)) (Barrett.precompute m) % 2 ^ 32 = x l * y l % m := by
    intro l hl
    have h1 := hx l hl
    have h2 := hy l hl
    rw [mul64_eq (by omega) (by omega), C28_reduction_partial _ _ hg (lt_two_pow_of_lt_sq (Nat.mul_lt_mul'' h1 h2)),
      Nat.mod_eq_of_lt (lt_trans (Nat.mod_lt _ (by omega)) (by omega))]
  have hcl : m ≤ 2 ^ Nat.clog 2 m := Nat.le_pow_clog (by norm_num) m
  have hcl31 : Nat.clog 2 m ≤ 31 := (Nat.clog_le_iff_le_pow (by norm_num)).2 hm31.le
  have hnm : L * m < 2 ^ (2 * Nat.clog 2 m) := by
    have e1 : 2 ^ (2 * Nat.clog 2 m) = 2 ^ Nat.clog 2 m * 2 ^ Nat.clog 2 m := by ring
    rw [e1]
    exact Nat.mul_lt_mul_of_lt_of_le hL hcl (by positivity)
  have hnm64 : L * m < 2 ^ 64 := lt_of_lt_of_le hnm (Nat.pow_le_pow_right (by norm_num) (by omega))
  rw [List.foldl_map]
  obtain ⟨f1, f2⟩ := fold_add m (fun l => modularReduction (mul64 (x l) (y l)) (Barrett.precompute m) % 2 ^ 32) L
    (fun l hl => by simp only [hx' l hl]; exact Nat.mod_lt _ (by omega)) hnm64
  rw [f1, C28_reduction_partial _ _ hg (lt_of_le_of_lt f2 hnm),
    Nat.mod_eq_of_lt (lt_trans (Nat.mod_lt _ (by omega)) (by omega : m < 2 ^ 32))]
  rw [Finset.sum_nat_mod, Finset.sum_nat_mod _ _ (fun l => x l * y l)]
  congr 1
  apply Finset.sum_congr rfl
  intro l hl
  rw [hx' l (Finset.mem_range.1 hl), Nat.mod_mod]

/-- C46: `brot_cm`, the column method. If column key `l` encrypts `P` for `l = j` and zero otherwise (with errors `e l`),
the output encrypts plaintext `j` up to noise: exactly the plaintext selected by the secret column. -/
theorem C46_brot_cm (kr kc : Nat) (q p : List Nat) (h : Basis kr kc q p) (hc : Chain kr kc (q ++ p)) :
    ∃ K, CkksRotate.precompute q p 1 (2 ^ kr) (2 ^ kc) p.length = .ok K ∧
    ∀ (s : Nat → Int) (Bs : Int), 0 ≤ Bs → (∀ t, t < 2 ^ (kr + kc) → |s t| ≤ Bs) →
    ∀ (cms : List Ciphertext) (pts : List Plaintext) (ct0 : Ciphertext) (pt0 : Plaintext) (j : Nat), cms.length = pts.length →
      j < cms.length → (∀ m ∈ q ++ p, cms.length < 2 ^ Nat.clog 2 m) →
      (∀ l, l < cms.length → (cms.getD l ct0).moduli = q ++ p ∧ (pts.getD l pt0).moduli = q ++ p ∧
        Reduced (kr + kc) (q ++ p) (cms.getD l ct0).c0 ∧ Reduced (kr + kc) (q ++ p) (cms.getD l ct0).c1 ∧
        Reduced (kr + kc) (q ++ p) (pts.getD l pt0).data) →
    ∀ (e x : Nat → Nat → Int) (Be Bx : Int), 0 ≤ Be → 0 ≤ Bx →
      (∀ l, l < cms.length → ∀ t, t < 2 ^ (kr + kc) → |e l t| ≤ Be ∧ |x l t| ≤ Bx) →
      (∀ l, l < cms.length → ∀ i, i < (q ++ p).length →
        ringOf (kr + kc) ((q ++ p).getD i 0) ((pts.getD l pt0).data i) = polyOf (kr + kc) ((q ++ p).getD i 0) (x l) ∧
        ringOf (kr + kc) ((q ++ p).getD i 0) ((cms.getD l ct0).c0 i) +
          ringOf (kr + kc) ((q ++ p).getD i 0) ((cms.getD l ct0).c1 i) * polyOf (kr + kc) ((q ++ p).getD i 0) s =
        (if l = j then (p.prod : Rq (kr + kc) ((q ++ p).getD i 0)) else 0) + polyOf (kr + kc) ((q ++ p).getD i 0) (e l)) →
    ∃ ct', brotCm K (2 ^ (kr + kc)) cms pts = .ok ct' ∧ ct'.moduli = q ∧
      Reduced (kr + kc) q ct'.c0 ∧ Reduced (kr + kc) q ct'.c1 ∧
      ∃ η : Nat → Int, (∀ t, t < 2 ^ (kr + kc) → (p.prod : Int) * |η t| ≤
          cms.length * (2 ^ (kr + kc) * Be * Bx) + ((p.length * p.prod : Nat) : Int) * (1 + 2 ^ (kr + kc) * Bs)) ∧
        ∀ i, i < q.length →
          ringOf (kr + kc) (q.getD i 0) (ct'.c0 i) + ringOf (kr + kc) (q.getD i 0) (ct'.c1 i) * polyOf (kr + kc) (q.getD i 0) s =
          polyOf (kr + kc) (q.getD i 0) (fun t => x j t + η t) := by
  have hl : (q ++ p).length = q.length + p.length := List.length_append
  have hqp : 0 < q.length := List.length_pos_iff.2 h.neQ
  obtain ⟨R, hR, hres⟩ := rescaleCt_spec h hc
  obtain ⟨S, hS⟩ : ∃ S, precomputeSwitch q p 1 (2 ^ kr) (2 ^ kc) = .ok S :=
    ⟨_, precomputeSwitch_ok h 1 (by norm_num) (by simpa using hqp)⟩
  refine ⟨{ switcher := S, bc := bcPairs q p 1, mulModuli := q ++ p, rescaler := R }, ?_, ?_⟩
  · unfold CkksRotate.precompute
    rw [hS, hR]
    rfl
  intro s Bs hBs0 hBs cms pts ct0 pt0 j hlen hj hbig hwf e x Be Bx hBe hBx hB hrel
  -- closed form of the sums
  obtain ⟨red, hred⟩ : ∃ red : (Ciphertext → Mat) → Mat, red = fun sel i t => modularReduction
    (((List.range cms.length).map (fun l => modularReduction (mul64 (sel (cms.getD l ct0) i t) ((pts.getD l pt0).data i t))
      (Barrett.precompute ((q ++ p).getD i 0)) % 2 ^ 32)).foldl add64 0) (Barrett.precompute ((q ++ p).getD i 0)) % 2 ^ 32 := ⟨_, rfl⟩
  have hred' : ∀ sel, (∀ l, l < cms.length → Reduced (kr + kc) (q ++ p) (sel (cms.getD l ct0))) →
      Reduced (kr + kc) (q ++ p) (red sel) ∧ ∀ i, i < (q ++ p).length →
        ringOf (kr + kc) ((q ++ p).getD i 0) (red sel i) = ∑ l ∈ Finset.range cms.length,
          ringOf (kr + kc) ((q ++ p).getD i 0) (sel (cms.getD l ct0) i) * polyOf (kr + kc) ((q ++ p).getD i 0) (x l) := by
    intro sel hsel
    have hval : ∀ i, i < (q ++ p).length → ∀ t, t < 2 ^ (kr + kc) → red sel i t =
        (∑ l ∈ Finset.range cms.length, sel (cms.getD l ct0) i t * (pts.getD l pt0).data i t) % (q ++ p).getD i 0 := by
      intro i hi t ht
      rw [hred]
      exact sum_reduce _ _ (h.at hi).good (hbig _ (getD_mem hi)) _ _ (fun l hl => hsel l hl i hi t ht)
        (fun l hl => (hwf l hl).2.2.2.2 i hi t ht)
    refine ⟨fun i hi t ht => by rw [hval i hi t ht]; exact Nat.mod_lt _ (h.moduli.at hi).1.prime.pos, ?_⟩
    intro i hi
    have hpr := (h.moduli.at hi).1
    rw [ringOf_eq_iff hpr]
    intro t ht
    rw [hval i hi t ht, ZMod.natCast_mod, Nat.cast_sum, map_sum]
    apply Finset.sum_congr rfl
    intro l hl
    rw [← (hrel l (Finset.mem_range.1 hl) i hi).1, map_mul, slot_ringOf hpr _ t ht, slot_ringOf hpr _ t ht, Nat.cast_mul]
  obtain ⟨r0, s0⟩ := hred' Ciphertext.c0 (fun l hl => (hwf l hl).2.2.1)
  obtain ⟨r1, s1⟩ := hred' Ciphertext.c1 (fun l hl => (hwf l hl).2.2.2.1)
  obtain ⟨ct', c1, c2, c3, c4, c5⟩ := hres ⟨red Ciphertext.c0, red Ciphertext.c1, q ++ p⟩ rfl r0 r1
  refine ⟨ct', ?_, c2, c3, c4, ?_⟩
  · have hw0 := hwf 0 (by omega)
    cases hcm : cms with
    | nil => rw [hcm] at hj; simp at hj
    | cons a cs =>
      cases hpt : pts with
      | nil => rw [hcm, hpt] at hlen; simp at hlen
      | cons b ps =>
        have ha : a.moduli = q ++ p := by rw [hcm] at hw0; exact hw0.1
        have hb : b.moduli = q ++ p := by rw [hpt] at hw0; exact hw0.2.1
        unfold brotCm
        rw [← hcm, ← hpt, if_neg (by omega), hcm, hpt]
        simp only
        rw [ha, hb, if_neg (by omega), ← hcm, ← hpt, ← c1, hred]
        have hgc : ∀ l, l < cms.length → cms.getD l a = cms.getD l ct0 := by
          intro l hl; rw [List.getD_eq_getElem _ _ hl, List.getD_eq_getElem _ _ hl]
        have hgp : ∀ l, l < cms.length → pts.getD l b = pts.getD l pt0 := by
          intro l hl; rw [List.getD_eq_getElem _ _ (by omega), List.getD_eq_getElem _ _ (by omega)]
        obtain ⟨f, hf⟩ : ∃ f : (Ciphertext → Mat) → Nat → Mat, f = fun sel l i t =>
          modularReduction (mul64 (sel (cms.getD l ct0) i t) ((pts.getD l pt0).data i t))
            (Barrett.precompute ((q ++ p).getD i 0)) % 2 ^ 32 := ⟨_, rfl⟩
        simp only [bind, Except.bind]
        rw [mapM_eq_map _ (fun l => (f Ciphertext.c0 l, f Ciphertext.c1 l))]
        · simp only [List.map_map, hf]
          rfl
        · intro l hl
          have hl' := List.mem_range.1 hl
          rw [hgc l hl', hgp l hl', hf]
          unfold mulBarrett
          simp only [ne_eq, not_true_eq_false, if_false]
          rfl
  · obtain ⟨ν, hν⟩ : ∃ ν : Nat → Int, ν = fun t => ∑ l ∈ Finset.range cms.length, imul (kr + kc) (e l) (x l) t := ⟨_, rfl⟩
    have hphase : ∀ i, i < (q ++ p).length →
        ringOf (kr + kc) ((q ++ p).getD i 0) (red Ciphertext.c0 i) +
          ringOf (kr + kc) ((q ++ p).getD i 0) (red Ciphertext.c1 i) * polyOf (kr + kc) ((q ++ p).getD i 0) s =
        (p.prod : Rq (kr + kc) ((q ++ p).getD i 0)) * polyOf (kr + kc) ((q ++ p).getD i 0) (x j) +
          polyOf (kr + kc) ((q ++ p).getD i 0) ν := by
      intro i hi
      rw [s0 i hi, s1 i hi, Finset.sum_mul, ← Finset.sum_add_distrib]
      have e1 : ∀ l ∈ Finset.range cms.length,
          ringOf (kr + kc) ((q ++ p).getD i 0) ((cms.getD l ct0).c0 i) * polyOf (kr + kc) ((q ++ p).getD i 0) (x l) +
            ringOf (kr + kc) ((q ++ p).getD i 0) ((cms.getD l ct0).c1 i) * polyOf (kr + kc) ((q ++ p).getD i 0) (x l) *
              polyOf (kr + kc) ((q ++ p).getD i 0) s =
          (if l = j then (p.prod : Rq (kr + kc) ((q ++ p).getD i 0)) * polyOf (kr + kc) ((q ++ p).getD i 0) (x l) else 0) +
            polyOf (kr + kc) ((q ++ p).getD i 0) (imul (kr + kc) (e l) (x l)) := by
        intro l hl
        have := (hrel l (Finset.mem_range.1 hl) i hi).2
        rw [polyOf_imul]
        by_cases hlj : l = j
        · rw [if_pos hlj] at this ⊢
          linear_combination polyOf (kr + kc) ((q ++ p).getD i 0) (x l) * this
        · rw [if_neg hlj] at this ⊢
          linear_combination polyOf (kr + kc) ((q ++ p).getD i 0) (x l) * this
      rw [Finset.sum_congr rfl e1, Finset.sum_add_distrib, Finset.sum_ite_eq', if_pos (Finset.mem_range.2 hj), hν, polyOf_sum]
    obtain ⟨η, n1, n2⟩ := c5 s Bs hBs0 hBs (fun i => polyOf (kr + kc) (q.getD i 0) (x j)) ν
      (cms.length * (2 ^ (kr + kc) * Be * Bx))
      (by
        intro t ht
        rw [hν]
        refine (Finset.abs_sum_le_sum_abs _ _).trans ?_
        have := Finset.sum_le_card_nsmul (Finset.range cms.length) (fun l => |imul (kr + kc) (e l) (x l) t|)
          (2 ^ (kr + kc) * Be * Bx) (fun l hl => imul_abs _ _ _ Be Bx hBe hBx
            (fun t ht => (hB l (Finset.mem_range.1 hl) t ht).1) (fun t ht => (hB l (Finset.mem_range.1 hl) t ht).2) t)
        rwa [Finset.card_range, nsmul_eq_mul] at this)
      (by
        intro i hi
        have := hphase i (by omega)
        rw [getD_append_left hi] at this
        exact this)
      (by
        intro i hi hi'
        have := hphase i hi'
        rwa [prod_zero hi' (by omega), zero_mul, zero_add] at this)
    refine ⟨η, n1, ?_⟩
    intro i hi
    rw [n2 i hi, polyOf_add]

/-- C46: malformed inputs of `brot_cm` are rejected: lists of different lengths, empty lists, and keys over another number
of moduli than the plaintexts; also ciphertexts with other moduli than the plaintexts. -/
theorem C46_rejects (K : CkksRotate.Kernel) (degree : Nat) (cms : List Ciphertext) (pts : List Plaintext) :
    (cms.length ≠ pts.length → brotCm K degree cms pts = .error "ValueError") ∧
    brotCm K degree [] [] = .error "IndexError" ∧
    (∀ a b cs ps, cms = a :: cs → pts = b :: ps → a.moduli ≠ b.moduli →
      brotCm K degree cms pts = .error "ValueError") := by
  refine ⟨?_, rfl, ?_⟩
  · intro hne
    unfold brotCm
    rw [if_pos hne]
  · rintro a b cs ps rfl rfl hne
    unfold brotCm
    by_cases hl : (a :: cs).length ≠ (b :: ps).length
    · rw [if_pos hl]
    · rw [if_neg hl]
      simp only
      by_cases hm : a.moduli.length ≠ b.moduli.length
      · rw [if_pos hm]
      · rw [if_neg hm, List.length_cons, List.range_succ_eq_map, List.mapM_cons]
        unfold mulBarrett
        simp only [ne_eq, hne, not_false_eq_true, if_true]
        rfl

/-- The hypotheses on the moduli are met. -/
theorem basis_rotation : Basis 0 1 [40961, 65537] [12289] ∧ Chain 0 1 ([40961, 65537] ++ [12289]) := by
  have hf : ∀ m ∈ [40961, 65537] ++ [12289], FourStep 0 1 m := by
    intro m hm
    simp only [List.cons_append, List.nil_append, List.mem_cons, List.not_mem_nil, or_false] at hm
    rcases hm with rfl | rfl | rfl
    · exact fourStep_40961
    · exact fourStep_65537
    · exact fourStep_12289
  refine ⟨⟨hf, by decide, ?_, by decide, by decide, by decide⟩, hf, by decide, by decide⟩
  intro m hm
  simp only [List.cons_append, List.nil_append, List.mem_cons, List.not_mem_nil, or_false] at hm
  rcases hm with rfl | rfl | rfl <;> decide +kernel

/-- Keys for the bits 1, 0, 1 over these moduli exist, for a non-zero secret key, and encode a rotation by 5
(`C46_generated_key`, `C46_hmuxrot`, `C46_brot_mux`). -/
example : ∃ keys s, s 1 = 1 ∧ MuxKeys 1 [40961, 65537] [12289] s 3 2 0 [1, 0, 1] keys ∧ rotAmount 0 [1, 0, 1] = 5 := by
  obtain ⟨hb, -⟩ := basis_rotation
  obtain ⟨pk, sk, -, h2⟩ := C40_keygen_holds 1 [40961, 65537] hb.left (fun t => if t = 1 then 1 else 0) (fun _ => 1) (fun _ _ => 7)
  obtain ⟨keys, -, h3⟩ := C46_generated_mux_keys 1 [40961, 65537] [12289] hb.left hb.right (by decide)
    (fun t => if t = 1 then 1 else 0) (fun t => by by_cases h : t = 1 <;> simp [h]) sk h2 (by decide) 3 [1, 0, 1] (by decide)
    (fun a b => (fun _ _ => a + b, fun _ => 2)) 2 (fun _ _ _ => by norm_num)
  exact ⟨keys, fun t => if t = 1 then 1 else 0, rfl, h3, rfl⟩

/-- The key `P · 1` in every slot: for the secret key 1, without errors and masks, both halves of the rotation key for the bit 1
and the amount 0. -/
def unitRotKey : Ciphertext :=
  { c0 := fun i _ => 12289 % [40961, 65537, 12289].getD i 1, c1 := fun _ _ => 0, moduli := [40961, 65537, 12289] }

/-- A noiseless encryption of the constant 50000. -/
def fiftyCt : Ciphertext :=
  { c0 := fun i _ => 50000 % [40961, 65537].getD i 1, c1 := fun _ _ => 0, moduli := [40961, 65537] }

/-- Whether the rotation by 0 of `fiftyCt` with a kernel of `dnum` parts is the encryption of the constant `v`. -/
def rotatesTo (dnum v : Nat) : Bool :=
  match (do
    let K ← CkksRotate.precompute [40961, 65537] [12289] dnum 1 2 1
    hmuxrot K 2 fiftyCt { key0 := unitRotKey, key1 := unitRotKey } 0 [12289] 0 : Except String Ciphertext) with
  | .ok r => decide (r.moduli = [40961, 65537]) && (List.range 2).all (fun i => (List.range 2).all (fun t =>
      r.c0 i t == v % [40961, 65537].getD i 1 && r.c1 i t == 0))
  | .error _ => false

set_option maxRecDepth 10000 in
theorem rotates_two : rotatesTo 2 59039 = true := by decide +kernel
set_option maxRecDepth 10000 in
theorem rotates_one : rotatesTo 1 50000 = true := by decide +kernel

theorem polyOf_one (k m : Nat) : polyOf k m (fun t => if t = 0 then 1 else 0) = 1 := by
  unfold polyOf
  rw [Nega.ev_eq]
  have hN : 0 < 2 ^ k := by positivity
  rw [Finset.sum_eq_single (⟨0, hN⟩ : Fin (2 ^ k))]
  · simp [Nega.cst]
  · intro i _ hi
    have : (i : Nat) ≠ 0 := fun h => hi (Fin.ext h)
    simp [Nega.cst, this]
  · intro h; exact absurd (Finset.mem_univ _) h

/-- C46 does not hold for kernels of more than one part (`dnum = 2`), although `precompute_constants` accepts them: a rotation
key has one part, which `key_switch` then uses for every part. The key meets `RotKey` for the secret key 1; the rotation by 0
with the bit 1 turns the noiseless encryption of 50000 into one of 59039, the sum of its residues modulo 40961 and 65537. With
one part the result is right. -/
theorem C46_dnum_negation :
    RotKey 1 [40961, 65537] [12289] (fun t => if t = 0 then 1 else 0) (fun t => if t = 0 then 1 else 0) 1 (fun _ => 0) (fun _ => 0)
      { key0 := unitRotKey, key1 := unitRotKey } ∧
    (∃ K r, CkksRotate.precompute [40961, 65537] [12289] 2 1 2 1 = .ok K ∧
      hmuxrot K 2 fiftyCt { key0 := unitRotKey, key1 := unitRotKey } 0 [12289] 0 = .ok r ∧ r.moduli = [40961, 65537] ∧
      ∀ i, i < 2 → ∀ t, t < 2 → r.c0 i t = 59039 % [40961, 65537].getD i 1 ∧ r.c1 i t = 0) ∧
    (∃ K r, CkksRotate.precompute [40961, 65537] [12289] 1 1 2 1 = .ok K ∧
      hmuxrot K 2 fiftyCt { key0 := unitRotKey, key1 := unitRotKey } 0 [12289] 0 = .ok r ∧ r.moduli = [40961, 65537] ∧
      ∀ i, i < 2 → ∀ t, t < 2 → r.c0 i t = 50000 % [40961, 65537].getD i 1 ∧ r.c1 i t = 0) := by
  have key : ∀ dnum v, rotatesTo dnum v = true →
      ∃ K r, CkksRotate.precompute [40961, 65537] [12289] dnum 1 2 1 = .ok K ∧
      hmuxrot K 2 fiftyCt { key0 := unitRotKey, key1 := unitRotKey } 0 [12289] 0 = .ok r ∧ r.moduli = [40961, 65537] ∧
      ∀ i, i < 2 → ∀ t, t < 2 → r.c0 i t = v % [40961, 65537].getD i 1 ∧ r.c1 i t = 0 := by
    intro dnum v hr
    unfold rotatesTo at hr
    cases e1 : CkksRotate.precompute [40961, 65537] [12289] dnum 1 2 1 with
    | error x => rw [e1] at hr; exact absurd hr (by simp [bind, Except.bind])
    | ok K =>
      rw [e1] at hr
      simp only [bind, Except.bind] at hr
      cases e2 : hmuxrot K 2 fiftyCt { key0 := unitRotKey, key1 := unitRotKey } 0 [12289] 0 with
      | error x => rw [e2] at hr; exact absurd hr (by simp)
      | ok r =>
        rw [e2] at hr
        simp only [Bool.and_eq_true, decide_eq_true_eq, List.all_eq_true, List.mem_range, beq_iff_eq] at hr
        exact ⟨K, r, rfl, e2, hr.1, hr.2⟩
  obtain ⟨hb, -⟩ := basis_rotation
  have hlen : ([40961, 65537] ++ [12289] : List Nat).length = 3 := rfl
  have hred : ∀ i, i < 3 → ∀ t, t < 2 ^ 1 → (12289 : Nat) % [40961, 65537, 12289].getD i 1 < ([40961, 65537] ++ [12289] : List Nat).getD i 0 := by
    intro i hi t _
    rcases i with _ | _ | _ | i
    · decide
    · decide
    · decide
    · omega
  have hpos : ∀ i, i < 3 → ∀ t, t < 2 ^ 1 → 0 < ([40961, 65537] ++ [12289] : List Nat).getD i 0 :=
    fun i hi t ht => lt_of_le_of_lt (Nat.zero_le _) (hred i hi t ht)
  have hrel : ∀ i, i < 3 → ringOf 1 (([40961, 65537] ++ [12289] : List Nat).getD i 0) (unitRotKey.c0 i) +
      ringOf 1 (([40961, 65537] ++ [12289] : List Nat).getD i 0) (unitRotKey.c1 i) *
        polyOf 1 (([40961, 65537] ++ [12289] : List Nat).getD i 0) (fun t => if t = 0 then 1 else 0) =
      polyOf 1 (([40961, 65537] ++ [12289] : List Nat).getD i 0) (fun _ => 0) + (if i < 2 then
        (([12289] : List Nat).prod : Rq 1 (([40961, 65537] ++ [12289] : List Nat).getD i 0)) * (1 : Nat) else 0) := by
    intro i hi
    have hp := (hb.moduli.at (i := i) hi).1
    rw [polyOf_one, polyOf_zero, mul_one, Nat.cast_one, mul_one, zero_add]
    have e0 : ringOf 1 (([40961, 65537] ++ [12289] : List Nat).getD i 0) (unitRotKey.c1 i) = 0 := ringOf_zero hp
    rw [e0, add_zero]
    have e1 := ringOf_const hp (12289 % [40961, 65537, 12289].getD i 1)
    refine e1.trans ?_
    rcases i with _ | _ | _ | i
    · norm_num
    · norm_num
    · norm_num
    · omega
  refine ⟨⟨hred, hpos, hred, hpos, ?_, hrel⟩, key 2 _ rotates_two, key 1 _ rotates_one⟩
  intro i hi
  rw [hrel i hi, polyOf_one, mul_one]
  rfl

end Verif.Props

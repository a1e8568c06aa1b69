import Verif.Lemmas.RnsNtt
import Verif.Props.NttCpu
import Verif.Props.BitReversal

/-!
# Running the transforms of `rns.py`
-/

namespace Verif.RnsNtt
open Verif.BitReversal Verif.CkksMath Verif.NttCore Verif.NttCpu Verif.Props

theorem foldl_set_spec (g : Int → Int) (a m : Nat) (l : List Int) (h : a + m ≤ l.length) :
    ((List.range' a m).foldl (fun l i => l.set i (g (l.getD i 0))) l).length = l.length ∧
    ∀ p, ((List.range' a m).foldl (fun l i => l.set i (g (l.getD i 0))) l).getD p 0 =
      if a ≤ p ∧ p < a + m then g (l.getD p 0) else l.getD p 0 := by
  induction m generalizing l a with
  | zero =>
    refine ⟨rfl, ?_⟩
    intro p
    rw [if_neg (by omega)]; rfl
  | succ m ih =>
    simp only [List.range'_succ, List.foldl_cons]
    obtain ⟨h1, h2⟩ := ih (a + 1) (l.set a (g (l.getD a 0))) (by rw [List.length_set]; omega)
    refine ⟨by rw [h1, List.length_set], ?_⟩
    intro p
    rw [h2, getD_set _ _ _ _ (by omega)]
    by_cases c1 : p = a
    · subst c1
      rw [if_pos rfl, if_neg (by omega), if_pos (by omega)]
    · rw [if_neg c1]
      by_cases c2 : a + 1 ≤ p ∧ p < a + 1 + m
      · rw [if_pos c2, if_pos (by omega)]
      · rw [if_neg c2, if_neg (by omega)]

theorem getD_bitReversalArray (k : Nat) (xs : List Int) (h : xs.length = 2 ^ k) (i : Nat) (hi : i < 2 ^ k) :
    (bitReversalArray xs).getD i 0 = xs.getD (bitReversal i k) 0 := by
  simp only [List.getD_eq_getElem?_getD]
  rw [(C30_array k xs h).2.1 i hi]

/-- The constructor for a prime modulus `q ≡ 1 (mod 2n)` and `n = 2^k ≥ 2`. -/
theorem mkNtt_spec (k q : Nat) (hk : 1 ≤ k) (hq : q.Prime) (hd : 2 * 2 ^ k ∣ q - 1) :
    ∃ (p : Ntt) (psi : Int), mkNtt (2 ^ k) q = .ok p ∧ primitiveRoot (2 * 2 ^ k) q = .ok psi ∧
      p.n = 2 ^ k ∧ p.q = q ∧
      (2 ^ k : ZMod q) * (p.nInvModQ : ZMod q) = 1 ∧ orderOf (psi : ZMod q) = 2 * 2 ^ k ∧
      (∀ i, i < 2 ^ k → vec q p.psisBitrev i = (psi : ZMod q) ^ bitReversal i k) ∧
      (∀ i, i < 2 ^ k → vec q p.psisInvBitrev i * (psi : ZMod q) ^ (bitReversal i k + 1) = 1) := by
  have hq2 := hq.two_le
  have hn : 2 ≤ 2 ^ k := by
    calc 2 = 2 ^ 1 := rfl
      _ ≤ 2 ^ k := Nat.pow_le_pow_right (by norm_num) hk
  have e2 : 2 ^ (k + 1) = 2 * 2 ^ k := by rw [pow_succ, Nat.mul_comm]
  obtain ⟨psi, h1, h2, h3, h4⟩ := C34_primitive_root q k hq (by rw [e2]; exact hd)
  rw [e2] at h1 h4
  have hpsi := pow_half_order hq h4
  have hodd : q % 2 = 1 := by
    obtain ⟨m, hm⟩ := hd
    have : q - 1 = 2 * (2 ^ k * m) := by rw [hm]; ring
    omega
  obtain ⟨c, hc, -, -, hc1⟩ := invMod_ok ((2 ^ k : Nat) : Int) q (by omega) (natPow_gcd hodd)
  have hip : isPowerOfTwo (2 ^ k) = true := by
    unfold isPowerOfTwo
    rw [(and_pred_eq_zero (by positivity)).2 ⟨k, rfl⟩]; simp
  have hmod : q % (2 * 2 ^ k) = 1 := by
    obtain ⟨m, hm⟩ := hd
    have hq' : q = 1 + 2 * 2 ^ k * m := by omega
    rw [hq', Nat.add_mul_mod_self_left, Nat.mod_eq_of_lt (by omega)]
  obtain ⟨psis, hpsis⟩ : ∃ l : List Int, l = (List.range (2 ^ k)).map (fun (i : Nat) => modExp psi i q) := ⟨_, rfl⟩
  have hlen : psis.length = 2 ^ k := by rw [hpsis]; simp
  have hget : ∀ i, i < 2 ^ k → (psis.getD i 0 : ZMod q) = (psi : ZMod q) ^ i := by
    intro i hi
    rw [hpsis, List.getD_eq_getElem _ _ (by simpa using hi)]
    simp only [List.getElem_map, List.getElem_range]
    exact cast_modExp _ _ _
  obtain ⟨inv, hinv⟩ : ∃ l : List Int, l = psis.take 1 ++ (psis.drop 1).reverse := ⟨_, rfl⟩
  have hilen : inv.length = 2 ^ k := by rw [hinv]; simp [hlen]; omega
  have higet : ∀ i, i < 2 ^ k → inv.getD i 0 = if i = 0 then psis.getD 0 0 else psis.getD (2 ^ k - i) 0 := by
    intro i hi
    rw [hinv]
    have htl : (psis.take 1).length = 1 := by rw [List.length_take, hlen]; omega
    by_cases hi0 : i = 0
    · subst hi0
      rw [if_pos rfl, List.getD_append _ _ _ _ (by omega)]
      simp only [List.getD_eq_getElem?_getD, List.getElem?_take]; simp
    · rw [if_neg hi0, List.getD_append_right _ _ _ _ (by omega), htl]
      simp only [List.getD_eq_getElem?_getD]
      rw [List.getElem?_reverse (by rw [List.length_drop, hlen]; omega), List.getElem?_drop, List.length_drop, hlen]
      congr 2
      omega
  obtain ⟨npi, hnpi⟩ : ∃ x, inv[1]? = some x := ⟨inv[1]'(by omega), List.getElem?_eq_getElem (by omega)⟩
  have hnpi' : inv.getD 1 0 = npi := by rw [List.getD_eq_getElem?_getD, hnpi]; rfl
  have hnpival : (npi : ZMod q) * psi = -1 := by
    rw [← hnpi', higet 1 (by omega), if_neg (by omega), hget _ (by omega), ← pow_succ, ← hpsi]
    congr 1; omega
  have hpii : (((-npi) % (q : Int) : Int) : ZMod q) * psi = 1 := by
    rw [ZMod.intCast_mod]; push_cast; linear_combination -hnpival
  obtain ⟨l1, l2⟩ := C30_array k inv hilen
  obtain ⟨m1, m2⟩ := foldl_set_spec (fun x => x * npi % (q : Int)) 1 (2 ^ k - 1)
    ((bitReversalArray inv).set 0 ((bitReversalArray inv).getD 0 0 * ((-npi) % (q : Int)) % (q : Int)))
    (by rw [List.length_set, l1, hilen]; omega)
  obtain ⟨invAll, hinvAll⟩ : ∃ l : List Int, l = (List.range' 1 (2 ^ k - 1)).foldl (fun l i => l.set i ((fun x => x * npi % (q : Int)) (l.getD i 0)))
      ((bitReversalArray inv).set 0 ((bitReversalArray inv).getD 0 0 * ((-npi) % (q : Int)) % (q : Int))) := ⟨_, rfl⟩
  rw [← hinvAll] at m1 m2
  refine ⟨{ n := 2 ^ k, q := q, nInvModQ := c, psisBitrev := bitReversalArray psis, psisInvBitrev := invAll }, psi,
    ?_, h1, rfl, rfl, by push_cast at hc1; exact hc1, h4, ?_, ?_⟩
  · unfold mkNtt
    simp only [hip, hmod, h1, hc, bind, Except.bind, pure, Except.pure, ← hpsis, ← hinv, hnpi, hinvAll]
    rfl
  · intro i hi
    show ((bitReversalArray psis).getD i 0 : ZMod q) = _
    rw [getD_bitReversalArray k _ hlen i hi, hget _ (rev_lt i k)]
  · intro i hi
    show (invAll.getD i 0 : ZMod q) * _ = 1
    rw [m2, getD_set _ _ _ _ (by rw [l1, hilen]; omega), getD_bitReversalArray k _ hilen i hi]
    by_cases hi0 : i = 0
    · subst hi0
      have hr0 : bitReversal 0 k = 0 := by
        have := rev_ext (x := 0) (m := 0) (by norm_num) k
        simpa [rev_zero] using this
      rw [if_neg (by omega), if_pos rfl, getD_bitReversalArray k _ hilen 0 (by omega), hr0, higet 0 (by omega),
        if_pos rfl, ZMod.intCast_mod]
      push_cast
      rw [hget 0 (by omega)]
      simp only [pow_zero, one_mul, zero_add, pow_one]
      push_cast at hpii
      exact hpii
    · have hr0 : bitReversal i k ≠ 0 := by
        intro h0
        have hz : bitReversal 0 k = 0 := by
          have := rev_ext (x := 0) (m := 0) (by norm_num) k
          simpa [rev_zero] using this
        have := rev_rev_of_lt hi
        rw [h0, hz] at this
        exact hi0 this.symm
      have hrl := rev_lt i k
      rw [if_pos (by omega), if_neg hi0, ZMod.intCast_mod, higet _ hrl, if_neg hr0]
      push_cast
      rw [hget _ (by omega)]
      obtain ⟨r, hr⟩ : ∃ r, r = bitReversal i k := ⟨_, rfl⟩
      rw [← hr] at hrl hr0 ⊢
      have hprod : (psi : ZMod q) ^ (2 ^ k - r) * (psi : ZMod q) ^ r = -1 := by
        rw [← pow_add, ← hpsi]; congr 1; omega
      rw [pow_succ]
      linear_combination (npi * psi : ZMod q) * hprod - hnpival

/-! ## The stages -/

section stages
variable {k q : Nat}

theorem ct_congr {R : Type*} [CommRing R] (k s : Nat) (hs : s + 1 ≤ k) (z z' : Nat → R) (A B : Nat → R)
    (hz : ∀ b, b < 2 ^ (k - (s + 1)) → z b = z' b) (h : ∀ i, i < 2 ^ k → A i = B i) (i : Nat) (hi : i < 2 ^ k) :
    ct z (2 ^ s) A i = ct z' (2 ^ s) B i := by
  have hb : i / (2 * 2 ^ s) < 2 ^ (k - (s + 1)) := by
    rw [Nat.div_lt_iff_lt_mul (by positivity)]
    obtain ⟨d, rfl⟩ : ∃ d, k = s + 1 + d := ⟨k - (s + 1), by omega⟩
    calc i < _ := hi
      _ = _ := by rw [Nat.add_sub_cancel_left, pow_add, pow_succ]; ring
  unfold ct
  split
  · rename_i hlt
    rw [h i hi, h _ (pair_lt hs hi hlt), hz _ hb]
  · rw [h i hi, h _ (lt_of_le_of_lt (Nat.sub_le _ _) hi), hz _ hb]

theorem gs_congr {R : Type*} [CommRing R] (k s : Nat) (hs : s + 1 ≤ k) (z z' : Nat → R) (A B : Nat → R)
    (hz : ∀ b, b < 2 ^ (k - (s + 1)) → z b = z' b) (h : ∀ i, i < 2 ^ k → A i = B i) (i : Nat) (hi : i < 2 ^ k) :
    gs z (2 ^ s) A i = gs z' (2 ^ s) B i := by
  have hb : i / (2 * 2 ^ s) < 2 ^ (k - (s + 1)) := by
    rw [Nat.div_lt_iff_lt_mul (by positivity)]
    obtain ⟨d, rfl⟩ : ∃ d, k = s + 1 + d := ⟨k - (s + 1), by omega⟩
    calc i < _ := hi
      _ = _ := by rw [Nat.add_sub_cancel_left, pow_add, pow_succ]; ring
  unfold gs
  split
  · rename_i hlt
    rw [h i hi, h _ (pair_lt hs hi hlt)]
  · rw [h i hi, h _ (lt_of_le_of_lt (Nat.sub_le _ _) hi), hz _ hb]

theorem ct_smul {R : Type*} [CommRing R] (z : Nat → R) (h : Nat) (c : R) (A : Nat → R) (i : Nat) :
    ct z h (fun i => c * A i) i = c * ct z h A i := by
  unfold ct; split <;> ring

theorem gs_smul {R : Type*} [CommRing R] (z : Nat → R) (h : Nat) (c : R) (A : Nat → R) (i : Nat) :
    gs z h (fun i => c * A i) i = c * gs z h A i := by
  unfold gs; split <;> ring

/-- The Cooley–Tukey factors of stage `t`. -/
def zeta (k : Nat) (ψ : ZMod q) (t b : Nat) : ZMod q := ψ ^ (2 ^ (k - (t + 1)) * (2 * bitReversal b t + 1))

theorem ctStages_run (psis : List Int) (ψ : ZMod q)
    (hpsis : ∀ i, i < 2 ^ k → vec q psis i = ψ ^ bitReversal i k) (c : List Int) (hc : c.length = 2 ^ k) (t : Nat)
    (ht : t ≤ k) :
    (ctStages q psis k c t).1.length = 2 ^ k ∧ (ctStages q psis k c t).2 = 2 ^ t ∧
    (∀ p, p < 2 ^ k → (0 < t ∧ 0 < q) → 0 ≤ (ctStages q psis k c t).1.getD p 0 ∧ (ctStages q psis k c t).1.getD p 0 < q) ∧
    ∀ t', t' + 1 = t → ∀ p, p < 2 ^ k → vec q (ctStages q psis k c t).1 p =
      ct (zeta k ψ t') (2 ^ (k - (t' + 1))) (vec q (ctStages q psis k c t').1) p := by
  induction t with
  | zero => simp [ctStages, hc]
  | succ t ih =>
    obtain ⟨h1, h2, -, -⟩ := ih (by omega)
    simp only [ctStages, Nat.one_shiftLeft]
    have hsub : k - 1 - t = k - (t + 1) := by omega
    rw [hsub]
    obtain ⟨g1, g2, g3, g4⟩ := ctBlocks_spec k (k - (t + 1)) q (by omega) psis (ctStages q psis k c t).1
      (ctStages q psis k c t).2 h1
    have hsub2 : k - (k - (t + 1) + 1) = t := by omega
    refine ⟨g1, ?_, fun p hp hh => g4 hh.2 p hp, ?_⟩
    · rw [Prod.mk.eta] at g2
      rw [g2, h2, hsub2, pow_succ]; ring
    · intro t' ht' p hp
      obtain rfl : t' = t := by omega
      rw [Prod.mk.eta] at g3
      rw [g3 p hp]
      apply ct_congr k _ (by omega) _ _ _ _ _ (fun _ _ => rfl) p hp
      intro b hb
      rw [hsub2] at hb
      have : 2 ^ t' + b < 2 ^ k := by
        calc 2 ^ t' + b < 2 ^ (t' + 1) := by rw [pow_succ]; omega
          _ ≤ 2 ^ k := Nat.pow_le_pow_right (by norm_num) ht
      rw [h2, hpsis _ this, rev_ct ht hb]
      rfl

/-- The Gentleman–Sande factors that undo stage `t`. -/
def zetaInv (k : Nat) (psis : List Int) (t b : Nat) : ZMod q := vec q psis (2 ^ k - 2 ^ (t + 1) + b)

theorem zeta_mul_zetaInv (psis : List Int) (ψ : ZMod q)
    (hpsis : ∀ i, i < 2 ^ k → vec q psis i * ψ ^ (bitReversal i k + 1) = 1) (t b : Nat) (ht : t < k) (hb : b < 2 ^ t) :
    zeta k ψ t b * zetaInv k psis t b = 1 := by
  have hp : 2 ^ (t + 1) ≤ 2 ^ k := Nat.pow_le_pow_right (by norm_num) ht
  have e2 : 2 ^ (t + 1) = 2 * 2 ^ t := by rw [pow_succ, Nat.mul_comm]
  have h := hpsis (2 ^ k - 2 ^ (t + 1) + b) (by omega)
  rw [rev_gs ht hb, rev_ct ht hb] at h
  unfold zeta zetaInv
  rw [mul_comm]; exact h

theorem gsStages_run (psis : List Int) (c : List Int) (hc : c.length = 2 ^ k) (s : Nat) (hs : s ≤ k) :
    (gsStages q psis c s).1.length = 2 ^ k ∧ (gsStages q psis c s).2 = 2 ^ k - 2 ^ (k - s) ∧
      ∀ s', s' + 1 = s → ∀ p, p < 2 ^ k → vec q (gsStages q psis c s).1 p =
        gs (zetaInv k psis (k - (s' + 1))) (2 ^ s') (vec q (gsStages q psis c s').1) p := by
  induction s with
  | zero => exact ⟨by simp [gsStages, hc], by simp [gsStages], by omega⟩
  | succ s ih =>
    obtain ⟨h1, h2, -⟩ := ih (by omega)
    simp only [gsStages, Nat.one_shiftLeft]
    obtain ⟨g1, g2, g3⟩ := gsBlocks_spec k s q (by omega) psis (gsStages q psis c s).1 (gsStages q psis c s).2 h1
    rw [Prod.mk.eta] at g2 g3
    have hpow : 2 ^ (k - s) = 2 * 2 ^ (k - (s + 1)) := by
      rw [show k - s = k - (s + 1) + 1 by omega, pow_succ, Nat.mul_comm]
    have hle : 2 ^ (k - s) ≤ 2 ^ k := Nat.pow_le_pow_right (by norm_num) (by omega)
    refine ⟨g1, by rw [g2, h2]; omega, ?_⟩
    intro s' hs' p hp
    obtain rfl : s' = s := by omega
    rw [g3 p hp, h2]
    congr 1
    funext b
    unfold zetaInv
    rw [show k - (s' + 1) + 1 = k - s' by omega]

/-- The whole forward transform in `ZMod q`. -/
theorem ctStages_spec (psis : List Int) (ψ : ZMod q) (hψ : ψ ^ 2 ^ k = -1)
    (hpsis : ∀ i, i < 2 ^ k → vec q psis i = ψ ^ bitReversal i k) (c : List Int) (hc : c.length = 2 ^ k) (t : Nat)
    (ht : t ≤ k) (p : Nat) (hp : p < 2 ^ k) :
    vec q (ctStages q psis k c t).1 p = partialCt k ψ (vec q c) t p := by
  induction t generalizing p with
  | zero => rw [partialCt_zero _ _ _ _ hp]; rfl
  | succ t ih =>
    rw [(ctStages_run psis ψ hpsis c hc (t + 1) ht).2.2.2 t rfl p hp,
      ct_congr k (k - (t + 1)) (by omega) _ _ _ _ (fun _ _ => rfl) (fun i hi => ih (by omega) i hi) p hp]
    exact ct_partialCt k ψ _ t (by omega) hψ p hp

/-- Gentleman–Sande stages undo Cooley–Tukey stages. -/
theorem gs_after_ct (psisInv : List Int) (ψ : ZMod q) (hψ : ψ ^ 2 ^ k = -1)
    (hinv : ∀ i, i < 2 ^ k → vec q psisInv i * ψ ^ (bitReversal i k + 1) = 1) (A : Nat → ZMod q)
    (d : List Int) (hd : d.length = 2 ^ k) (hA : ∀ p, p < 2 ^ k → vec q d p = partialCt k ψ A k p)
    (s : Nat) (hs : s ≤ k) (p : Nat) (hp : p < 2 ^ k) :
    vec q (gsStages q psisInv d s).1 p = 2 ^ s * partialCt k ψ A (k - s) p := by
  induction s generalizing p with
  | zero => simp only [gsStages, pow_zero, one_mul]; exact hA p hp
  | succ s ih =>
    rw [(gsStages_run psisInv d hd (s + 1) hs).2.2 s rfl p hp,
      gs_congr k s hs _ _ _ (fun i => 2 ^ s * ct (zeta k ψ (k - (s + 1))) (2 ^ s) (partialCt k ψ A (k - (s + 1))) i)
        (fun _ _ => rfl) (fun i hi => ?_) p hp, gs_smul,
      gs_ct _ _ _ (by positivity) (2 ^ k) (fun b hb => ?_) _ p hp, pow_succ]
    · ring
    · apply zeta_mul_zetaInv psisInv ψ hinv _ _ (by omega)
      obtain ⟨t, rfl⟩ : ∃ t, k = s + 1 + t := ⟨k - (s + 1), by omega⟩
      rw [Nat.add_sub_cancel_left]
      have : 2 ^ (s + 1 + t) = 2 * 2 ^ s * 2 ^ t := by rw [pow_add, pow_succ]; ring
      rw [this] at hb
      exact Nat.lt_of_mul_lt_mul_left hb
    · rw [ih (by omega) i hi]
      have h := ct_partialCt k ψ A (k - (s + 1)) (by omega) hψ i hi
      rw [show k - (k - (s + 1) + 1) = s by omega, show k - (s + 1) + 1 = k - s by omega] at h
      rw [← h]
      congr 2
      funext b
      unfold zeta
      rw [show k - (k - (s + 1) + 1) = s by omega]

/-- Cooley–Tukey stages undo Gentleman–Sande stages. -/
theorem ct_after_gs (psis psisInv : List Int) (ψ : ZMod q)
    (hpsis : ∀ i, i < 2 ^ k → vec q psis i = ψ ^ bitReversal i k)
    (hinv : ∀ i, i < 2 ^ k → vec q psisInv i * ψ ^ (bitReversal i k + 1) = 1) (b : List Int)
    (hb : b.length = 2 ^ k) (u : ZMod q) (d : List Int) (hd : d.length = 2 ^ k)
    (hA : ∀ p, p < 2 ^ k → vec q d p = u * vec q (gsStages q psisInv b k).1 p)
    (t : Nat) (ht : t ≤ k) (p : Nat) (hp : p < 2 ^ k) :
    vec q (ctStages q psis k d t).1 p = u * 2 ^ t * vec q (gsStages q psisInv b (k - t)).1 p := by
  induction t generalizing p with
  | zero => simp only [ctStages, pow_zero, mul_one]; exact hA p hp
  | succ t ih =>
    have hsub : k - t = (k - (t + 1)) + 1 := by omega
    rw [(ctStages_run psis ψ hpsis d hd (t + 1) ht).2.2.2 t rfl p hp,
      ct_congr k (k - (t + 1)) (by omega) _ _ _
        (fun i => u * 2 ^ t * gs (zetaInv k psisInv t) (2 ^ (k - (t + 1))) (vec q (gsStages q psisInv b (k - (t + 1))).1) i)
        (fun _ _ => rfl) (fun i hi => ?_) p hp, ct_smul,
      ct_gs _ _ _ (by positivity) (2 ^ k) (fun b hb => ?_) _ p hp, pow_succ]
    · ring
    · apply zeta_mul_zetaInv psisInv ψ hinv _ _ (by omega)
      obtain ⟨s, rfl⟩ : ∃ s, k = t + 1 + s := ⟨k - (t + 1), by omega⟩
      rw [Nat.add_sub_cancel_left] at hb
      have : 2 ^ (t + 1 + s) = 2 * 2 ^ s * 2 ^ t := by rw [pow_add, pow_succ]; ring
      rw [this] at hb
      exact Nat.lt_of_mul_lt_mul_left hb
    · rw [ih (by omega) i hi, (gsStages_run psisInv b hb (k - t) (by omega)).2.2 (k - (t + 1)) (by omega) i hi]
      rw [show k - (k - (t + 1) + 1) = t by omega]

end stages

end Verif.RnsNtt

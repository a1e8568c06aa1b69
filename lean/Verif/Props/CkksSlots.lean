import Verif.Props.SlotAlgebra
import Verif.Props.CkksRelin
import Verif.Props.CkksRotate
import Verif.Props.Conjugate

/-! # C72: homomorphic operations, seen through the slots -/

namespace Verif.Props
open Verif.Barrett Verif.NttBat Verif.Slots Verif.CkksKeys Verif.CkksMul Verif.CkksRotate Verif.Crt Verif.Encode

/-- The ciphertext is well formed over the moduli `q` and decrypts, under the key `s`, to the integer polynomial `m`
modulo every limb. -/
structure Holds (k : Nat) (q : List Nat) (s : Nat → Int) (ct : Ciphertext) (m : Nat → Int) : Prop where
  moduli : ct.moduli = q
  red0 : Reduced k q ct.c0
  red1 : Reduced k q ct.c1
  eq : ∀ i, i < q.length → ringOf k (q.getD i 0) (ct.c0 i) + ringOf k (q.getD i 0) (ct.c1 i) * polyOf k (q.getD i 0) s =
    polyOf k (q.getD i 0) m

theorem moduli_coprime {k : Nat} {q : List Nat} (h : Moduli k q) (hnd : q.Nodup) : q.Pairwise Nat.Coprime := by
  apply List.Pairwise.imp_of_mem _ hnd
  intro a b ha hb hab
  exact (Nat.coprime_primes (h.ntt a ha).prime (h.ntt b hb).prime).2 hab

/-- Decryption returns the residues of the polynomial a ciphertext holds. -/
theorem decrypt_holds (k t : Nat) (hk : k = t + 1) (ms : List Nat) (h : Moduli k ms) (s : Nat → Int) (sk : SecretKey)
    (hsk : HoldsKey k ms s sk) (n : Nat) (ct : Ciphertext) (m : Nat → Int) (hct : Holds k (ms.take n) s ct m) :
    ∃ pt, decrypt (2 ^ k) sk ct = .ok pt ∧ pt.moduli = ms.take n ∧
      ∀ i, i < (ms.take n).length → ∀ p, p < 2 ^ k → (pt.data i p : ℤ) = m p % ((ms.take n).getD i 0 : ℤ) := by
  subst hk
  have ht := h.take n
  have hlen : ∀ {i}, i < (ms.take n).length → i < ms.length := by
    intro i hi; simp at hi; omega
  obtain ⟨res, hres⟩ : ∃ res : Mat, res = fun i p =>
      add64 (ct.c0 i p) (mul64 (ct.c1 i p) (sk.data i p) % (ms.take n).getD i 0) % (ms.take n).getD i 0 := ⟨_, rfl⟩
  obtain ⟨C, c1, c2, c3⟩ := inttMat_ringOf ht res
  have hpre : ms.take n = ms.take (ms.take n).length := by
    simp only [List.length_take]
    rcases Nat.le_total n ms.length with hn | hn
    · rw [Nat.min_eq_left hn]
    · rw [Nat.min_eq_right hn, List.take_of_length_le hn, List.take_length]
  refine ⟨{ data := fun i p => C i p % 2 ^ 32, moduli := ms.take n }, ?_, rfl, ?_⟩
  · unfold decrypt
    rw [hct.moduli, hsk.moduli, if_neg (by simpa using hpre), ← hres]
    simp only [c1, bind, Except.bind, pure, Except.pure]
  · intro i hi p hp
    have hg : (ms.take n).getD i 0 = ms.getD i 0 := getD_take hi
    obtain ⟨hpr, hlt⟩ := ht.at hi
    have hq0 := hpr.prime.pos
    have e2 : ringOf (t + 1) ((ms.take n).getD i 0) (res i) = ringOf (t + 1) ((ms.take n).getD i 0) (ct.c0 i) +
        ringOf (t + 1) ((ms.take n).getD i 0) (ct.c1 i) * ringOf (t + 1) ((ms.take n).getD i 0) (sk.data i) := by
      rw [ringOf_eq_iff hpr]
      intro p hp'
      rw [map_add, map_mul, slot_ringOf hpr _ p hp', slot_ringOf hpr _ p hp', slot_ringOf hpr _ p hp', hres]
      simp only
      have z1 := hct.red0 i hi p hp'
      have z2 := hct.red1 i hi p hp'
      have z3 := hsk.reduced i (hlen hi) p hp'
      rw [← hg] at z3
      rw [mul64_eq (by omega) (by omega)]
      have z4 := Nat.mod_lt (ct.c1 i p * sk.data i p) hq0
      have z5 : add64 (ct.c0 i p) (ct.c1 i p * sk.data i p % (ms.take n).getD i 0) =
          ct.c0 i p + ct.c1 i p * sk.data i p % (ms.take n).getD i 0 := by unfold add64; omega
      rw [z5, ZMod.natCast_mod]
      simp only [Nat.cast_add, Nat.cast_mul, ZMod.natCast_mod]
    have e3 : ringOf (t + 1) ((ms.take n).getD i 0) (sk.data i) = polyOf (t + 1) ((ms.take n).getD i 0) s := by
      rw [hg]; exact hsk.ring i (hlen hi)
    have e4 : polyOf (t + 1) ((ms.take n).getD i 0) (fun p => (C i p : Int)) = polyOf (t + 1) ((ms.take n).getD i 0) m := by
      rw [c3 i hi, e2, e3, hct.eq i hi]
    have hb := c2 i hi p hp
    have r := polyOf_inj e4 p hp
    rw [← r]
    simp only
    rw [Nat.mod_eq_of_lt (by omega)]
    exact (Int.emod_eq_of_lt (by omega) (by exact_mod_cast hb)).symm

/-- C72: decryption followed by decoding returns the slots of the polynomial a ciphertext holds, if its coefficients are
in `(-Q/2, Q/2]`. The ciphertext may be over any non-empty prefix of the key's moduli. -/
theorem C72_decode (k t : Nat) (hk : k = t + 1) (ms : List Nat) (h : Moduli k ms) (hnd : ms.Nodup) (s : Nat → Int) (sk : SecretKey)
    (hsk : HoldsKey k ms s sk) (n : Nat) (hne : ms.take n ≠ []) (ct : Ciphertext) (m : Nat → Int)
    (hct : Holds k (ms.take n) s ct m)
    (hm : ∀ p, p < 2 ^ k → -((ms.take n).prod : ℤ) < 2 * m p ∧ 2 * m p ≤ (ms.take n).prod) (scale : ℝ) (numSlots : Nat) :
    ∃ pt, decrypt (2 ^ k) sk ct = .ok pt ∧
      decode (some (scale, numSlots)) (2 ^ k) pt false =
        .ok (((List.range (2 ^ t)).map (slotsOf (2 ^ k) m scale)).take numSlots) := by
  obtain ⟨pt, p1, p2, p3⟩ := decrypt_holds k t hk ms h s sk hsk n ct m hct
  subst hk
  have ht := h.take n
  exact ⟨pt, p1, (C69_decode t (ms.take n) hne (moduli_coprime ht (hnd.sublist (List.take_sublist n ms))) ht scale numSlots m hm pt p2).2 p3⟩

/-- Encryption of a plaintext that holds `x` gives a ciphertext that holds `x` plus noise of at most `W`. -/
theorem encrypt_holds (k t : Nat) (hk : k = t + 1) (ms : List Nat) (h : Moduli k ms)
    (s e : Nat → ℤ) (a : Mat) (Bs Be Bv : ℤ) (hBs0 : 0 ≤ Bs) (hBe0 : 0 ≤ Be) (hBv0 : 0 ≤ Bv)
    (hs : ∀ p, p < 2 ^ k → |s p| ≤ Bs) (he : ∀ p, p < 2 ^ k → |e p| ≤ Be) :
    ∃ pk sk, keygen (2 ^ k) ms s e a = .ok (pk, sk) ∧ HoldsKey k ms s sk ∧
    ∀ (n : Nat) (pt : Plaintext) (x : Nat → ℤ), pt.moduli = ms.take n → Reduced k (ms.take n) pt.data →
      (∀ i, i < (ms.take n).length → ringOf k ((ms.take n).getD i 0) (pt.data i) = polyOf k ((ms.take n).getD i 0) x) →
    ∀ (v e0 e1 : Nat → ℤ), (∀ p, p < 2 ^ k → |v p| ≤ Bv ∧ |e0 p| ≤ Be ∧ |e1 p| ≤ Be) →
    ∀ (W : ℤ), 2 ^ k * Bv * Be + Be + 2 ^ k * Be * Bs ≤ W →
    ∃ ct m, encrypt (2 ^ k) pk pt v e0 e1 = .ok ct ∧ Holds k (ms.take n) s ct m ∧
      (∀ (X : ℝ), (∀ p, p < 2 ^ k → |(x p : ℝ)| ≤ X) → ∀ p, p < 2 ^ k → |(m p : ℝ)| ≤ X + W) ∧
      ∀ (scale : ℝ), 0 < scale → ∀ (j : Nat) (z : ℂ) (E : ℝ), ‖slotsOf (2 ^ k) x scale j - z‖ ≤ E →
        ‖slotsOf (2 ^ k) m scale j - z‖ ≤ E + 2 ^ k * (W / scale) := by
  subst hk
  obtain ⟨pk, sk, k1, k2⟩ := C39_decrypt_encrypt (t + 1) ms h s e a
  obtain ⟨pk', sk', k1', k3⟩ := C40_keygen_holds (t + 1) ms h s e a
  obtain ⟨rfl, rfl⟩ := Prod.mk.inj (Except.ok.inj (k1.symm.trans k1'))
  refine ⟨pk, sk, k1, k3, ?_⟩
  intro n pt x x2 x3 x4 v e0 e1 hv W hW
  have hm := h.take n
  obtain ⟨ct, pt', c1, c2, c3, c4, c5, c6, c7⟩ := k2 n pt.data v e0 e1 x3
  obtain ⟨w, hw⟩ : ∃ w : Nat → ℤ, w = fun p => imul (t + 1) v e p + e0 p + imul (t + 1) e1 s p := ⟨_, rfl⟩
  have hwB : ∀ p, p < 2 ^ (t + 1) → |w p| ≤ W := by
    intro p hp
    have b1 := imul_abs (t + 1) v e Bv Be hBv0 hBe0 (fun p hp => (hv p hp).1) he p
    have b2 := imul_abs (t + 1) e1 s Be Bs hBe0 hBs0 (fun p hp => (hv p hp).2.2) hs p
    have b3 := (hv p hp).2.1
    rw [hw]
    exact (((abs_add_le _ _).trans (add_le_add ((abs_add_le _ _).trans (add_le_add b1 b3)) b2))).trans hW
  have hptEq : ({ data := pt.data, moduli := ms.take n } : Plaintext) = pt := by rw [← x2]
  rw [hptEq] at c1
  refine ⟨ct, fun p => x p + w p, c1, ⟨c2, c3, c4, ?_⟩, ?_, ?_⟩
  · intro i hi
    -- decryption returns the transform of c0 + c1 s, which is m + v e + e0 + e1 s
    have hgi : (ms.take n).getD i 0 = ms.getD i 0 := getD_take hi
    have r1 := x4 i hi
    obtain ⟨d1, d2⟩ := c7 i hi
    have hil : i < ms.length := by simp at hi; omega
    obtain ⟨hpr, hlt⟩ := hm.at hi
    rw [polyOf_add, hw, polyOf_add, polyOf_add, polyOf_imul, polyOf_imul, ← r1, hgi]
    have : polyOf (t + 1) (ms.getD i 0) (fun p => (pt'.data i p : Int)) = ringOf (t + 1) (ms.getD i 0) (ct.c0 i) +
        ringOf (t + 1) (ms.getD i 0) (ct.c1 i) * polyOf (t + 1) (ms.getD i 0) s := by
      obtain ⟨res, hres⟩ : ∃ res : Mat, res = fun i p =>
        add64 (ct.c0 i p) (mul64 (ct.c1 i p) (sk.data i p) % (ms.take n).getD i 0) % (ms.take n).getD i 0 := ⟨_, rfl⟩
      obtain ⟨C, y1, y2, y3⟩ := inttMat_ringOf hm res
      have hdec := c5
      unfold decrypt at hdec
      have hpre : ms.take n = ms.take (ms.take n).length := by
        simp only [List.length_take]
        rcases Nat.le_total n ms.length with hn | hn
        · rw [Nat.min_eq_left hn]
        · rw [Nat.min_eq_right hn, List.take_of_length_le hn, List.take_length]
      rw [c2, k3.moduli, if_neg (by simpa using hpre), ← hres] at hdec
      simp only [y1, bind, Except.bind, pure, Except.pure] at hdec
      have hpt := (Except.ok.inj hdec).symm
      have e2 : ringOf (t + 1) ((ms.take n).getD i 0) (res i) = ringOf (t + 1) ((ms.take n).getD i 0) (ct.c0 i) +
          ringOf (t + 1) ((ms.take n).getD i 0) (ct.c1 i) * ringOf (t + 1) ((ms.take n).getD i 0) (sk.data i) := by
        rw [ringOf_eq_iff hpr]
        intro p hp'
        have hq0 := hpr.prime.pos
        rw [map_add, map_mul, slot_ringOf hpr _ p hp', slot_ringOf hpr _ p hp', slot_ringOf hpr _ p hp', hres]
        simp only
        have z1 := c3 i hi p hp'
        have z2 := c4 i hi p hp'
        have z3 := k3.reduced i hil p hp'
        rw [← hgi] at z3
        rw [mul64_eq (by omega) (by omega)]
        have z4 := Nat.mod_lt (ct.c1 i p * sk.data i p) hq0
        have z5 : add64 (ct.c0 i p) (ct.c1 i p * sk.data i p % (ms.take n).getD i 0) =
            ct.c0 i p + ct.c1 i p * sk.data i p % (ms.take n).getD i 0 := by unfold add64; omega
        rw [z5, ZMod.natCast_mod]
        simp only [Nat.cast_add, Nat.cast_mul, ZMod.natCast_mod]
      rw [← k3.ring i hil, ← hgi, ← e2, ← y3 i hi, hpt]
      apply polyOf_congr
      intro p hp
      have := y2 i hi p hp
      simp only
      rw [Nat.mod_eq_of_lt (by omega)]
    rw [← this, d2]
    ring
  · intro X hX p hp
    have h1 := hX p hp
    have h2 : |(w p : ℝ)| ≤ W := by exact_mod_cast hwB p hp
    push_cast
    exact (abs_add_le _ _).trans (by linarith)
  · intro scale hsc j z E hE
    have h2 := slotEval_norm (2 ^ (t + 1)) (fun j => (w j : ℝ) / scale) (W / scale) (by
      intro j hj
      rw [abs_div, abs_of_pos hsc]
      exact div_le_div_of_nonneg_right (by exact_mod_cast hwB j hj) hsc.le) j
    rw [C71_sum]
    unfold slotsOf
    rw [add_sub_right_comm]
    refine (norm_add_le _ _).trans ((add_le_add hE h2).trans (le_of_eq ?_))
    push_cast
    ring

/-- C72: fresh encryptions of encoded slots hold a polynomial whose slots are within `N (1/2 + W) / scale` of the given
ones. -/
theorem C72_encrypt (k t : Nat) (hk : k = t + 1) (ms : List Nat) (h : Moduli k ms)
    (s e : Nat → ℤ) (a : Mat) (Bs Be Bv : ℤ) (hBs0 : 0 ≤ Bs) (hBe0 : 0 ≤ Be) (hBv0 : 0 ≤ Bv)
    (hs : ∀ p, p < 2 ^ k → |s p| ≤ Bs) (he : ∀ p, p < 2 ^ k → |e p| ≤ Be)
    (rnd : ℝ → ℤ) (hr : ∀ x, |(rnd x : ℝ) - x| ≤ 1 / 2) (scale : ℝ) (hsc : 0 < scale) :
    ∃ pk sk, keygen (2 ^ k) ms s e a = .ok (pk, sk) ∧ HoldsKey k ms s sk ∧
    ∀ (n : Nat) (slots : List ℂ), slots.length ≤ 2 ^ t → ∀ (B : ℝ), 0 ≤ B → (∀ z ∈ slots, ‖z‖ ≤ B) →
    ∀ (v e0 e1 : Nat → ℤ), (∀ p, p < 2 ^ k → |v p| ≤ Bv ∧ |e0 p| ≤ Be ∧ |e1 p| ≤ Be) →
    ∀ (W : ℤ), 2 ^ k * Bv * Be + Be + 2 ^ k * Be * Bs ≤ W →
    ∃ pt ct m, encode rnd (2 ^ k) (ms.take n) scale slots = .ok pt ∧
      encrypt (2 ^ k) pk pt v e0 e1 = .ok ct ∧ Holds k (ms.take n) s ct m ∧
      (∀ p, p < 2 ^ k → |(m p : ℝ)| ≤ B * scale + 1 / 2 + W) ∧
      ∀ j, j < 2 ^ t → ‖slotsOf (2 ^ k) m scale j - slots.getD j 0‖ ≤ 2 ^ k * ((1 / 2 + W) / scale) := by
  obtain ⟨pk, sk, k1, k3, k4⟩ := encrypt_holds k t hk ms h s e a Bs Be Bv hBs0 hBe0 hBv0 hs he
  refine ⟨pk, sk, k1, k3, ?_⟩
  intro n slots hsl B hB0 hB v e0 e1 hv W hW
  subst hk
  obtain ⟨pt, x, x1, x2, x3, x4, x5, x6⟩ := C69_encode t (ms.take n) (h.take n) rnd hr scale hsc slots hsl B hB0 hB
  obtain ⟨ct, m, c1, c2, c3, c4⟩ := k4 n pt x x2 x3 x4 v e0 e1 hv W hW
  refine ⟨pt, ct, m, x1, c1, c2, c3 _ x5, fun j hj => (c4 scale hsc j _ _ (x6 j hj)).trans (le_of_eq ?_)⟩
  ring

/-- C72: adding the components with either modular kernel adds the slots. -/
theorem C72_add (k : Nat) (q : List Nat) (h : Moduli k q) (h31 : ∀ m ∈ q, m < 2 ^ 31) (s : Nat → Int) (A B : Ciphertext)
    (mA mB : Nat → Int) (hA : Holds k q s A mA) (hB : Holds k q s B mB) :
    Holds k q s { c0 := fun i p => addModularSubtract (q.getD i 0) (A.c0 i p) (B.c0 i p),
                  c1 := fun i p => addModularSubtract (q.getD i 0) (A.c1 i p) (B.c1 i p), moduli := q } (fun p => mA p + mB p) ∧
    (∀ i, i < q.length → ∀ p, p < 2 ^ k →
      addModularBarrett (some (precompute (q.getD i 0))) (A.c0 i p) (B.c0 i p) =
        .ok (addModularSubtract (q.getD i 0) (A.c0 i p) (B.c0 i p)) ∧
      addModularBarrett (some (precompute (q.getD i 0))) (A.c1 i p) (B.c1 i p) =
        .ok (addModularSubtract (q.getD i 0) (A.c1 i p) (B.c1 i p))) ∧
    ∀ (scale : ℝ) (j : Nat), slotsOf (2 ^ k) (fun p => mA p + mB p) scale j =
      slotsOf (2 ^ k) mA scale j + slotsOf (2 ^ k) mB scale j := by
  have hadd : ∀ (x y : Mat), Reduced k q x → Reduced k q y → ∀ i, i < q.length → ∀ p, p < 2 ^ k →
      addModularSubtract (q.getD i 0) (x i p) (y i p) = (x i p + y i p) % q.getD i 0 :=
    fun x y hx hy i hi p hp => C29_subtract _ _ _ (h31 _ (getD_mem hi)) (hx i hi p hp) (hy i hi p hp)
  have hred : ∀ (x y : Mat), Reduced k q x → Reduced k q y →
      Reduced k q (fun i p => addModularSubtract (q.getD i 0) (x i p) (y i p)) := by
    intro x y hx hy i hi p hp
    beta_reduce
    rw [hadd x y hx hy i hi p hp]
    exact Nat.mod_lt _ (h.at hi).1.prime.pos
  have hring : ∀ (x y : Mat), Reduced k q x → Reduced k q y → ∀ i, i < q.length →
      ringOf k (q.getD i 0) (fun p => addModularSubtract (q.getD i 0) (x i p) (y i p)) =
        ringOf k (q.getD i 0) (x i) + ringOf k (q.getD i 0) (y i) := by
    intro x y hx hy i hi
    obtain ⟨hp, -⟩ := h.at hi
    rw [ringOf_eq_iff hp]
    intro p hp'
    rw [map_add, slot_ringOf hp _ p hp', slot_ringOf hp _ p hp', hadd x y hx hy i hi p hp', ZMod.natCast_mod, Nat.cast_add]
  refine ⟨⟨rfl, hred _ _ hA.red0 hB.red0, hred _ _ hA.red1 hB.red1, ?_⟩, ?_, fun scale j => C71_sum _ _ _ _ _⟩
  · intro i hi
    simp only
    rw [hring _ _ hA.red0 hB.red0 i hi, hring _ _ hA.red1 hB.red1 i hi, polyOf_add, ← hA.eq i hi, ← hB.eq i hi]
    ring
  · intro i hi p hp
    have h1 := h31 _ (getD_mem hi)
    exact ⟨(C29_agree _ _ _ h1 (hA.red0 i hi p hp) (hB.red0 i hi p hp)).1,
      (C29_agree _ _ _ h1 (hA.red1 i hi p hp) (hB.red1 i hi p hp)).1⟩

/-- The slots of a small error polynomial are small. -/
theorem slotsOf_small (N : Nat) (η : Nat → ℤ) (H : ℤ) (hη : ∀ p, p < N → |η p| ≤ H) (scale : ℝ) (hsc : 0 < scale) (j : Nat) :
    ‖slotsOf N η scale j‖ ≤ N * (H / scale) := by
  unfold slotsOf
  apply slotEval_norm
  intro p hp
  rw [abs_div, abs_of_pos hsc]
  exact div_le_div_of_nonneg_right (by exact_mod_cast hη p hp) hsc.le

/-- From `P |η| ≤ E ≤ P H` to `|η| ≤ H`. -/
theorem noise_le {P E H η : ℤ} (hP : 0 < P) (h1 : P * |η| ≤ E) (h2 : E ≤ P * H) : |η| ≤ H :=
  le_of_mul_le_mul_left (h1.trans h2) hP

theorem prod_pos_of {k : Nat} {p : List Nat} (h : Moduli k p) : 0 < (p.prod : ℤ) := by
  have : 0 < p.prod := List.prod_pos (fun m hm => (h.ntt m hm).prime.pos)
  exact_mod_cast this

/-- Decryption and decoding of a ciphertext that holds `m` plus a small error. -/
theorem decode_close (k t : Nat) (hk : k = t + 1) (q : List Nat) (h : Moduli k q) (hnd : q.Nodup) (hne : q ≠ []) (s : Nat → Int)
    (sk : SecretKey) (hsk : HoldsKey k q s sk) (ct : Ciphertext) (m η : Nat → Int) (hct : Holds k q s ct (fun p => m p + η p))
    (M H : Int) (hM : ∀ p, p < 2 ^ k → |m p| ≤ M) (hη : ∀ p, p < 2 ^ k → |η p| ≤ H) (hrange : 2 * (M + H) < (q.prod : ℤ))
    (scale : ℝ) (hsc : 0 < scale) (numSlots : Nat) (hn : numSlots ≤ 2 ^ t) :
    ∃ pt out, decrypt (2 ^ k) sk ct = .ok pt ∧ decode (some (scale, numSlots)) (2 ^ k) pt false = .ok out ∧
      out.length = numSlots ∧
      ∀ j, j < numSlots → ‖out.getD j 0 - slotsOf (2 ^ k) m scale j‖ ≤ 2 ^ k * (H / scale) := by
  obtain ⟨pt, d1, d2⟩ := C72_decode k t hk q h hnd s sk hsk q.length (by rw [List.take_length]; exact hne) ct _
    (by rw [List.take_length]; exact hct) (by
    intro x hx
    rw [List.take_length]
    have a1 := abs_le.1 (hM x hx)
    have a2 := abs_le.1 (hη x hx)
    constructor <;> linarith [a1.1, a1.2, a2.1, a2.2]) scale numSlots
  refine ⟨pt, _, d1, d2, by simp; omega, ?_⟩
  intro j hj
  rw [List.getD_eq_getElem _ _ (by simp; omega)]
  simp only [List.getElem_take, List.getElem_map, List.getElem_range]
  rw [C71_sum, add_sub_cancel_left]
  refine (slotsOf_small (2 ^ k) η H hη scale hsc j).trans (by push_cast; exact le_rfl)

/-- C72: homomorphic multiplication (`tensor_multiply` and `relinearize` with a generated evaluation key), decryption and
decoding with the product of the scales return the products of the slots up to `N H / (sA sC)`, where `H` bounds the
relinearisation noise. -/
theorem C72_multiply (kr kc t : Nat) (hk : kr + kc = t + 1) (q p : List Nat) (h : Basis kr kc q p) (dnum : Nat) (hd : 0 < dnum)
    (original : List Nat) (deg : Nat) (hdrop : Dropped original deg q)
    (s : Nat → Int) (hs : Binary s) (sk : SecretKey) (hsk : HoldsKey (kr + kc) q s sk)
    (A C : Ciphertext) (mA mC : Nat → Int) (hA : Holds (kr + kc) q s A mA) (hC : Holds (kr + kc) q s C mC)
    (BA BC : Int) (hBA0 : 0 ≤ BA) (hBC0 : 0 ≤ BC) (hBA : ∀ p, p < 2 ^ (kr + kc) → |mA p| ≤ BA)
    (hBC : ∀ p, p < 2 ^ (kr + kc) → |mC p| ≤ BC)
    (rand : Nat → Mat × (Nat → Int)) (B : Int) (hB0 : 0 ≤ B)
    (hB : ∀ part, part < dnum → ∀ t, t < 2 ^ (kr + kc) → |(rand part).2 t| ≤ B)
    (H : Int) (hH : (∑ part ∈ Finset.range dnum,
        2 ^ (kr + kc) * (((partModuli q dnum part).length * (partModuli q dnum part).prod : Nat) : Int) * B) +
        ((p.length * p.prod : Nat) : Int) * (1 + 2 ^ (kr + kc)) ≤ p.prod * H)
    (hrange : 2 * (2 ^ (kr + kc) * BA * BC + H) < (q.prod : ℤ))
    (sA sC : ℝ) (hsA : 0 < sA) (hsC : 0 < sC) (numSlots : Nat) (hn : numSlots ≤ 2 ^ t) :
    ∃ K keys t0 t1 t2 r0 r1 pt out, precomputeMul original p dnum (2 ^ kr) (2 ^ kc) deg = .ok K ∧
      genEvaluationKey (2 ^ (kr + kc)) sk q p dnum rand = .ok keys ∧
      tensorMultiply (some K) A C = .ok (t0, t1, t2) ∧ relinearize (some K) t0 t1 t2 keys = .ok (r0, r1) ∧
      decrypt (2 ^ (kr + kc)) sk { c0 := r0, c1 := r1, moduli := q } = .ok pt ∧
      decode (some (sA * sC, numSlots)) (2 ^ (kr + kc)) pt false = .ok out ∧ out.length = numSlots ∧
      ∀ j, j < numSlots → ‖out.getD j 0 - slotsOf (2 ^ (kr + kc)) mA sA j * slotsOf (2 ^ (kr + kc)) mC sC j‖ ≤
        2 ^ (kr + kc) * (H / (sA * sC)) := by
  obtain ⟨K, keys, t0, t1, t2, r0, r1, e1, e2, e3, e4, e5, e6, η, e7, e8⟩ := C45_multiply kr kc q p h dnum hd original deg hdrop
    A C hA.moduli hA.red0 hA.red1 hC.red0 hC.red1 s hs sk hsk rand B hB0 hB
  have hη : ∀ x, x < 2 ^ (kr + kc) → |η x| ≤ H := fun x hx => noise_le (prod_pos_of h.right) (e7 x hx) hH
  have hz := imul_abs (kr + kc) mA mC BA BC hBA0 hBC0 hBA hBC
  have hct : Holds (kr + kc) q s { c0 := r0, c1 := r1, moduli := q } (fun x => imul (kr + kc) mA mC x + η x) := by
    refine ⟨rfl, e5, e6, ?_⟩
    intro i hi
    simp only
    rw [e8 i hi, hA.eq i hi, hC.eq i hi, polyOf_add, polyOf_imul]
  obtain ⟨pt, out, d1, d2, d3, d4⟩ := decode_close (kr + kc) t hk q h.left (List.nodup_append.1 h.nodup).1 h.neQ s sk hsk _ _ η hct
    _ H (fun x _ => hz x) hη hrange (sA * sC) (mul_pos hsA hsC) numSlots hn
  refine ⟨K, keys, t0, t1, t2, r0, r1, pt, out, e1, e2, e3, e4, d1, d2, d3, ?_⟩
  intro j hj
  have := d4 j hj
  rw [hk] at this ⊢
  rw [← C71_product t mA mC _ (imul_isNegaMul (t + 1) mA mC)]
  exact this

/-- C72: a homomorphic rotation with a generated key (`gen_hmuxrot_key` for the bit 1, `hmuxrot`) by `r`, decryption and
decoding return the slots rotated right by `r`: output slot `(j + r) mod N/2` is input slot `j`, up to `N H / scale`. -/
theorem C72_rotate (kr kc t : Nat) (hk : kr + kc = t + 1) (q p : List Nat) (h : Basis kr kc q p) (hc : Chain kr kc (q ++ p))
    (s : Nat → Int) (hs : Binary s) (sk : SecretKey) (hsk : HoldsKey (kr + kc) q s sk) (hP : p.prod < 2 ^ 64) (r : Nat)
    (rand0 rand1 : Mat × (Nat → Int)) (B : Int) (hB0 : 0 ≤ B)
    (hB : ∀ t, t < 2 ^ (kr + kc) → |rand0.2 t| ≤ B ∧ |rand1.2 t| ≤ B)
    (ct : Ciphertext) (m : Nat → Int) (hct : Holds (kr + kc) q s ct m) (M : Int) (hM : ∀ p, p < 2 ^ (kr + kc) → |m p| ≤ M)
    (H : Int) (hH : rotNoise (kr + kc) q p B 1 ≤ p.prod * H) (hrange : 2 * (M + H) < (q.prod : ℤ))
    (scale : ℝ) (hsc : 0 < scale) :
    ∃ ext key K ct' pt out, extendSecretKey (2 ^ (kr + kc)) sk (q ++ p) = .ok ext ∧
      genHmuxrotKey (2 ^ (kr + kc)) sk 1 r q p rand0 rand1 (some ext) = .ok key ∧
      CkksRotate.precompute q p 1 (2 ^ kr) (2 ^ kc) p.length = .ok K ∧
      hmuxrot K (2 ^ (kr + kc)) ct key r p 0 = .ok ct' ∧ decrypt (2 ^ (kr + kc)) sk ct' = .ok pt ∧
      decode (some (scale, 2 ^ t)) (2 ^ (kr + kc)) pt false = .ok out ∧ out.length = 2 ^ t ∧
      ∀ j, j < 2 ^ t → ‖out.getD ((j + r) % 2 ^ t) 0 - slotsOf (2 ^ (kr + kc)) m scale j‖ ≤ 2 ^ (kr + kc) * (H / scale) := by
  obtain ⟨ext, x1, x2⟩ := C40_extend (kr + kc) q p h.left h.right h.neQ s hs sk hsk
  obtain ⟨g, g1, g2, g3, g4⟩ := rotationGenerator_spec (kr + kc) r
  obtain ⟨sRot, hrot⟩ := C42_subst_exists (kr + kc) g g2 s
  obtain ⟨mRot, hmrot⟩ := C42_subst_exists (kr + kc) g g2 m
  obtain ⟨key, y1, y2⟩ := C46_generated_key (kr + kc) q p h.left h.right s sk hsk ext x2 1 r le_rfl hP g g3 g4 sRot hrot rand0 rand1
  obtain ⟨K, z1, z2⟩ := C46_hmuxrot kr kc q p h hc
  obtain ⟨ct', w1, w2, w3, w4, η, w5, w6⟩ := z2 s sRot 1 (by norm_num) (fun x _ => by rcases hs x with h | h <;> rw [h] <;> norm_num)
    1 r g g2 g3 g4 hrot rand0.2 rand1.2 B hB0 hB key y2 ct hct.moduli hct.red0 hct.red1
  have hη : ∀ x, x < 2 ^ (kr + kc) → |η x| ≤ H := fun x hx => noise_le (prod_pos_of h.right) (w5 x hx) hH
  have hct' : Holds (kr + kc) q s ct' (fun x => mRot x + η x) := by
    refine ⟨w2, w3, w4, ?_⟩
    intro i hi
    rw [w6 i hi, hct.eq i hi, sigma_isSubst _ _ g g2 _ _ hmrot, polyOf_add]
    push_cast
    ring
  have hMrot : ∀ x, x < 2 ^ (kr + kc) → |mRot x| ≤ M := by
    intro x hx
    have hcop : Nat.Coprime g (2 ^ (kr + kc)) := Nat.Coprime.pow_right _ (by
      rw [Nat.coprime_two_right]; exact Nat.odd_iff.2 g2)
    have : x ∈ (Finset.range (2 ^ (kr + kc))).image (fun j => g * j % 2 ^ (kr + kc)) := by
      rw [image_mul_mod _ _ hcop]; exact Finset.mem_range.2 hx
    obtain ⟨j, hj, rfl⟩ := Finset.mem_image.1 this
    have hj' := Finset.mem_range.1 hj
    rw [hmrot j hj']
    split
    · exact hM j hj'
    · rw [abs_neg]; exact hM j hj'
  obtain ⟨pt, out, d1, d2, d3, d4⟩ := decode_close (kr + kc) t hk q h.left (List.nodup_append.1 h.nodup).1 h.neQ s sk hsk _ _ η hct'
    M H hMrot hη hrange scale hsc (2 ^ t) le_rfl
  refine ⟨ext, key, K, ct', pt, out, x1, y1, z1, w1, d1, d2, d3, ?_⟩
  intro j hj
  have hpos : 0 < 2 ^ t := by positivity
  have := d4 ((j + r) % 2 ^ t) (Nat.mod_lt _ hpos)
  rw [hk] at this ⊢ hmrot g4
  have hper : ∀ (c i : Nat), slotsOf (2 ^ (t + 1)) mRot scale (i + 2 ^ t * c) = slotsOf (2 ^ (t + 1)) mRot scale i := by
    intro c
    induction c with
    | zero => intro i; simp
    | succ c ih => intro i; rw [Nat.mul_succ, ← Nat.add_assoc, C71_period, ih]
  have e : slotsOf (2 ^ (t + 1)) mRot scale ((j + r) % 2 ^ t) = slotsOf (2 ^ (t + 1)) m scale j := by
    rw [← C71_rotate_right t r g g4 m mRot hmrot scale j]
    conv_rhs => rw [← Nat.mod_add_div (j + r) (2 ^ t), hper]
  rw [e] at this
  exact this

/-- C72: homomorphic conjugation with any valid conjugation key, decryption and decoding return the complex conjugates of
the slots, up to `N H / scale`. -/
theorem C72_conjugate (kr kc t : Nat) (hk : kr + kc = t + 1) (q p : List Nat) (h : Basis kr kc q p) (hc : Chain kr kc (q ++ p))
    (dnum : Nat) (hd : 0 < dnum) (hparts : (dnum - 1) * ((q.length + dnum - 1) / dnum) < q.length)
    (bc : BcKernel) (start : Nat)
    (hbc : ∀ part, part < dnum → bc[start + part]? = some (partModuli q dnum part, otherModuli q p dnum part))
    (s sInv : Nat → Int) (hs : Binary s) (sk : SecretKey) (hsk : HoldsKey (kr + kc) q s sk) (hs0 : sInv 0 = s 0)
    (hsj : ∀ j, 0 < j → j < 2 ^ (kr + kc) → sInv (2 ^ (kr + kc) - j) = -s j)
    (src : Mat) (hsrc : ∀ i, i < q.length → ringOf (kr + kc) (q.getD i 0) (src i) = polyOf (kr + kc) (q.getD i 0) sInv)
    (e : Nat → Nat → Int) (B : Int) (hB0 : 0 ≤ B) (hB : ∀ part, part < dnum → ∀ t, t < 2 ^ (kr + kc) → |e part t| ≤ B)
    (keys : EvalKeys) (hkeys : SwitchKey (kr + kc) q p dnum s src e keys)
    (ct : Ciphertext) (m : Nat → Int) (hct : Holds (kr + kc) q s ct m) (M : Int) (hM : ∀ p, p < 2 ^ (kr + kc) → |m p| ≤ M)
    (H : Int) (hH : (∑ part ∈ Finset.range dnum,
        2 ^ (kr + kc) * (((partModuli q dnum part).length * (partModuli q dnum part).prod : Nat) : Int) * B) +
        ((p.length * p.prod : Nat) : Int) * (1 + 2 ^ (kr + kc)) ≤ p.prod * H)
    (hrange : 2 * (M + H) < (q.prod : ℤ)) (scale : ℝ) (hsc : 0 < scale) (numSlots : Nat) (hn : numSlots ≤ 2 ^ t) :
    ∃ S R ct' pt out, precomputeSwitch q p dnum (2 ^ kr) (2 ^ kc) = .ok S ∧
      Rescale.precompute (q ++ p) p.length (2 ^ kr) (2 ^ kc) = .ok R ∧
      conjugate S R (2 ^ (kr + kc)) ct keys p bc (some (q ++ p)) start = .ok ct' ∧
      decrypt (2 ^ (kr + kc)) sk ct' = .ok pt ∧ decode (some (scale, numSlots)) (2 ^ (kr + kc)) pt false = .ok out ∧
      out.length = numSlots ∧
      ∀ j, j < numSlots → ‖out.getD j 0 - (starRingEnd ℂ) (slotsOf (2 ^ (kr + kc)) m scale j)‖ ≤ 2 ^ (kr + kc) * (H / scale) := by
  have hN := Nat.one_le_two_pow (n := kr + kc)
  obtain ⟨S, R, r1, r2, r3⟩ := C43_conjugate kr kc q p h hc dnum hd hparts
  obtain ⟨mInv, hmInv⟩ : ∃ mInv : Nat → Int, mInv = fun j => if j = 0 then m 0 else -m (2 ^ (kr + kc) - j) := ⟨_, rfl⟩
  have hm0 : mInv 0 = m 0 := by rw [hmInv]; simp
  have hmj : ∀ j, 0 < j → j < 2 ^ (kr + kc) → mInv (2 ^ (kr + kc) - j) = -m j := by
    intro j h1 h2
    rw [hmInv]
    simp only
    rw [if_neg (by omega), show 2 ^ (kr + kc) - (2 ^ (kr + kc) - j) = j by omega]
  have hMI : ∀ x, x < 2 ^ (kr + kc) → |mInv x| ≤ M := by
    intro x hx
    rw [hmInv]
    simp only
    split
    · exact hM 0 (by omega)
    · rw [abs_neg]; exact hM _ (by omega)
  obtain ⟨ct', c1, c2, c3, c4, η, c5, c6⟩ := r3 bc start hbc s sInv 1 (by norm_num)
    (fun x _ => by rcases hs x with h | h <;> rw [h] <;> norm_num) hs0 hsj src hsrc e B hB0 hB keys hkeys ct hct.moduli hct.red0
    hct.red1 m mInv hm0 hmj hct.eq
  have hη : ∀ x, x < 2 ^ (kr + kc) → |η x| ≤ H := fun x hx => noise_le (prod_pos_of h.right) (c5 x hx) (by rw [mul_one]; exact hH)
  obtain ⟨pt, out, d1, d2, d3, d4⟩ := decode_close (kr + kc) t hk q h.left (List.nodup_append.1 h.nodup).1 h.neQ s sk hsk ct' mInv η
    ⟨c2, c3, c4, c6⟩ M H hMI hη hrange scale hsc numSlots hn
  refine ⟨S, R, ct', pt, out, r1, r2, c1, d1, d2, d3, ?_⟩
  intro j hj
  have := d4 j hj
  rw [hk] at this ⊢ hmj
  rw [← C71_conjugate t m mInv hm0 hmj]
  exact this

/-- C72: multiplication by a plaintext (`mul` with the Barrett kernel on both components) multiplies the slots; the scales
multiply. `x` are the plaintext's coefficients, as `C69_encode` produces them. -/
theorem C72_plain (t : Nat) (q : List Nat) (h : Moduli (t + 1) q) (hg : ∀ m ∈ q, GoodModulus m) (s : Nat → Int) (ct : Ciphertext)
    (m : Nat → Int) (hct : Holds (t + 1) q s ct m) (pt : Mat) (hpt : Reduced (t + 1) q pt) (x : Nat → Int)
    (hx : ∀ i, i < q.length → ringOf (t + 1) (q.getD i 0) (pt i) = polyOf (t + 1) (q.getD i 0) x) :
    ∃ r0 r1 m', mulBarrett (some q) q q ct.c0 pt = .ok r0 ∧ mulBarrett (some q) q q ct.c1 pt = .ok r1 ∧
      Holds (t + 1) q s { c0 := r0, c1 := r1, moduli := q } m' ∧
      (∀ M X : Int, 0 ≤ M → 0 ≤ X → (∀ p, p < 2 ^ (t + 1) → |m p| ≤ M) → (∀ p, p < 2 ^ (t + 1) → |x p| ≤ X) →
        ∀ p, |m' p| ≤ 2 ^ (t + 1) * M * X) ∧
      ∀ (sA sC : ℝ) (j : Nat), slotsOf (2 ^ (t + 1)) m' (sA * sC) j =
        slotsOf (2 ^ (t + 1)) m sA j * slotsOf (2 ^ (t + 1)) x sC j := by
  obtain ⟨r0, r1, a0, a1, b0, b1, -, c⟩ := C44_plain (t + 1) q h hg ct.c0 ct.c1 pt hct.red0 hct.red1 hpt
  refine ⟨r0, r1, imul (t + 1) m x, a0, a1, ⟨rfl, b0, b1, ?_⟩, ?_, ?_⟩
  · intro i hi
    simp only
    rw [c i hi, hct.eq i hi, hx i hi, polyOf_imul]
  · intro M X hM0 hX0 hM hX p
    exact imul_abs (t + 1) m x M X hM0 hX0 hM hX p
  · intro sA sC j
    exact (C71_product t m x _ (imul_isNegaMul (t + 1) m x) sA sC j)

/-- C72: rescaling a ciphertext by the moduli `p` keeps the slots, with the scale divided by the product of `p`, up to
`N (2 + |p| (1 + N)) / (scale / P)`. -/
theorem C72_rescale (kr kc : Nat) (q p : List Nat) (h : Basis kr kc q p) (hc : Chain kr kc (q ++ p)) :
    ∃ K, Rescale.precompute (q ++ p) p.length (2 ^ kr) (2 ^ kc) = .ok K ∧
      ∀ (s : Nat → Int) (_ : Binary s) (ct : Ciphertext) (m : Nat → Int) (_ : Holds (kr + kc) (q ++ p) s ct m),
      ∃ ct' m', rescaleCt K (2 ^ (kr + kc)) ct = .ok ct' ∧ Holds (kr + kc) q s ct' m' ∧
        (∀ x, x < 2 ^ (kr + kc) → |p.prod * m' x - m x| ≤ p.prod * (2 + p.length * (1 + 2 ^ (kr + kc)))) ∧
        ∀ (scale : ℝ) (_ : 0 < scale) (j : Nat),
          ‖slotsOf (2 ^ (kr + kc)) m' (scale / p.prod) j - slotsOf (2 ^ (kr + kc)) m scale j‖ ≤
            2 ^ (kr + kc) * ((2 + p.length * (1 + 2 ^ (kr + kc))) / (scale / p.prod)) := by
  obtain ⟨K, k1, k2⟩ := rescaleCt_spec h hc
  refine ⟨K, k1, ?_⟩
  intro s hs ct m hct
  have hP := prod_pos_of h.right
  obtain ⟨ct', c1, c2, c3, c4, c5⟩ := k2 ct hct.moduli hct.red0 hct.red1
  have hzero : ∀ i, q.length ≤ i → i < (q ++ p).length → ((p.prod : Int) : Rq (kr + kc) ((q ++ p).getD i 0)) = 0 := by
    intro i h1 h2
    have hmem : (q ++ p).getD i 0 ∈ p := by
      rw [List.getD_append_right _ _ _ _ h1]
      exact getD_mem (by rw [List.length_append] at h2; omega)
    obtain ⟨d, hd⟩ := List.dvd_prod hmem
    rw [hd]
    push_cast
    have : (((q ++ p).getD i 0 : Nat) : Rq (kr + kc) ((q ++ p).getD i 0)) = 0 := by
      have := map_natCast (algebraMap (ZMod ((q ++ p).getD i 0)) (Rq (kr + kc) ((q ++ p).getD i 0))) ((q ++ p).getD i 0)
      rw [← this, ZMod.natCast_self, map_zero]
    rw [this, zero_mul]
  have hdecomp : ∀ n, polyOf (kr + kc) n m = (p.prod : Rq (kr + kc) n) * polyOf (kr + kc) n (fun x => m x / p.prod) +
      polyOf (kr + kc) n (fun x => m x % p.prod) := by
    intro n
    rw [← Int.cast_natCast, ← polyOf_smul, ← polyOf_add]
    congr 1
    funext x
    rw [add_comm]
    exact (Int.emod_add_mul_ediv (m x) p.prod).symm
  obtain ⟨η, e1, e2⟩ := c5 s 1 (by norm_num) (fun x _ => by rcases hs x with h | h <;> rw [h] <;> norm_num)
    (fun i => polyOf (kr + kc) (q.getD i 0) (fun x => m x / p.prod)) (fun x => m x % p.prod) p.prod
    (fun x _ => by
      rw [abs_of_nonneg (Int.emod_nonneg _ hP.ne')]
      exact (Int.emod_lt_of_pos _ hP).le)
    (by
      intro i hi
      have := hct.eq i (by rw [List.length_append]; omega)
      have hg : (q ++ p).getD i 0 = q.getD i 0 := List.getD_append _ _ _ _ hi
      rw [hg] at this
      rw [this, hdecomp])
    (by
      intro i h1 h2
      rw [hct.eq i h2, hdecomp]
      have := hzero i h1 h2
      rw [Int.cast_natCast] at this
      rw [this, zero_mul, zero_add])
  have hb : ∀ x, x < 2 ^ (kr + kc) → |p.prod * (m x / p.prod + η x) - m x| ≤ p.prod * (2 + p.length * (1 + 2 ^ (kr + kc))) := by
    intro x hx
    have h1 := e1 x hx
    have h2 := Int.emod_nonneg (m x) hP.ne'
    have h3 := Int.emod_lt_of_pos (m x) hP
    have h4 := Int.emod_add_mul_ediv (m x) p.prod
    have h5 : (p.prod : ℤ) * (m x / p.prod + η x) - m x = p.prod * η x - m x % p.prod := by linarith
    rw [h5]
    refine (abs_sub _ _).trans ?_
    rw [abs_mul, abs_of_pos hP, abs_of_nonneg h2]
    generalize p.prod = P at h1 h3 ⊢
    rw [Nat.cast_mul] at h1
    linarith
  refine ⟨ct', fun x => m x / p.prod + η x, c1, ⟨c2, c3, c4, ?_⟩, hb, ?_⟩
  · intro i hi
    rw [e2 i hi, polyOf_add]
  · intro scale hsc j
    have hPr : (0 : ℝ) < p.prod := by exact_mod_cast hP
    have e3 : slotsOf (2 ^ (kr + kc)) (fun x => m x / p.prod + η x) (scale / p.prod) j =
        slotsOf (2 ^ (kr + kc)) (fun x => m x + (p.prod * (m x / p.prod + η x) - m x)) scale j := by
      unfold slotsOf
      congr 1
      funext x
      beta_reduce
      rw [add_sub_cancel, Int.cast_mul, Int.cast_natCast]
      field_simp
    rw [e3, C71_sum, add_sub_cancel_left]
    refine (slotsOf_small _ _ _ hb scale hsc j).trans (le_of_eq ?_)
    generalize p.prod = P at *
    push_cast
    field_simp

/-- Ciphertexts, keys and noise bounds that meet the hypotheses of `C72_multiply` (with them those of `C72_decode`,
`C72_add` and `C72_plain`): two fresh encryptions of the slot `3`
with scale 1000, and relinearisation noise at most 5. -/
example : ∃ (s : Nat → Int) (sk : SecretKey) (A C : Ciphertext) (mA mC : Nat → Int), Binary s ∧ s 1 = 1 ∧
    HoldsKey 1 [12289, 40961] s sk ∧ Holds 1 [12289, 40961] s A mA ∧ Holds 1 [12289, 40961] s C mC ∧
    (∀ p, p < 2 ^ 1 → |mA p| ≤ 3100) ∧ (∀ p, p < 2 ^ 1 → |mC p| ≤ 3100) ∧
    ‖slotsOf (2 ^ 1) mA 1000 0 - 3‖ ≤ 2 ^ 1 * ((1 / 2 + ((5 : Int) : ℝ)) / 1000) ∧
    (∑ part ∈ Finset.range 2, 2 ^ 1 * (((partModuli [12289, 40961] 2 part).length *
        (partModuli [12289, 40961] 2 part).prod : Nat) : Int) * 1) +
      (([65537].length * [65537].prod : Nat) : Int) * (1 + 2 ^ 1) ≤ (65537 : Int) * 5 ∧
    2 * (2 ^ 1 * 3100 * 3100 + 5) < (([12289, 40961].prod : Nat) : ℤ) := by
  obtain ⟨s, hs⟩ : ∃ s : Nat → Int, s = fun p => if p = 1 then 1 else 0 := ⟨_, rfl⟩
  have hb : ∀ p, s p = 0 ∨ s p = 1 := fun p => by rw [hs]; by_cases hp : p = 1 <;> simp [hp]
  obtain ⟨pk, sk, -, h2, h3⟩ := C72_encrypt 1 0 rfl [12289, 40961] basis_example.left s (fun _ => 1) (fun _ _ => 0) 1 1 1
    (by norm_num) (by norm_num) (by norm_num) (fun p _ => by rcases hb p with h | h <;> rw [h] <;> norm_num)
    (fun _ _ => by norm_num) round (fun x => by rw [abs_sub_comm]; exact abs_sub_round x) 1000 (by norm_num)
  obtain ⟨pt, ct, m, -, -, e3, e4, e5⟩ := h3 2 [3] (by simp) 3 (by norm_num) (by simp) (fun _ => 1) (fun _ => -1) (fun _ => 1)
    (fun _ _ => by norm_num) 5 (by norm_num)
  have hm : ∀ p, p < 2 ^ 1 → |m p| ≤ 3100 := by
    intro p hp
    have := e4 p hp
    have h' : |(m p : ℝ)| ≤ (3100 : Int) := this.trans (by norm_num)
    exact_mod_cast h'
  exact ⟨s, sk, ct, ct, m, m, hb, by rw [hs]; simp, h2, e3, e3, hm, hm, e5 0 (by norm_num), by decide, by decide⟩

/-- Moduli and a noise bound that meet the hypotheses of `C72_rotate` and `C72_conjugate`. -/
example : Basis 0 1 [40961, 65537] [12289] ∧ Chain 0 1 ([40961, 65537] ++ [12289]) ∧ [12289].prod < 2 ^ 64 ∧
    rotNoise 1 [40961, 65537] [12289] 1 1 ≤ ([12289].prod : Int) * 2000000 ∧
    2 * (3100 + 2000000) < (([40961, 65537].prod : Nat) : ℤ) :=
  ⟨basis_rotation.1, basis_rotation.2, by decide, by unfold rotNoise; decide, by decide⟩

end Verif.Props

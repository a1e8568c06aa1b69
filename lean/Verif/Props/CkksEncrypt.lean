import Verif.Lemmas.CkksKeys

/-!
# Property C39: CKKS encryption and decryption
-/

namespace Verif.Props
open Verif.Barrett Verif.NttCpu Verif.Slots Verif.CkksKeys

theorem keygen_spec (k : Nat) (ms : List Nat) (h : Moduli k ms) (s e : Nat → Int) (a : Mat) :
    ∃ pk sk, keygen (2 ^ k) ms s e a = .ok (pk, sk) ∧ pk.moduli = ms ∧ sk.moduli = ms ∧
      Reduced k ms pk.b ∧ Reduced k ms pk.a ∧ Reduced k ms sk.data ∧
      ∀ i, i < ms.length →
        ringOf k (ms.getD i 0) (sk.data i) = polyOf k (ms.getD i 0) s ∧
        ringOf k (ms.getD i 0) (pk.a i) = polyOf k (ms.getD i 0) (fun p => (a i p : Int)) ∧
        ringOf k (ms.getD i 0) (pk.b i) =
          polyOf k (ms.getD i 0) e - ringOf k (ms.getD i 0) (pk.a i) * polyOf k (ms.getD i 0) s := by
  obtain ⟨S, s1, s2, s3⟩ := nttMat_ringOf h (residues ms s)
  obtain ⟨A, a1, a2, a3⟩ := nttMat_ringOf h a
  obtain ⟨E, e1, e2, e3⟩ := nttMat_ringOf h (residues ms e)
  refine ⟨{ b := fun i p => sub64 (add64 (E i p) (ms.getD i 0)) (mul64 (A i p) (S i p) % ms.getD i 0) % ms.getD i 0,
            a := A, moduli := ms }, { data := S, moduli := ms }, ?_, ?_⟩
  · unfold keygen
    simp only [s1, a1, e1, bind, Except.bind, pure, Except.pure]
  · refine ⟨rfl, rfl, ?_, a2, s2, ?_⟩
    · intro i hi p _
      exact Nat.mod_lt _ (h.at hi).1.prime.pos
    · intro i hi
      obtain ⟨hp, hlt⟩ := h.at hi
      have hS := s3 i hi
      rw [polyOf_residues h s hi] at hS
      have hE := e3 i hi
      rw [polyOf_residues h e hi] at hE
      refine ⟨hS, a3 i hi, ?_⟩
      rw [← hS, ← hE]
      rw [ringOf_eq_iff hp]
      intro p hp'
      rw [map_sub, map_mul, slot_ringOf hp _ p hp', slot_ringOf hp _ p hp', slot_ringOf hp _ p hp']
      exact mask_cast0 hlt (e2 i hi p hp') (a2 i hi p hp') (s2 i hi p hp')

/-- C39: for every power-of-two degree, every list of suitable primes, every draw of the key generator and of the
encryption, every prefix of the moduli and every reduced plaintext, decryption returns, modulo every limb, the
coefficients of `m + v e + e0 + e1 s`. -/
theorem C39_decrypt_encrypt (k : Nat) (ms : List Nat) (h : Moduli k ms) (s e : Nat → Int) (a : Mat) :
    ∃ pk sk, keygen (2 ^ k) ms s e a = .ok (pk, sk) ∧
      ∀ (n : Nat) (m : Mat) (v e0 e1 : Nat → Int), Reduced k (ms.take n) m →
        ∃ ct pt, encrypt (2 ^ k) pk { data := m, moduli := ms.take n } v e0 e1 = .ok ct ∧
          ct.moduli = ms.take n ∧ Reduced k (ms.take n) ct.c0 ∧ Reduced k (ms.take n) ct.c1 ∧
          decrypt (2 ^ k) sk ct = .ok pt ∧ pt.moduli = ms.take n ∧
          ∀ i, i < (ms.take n).length → (∀ p, p < 2 ^ k → pt.data i p < ms.getD i 0) ∧
            polyOf k (ms.getD i 0) (fun p => (pt.data i p : Int)) =
              ringOf k (ms.getD i 0) (m i) + polyOf k (ms.getD i 0) v * polyOf k (ms.getD i 0) e +
                polyOf k (ms.getD i 0) e0 + polyOf k (ms.getD i 0) e1 * polyOf k (ms.getD i 0) s := by
  obtain ⟨pk, sk, k1, k2, k3, k4, k5, k6, k7⟩ := keygen_spec k ms h s e a
  refine ⟨pk, sk, k1, ?_⟩
  intro n m v e0 e1 hm
  have ht := h.take n
  obtain ⟨V, v1, v2, v3⟩ := nttMat_ringOf ht (residues (ms.take n) v)
  obtain ⟨E0, e01, e02, e03⟩ := nttMat_ringOf ht (residues (ms.take n) e0)
  obtain ⟨E1, e11, e12, e13⟩ := nttMat_ringOf ht (residues (ms.take n) e1)
  have hpre : (ms.take n) = pk.moduli.take (ms.take n).length := by
    rw [k2]; simp only [List.length_take]
    rcases Nat.le_total n ms.length with hn | hn
    · rw [Nat.min_eq_left hn]
    · rw [Nat.min_eq_right hn, List.take_of_length_le hn, List.take_length]
  obtain ⟨ct, hct⟩ : ∃ ct, encrypt (2 ^ k) pk { data := m, moduli := ms.take n } v e0 e1 = .ok ct := by
    unfold encrypt
    rw [if_neg (by simpa using hpre)]
    simp only [v1, e01, e11, bind, Except.bind, pure, Except.pure]
    exact ⟨_, rfl⟩
  have hct' := hct
  unfold encrypt at hct'
  rw [if_neg (by simpa using hpre)] at hct'
  simp only [v1, e01, e11, bind, Except.bind, pure, Except.pure] at hct'
  have hc := Except.ok.inj hct'
  -- the two components
  have hlen : ∀ {i}, i < (ms.take n).length → i < ms.length := by
    intro i hi; simp at hi; omega
  have comp : ct.moduli = ms.take n ∧ ∀ i, i < (ms.take n).length →
      (∀ p, p < 2 ^ k → ct.c0 i p < ms.getD i 0 ∧ ct.c1 i p < ms.getD i 0) ∧
      ringOf k (ms.getD i 0) (ct.c0 i) = polyOf k (ms.getD i 0) v * ringOf k (ms.getD i 0) (pk.b i) +
        polyOf k (ms.getD i 0) e0 + ringOf k (ms.getD i 0) (m i) ∧
      ringOf k (ms.getD i 0) (ct.c1 i) = polyOf k (ms.getD i 0) v * ringOf k (ms.getD i 0) (pk.a i) +
        polyOf k (ms.getD i 0) e1 := by
    rw [← hc]
    refine ⟨rfl, ?_⟩
    intro i hi
    have hg := getD_take hi
    obtain ⟨hp, hlt⟩ := h.at (hlen hi)
    have hq0 := hp.prime.pos
    have hV := v3 i hi
    rw [polyOf_residues ht v hi, hg] at hV
    have hE0 := e03 i hi
    rw [polyOf_residues ht e0 hi, hg] at hE0
    have hE1 := e13 i hi
    rw [polyOf_residues ht e1 hi, hg] at hE1
    have bV := v2 i hi
    have bE0 := e02 i hi
    have bE1 := e12 i hi
    have bm := hm i hi
    rw [hg] at bV bE0 bE1 bm
    simp only [hg]
    refine ⟨?_, ?_, ?_⟩
    · intro p _
      have h1 : ∀ x : Nat, x % ms.getD i 0 % 2 ^ 32 < ms.getD i 0 := by
        intro x
        have := Nat.mod_lt x hq0
        rw [Nat.mod_eq_of_lt (by omega)]; exact this
      exact ⟨h1 _, h1 _⟩
    · rw [← hV, ← hE0, ringOf_eq_iff hp]
      intro p hp'
      rw [map_add, map_add, map_mul, slot_ringOf hp _ p hp', slot_ringOf hp _ p hp', slot_ringOf hp _ p hp',
        slot_ringOf hp _ p hp']
      have b1 := bV p hp'
      have b2 := k4 i (hlen hi) p hp'
      have b3 := bE0 p hp'
      have b4 := bm p hp'
      rw [mul64_eq (by omega) (by omega)]
      have b5 := Nat.mod_lt (V i p * pk.b i p) hq0
      have e1 : add64 (add64 (V i p * pk.b i p % ms.getD i 0) (E0 i p)) (m i p) =
          V i p * pk.b i p % ms.getD i 0 + E0 i p + m i p := by unfold add64; omega
      rw [e1]
      have b6 := Nat.mod_lt (V i p * pk.b i p % ms.getD i 0 + E0 i p + m i p) hq0
      rw [Nat.mod_eq_of_lt (by omega), ZMod.natCast_mod]
      simp only [Nat.cast_add, Nat.cast_mul, ZMod.natCast_mod]
    · rw [← hV, ← hE1, ringOf_eq_iff hp]
      intro p hp'
      rw [map_add, map_mul, slot_ringOf hp _ p hp', slot_ringOf hp _ p hp', slot_ringOf hp _ p hp']
      have b1 := bV p hp'
      have b2 := k5 i (hlen hi) p hp'
      have b3 := bE1 p hp'
      rw [mul64_eq (by omega) (by omega)]
      have b5 := Nat.mod_lt (V i p * pk.a i p) hq0
      have e1 : add64 (V i p * pk.a i p % ms.getD i 0) (E1 i p) =
          V i p * pk.a i p % ms.getD i 0 + E1 i p := by unfold add64; omega
      rw [e1]
      have b6 := Nat.mod_lt (V i p * pk.a i p % ms.getD i 0 + E1 i p) hq0
      rw [Nat.mod_eq_of_lt (by omega), ZMod.natCast_mod]
      simp only [Nat.cast_add, Nat.cast_mul, ZMod.natCast_mod]
  obtain ⟨cm, comp⟩ := comp
  -- decryption
  obtain ⟨res, hres⟩ : ∃ res : Mat, res = fun i p =>
      add64 (ct.c0 i p) (mul64 (ct.c1 i p) (sk.data i p) % (ms.take n).getD i 0) % (ms.take n).getD i 0 := ⟨_, rfl⟩
  obtain ⟨C, c1, c2, c3⟩ := inttMat_ringOf ht res
  refine ⟨ct, { data := fun i p => C i p % 2 ^ 32, moduli := ms.take n }, hct, cm, ?_, ?_, ?_, rfl, ?_⟩
  · intro i hi p hp
    rw [getD_take hi]
    exact ((comp i hi).1 p hp).1
  · intro i hi p hp
    rw [getD_take hi]
    exact ((comp i hi).1 p hp).2
  · unfold decrypt
    rw [cm, if_neg (by rw [k2] at hpre; rw [k3]; simpa using hpre), ← hres]
    simp only [c1, bind, Except.bind, pure, Except.pure]
  · intro i hi
    have hg := getD_take hi
    obtain ⟨hp, hlt⟩ := h.at (hlen hi)
    have hq0 := hp.prime.pos
    have hb := c2 i hi
    rw [hg] at hb
    have hval : ∀ p, p < 2 ^ k → C i p % 2 ^ 32 = C i p := fun p hp' => by
      have := hb p hp'
      exact Nat.mod_eq_of_lt (by omega)
    refine ⟨fun p hp' => by simp only [hval p hp']; exact hb p hp', ?_⟩
    obtain ⟨x1, x2, x3⟩ := comp i hi
    obtain ⟨y1, -, y3⟩ := k7 i (hlen hi)
    have hC := c3 i hi
    rw [hg] at hC
    have e1 : polyOf k (ms.getD i 0) (fun p => ((C i p % 2 ^ 32 : Nat) : Int)) =
        polyOf k (ms.getD i 0) (fun p => (C i p : Int)) := by
      apply polyOf_congr
      intro p hp'
      rw [hval p hp']
    have e2 : ringOf k (ms.getD i 0) (res i) =
        ringOf k (ms.getD i 0) (ct.c0 i) + ringOf k (ms.getD i 0) (ct.c1 i) * ringOf k (ms.getD i 0) (sk.data i) := by
      rw [ringOf_eq_iff hp]
      intro p hp'
      rw [map_add, map_mul, slot_ringOf hp _ p hp', slot_ringOf hp _ p hp', slot_ringOf hp _ p hp', hres]
      simp only [hg]
      obtain ⟨z1, z2⟩ := x1 p hp'
      have z3 := k6 i (hlen hi) p hp'
      rw [mul64_eq (by omega) (by omega)]
      have z4 := Nat.mod_lt (ct.c1 i p * sk.data i p) hq0
      have z5 : add64 (ct.c0 i p) (ct.c1 i p * sk.data i p % ms.getD i 0) =
          ct.c0 i p + ct.c1 i p * sk.data i p % ms.getD i 0 := by unfold add64; omega
      rw [z5, ZMod.natCast_mod]
      simp only [Nat.cast_add, Nat.cast_mul, ZMod.natCast_mod]
    show polyOf k (ms.getD i 0) (fun p => ((C i p % 2 ^ 32 : Nat) : Int)) = _
    rw [e1, hC, e2, x2, x3, y1, y3]
    ring

/-- C39: with zero noise (`ZeroNoiseRandomSource`) decryption of an encrypted transform returns exactly the coefficients
modulo every limb. -/
theorem C39_zero_noise (k : Nat) (ms : List Nat) (h : Moduli k ms) (s : Nat → Int) (a : Mat) (x : Nat → Int) (n : Nat)
    (v : Nat → Int) :
    ∃ pk sk m ct pt, keygen (2 ^ k) ms s (fun _ => 0) a = .ok (pk, sk) ∧
      nttMat (2 ^ k) (ms.take n) (residues (ms.take n) x) = .ok m ∧
      encrypt (2 ^ k) pk { data := m, moduli := ms.take n } v (fun _ => 0) (fun _ => 0) = .ok ct ∧
      decrypt (2 ^ k) sk ct = .ok pt ∧
      ∀ i, i < (ms.take n).length → ∀ p, p < 2 ^ k → (pt.data i p : Int) = x p % (ms.getD i 0 : Int) := by
  obtain ⟨pk, sk, h1, h2⟩ := C39_decrypt_encrypt k ms h s (fun _ => 0) a
  obtain ⟨m, m1, m2, m3⟩ := nttMat_ringOf (h.take n) (residues (ms.take n) x)
  obtain ⟨ct, pt, g1, -, -, -, g2, -, g3⟩ := h2 n m v (fun _ => 0) (fun _ => 0) m2
  refine ⟨pk, sk, m, ct, pt, h1, m1, g1, g2, ?_⟩
  intro i hi p hp
  obtain ⟨b, e⟩ := g3 i hi
  have hz : polyOf k (ms.getD i 0) (fun _ => 0) = 0 := by
    unfold polyOf
    simp only [Int.cast_zero]
    exact Nega.ev_zero
  have hm := m3 i hi
  rw [polyOf_residues (h.take n) x hi, getD_take hi] at hm
  rw [hz, hm] at e
  simp only [mul_zero, zero_mul, add_zero] at e
  have := polyOf_inj e p hp
  rw [← this]
  have hb := b p hp
  rw [Int.emod_eq_of_lt (by omega) (by exact_mod_cast hb)]

/-- C39: moduli that are not a prefix of the key's are rejected, on both sides. -/
theorem C39_rejects (degree : Nat) (pk : PublicKey) (sk : SecretKey) (pt : Plaintext) (ct : Ciphertext)
    (v e0 e1 : Nat → Int) :
    (¬ pt.moduli <+: pk.moduli → encrypt degree pk pt v e0 e1 = .error "ValueError") ∧
    (¬ ct.moduli <+: sk.moduli → decrypt degree sk ct = .error "ValueError") := by
  constructor
  · intro h
    unfold encrypt
    rw [if_pos]
    intro h2
    exact h (h2 ▸ List.take_prefix _ _)
  · intro h
    unfold decrypt
    rw [if_pos]
    intro h2
    exact h (h2 ▸ List.take_prefix _ _)

/-- The hypotheses are met, with two moduli and degree 4096. -/
example : Moduli 12 [1073184769] :=
  ⟨by intro m hm; simp at hm; subst hm; exact FourStep.nttPrime fourStep_64_64, by simp⟩
example : Moduli 1 [1033, 1069] := by
  have h : ∀ m ∈ [1033, 1069], NttPrime 1 m ∧ m < 2 ^ 32 := by
    intro m hm
    simp at hm
    rcases hm with rfl | rfl
    · exact ⟨⟨PrimeCheck.prime_of_noDiv _ 5 (by norm_num) (by decide +kernel) (by norm_num), by decide⟩, by norm_num⟩
    · exact ⟨⟨PrimeCheck.prime_of_noDiv _ 5 (by norm_num) (by decide +kernel) (by norm_num), by decide⟩, by norm_num⟩
  exact ⟨fun m hm => (h m hm).1, fun m hm => (h m hm).2⟩

end Verif.Props

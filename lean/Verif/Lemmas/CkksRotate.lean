import Verif.Model.CkksRotate
import Verif.Props.Rescale
import Verif.Props.CkksSwitch
import Verif.Lemmas.CkksRelin
import Verif.Props.Automorphism

/-! # Lemmas on rescaling after a key switch, and on rotations of ciphertexts -/

namespace Verif.CkksRotate
open Verif.Barrett Verif.NttBat Verif.Slots Verif.CkksKeys Verif.CkksMul Verif.Crt Verif.Props Verif.Rescale Verif.Automorphism

variable {kr kc : Nat}

/-- Rounding error of dividing by several moduli. -/
theorem divRounds_error (p : List Nat) : ∀ (q : List Nat), (∀ m ∈ p, 0 < m) → ∀ x : Int,
    2 * |x - (p.prod : Int) * divRounds p.length (q ++ p) x| ≤ (p.length * p.prod : Nat) := by
  induction p using List.reverseRecOn with
  | nil => intro q _ x; simp [divRounds]
  | append_singleton p m ih =>
    intro q hpos x
    have hm : 0 < m := hpos m (by simp)
    have e1 : (p ++ [m]).length = p.length + 1 := by simp
    have e2 : (q ++ (p ++ [m])).dropLast = q ++ p := by rw [← List.append_assoc, List.dropLast_concat]
    have e3 : (q ++ (p ++ [m])).getD ((q ++ (p ++ [m])).length - 1) 0 = m := by
      rw [← List.append_assoc]
      simp [List.getD_eq_getElem?_getD]
    rw [e1]
    unfold divRounds
    rw [e2, e3]
    have h1 := divRound_nearest x m hm
    obtain ⟨d, hd⟩ : ∃ d, d = divRound x m := ⟨_, rfl⟩
    rw [← hd] at h1 ⊢
    have h2 := ih q (fun a ha => hpos a (by simp [ha])) d
    obtain ⟨D, hD⟩ : ∃ D, D = divRounds p.length (q ++ p) d := ⟨_, rfl⟩
    rw [← hD] at h2 ⊢
    have hP : 0 < p.prod := List.prod_pos (fun a ha => hpos a (by simp [ha]))
    rw [List.prod_append, List.prod_singleton]
    simp only [Nat.cast_mul, Nat.cast_add, Nat.cast_one] at h2 ⊢
    have hP' : (1 : Int) ≤ (p.prod : Int) := by omega
    generalize (p.prod : Int) = P at *
    have e : x - P * (m : Int) * D = (x - m * d) + m * (d - P * D) := by ring
    rw [e]
    have h3 := abs_add_le (x - m * d) (m * (d - P * D))
    rw [abs_mul, abs_of_nonneg (by omega : (0 : Int) ≤ m)] at h3
    have h4 : (m : Int) * (2 * |d - P * D|) ≤ m * (p.length * P) := mul_le_mul_of_nonneg_left h2 (by omega)
    have h5 : (m : Int) ≤ m * P := le_mul_of_one_le_right (by omega) hP'
    nlinarith

theorem slot_natCast {k m : Nat} (hN : NttPrime k m) {t : Nat} (c : Nat) : slot hN t (c : Rq k m) = (c : ZMod m) :=
  map_natCast _ _

/-- The product of the auxiliary moduli cancels. -/
theorem cancel_prod {q p : List Nat} (h : Basis kr kc q p) {m : Nat} (hm : m ∈ q) {a b : Rq (kr + kc) m}
    (hab : (p.prod : Rq (kr + kc) m) * a = (p.prod : Rq (kr + kc) m) * b) : a = b := by
  have hN : NttPrime (kr + kc) m := FourStep.nttPrime (h.four m (List.mem_append_left p hm))
  have hu := (ZMod.isUnit_iff_coprime p.prod m).2 (coprime_prod h hm)
  apply slot_ext hN
  intro t _
  have := congrArg (slot hN t) hab
  simp only [map_mul, slot_natCast] at this
  exact hu.mul_left_cancel this

/-- Rescaling by `P` after a key switch: the message is divided by `P`. -/
theorem rescaleCt_spec {q p : List Nat} (h : Basis kr kc q p) (hc : Chain kr kc (q ++ p)) :
    ∃ K, Rescale.precompute (q ++ p) p.length (2 ^ kr) (2 ^ kc) = .ok K ∧
      ∀ (ct : Ciphertext), ct.moduli = q ++ p → Reduced (kr + kc) (q ++ p) ct.c0 → Reduced (kr + kc) (q ++ p) ct.c1 →
      ∃ ct', rescaleCt K (2 ^ (kr + kc)) ct = .ok ct' ∧ ct'.moduli = q ∧
        Reduced (kr + kc) q ct'.c0 ∧ Reduced (kr + kc) q ct'.c1 ∧
        ∀ (s : Nat → Int) (Bs : Int), 0 ≤ Bs → (∀ t, t < 2 ^ (kr + kc) → |s t| ≤ Bs) →
        ∀ (M : (i : Nat) → Rq (kr + kc) (q.getD i 0)) (ν : Nat → Int) (A : Int), (∀ t, t < 2 ^ (kr + kc) → |ν t| ≤ A) →
        (∀ i, i < q.length → ringOf (kr + kc) (q.getD i 0) (ct.c0 i) +
            ringOf (kr + kc) (q.getD i 0) (ct.c1 i) * polyOf (kr + kc) (q.getD i 0) s =
          (p.prod : Rq (kr + kc) (q.getD i 0)) * M i + polyOf (kr + kc) (q.getD i 0) ν) →
        (∀ i, q.length ≤ i → i < (q ++ p).length → ringOf (kr + kc) ((q ++ p).getD i 0) (ct.c0 i) +
            ringOf (kr + kc) ((q ++ p).getD i 0) (ct.c1 i) * polyOf (kr + kc) ((q ++ p).getD i 0) s =
          polyOf (kr + kc) ((q ++ p).getD i 0) ν) →
        ∃ η : Nat → Int,
          (∀ t, t < 2 ^ (kr + kc) → (p.prod : Int) * |η t| ≤
            A + ((p.length * p.prod : Nat) : Int) * (1 + 2 ^ (kr + kc) * Bs)) ∧
          ∀ i, i < q.length → ringOf (kr + kc) (q.getD i 0) (ct'.c0 i) +
            ringOf (kr + kc) (q.getD i 0) (ct'.c1 i) * polyOf (kr + kc) (q.getD i 0) s =
            M i + polyOf (kr + kc) (q.getD i 0) η := by
  have hl : (q ++ p).length = q.length + p.length := List.length_append
  have hlq := List.length_pos_iff.2 h.neQ
  have hlp := List.length_pos_iff.2 h.neP
  obtain ⟨K, hK, hr⟩ := C38_rescale_partial kr kc p.length (q ++ p) hlp (by omega) hc
  refine ⟨K, hK, ?_⟩
  intro ct hmod h0 h1
  have hsub : (q ++ p).length - p.length = q.length := by omega
  have htake : (q ++ p).take q.length = q := by simp
  have hw : ∀ M : Mat, Reduced (kr + kc) (q ++ p) M → ∀ i t, i < (q ++ p).length → t < 2 ^ (kr + kc) → M i t < 2 ^ 32 :=
    fun M hM i t hi ht => lt_trans (hM i hi t ht) (h.moduli.at hi).2
  obtain ⟨⟨x0, hx0⟩, o0, ho0, hs0⟩ := hr ct.c0 (hw _ h0)
  obtain ⟨⟨x1, hx1⟩, o1, ho1, hs1⟩ := hr ct.c1 (hw _ h1)
  rw [hsub] at ho0 ho1 hs0 hs1
  rw [htake] at ho0 ho1
  refine ⟨⟨o0, o1, q⟩, ?_, rfl, ?_, ?_, ?_⟩
  · unfold rescaleCt
    rw [hmod, ho0, ho1]
    rfl
  · intro i hi t ht
    have := (hs0 i hi).1 t ht
    rwa [getD_append_left hi] at this
  · intro i hi t ht
    have := (hs1 i hi).1 t ht
    rwa [getD_append_left hi] at this
  · intro s Bs hBs0 hBs M ν A hν hq hp
    obtain ⟨d0, hd0⟩ : ∃ d : Nat → Int, d = fun t => divRounds p.length (q ++ p) (x0 t) := ⟨_, rfl⟩
    obtain ⟨d1, hd1⟩ : ∃ d : Nat → Int, d = fun t => divRounds p.length (q ++ p) (x1 t) := ⟨_, rfl⟩
    have hppos : ∀ m ∈ p, 0 < m := fun m hm => (h.four m (List.mem_append_right q hm)).prime.pos
    have b0 : ∀ t, 2 * |x0 t - (p.prod : Int) * d0 t| ≤ (p.length * p.prod : Nat) := fun t => by
      rw [hd0]; exact divRounds_error p q hppos (x0 t)
    have b1 : ∀ t, 2 * |x1 t - (p.prod : Int) * d1 t| ≤ (p.length * p.prod : Nat) := fun t => by
      rw [hd1]; exact divRounds_error p q hppos (x1 t)
    have r0 : ∀ i, i < q.length → ringOf (kr + kc) (q.getD i 0) (o0 i) = polyOf (kr + kc) (q.getD i 0) d0 := by
      intro i hi
      have := (hs0 i hi).2 x0 hx0
      rw [getD_append_left hi] at this
      rw [this, hd0]
    have r1 : ∀ i, i < q.length → ringOf (kr + kc) (q.getD i 0) (o1 i) = polyOf (kr + kc) (q.getD i 0) d1 := by
      intro i hi
      have := (hs1 i hi).2 x1 hx1
      rw [getD_append_left hi] at this
      rw [this, hd1]
    obtain ⟨ε0, hε0⟩ : ∃ ε : Nat → Int, ε = fun t => x0 t - (p.prod : Int) * d0 t := ⟨_, rfl⟩
    obtain ⟨ε1, hε1⟩ : ∃ ε : Nat → Int, ε = fun t => x1 t - (p.prod : Int) * d1 t := ⟨_, rfl⟩
    have p0 : ∀ m, polyOf (kr + kc) m ε0 = polyOf (kr + kc) m x0 - ((p.prod : Int) : Rq (kr + kc) m) * polyOf (kr + kc) m d0 := by
      intro m; rw [hε0, polyOf_sub, polyOf_smul]
    have p1 : ∀ m, polyOf (kr + kc) m ε1 = polyOf (kr + kc) m x1 - ((p.prod : Int) : Rq (kr + kc) m) * polyOf (kr + kc) m d1 := by
      intro m; rw [hε1, polyOf_sub, polyOf_smul]
    obtain ⟨z, hz⟩ : ∃ z : Nat → Int, z = fun t => ν t - (ε0 t + imul (kr + kc) ε1 s t) := ⟨_, rfl⟩
    have pz : ∀ m, polyOf (kr + kc) m z = polyOf (kr + kc) m ν -
        (polyOf (kr + kc) m ε0 + polyOf (kr + kc) m ε1 * polyOf (kr + kc) m s) := by
      intro m
      rw [hz, polyOf_sub, polyOf_add, ← polyOf_imul]
    -- `P` divides `z`
    have hdiv : ∀ t, t < 2 ^ (kr + kc) → (p.prod : Int) ∣ z t := by
      intro t ht
      apply prod_dvd_int p (pairwise_coprime (fun m hm => (h.four m (List.mem_append_right q hm)).prime)
        (List.nodup_append.1 h.nodup).2.1)
      intro m hm
      obtain ⟨j, hj, hjm⟩ := List.getElem_of_mem hm
      have hgi : (q ++ p).getD (q.length + j) 0 = m := by
        rw [List.getD_eq_getElem?_getD, List.getElem?_append_right (by omega), Nat.add_sub_cancel_left,
          List.getElem?_eq_getElem hj, Option.getD_some, hjm]
      have e1 := hp (q.length + j) (by omega) (by omega)
      rw [hx0 _ (by omega), hx1 _ (by omega), hgi] at e1
      have hP0 : ((p.prod : Int) : Rq (kr + kc) m) = 0 := by
        rw [Int.cast_natCast]
        obtain ⟨c, hc'⟩ : m ∣ p.prod := List.dvd_prod hm
        rw [hc', Nat.cast_mul]
        have : ((m : Nat) : Rq (kr + kc) m) = 0 := by
          have h2 := cst_int (k := kr + kc) (q := m) (m : Int)
          rw [Int.cast_natCast, ZMod.natCast_self, Int.cast_natCast] at h2
          rw [← h2]; exact map_zero _
        rw [this, zero_mul]
      have e2 : polyOf (kr + kc) m z = polyOf (kr + kc) m (fun _ => 0) := by
        rw [pz, p0, p1, hP0, polyOf_zero, ← e1]; ring
      have := polyOf_inj e2 t ht
      rw [Int.zero_emod] at this
      exact Int.dvd_of_emod_eq_zero this
    have hPpos : 0 < p.prod := List.prod_pos hppos
    refine ⟨fun t => z t / (p.prod : Int), ?_, ?_⟩
    · intro t ht
      have e1 : (p.prod : Int) * |z t / (p.prod : Int)| = |z t| := by
        conv_rhs => rw [← Int.mul_ediv_cancel' (hdiv t ht)]
        rw [abs_mul, abs_of_nonneg (by positivity : (0 : Int) ≤ (p.prod : Int))]
      rw [e1, hz]
      simp only
      have a1 := abs_sub (ν t) (ε0 t + imul (kr + kc) ε1 s t)
      have a2 := abs_add_le (ε0 t) (imul (kr + kc) ε1 s t)
      have a3 := hν t ht
      have a4 := b0 t
      have e0 : x0 t - (p.prod : Int) * d0 t = ε0 t := by rw [hε0]
      rw [e0] at a4
      have a5 := imul_abs (kr + kc) ε1 s ((p.length * p.prod : Nat) : Int) Bs (by positivity) hBs0
        (by
          intro t ht
          have := b1 t
          have e1 : x1 t - (p.prod : Int) * d1 t = ε1 t := by rw [hε1]
          rw [e1] at this
          have := abs_nonneg (ε1 t)
          omega) hBs t
      have a6 := abs_nonneg (ε0 t)
      nlinarith
    · intro i hi
      simp only
      apply cancel_prod h (getD_mem hi)
      have hPη : (p.prod : Rq (kr + kc) (q.getD i 0)) * polyOf (kr + kc) (q.getD i 0) (fun t => z t / (p.prod : Int)) =
          polyOf (kr + kc) (q.getD i 0) z := by
        rw [← Int.cast_natCast, ← polyOf_smul]
        apply polyOf_congr
        intro t ht
        rw [Int.mul_ediv_cancel' (hdiv t ht)]
      rw [mul_add, mul_add, hPη, pz, p0, p1, r0 i hi, r1 i hi]
      have e1 := hq i hi
      have y0 := hx0 i (by omega)
      have y1 := hx1 i (by omega)
      rw [getD_append_left hi] at y0 y1
      rw [y0, y1] at e1
      rw [Int.cast_natCast]
      linear_combination e1

import Verif.Lemmas.Rlwe
import Verif.Model.Bootstrap
import Verif.Props.Encoding

/-!
# Lemmas on test polynomials
-/

namespace Verif.TestPolynomial
open Verif.Arith Verif.Encoding Verif.Nega Verif.Decomposition

theorem flatMap_replicate_length (l : List Int) (w : Nat) :
    (l.flatMap (fun c => List.replicate w c)).length = l.length * w := by
  induction l with
  | nil => simp
  | cons a t ih => simp only [List.flatMap_cons, List.length_append, List.length_replicate, ih,
      List.length_cons]; ring

theorem flatMap_replicate_getElem? (l : List Int) (w i : Nat) (hw : 0 < w) :
    (l.flatMap (fun c => List.replicate w c))[i]? = l[i / w]? := by
  induction l generalizing i with
  | nil => simp
  | cons a t ih =>
    rw [List.flatMap_cons]
    by_cases h : i < w
    · rw [List.getElem?_append_left (by simpa using h), Nat.div_eq_of_lt h]
      simp [h]
    · rw [List.getElem?_append_right (by simpa using h), List.length_replicate, ih]
      have : i / w = (i - w) / w + 1 := by
        rw [← Nat.add_div_right _ hw]; congr 1; omega
      rw [this, List.getElem?_cons_succ]

/-- The padded list, entry by entry. -/
theorem padForError_getElem? (l : List Int) (N M : Nat) (cm : Int) (hl : l.length = M) (hM : 0 < M)
    (hd : M ∣ N) (hN : 0 < N) (i : Nat) :
    (padForError l N cm).length = N ∧
    (i < N - N / M / 2 → (padForError l N cm)[i]? = l[(i + N / M / 2) / (N / M)]?) ∧
    (N - N / M / 2 ≤ i → i < N → (padForError l N cm)[i]? = l[0]?.map (fun c => (-c) % cm)) := by
  obtain ⟨w, rfl⟩ := hd
  have hw : 0 < w := Nat.pos_of_mul_pos_left hN
  have hdw : M * w / M = w := Nat.mul_div_cancel_left _ hM
  unfold padForError
  simp only [hl, hdw]
  have hlen : (l.flatMap (fun c => List.replicate w c)).length = M * w := by
    rw [flatMap_replicate_length, hl]
  have hwM : w ≤ M * w := Nat.le_mul_of_pos_left _ hM
  refine ⟨?_, ?_, ?_⟩
  · simp only [List.length_append, List.length_drop, List.length_map, List.length_take, hlen]; omega
  · intro h
    rw [List.getElem?_append_left (by simp only [List.length_drop, hlen]; omega), List.getElem?_drop,
      flatMap_replicate_getElem? _ _ _ hw, Nat.add_comm]
  · intro h1 h2
    rw [List.getElem?_append_right (by simp only [List.length_drop, hlen]; omega), List.getElem?_map,
      List.getElem?_take, if_pos (by simp only [List.length_drop, hlen]; omega),
      flatMap_replicate_getElem? _ _ _ hw]
    congr 2
    simp only [List.length_drop, hlen]
    rw [Nat.div_eq_of_lt (by omega)]

theorem mapM_ok {α β : Type} (f : α → Except String β) (g : α → β) (l : List α)
    (h : ∀ c ∈ l, f c = .ok (g c)) : l.mapM f = .ok (l.map g) := by
  induction l with
  | nil => rfl
  | cons a t ih =>
    rw [List.mapM_cons, h a (by simp), ih (fun c hc => h c (by simp [hc]))]
    rfl

/-- What the test-polynomial mode of `encode` does on the values it is used with. -/
theorem encode_test (p : EncodingParameters) (hp : Props.ValidParams p) (c : Int) (h0 : 0 ≤ c)
    (h1 : c < 2 ^ (p.paddingBitLength + p.messageBitLength)) :
    encode c p true = .ok (BitVec.ofInt 32 (c * 2 ^ p.errorBitLength)) := by
  obtain ⟨ha, hm, hmin, hmax⟩ := hp.arith
  have hfit := hp.fits
  have hno := hp.noisy
  have hlt : (2 : Int) ^ (p.paddingBitLength + p.messageBitLength) ≤ 2 ^ 32 := by
    exact_mod_cast Nat.pow_le_pow_right (by decide : 1 ≤ 2) (by omega : p.paddingBitLength + p.messageBitLength ≤ 32)
  obtain ⟨m, rfl⟩ := Int.eq_ofNat_of_zero_le h0
  have hm' : m < 2 ^ (p.paddingBitLength + p.messageBitLength) := by exact_mod_cast h1
  have hm32 : m < 2 ^ 32 := by
    have : (m : Int) < 2 ^ 32 := by exact_mod_cast lt_of_lt_of_le h1 hlt
    exact_mod_cast this
  have e : (BitVec.ofInt 32 (m : Int)).toNat = m := by
    rw [BitVec.toNat_ofInt]
    have : ((m : Int) % ((2 ^ 32 : Nat) : Int)) = m := by
      rw [← Int.natCast_emod, Nat.mod_eq_of_lt hm32]
    rw [this]; rfl
  unfold encode
  simp only [if_true, e, hmin]
  rw [if_neg (by omega)]
  congr 1
  rw [shiftLeft_eq_mul]
  have : (BitVec.ofInt 32 ((m : Int) * 2 ^ p.errorBitLength) : W) = (((m : Int) * 2 ^ p.errorBitLength : Int) : W) := rfl
  rw [this, Int.cast_mul, Int.cast_pow]
  rfl

/-- Constant coefficient of `X^e a` for `e < N`. -/
theorem const_coeff_shift {N : Nat} [NeZero N] (e : Nat) (he : e < N) (a b : Fin N → W)
    (h : ev b = x W N ^ e * ev a) :
    b 0 = if h0 : e = 0 then a 0 else -a ⟨N - e, by omega⟩ := by
  have hN : 0 < N := by omega
  rw [← ev_shift e he] at h
  rw [ev_injective hN h]
  unfold shift
  have h00 : (0 : Fin N).val = 0 := rfl
  by_cases h0 : e = 0
  · subst h0
    rw [dif_pos (by omega), dif_pos rfl]; rfl
  · rw [dif_neg (by omega), dif_neg h0, dif_pos (by omega)]
    congr 2

/-- Constant coefficient of `X^(-r) a`, for a rotation `-N < r < N`. -/
theorem const_coeff_rot {N : Nat} [NeZero N] (r : Int) (a b : Fin N → W)
    (h : ev b = x W N ^ ((-r) % (2 * N)).toNat * ev a) :
    (∀ i : Fin N, (i.val : Int) = r → b 0 = a i) ∧
    (∀ i : Fin N, (i.val : Int) = r + N → r < 0 → b 0 = -a i) := by
  have hN : 0 < N := Nat.pos_of_ne_zero (NeZero.ne N)
  constructor
  · intro i hi
    rcases Nat.eq_zero_or_pos i.val with h0 | h0
    · have : r = 0 := by omega
      subst this
      simp only [neg_zero, Int.zero_emod, Int.toNat_zero, pow_zero, one_mul] at h
      rw [ev_injective hN h]
      congr 1
      exact Fin.ext h0.symm
    · have hlt := i.isLt
      have e1 : (-r) % (2 * (N : Int)) = ((N + (N - i.val) : Nat) : Int) := by
        rw [← hi, Int.neg_emod_eq_sub_emod, Int.emod_eq_of_lt (by omega) (by omega)]
        omega
      rw [e1, Int.toNat_natCast, pow_add, x_pow_N] at h
      have h' : ev (fun c => -b c) = x W N ^ (N - i.val) * ev a := by
        rw [ev_neg, h]; ring
      have := const_coeff_shift (N - i.val) (by omega) a _ h'
      rw [dif_neg (by omega)] at this
      have e2 : (⟨N - (N - i.val), by omega⟩ : Fin N) = i := Fin.ext (by simp only; omega)
      rw [e2] at this
      exact neg_injective this
  · intro i hi hr
    have hlt := i.isLt
    have e1 : (-r) % (2 * (N : Int)) = ((N - i.val : Nat) : Int) := by
      rw [Int.emod_eq_of_lt (by omega) (by omega)]
      omega
    rw [e1, Int.toNat_natCast] at h
    by_cases h0 : i.val = 0
    · have hz : N - i.val = N := by omega
      rw [hz, x_pow_N] at h
      have h' : ev b = ev (fun c => -a c) := by rw [ev_neg, h]; ring
      rw [ev_injective hN h']
      congr 2
      exact Fin.ext h0.symm
    · have := const_coeff_shift (N - i.val) (by omega) a _ h
      rw [dif_neg (by omega)] at this
      have e2 : (⟨N - (N - i.val), by omega⟩ : Fin N) = i := Fin.ext (by simp only; omega)
      rw [e2] at this
      exact this

end Verif.TestPolynomial

import Verif.Model.Crt
import Verif.Lemmas.CkksMath
import Mathlib.RingTheory.Coprime.Lemmas
import Mathlib.Data.List.GetD

/-!
# Chinese remaindering for lists of pairwise coprime moduli
-/

namespace Verif.Crt
open Verif.CkksMath Finset

theorem product_eq (l : List Nat) : product l = l.prod := by
  have h : ∀ (l : List Nat) a, l.foldl (fun q m => q * m) a = a * l.prod := by
    intro l
    induction l with
    | nil => intro a; simp
    | cons x t ih => intro a; rw [List.foldl_cons, ih, List.prod_cons, Nat.mul_assoc]
  rw [product, h, Nat.one_mul]

theorem product_dvd {l : List Nat} {m : Nat} (h : m ∈ l) : m ∣ product l := by
  rw [product_eq]; exact List.dvd_prod h

theorem product_pos {l : List Nat} (h : ∀ m ∈ l, 0 < m) : 0 < product l := by
  rw [product_eq]
  exact List.prod_pos h

/-- Pairwise coprime divisors. -/
theorem prod_dvd_of_pairwise {l : List Nat} (hco : l.Pairwise Nat.Coprime) {z : Int} (h : ∀ m ∈ l, (m : Int) ∣ z) :
    ((product l : Nat) : Int) ∣ z := by
  rw [product_eq]
  induction l with
  | nil => simp
  | cons a t ih =>
    rw [List.pairwise_cons] at hco
    rw [List.prod_cons]
    push_cast
    apply IsCoprime.mul_dvd
    · have : Nat.Coprime a t.prod := Nat.coprime_list_prod_right_iff.2 (fun n hn => hco.1 n hn)
      have := Nat.isCoprime_iff_coprime.2 this
      simpa using this
    · exact h a (by simp)
    · have := ih hco.2 (fun m hm => h m (by simp [hm]))
      simpa using this

/-- The cofactor is coprime to its modulus and vanishes modulo the other moduli. -/
theorem cofactor {l : List Nat} (hco : l.Pairwise Nat.Coprime) (hpos : ∀ m ∈ l, 0 < m) (i : Nat) (hi : i < l.length) :
    Nat.Coprime (product l / l[i]) l[i] ∧ ∀ j (hj : j < l.length), j ≠ i → l[j] ∣ product l / l[i] := by
  have hsplit : l = l.take i ++ l[i] :: l.drop (i + 1) := by
    rw [List.cons_getElem_drop_succ, List.take_append_drop]
  have hprod : product l = l[i] * ((l.take i).prod * (l.drop (i + 1)).prod) := by
    rw [product_eq]
    conv_lhs => rw [hsplit]
    rw [List.prod_append, List.prod_cons]; ring
  have hm : 0 < l[i] := hpos _ (List.getElem_mem hi)
  have hq : product l / l[i] = (l.take i).prod * (l.drop (i + 1)).prod := by
    rw [hprod, Nat.mul_div_cancel_left _ hm]
  have hpg := List.pairwise_iff_getElem.1 hco
  rw [hq]
  constructor
  · rw [Nat.coprime_mul_iff_left]
    constructor
    · apply Nat.coprime_list_prod_left_iff.2
      intro n hn
      obtain ⟨j, hj, rfl⟩ := List.mem_iff_getElem.1 hn
      rw [List.getElem_take]
      rw [List.length_take] at hj
      exact hpg j i (by omega) hi (by omega)
    · apply Nat.coprime_list_prod_left_iff.2
      intro n hn
      obtain ⟨j, hj, rfl⟩ := List.mem_iff_getElem.1 hn
      rw [List.getElem_drop]
      rw [List.length_drop] at hj
      exact (hpg i (i + 1 + j) hi (by omega) (by omega)).symm
  · intro j hj hne
    rcases Nat.lt_or_ge j i with h | h
    · apply Dvd.dvd.mul_right
      apply List.dvd_prod
      rw [List.mem_iff_getElem]
      exact ⟨j, by rw [List.length_take]; omega, by rw [List.getElem_take]⟩
    · apply Dvd.dvd.mul_left
      apply List.dvd_prod
      rw [List.mem_iff_getElem]
      refine ⟨j - (i + 1), by rw [List.length_drop]; omega, ?_⟩
      rw [List.getElem_drop]
      congr 1
      omega

theorem mapM_ok {α β : Type} (f : α → Except String β) (l : List α) (h : ∀ a ∈ l, ∃ b, f a = .ok b) :
    ∃ r, l.mapM f = .ok r ∧ r.length = l.length ∧
      ∀ i (h1 : i < l.length) (h2 : i < r.length), f l[i] = .ok r[i] := by
  induction l with
  | nil => exact ⟨[], rfl, rfl, by simp⟩
  | cons a t ih =>
    obtain ⟨b, hb⟩ := h a (by simp)
    obtain ⟨r, h1, h2, h3⟩ := ih (fun a ha => h a (by simp [ha]))
    refine ⟨b :: r, ?_, by simp [h2], ?_⟩
    · rw [List.mapM_cons, hb, h1]; rfl
    · intro i h1 h2
      cases i with
      | zero => exact hb
      | succ i => exact h3 i (by simpa using h1) (by simpa using h2)

theorem foldl_add_sum (f : Nat → Int) (n : Nat) (a : Int) :
    (List.range n).foldl (fun acc i => acc + f i) a = a + ∑ i ∈ range n, f i := by
  induction n with
  | zero => simp
  | succ n ih => rw [List.range_succ, List.foldl_append, ih, Finset.sum_range_succ]; simp; ring

/-- `qHatInvModQ` succeeds and inverts. -/
theorem qHatInv_spec {l : List Nat} (hco : l.Pairwise Nat.Coprime) (hpos : ∀ m ∈ l, 0 < m) :
    ∃ inv, qHatInvModQ l = .ok inv ∧ inv.length = l.length ∧
      ∀ i (h1 : i < l.length) (h2 : i < inv.length), 0 ≤ inv[i] ∧ inv[i] < l[i] ∧
        (((product l / l[i] : Nat) : Int) : ZMod l[i]) * (inv[i] : ZMod l[i]) = 1 := by
  have hone : ∀ i (h1 : i < l.length), ∃ b, invMod ((product l / l[i] : Nat) : Int) l[i] = .ok b ∧ 0 ≤ b ∧ b < l[i] ∧
      (((product l / l[i] : Nat) : Int) : ZMod l[i]) * (b : ZMod l[i]) = 1 := by
    intro i hi
    exact invMod_ok _ _ (by have := hpos _ (List.getElem_mem hi); omega)
      (by rw [Int.gcd_natCast_natCast]; exact (cofactor hco hpos i hi).1)
  obtain ⟨r, h1, h2, h3⟩ := mapM_ok (fun m : Nat => invMod ((product l / m : Nat) : Int) m) l (by
    intro a ha
    obtain ⟨i, hi, rfl⟩ := List.mem_iff_getElem.1 ha
    obtain ⟨b, hb, -⟩ := hone i hi
    exact ⟨b, hb⟩)
  refine ⟨r, h1, h2, ?_⟩
  intro i hi hi2
  obtain ⟨b, hb, hb1, hb2, hb3⟩ := hone i hi
  have := h3 i hi hi2
  rw [hb] at this
  cases this
  exact ⟨hb1, hb2, hb3⟩

/-- The weighted sum has the given residues. -/
theorem weighted_residue {l : List Nat} (hco : l.Pairwise Nat.Coprime) (hpos : ∀ m ∈ l, 0 < m) (w : Nat → Int)
    (i : Nat) (hi : i < l.length) :
    ((∑ t ∈ range l.length, w t * ((product l / l.getD t 0 : Nat) : Int) : Int) : ZMod l[i]) =
      (w i : ZMod l[i]) * ((product l / l[i] : Nat) : ZMod l[i]) := by
  simp only [Int.cast_sum, Int.cast_mul, Int.cast_natCast]
  rw [Finset.sum_eq_single i]
  · rw [List.getD_eq_getElem _ _ hi]
  · intro t ht hne
    rw [Finset.mem_range] at ht
    rw [List.getD_eq_getElem _ _ ht]
    have hdvd := (cofactor hco hpos t ht).2 i hi (Ne.symm hne)
    rw [(ZMod.natCast_eq_zero_iff _ _).2 hdvd, mul_zero]
  · intro h
    rw [Finset.mem_range] at h
    omega

end Verif.Crt

import Verif.Lemmas.Negacyclic
import Verif.Model.Arith
import Mathlib.Tactic.NormNum
import Mathlib.Tactic.Ring
import Mathlib.Tactic.Linarith
import Mathlib.Algebra.Order.BigOperators.Group.Finset
import Mathlib.Algebra.Order.Ring.Int

/-!
# Elements of `(Z/2^32)[X]/(X^N+1)` with small integer coefficients
-/

namespace Verif.Nega
open Verif

variable {N : Nat}

/-- `q` has a coefficient vector of integers of magnitude at most `B`. -/
def Small (B : Int) (q : Q W N) : Prop :=
  ∃ f : Fin N → Int, (∀ i, |f i| ≤ B) ∧ q = ev (fun i => BitVec.ofInt 32 (f i))

/-- The image of an integer vector. -/
noncomputable def evz (f : Fin N → Int) : Q W N := ev (fun i => ((f i : Int) : W))

theorem small_iff (B : Int) (q : Q W N) : Small B q ↔ ∃ f : Fin N → Int, (∀ i, |f i| ≤ B) ∧ q = evz f :=
  Iff.rfl

theorem evz_add (f g : Fin N → Int) : evz (fun i => f i + g i) = evz f + evz g := by
  unfold evz; rw [← ev_add]; congr 1; funext i; exact Int.cast_add _ _

theorem evz_sub (f g : Fin N → Int) : evz (fun i => f i - g i) = evz f - evz g := by
  unfold evz; rw [← ev_sub]; congr 1; funext i; exact Int.cast_sub _ _

theorem evz_neg (f : Fin N → Int) : evz (fun i => -f i) = -evz f := by
  unfold evz; rw [← ev_neg]; congr 1; funext i; exact Int.cast_neg _

theorem evz_mul (f g : Fin N → Int) : evz (Nega.mul f g) = evz f * evz g := by
  unfold evz
  rw [← ev_mul]
  congr 1
  funext k
  unfold Nega.mul
  rw [Int.cast_sum]
  refine Finset.sum_congr rfl (fun i _ => ?_)
  rw [Int.cast_mul]
  congr 1
  unfold shift
  split
  · rfl
  · split
    · exact Int.cast_neg _
    · rfl

theorem small_zero {B : Int} (hB : 0 ≤ B) : Small B (0 : Q W N) :=
  ⟨fun _ => 0, fun _ => by simpa using hB, by
    have : (fun _ : Fin N => BitVec.ofInt 32 0) = fun _ => (0 : W) := by funext; rfl
    rw [this, ev_zero]⟩

theorem Small.mono {B C : Int} {q : Q W N} (h : Small B q) (hBC : B ≤ C) : Small C q := by
  obtain ⟨f, hf, e⟩ := h
  exact ⟨f, fun i => (hf i).trans hBC, e⟩

theorem Small.add {B C : Int} {q r : Q W N} (h : Small B q) (h' : Small C r) : Small (B + C) (q + r) := by
  obtain ⟨f, hf, rfl⟩ := h
  obtain ⟨g, hg, rfl⟩ := h'
  exact ⟨fun i => f i + g i, fun i => (abs_add_le _ _).trans (add_le_add (hf i) (hg i)), (evz_add f g).symm⟩

theorem Small.sub {B C : Int} {q r : Q W N} (h : Small B q) (h' : Small C r) : Small (B + C) (q - r) := by
  obtain ⟨f, hf, rfl⟩ := h
  obtain ⟨g, hg, rfl⟩ := h'
  exact ⟨fun i => f i - g i, fun i => (abs_sub _ _).trans (add_le_add (hf i) (hg i)), (evz_sub f g).symm⟩

theorem Small.neg {B : Int} {q : Q W N} (h : Small B q) : Small B (-q) := by
  obtain ⟨f, hf, rfl⟩ := h
  exact ⟨fun i => -f i, fun i => by rw [abs_neg]; exact hf i, (evz_neg f).symm⟩

theorem small_sum {ι : Type*} (s : Finset ι) (q : ι → Q W N) (B : ι → Int) (h : ∀ i ∈ s, Small (B i) (q i)) :
    Small (∑ i ∈ s, B i) (∑ i ∈ s, q i) := by
  classical
  induction s using Finset.induction_on with
  | empty => simpa using small_zero le_rfl
  | insert a s ha ih =>
    rw [Finset.sum_insert ha, Finset.sum_insert ha]
    exact (h a (Finset.mem_insert_self _ _)).add (ih (fun i hi => h i (Finset.mem_insert_of_mem hi)))

theorem shift_abs (e : Nat) (f : Fin N → Int) (B : Int) (hf : ∀ i, |f i| ≤ B) (k : Fin N) :
    |shift e f k| ≤ B := by
  unfold shift
  split
  · exact hf _
  · split
    · rw [abs_neg]; exact hf _
    · simpa using (abs_nonneg _).trans (hf k)

theorem Small.mul {B C : Int} {q r : Q W N} (h : Small B q) (h' : Small C r) :
    Small (N * (B * C)) (q * r) := by
  obtain ⟨f, hf, rfl⟩ := h
  obtain ⟨g, hg, rfl⟩ := h'
  refine ⟨Nega.mul f g, fun k => ?_, (evz_mul f g).symm⟩
  unfold Nega.mul
  refine (Finset.abs_sum_le_sum_abs _ _).trans ?_
  have : ∀ i ∈ Finset.univ, |g i * shift i.val f k| ≤ B * C := by
    intro i _
    rw [abs_mul, mul_comm B C]
    have hC : 0 ≤ C := (abs_nonneg _).trans (hg i)
    exact mul_le_mul (hg i) (shift_abs _ f B hf k) (abs_nonneg _) hC
  refine (Finset.sum_le_card_nsmul _ _ _ this).trans ?_
  simp

theorem Small.xpow {B : Int} {q : Q W N} (h : Small B q) (e : Nat) : Small B (x W N ^ e * q) := by
  rcases Nat.eq_zero_or_pos N with rfl | hN
  · obtain ⟨f, hf, e⟩ := h
    refine ⟨f, hf, ?_⟩
    have hev : ev (fun i : Fin 0 => BitVec.ofInt 32 (f i)) = 0 := by
      rw [ev_eq]; simp
    rw [hev] at e ⊢
    rw [e, mul_zero]
  · obtain ⟨f, hf, rfl⟩ := h
    rw [← x_pow_mod e]
    have hlt : e % (2 * N) < 2 * N := Nat.mod_lt _ (by omega)
    have key : ∀ e' < N, ∀ f : Fin N → Int, (∀ i, |f i| ≤ B) →
        Small B (x W N ^ e' * evz f) := by
      intro e' he' f hf
      refine ⟨shift e' f, shift_abs e' f B hf, ?_⟩
      unfold evz
      rw [← ev_shift e' he']
      congr 1
      funext k
      unfold shift
      split
      · rfl
      · split
        · exact (Int.cast_neg _).symm
        · rfl
    rcases Nat.lt_or_ge (e % (2 * N)) N with h | h
    · exact key _ h f hf
    · have : e % (2 * N) = N + (e % (2 * N) - N) := by omega
      rw [this, pow_add, x_pow_N, mul_assoc, neg_one_mul]
      exact (key _ (by omega) f hf).neg

/-- Multiplication by an integer. -/
theorem Small.cst {B : Int} {q : Q W N} (h : Small B q) (c : Int) :
    Small (|c| * B) (Nega.cst N ((c : Int) : W) * q) := by
  obtain ⟨f, hf, rfl⟩ := h
  refine ⟨fun i => c * f i, fun i => by rw [abs_mul]; exact mul_le_mul_of_nonneg_left (hf i) (abs_nonneg _), ?_⟩
  rw [← ev_smul]
  congr 1
  funext i
  exact (Int.cast_mul c (f i)).symm

/-- A coefficient of a small element. -/
theorem Small.coeff (hN : 0 < N) {B : Int} {a : Fin N → W} (h : Small B (ev a)) (i : Fin N) :
    ∃ e : Int, |e| ≤ B ∧ a i = BitVec.ofInt 32 e := by
  obtain ⟨f, hf, e⟩ := h
  exact ⟨f i, hf i, congrFun (ev_injective hN e) i⟩

end Verif.Nega

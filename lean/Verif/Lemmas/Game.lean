import Mathlib.Algebra.BigOperators.Ring.Finset
import Mathlib.Data.Real.Basic
import Mathlib.Data.Fintype.BigOperators

/-!
# Expected values over independent draws, and games in which a message is added to a sample
-/

namespace Verif.Game

/-- Expected value of `f` over `q` independent draws, `w x` being the probability of drawing `x`. -/
noncomputable def expectIid {Ω : Type} [Fintype Ω] (w : Ω → ℝ) : Nat → (List Ω → ℝ) → ℝ
  | 0, f => f []
  | q + 1, f => ∑ x, w x * expectIid w q (fun l => f (x :: l))

/-- Adds to every sample a message that may depend on the results so far. -/
def simulate {G : Type} [Add G] (message : List G → G) : List G → List G → List G
  | hist, [] => hist
  | hist, x :: l => simulate message (hist ++ [x + message hist]) l

theorem expectIid_congr {Ω : Type} [Fintype Ω] (w : Ω → ℝ) (q : Nat) (f g : List Ω → ℝ)
    (h : ∀ l, l.length = q → f l = g l) : expectIid w q f = expectIid w q g := by
  induction q generalizing f g with
  | zero => exact h [] rfl
  | succ q ih =>
    unfold expectIid
    exact Finset.sum_congr rfl (fun x _ => by
      rw [ih _ _ (fun l hl => h (x :: l) (by rw [List.length_cons, hl]))])

/-- Adding messages to uniform samples changes nothing, also if the messages depend on the results so far. -/
theorem expectIid_simulate {G : Type} [AddGroup G] [Fintype G] (c : ℝ) (message : List G → G) (q : Nat)
    (guess : List G → ℝ) (hist : List G) :
    expectIid (fun _ : G => c) q (fun l => guess (simulate message hist l)) =
      expectIid (fun _ : G => c) q (fun l => guess (hist ++ l)) := by
  induction q generalizing hist with
  | zero =>
    show guess hist = guess (hist ++ [])
    rw [List.append_nil]
  | succ q ih =>
    unfold expectIid
    rw [← Equiv.sum_comp (Equiv.addRight (message hist)) (fun x => c * expectIid (fun _ => c) q
      (fun l => guess (hist ++ x :: l)))]
    refine Finset.sum_congr rfl (fun x _ => ?_)
    show c * expectIid _ q (fun l => guess (simulate message (hist ++ [x + message hist]) l)) = _
    rw [ih]
    simp only [List.append_assoc, List.singleton_append]
    rfl

/-- Expected guess when `q` samples are made with one key, whose probability is `κ`. -/
noncomputable def real {K R G : Type} [Fintype K] [Fintype R] (κ : K → ℝ) (w : R → ℝ) (S : K → R → G) (q : Nat)
    (guess : List G → ℝ) : ℝ :=
  ∑ k, κ k * expectIid w q (fun l => guess (l.map (S k)))

/-- Expected guess when the samples are uniform. -/
noncomputable def ideal (G : Type) [Fintype G] (q : Nat) (guess : List G → ℝ) : ℝ :=
  expectIid (fun _ : G => 1 / (Fintype.card G : ℝ)) q guess

/-- Advantage in telling samples from uniform ones. -/
noncomputable def advantage {K R G : Type} [Fintype K] [Fintype R] [Fintype G] (κ : K → ℝ) (w : R → ℝ) (S : K → R → G)
    (q : Nat) (guess : List G → ℝ) : ℝ :=
  |real κ w S q guess - ideal G q guess|

/-- Two choices of messages are told apart at most as well as samples from uniform ones. -/
theorem choice_le {K R G : Type} [Fintype K] [Fintype R] [AddGroup G] [Fintype G] (κ : K → ℝ) (w : R → ℝ)
    (S : K → R → G) (q : Nat) (guess : List G → ℝ) (left right : List G → G) :
    |real κ w S q (fun l => guess (simulate left [] l)) - real κ w S q (fun l => guess (simulate right [] l))| ≤
      advantage κ w S q (fun l => guess (simulate left [] l)) +
        advantage κ w S q (fun l => guess (simulate right [] l)) := by
  unfold advantage ideal
  rw [expectIid_simulate, expectIid_simulate]
  generalize expectIid (fun _ : G => 1 / (Fintype.card G : ℝ)) q (fun l => guess ([] ++ l)) = r
  exact (abs_sub_le _ r _).trans (by rw [abs_sub_comm r])

theorem expectIid_one {Ω : Type} [Fintype Ω] (w : Ω → ℝ) (hw : ∑ x, w x = 1) (q : Nat) :
    expectIid w q (fun _ => 1) = 1 := by
  induction q with
  | zero => rfl
  | succ q ih =>
    unfold expectIid
    simp only [ih, mul_one]
    exact hw

/-- Draws through a bijection. -/
theorem expectIid_equiv {Ω Ω' : Type} [Fintype Ω] [Fintype Ω'] (e : Ω ≃ Ω') (w : Ω' → ℝ) (q : Nat) (f : List Ω' → ℝ) :
    expectIid (fun x => w (e x)) q (fun l => f (l.map e)) = expectIid w q f := by
  induction q generalizing f with
  | zero => rfl
  | succ q ih =>
    unfold expectIid
    rw [← Equiv.sum_comp e]
    exact Finset.sum_congr rfl (fun x _ => by rw [← ih]; rfl)

/-- If samples under every key are a bijective image of uniform draws, no advantage is possible. -/
theorem advantage_zero {K R G : Type} [Fintype K] [Fintype R] [Fintype G] (κ : K → ℝ) (hκ : ∑ k, κ k = 1)
    (S : K → R → G) (hS : ∀ k, Function.Bijective (S k)) (q : Nat) (guess : List G → ℝ) :
    advantage κ (fun _ => 1 / (Fintype.card G : ℝ)) S q guess = 0 := by
  unfold advantage real ideal
  have h : ∀ k, expectIid (fun _ : R => 1 / (Fintype.card G : ℝ)) q (fun l => guess (l.map (S k))) =
      expectIid (fun _ : G => 1 / (Fintype.card G : ℝ)) q guess := fun k =>
    expectIid_equiv (Equiv.ofBijective (S k) (hS k)) (fun _ => 1 / (Fintype.card G : ℝ)) q guess
  rw [Finset.sum_congr rfl (fun k _ => by rw [h k]), ← Finset.sum_mul, hκ, one_mul, sub_self, abs_zero]

end Verif.Game

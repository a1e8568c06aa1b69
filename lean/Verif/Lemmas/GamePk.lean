import Verif.Lemmas.Game
import Mathlib.Tactic.Ring
import Mathlib.Tactic.Linarith
import Mathlib.Algebra.BigOperators.Group.Finset.Sigma

/-!
# The reduction for public-key encryption over a finite ring

Public key `(e - a s, a)`, ciphertext `(v b + e0 + m, v a + e1)`. First the public key is replaced by a uniform pair (one
sample with the secret `s`), then one ciphertext after the other (two samples each, with the secret `v`).
-/

namespace Verif.Game

/-- A weighted sum of expectations is the expectation of the weighted sum. -/
theorem sum_expectIid {Ω X : Type} [Fintype Ω] [Fintype X] (c : X → ℝ) (w : Ω → ℝ) (q : Nat) (f : X → List Ω → ℝ) :
    ∑ x, c x * expectIid w q (f x) = expectIid w q (fun l => ∑ x, c x * f x l) := by
  induction q generalizing f with
  | zero => rfl
  | succ q ih =>
    unfold expectIid
    simp only [← ih, Finset.mul_sum]
    rw [Finset.sum_comm]
    exact Finset.sum_congr rfl (fun x _ => Finset.sum_congr rfl (fun y _ => by ring))

/-- The last draw apart. -/
theorem expectIid_snoc {Ω : Type} [Fintype Ω] (w : Ω → ℝ) (q : Nat) (f : List Ω → ℝ) :
    expectIid w (q + 1) f = expectIid w q (fun l => ∑ x, w x * f (l ++ [x])) := by
  induction q generalizing f with
  | zero => rfl
  | succ q ih =>
    show ∑ x, w x * expectIid w (q + 1) (fun l => f (x :: l)) =
      ∑ x, w x * expectIid w q (fun l => ∑ y, w y * f (x :: l ++ [y]))
    exact Finset.sum_congr rfl (fun x _ => by rw [ih]; rfl)

section Ring
variable {R K V E : Type} [CommRing R] [Fintype R] [Fintype K] [Fintype V] [Fintype E]

/-- A ring-LWE sample: mask and masked error. -/
def ringSample (sec : V → R) (err : E → R) (v : V) (x : R × E) : R × R := (x.1, x.1 * sec v + err x.2)

/-- Uniform masks, errors with probability `χ`. -/
noncomputable def ringWeight (R : Type) [Fintype R] {E : Type} (χ : E → ℝ) (x : R × E) : ℝ := 1 / (Fintype.card R : ℝ) * χ x.2

/-- Advantage in the decisional ring-LWE problem with `q` samples. -/
noncomputable def rlweAdvantage (κ : V → ℝ) (χ : E → ℝ) (sec : V → R) (err : E → R) (q : Nat)
    (guess : List (R × R) → ℝ) : ℝ :=
  advantage κ (ringWeight R χ) (ringSample sec err) q guess

/-- Encryption of `m`: `(v b + e0 + m, v a + e1)`. -/
def ringEncrypt (sec : V → R) (err : E → R) (pk : R × R) (m : R) (x : V × E × E) : R × R :=
  (sec x.1 * pk.1 + err x.2.1 + m, sec x.1 * pk.2 + err x.2.2)

/-- Encryptions of messages that may depend on the ciphertexts so far. -/
def ringRun (sec : V → R) (err : E → R) (pk : R × R) (choose : List (R × R) → R) : List (R × R) → List (V × E × E) → List (R × R)
  | hist, [] => hist
  | hist, x :: l => ringRun sec err pk choose (hist ++ [ringEncrypt sec err pk (choose hist) x]) l

/-- Probability of the draws of an encryption. -/
def encWeight (κ : V → ℝ) (χ : E → ℝ) (x : V × E × E) : ℝ := κ x.1 * (χ x.2.1 * χ x.2.2)

/-- Expected guess after `j` further encryptions. -/
noncomputable def ringRest (κ : V → ℝ) (χ : E → ℝ) (sec : V → R) (err : E → R) (choose : R × R → List (R × R) → R)
    (guess : R × R → List (R × R) → ℝ) (j : Nat) (pk : R × R) (hist : List (R × R)) : ℝ :=
  expectIid (encWeight κ χ) j (fun l => guess pk (ringRun sec err pk (choose pk) hist l))

/-- Expected guess of an attacker who sees the public key and `q` ciphertexts. -/
noncomputable def ringGame (κ' : K → ℝ) (κ : V → ℝ) (χ : E → ℝ) (sec' : K → R) (sec : V → R) (err : E → R)
    (choose : R × R → List (R × R) → R) (guess : R × R → List (R × R) → ℝ) (q : Nat) : ℝ :=
  ∑ s, κ' s * ∑ x : R × E, ringWeight R χ x *
    ringRest κ χ sec err choose guess q (err x.2 - x.1 * sec' s, x.1) []

/-- The same when all is uniform; no message is used. -/
noncomputable def uniformGame (guess : R × R → List (R × R) → ℝ) (q : Nat) : ℝ :=
  ∑ pk : R × R, 1 / (Fintype.card (R × R) : ℝ) *
    expectIid (fun _ : R × R => 1 / (Fintype.card (R × R) : ℝ)) q (guess pk)

/-- The attack on one sample: the sample is the public key. -/
noncomputable def keyAttack (κ : V → ℝ) (χ : E → ℝ) (sec : V → R) (err : E → R) (choose : R × R → List (R × R) → R)
    (guess : R × R → List (R × R) → ℝ) (q : Nat) (samples : List (R × R)) : ℝ :=
  ringRest κ χ sec err choose guess q ((samples.getD 0 0).2, -(samples.getD 0 0).1) []

/-- The attack on two samples: `i` uniform ciphertexts, one made from the samples, then encryptions. -/
noncomputable def textAttack (κ : V → ℝ) (χ : E → ℝ) (sec : V → R) (err : E → R) (choose : R × R → List (R × R) → R)
    (guess : R × R → List (R × R) → ℝ) (q i : Nat) (samples : List (R × R)) : ℝ :=
  let pk := ((samples.getD 0 0).1, (samples.getD 1 0).1)
  expectIid (fun _ : R × R => 1 / (Fintype.card (R × R) : ℝ)) i (fun l =>
    ringRest κ χ sec err choose guess (q - i - 1) pk (l ++ [((samples.getD 0 0).2 + choose pk l, (samples.getD 1 0).2)]))

/-- Uniform public key, `i` uniform ciphertexts, then encryptions. -/
noncomputable def hybrid (κ : V → ℝ) (χ : E → ℝ) (sec : V → R) (err : E → R) (choose : R × R → List (R × R) → R)
    (guess : R × R → List (R × R) → ℝ) (q i : Nat) : ℝ :=
  ∑ pk : R × R, 1 / (Fintype.card (R × R) : ℝ) *
    expectIid (fun _ : R × R => 1 / (Fintype.card (R × R) : ℝ)) i (fun l => ringRest κ χ sec err choose guess (q - i) pk l)

variable (κ' : K → ℝ) (κ : V → ℝ) (χ : E → ℝ) (sec' : K → R) (sec : V → R) (err : E → R) (choose : R × R → List (R × R) → R)
  (guess : R × R → List (R × R) → ℝ)

theorem real_keyAttack (q : Nat) :
    real κ' (ringWeight R χ) (ringSample sec' err) 1 (keyAttack κ χ sec err choose guess q) =
      ringGame κ' κ χ sec' sec err choose guess q := by
  unfold real ringGame
  refine Finset.sum_congr rfl (fun s _ => ?_)
  congr 1
  show ∑ x : R × E, ringWeight R χ x * keyAttack κ χ sec err choose guess q [ringSample sec' err s x] = _
  rw [← Equiv.sum_comp (Equiv.prodCongr (Equiv.neg R) (Equiv.refl E))]
  refine Finset.sum_congr rfl (fun x _ => ?_)
  unfold keyAttack ringSample ringWeight
  simp only [Equiv.prodCongr_apply, Prod.map, Equiv.neg_apply, Equiv.refl_apply, List.getD_cons_zero, neg_neg]
  congr 2
  ring_nf

theorem ideal_keyAttack (q : Nat) :
    ideal (R × R) 1 (keyAttack κ χ sec err choose guess q) = hybrid κ χ sec err choose guess q 0 := by
  unfold ideal hybrid
  show ∑ x : R × R, 1 / (Fintype.card (R × R) : ℝ) * keyAttack κ χ sec err choose guess q [x] = _
  rw [← Equiv.sum_comp ((Equiv.prodComm R R).trans (Equiv.prodCongr (Equiv.refl R) (Equiv.neg R)))
    (fun pk => 1 / (Fintype.card (R × R) : ℝ) * expectIid (fun _ : R × R => 1 / (Fintype.card (R × R) : ℝ)) 0
      (fun l => ringRest κ χ sec err choose guess (q - 0) pk l))]
  rfl

theorem ideal_textAttack (q i : Nat) :
    ideal (R × R) 2 (textAttack κ χ sec err choose guess q i) = hybrid κ χ sec err choose guess q (i + 1) := by
  unfold ideal hybrid
  show ∑ x : R × R, 1 / (Fintype.card (R × R) : ℝ) * ∑ y : R × R, 1 / (Fintype.card (R × R) : ℝ) *
    textAttack κ χ sec err choose guess q i [x, y] = _
  simp only [expectIid_snoc]
  unfold textAttack
  generalize 1 / (Fintype.card (R × R) : ℝ) = u
  simp only [List.getD_cons_zero, List.getD_cons_succ]
  simp only [sum_expectIid]
  refine expectIid_congr _ _ _ _ (fun l _ => ?_)
  simp only [Fintype.sum_prod_type, Finset.mul_sum]
  refine Finset.sum_congr rfl (fun b _ => ?_)
  rw [Finset.sum_comm]
  refine Finset.sum_congr rfl (fun a _ => ?_)
  exact Equiv.sum_comp (Equiv.addRight (choose (b, a) l)) (fun x => ∑ y, u * (u *
    ringRest κ χ sec err choose guess (q - i - 1) (b, a) (l ++ [(x, y)])))

theorem real_textAttack (q i : Nat) (hi : i < q) :
    real κ (ringWeight R χ) (ringSample sec err) 2 (textAttack κ χ sec err choose guess q i) =
      hybrid κ χ sec err choose guess q i := by
  unfold hybrid
  obtain ⟨j, hj⟩ : ∃ j, q - i = j + 1 := ⟨q - i - 1, by omega⟩
  have hrest : ∀ (pk : R × R) (l : List (R × R)), ringRest κ χ sec err choose guess (q - i) pk l =
      ∑ x : V × E × E, encWeight κ χ x * ringRest κ χ sec err choose guess (q - i - 1) pk
        (l ++ [ringEncrypt sec err pk (choose pk l) x]) := by
    intro pk l
    rw [hj]
    rfl
  simp only [hrest]
  show ∑ v, κ v * ∑ x : R × E, ringWeight R χ x * ∑ y : R × E, ringWeight R χ y *
    textAttack κ χ sec err choose guess q i [ringSample sec err v x, ringSample sec err v y] = _
  unfold textAttack ringSample ringEncrypt ringWeight encWeight
  simp only [List.getD_cons_zero, List.getD_cons_succ]
  rw [Fintype.card_prod]
  push_cast
  simp only [sum_expectIid]
  refine expectIid_congr _ _ _ _ (fun l _ => ?_)
  simp only [Fintype.sum_prod_type, Finset.mul_sum]
  rw [Finset.sum_comm]
  refine Finset.sum_congr rfl (fun b _ => ?_)
  rw [Finset.sum_congr rfl (fun v _ => Finset.sum_comm)]
  rw [Finset.sum_comm]
  refine Finset.sum_congr rfl (fun a _ => ?_)
  refine Finset.sum_congr rfl (fun v _ => ?_)
  refine Finset.sum_congr rfl (fun e0 _ => ?_)
  refine Finset.sum_congr rfl (fun e1 _ => ?_)
  rw [mul_comm b, mul_comm a, one_div, one_div, mul_inv]
  ring

theorem hybrid_last (q : Nat) : hybrid κ χ sec err choose guess q q = uniformGame guess q := by
  unfold hybrid uniformGame ringRest
  rw [Nat.sub_self]
  rfl

/-- The game is as far from the uniform one as the attacks can tell. -/
theorem ringGame_le (q : Nat) :
    |ringGame κ' κ χ sec' sec err choose guess q - uniformGame guess q| ≤
      rlweAdvantage κ' χ sec' err 1 (keyAttack κ χ sec err choose guess q) +
        ∑ i ∈ Finset.range q, rlweAdvantage κ χ sec err 2 (textAttack κ χ sec err choose guess q i) := by
  have h1 : |ringGame κ' κ χ sec' sec err choose guess q - hybrid κ χ sec err choose guess q 0| =
      rlweAdvantage κ' χ sec' err 1 (keyAttack κ χ sec err choose guess q) := by
    unfold rlweAdvantage advantage
    rw [real_keyAttack, ideal_keyAttack]
  have h2 : ∀ n, n ≤ q → |hybrid κ χ sec err choose guess q 0 - hybrid κ χ sec err choose guess q n| ≤
      ∑ i ∈ Finset.range n, rlweAdvantage κ χ sec err 2 (textAttack κ χ sec err choose guess q i) := by
    intro n
    induction n with
    | zero => intro _; simp
    | succ n ih =>
      intro hn
      rw [Finset.sum_range_succ]
      have h3 : rlweAdvantage κ χ sec err 2 (textAttack κ χ sec err choose guess q n) =
          |hybrid κ χ sec err choose guess q n - hybrid κ χ sec err choose guess q (n + 1)| := by
        unfold rlweAdvantage advantage
        rw [real_textAttack _ _ _ _ _ _ _ _ (by omega), ideal_textAttack]
      rw [h3]
      exact (abs_sub_le _ (hybrid κ χ sec err choose guess q n) _).trans (by linarith [ih (by omega)])
  rw [← hybrid_last κ χ sec err choose guess q, ← h1]
  exact (abs_sub_le _ (hybrid κ χ sec err choose guess q 0) _).trans (by linarith [h2 q le_rfl])

/-- Two choices of messages are told apart at most as well as ring-LWE samples from uniform ones. -/
theorem ringChoice_le (left right : R × R → List (R × R) → R) (q : Nat) :
    |ringGame κ' κ χ sec' sec err left guess q - ringGame κ' κ χ sec' sec err right guess q| ≤
      (rlweAdvantage κ' χ sec' err 1 (keyAttack κ χ sec err left guess q) +
        ∑ i ∈ Finset.range q, rlweAdvantage κ χ sec err 2 (textAttack κ χ sec err left guess q i)) +
      (rlweAdvantage κ' χ sec' err 1 (keyAttack κ χ sec err right guess q) +
        ∑ i ∈ Finset.range q, rlweAdvantage κ χ sec err 2 (textAttack κ χ sec err right guess q i)) := by
  have h1 := ringGame_le κ' κ χ sec' sec err left guess q
  have h2 := ringGame_le κ' κ χ sec' sec err right guess q
  refine (abs_sub_le _ (uniformGame guess q) _).trans (add_le_add h1 ?_)
  rw [abs_sub_comm]
  exact h2

end Ring

end Verif.Game

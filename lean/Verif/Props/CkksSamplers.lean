import Verif.Model.CkksSession
import Verif.Props.CkksSlots
import Verif.Props.Helpers

/-!
# Property C77: the samplers of the CKKS package and the keys and ciphertexts made with them
-/

namespace Verif.Props
open Verif.Helpers Verif.CkksKeys Verif.CkksMul Verif.CkksRotate Verif.CkksSession Verif.Encode

/-- What Python promises about its generator, and a bound on the rounded normal samples. -/
structure RngOk {σ : Type} (rng : Rng σ) (B : Int) : Prop where
  normal : ∀ s, |(rng.normal s).1| ≤ B
  choice : ∀ l s, l ≠ [] → (rng.choice l s).1 ∈ l
  randrange : ∀ q s, 0 < q → 0 ≤ (rng.randrange q s).1 ∧ (rng.randrange q s).1 < q
  sample : ∀ n k s, k ≤ n → (rng.sample n k s).1.Nodup ∧ (rng.sample n k s).1.length = k ∧
    ∀ i ∈ (rng.sample n k s).1, i < n

variable {σ : Type}

theorem bindOk {α β : Type} (x : CkksSession.Draw σ α) (f : α → CkksSession.Draw σ β) (s s' : σ) (a : α)
    (h : x s = .ok (a, s')) : (x >>= f) s = f a s' := by
  show (x s >>= fun r => f r.1 r.2) = _
  rw [h]; rfl

theorem draw_getD (gen : σ → Int × σ) (n : Nat) (s : σ) (p : Nat) (hp : p < n) :
    ∃ t, (draw gen n s).1.getD p 0 = (gen t).1 := by
  induction n generalizing s p with
  | zero => omega
  | succ n ih =>
    cases p with
    | zero => exact ⟨s, rfl⟩
    | succ p => simpa [draw] using ih (gen s).2 p (by omega)

theorem draw_getD_out (gen : σ → Int × σ) (n : Nat) (s : σ) (p : Nat) (hp : n ≤ p) : (draw gen n s).1.getD p 0 = 0 := by
  rw [List.getD_eq_default _ _ (by rw [draw_length]; exact hp)]

theorem gaussianCoeffs_ok {rng : Rng σ} {B : Int} (h : RngOk rng B) (degree : Nat) (s : σ) :
    ∃ c s', gaussianCoeffs rng degree s = .ok (c, s') ∧ ∀ p, |c p| ≤ B := by
  refine ⟨_, _, rfl, fun p => ?_⟩
  by_cases hp : p < degree
  · obtain ⟨t, ht⟩ := draw_getD rng.normal degree s p hp
    simp only [ht]; exact h.normal t
  · simp only [draw_getD_out rng.normal degree s p (by omega), abs_zero]
    exact (abs_nonneg _).trans (h.normal s)

theorem ternaryCoeffs_ok {rng : Rng σ} {B : Int} (h : RngOk rng B) (degree : Nat) (s : σ) :
    ∃ c s', ternaryCoeffs rng degree s = .ok (c, s') ∧ Binary c := by
  refine ⟨_, _, rfl, fun p => ?_⟩
  by_cases hp : p < degree
  · obtain ⟨t, ht⟩ := draw_getD (rng.choice [0, 1]) degree s p hp
    simp only [ht]
    simpa using h.choice [0, 1] t (by simp)
  · exact Or.inl (draw_getD_out _ degree s p (by omega))

theorem uniformCols_ok {rng : Rng σ} {B : Int} (h : RngOk rng B) (degree : Nat) (moduli : List Nat) (hm : ∀ q ∈ moduli, 0 < q)
    (s : σ) : ∃ cols s', uniformCols rng degree moduli s = .ok (cols, s') ∧ cols.length = moduli.length ∧
      ∀ i, i < moduli.length → ∀ p, 0 ≤ (cols.getD i []).getD p 0 ∧ (cols.getD i []).getD p 0 < moduli.getD i 0 := by
  induction moduli generalizing s with
  | nil => exact ⟨[], s, rfl, rfl, fun i hi => absurd hi (by simp)⟩
  | cons q qs ih =>
    obtain ⟨cols, s', h1, h2, h3⟩ := ih (fun x hx => hm x (List.mem_cons_of_mem _ hx)) (draw (rng.randrange q) degree s).2
    have hq := hm q List.mem_cons_self
    refine ⟨(draw (rng.randrange q) degree s).1 :: cols, s', ?_, by simp [h2], ?_⟩
    · unfold uniformCols
      rw [if_neg (by omega)]
      simp only
      rw [bindOk _ _ s _ _ rfl, bindOk _ _ _ _ _ h1]
      rfl
    · intro i hi p
      cases i with
      | zero =>
        simp only [List.getD_cons_zero]
        by_cases hp : p < degree
        · obtain ⟨t, ht⟩ := draw_getD (rng.randrange q) degree s p hp
          rw [ht]; exact h.randrange q t hq
        · rw [draw_getD_out _ degree s p (by omega)]
          exact ⟨le_rfl, by exact_mod_cast hq⟩
      | succ i =>
        simp only [List.getD_cons_succ]
        exact h3 i (by simpa using hi) p

theorem genUniformPoly_ok {rng : Rng σ} {B : Int} (h : RngOk rng B) (degree : Nat) (moduli : List Nat) (hm : ∀ q ∈ moduli, 0 < q)
    (s : σ) : ∃ M s', genUniformPoly rng degree moduli s = .ok (M, s') ∧
      ∀ i, i < moduli.length → ∀ p, M i p < moduli.getD i 0 := by
  obtain ⟨cols, s', h1, -, h3⟩ := uniformCols_ok h degree moduli hm s
  refine ⟨_, s', bindOk _ _ _ _ _ h1, fun i hi p => ?_⟩
  have := h3 i hi p
  show ((cols.getD i []).getD p 0).toNat < _
  omega

theorem sparseCoeffs_ok {rng : Rng σ} {B : Int} (h : RngOk rng B) (degree weight : Nat) (hw : weight ≤ degree) (s : σ) :
    ∃ c s', sparseCoeffs rng degree weight s = .ok (c, s') ∧ Binary c ∧
      ((Finset.range degree).filter (fun p => c p = 1)).card = weight := by
  obtain ⟨h1, h2, h3⟩ := h.sample degree weight s hw
  refine ⟨fun p => if p ∈ (rng.sample degree weight s).1 then 1 else 0, (rng.sample degree weight s).2, ?_, ?_, ?_⟩
  · unfold sparseCoeffs
    rw [if_neg (by omega)]
    simp only
    rw [bindOk _ _ s _ _ rfl]
    have : (rng.sample degree weight s).1.all (fun i => decide (i < degree)) = true := by
      rw [List.all_eq_true]; intro i hi; simpa using h3 i hi
    rw [if_neg (by simp [this])]
    rfl
  · intro p; simp only; split
    · exact Or.inr rfl
    · exact Or.inl rfl
  · have : (Finset.range degree).filter (fun p => (if p ∈ (rng.sample degree weight s).1 then (1 : Int) else 0) = 1) =
        (rng.sample degree weight s).1.toFinset := by
      ext p
      simp only [Finset.mem_filter, Finset.mem_range, List.mem_toFinset]
      constructor
      · rintro ⟨-, hp⟩; by_contra hc; simp [hc] at hp
      · intro hp; exact ⟨h3 p hp, by simp [hp]⟩
    rw [this, List.toFinset_card_of_nodup h1, h2]

/-- C77: the four samplers return for every state of the generator, in the stated form: the short polynomials are one
integer polynomial reduced modulo every modulus, the uniform one is reduced, the sparse one has exactly `weight` ones at
the same places of every column. -/
theorem C77_samplers_partial (rng : Rng σ) (B : Int) (h : RngOk rng B) (degree : Nat) (moduli : List Nat) (hm : ∀ q ∈ moduli, 2 ≤ q) (s : σ) :
    (∃ (M : Mat) (s' : σ) (c : Nat → Int), genGaussianPoly rng degree moduli s = .ok (M, s') ∧ (∀ p, |c p| ≤ B) ∧
      ∀ i, i < moduli.length → ∀ p, (M i p : Int) = c p % (moduli.getD i 0 : Int)) ∧
    (∃ (M : Mat) (s' : σ) (c : Nat → Nat), genTernaryPoly rng degree moduli s = .ok (M, s') ∧ (∀ p, c p = 0 ∨ c p = 1) ∧
      ∀ i, i < moduli.length → ∀ p, M i p = c p) ∧
    (∃ M s', genUniformPoly rng degree moduli s = .ok (M, s') ∧ ∀ i, i < moduli.length → ∀ p, M i p < moduli.getD i 0) ∧
    ∀ weight, weight ≤ degree → moduli ≠ [] →
      ∃ (M : Mat) (s' : σ) (c : Nat → Nat), genSparseBinary rng degree weight moduli s = .ok (M, s') ∧ (∀ i p, M i p = c p) ∧ (∀ p, c p = 0 ∨ c p = 1) ∧
        ((Finset.range degree).filter (fun p => c p = 1)).card = weight := by
  have hget : ∀ i, i < moduli.length → 2 ≤ moduli.getD i 0 := fun i hi => hm _ (getD_mem hi)
  refine ⟨?_, ?_, genUniformPoly_ok h degree moduli (fun q hq => by have := hm q hq; omega) s, ?_⟩
  · obtain ⟨c, s', h1, h2⟩ := gaussianCoeffs_ok h degree s
    refine ⟨_, s', c, bindOk _ _ _ _ _ h1, h2, fun i hi p => ?_⟩
    have := hget i hi
    exact Int.toNat_of_nonneg (Int.emod_nonneg _ (by omega))
  · obtain ⟨c, s', h1, h2⟩ := ternaryCoeffs_ok h degree s
    refine ⟨_, s', fun p => (c p).toNat, bindOk _ _ _ _ _ h1, ?_, ?_⟩
    · intro p; rcases h2 p with e | e <;> simp [e]
    · intro i hi p
      have := hget i hi
      simp only [residues]
      rcases h2 p with e | e <;> rw [e]
      · simp
      · rw [Int.emod_eq_of_lt (by norm_num) (by omega)]
  · intro weight hw hne
    obtain ⟨c, s', h1, h2, h3⟩ := sparseCoeffs_ok h degree weight hw s
    refine ⟨fun _ p => (c p).toNat, s', fun p => (c p).toNat, ?_, fun _ _ => rfl, ?_, ?_⟩
    · unfold genSparseBinary
      rw [if_neg hne]
      simp only
      rw [bindOk _ _ _ _ _ h1]
      rfl
    · intro p; rcases h2 p with e | e <;> simp [e]
    · rw [← h3]
      congr 1
      apply Finset.filter_congr
      intro p _
      rcases h2 p with e | e <;> simp [e]

/-- C77: rejected arguments. -/
theorem C77_rejects (rng : Rng σ) (degree weight : Nat) (moduli : List Nat) (s : σ) :
    (degree < weight → genSparseBinary rng degree weight moduli s = .error "ValueError") ∧
    (degree ≠ 0 → genUniformPoly rng degree (0 :: moduli) s = .error "ValueError") := by
  constructor
  · intro hw
    unfold genSparseBinary sparseCoeffs
    by_cases hm : moduli = []
    · rw [if_pos hm]; rfl
    · rw [if_neg hm, if_pos hw]; rfl
  · intro hd
    unfold genUniformPoly uniformCols
    rw [if_pos ⟨rfl, hd⟩]; rfl

/-- C77, a limit: `gen_ternary_poly` never returns `-1`; the coefficients are 0 and 1 only. -/
theorem C77_ternary_is_binary (rng : Rng σ) (B : Int) (h : RngOk rng B) (degree : Nat) (moduli : List Nat) (s : σ) :
    ∃ M s', genTernaryPoly rng degree moduli s = .ok (M, s') ∧
      ∀ i, i < moduli.length → 3 ≤ moduli.getD i 0 → ∀ p, M i p ≠ moduli.getD i 0 - 1 := by
  obtain ⟨c, s', h1, h2⟩ := ternaryCoeffs_ok h degree s
  refine ⟨_, s', bindOk _ _ _ _ _ h1, ?_⟩
  intro i _ h3 p
  simp only [residues]
  generalize moduli.getD i 0 = q at h3 ⊢
  rcases h2 p with e | e <;> rw [e]
  · rw [Int.zero_emod]; omega
  · rw [Int.emod_eq_of_lt (by norm_num) (by omega)]
    omega

/-! ## Every value can be drawn -/

/-- A generator that returns the entries of a script. -/
def scripted : Rng (List Int) where
  normal | [] => (0, []) | x :: xs => (x, xs)
  choice _ | [] => (0, []) | x :: xs => (x, xs)
  randrange _ | [] => (0, []) | x :: xs => (x, xs)
  sample n k s := ((List.range n).take k, s)

theorem draw_script (gen : List Int → Int × List Int) (hg : ∀ x xs, gen (x :: xs) = (x, xs)) (l rest : List Int) :
    draw gen l.length (l ++ rest) = (l, rest) := by
  induction l with
  | nil => rfl
  | cons x xs ih => simp [draw, hg, ih]

/-- C77: the coefficients are drawn independently: every integer polynomial, and every matrix of residues, is the result
of some behaviour of the generator (in contrast to C76). -/
theorem C77_independent (degree : Nat) (moduli : List Nat) :
    (∀ c : Nat → Int, ∃ s M s', genGaussianPoly scripted degree moduli s = .ok (M, s') ∧
      ∀ i, ∀ p, p < degree → M i p = residues moduli c i p) ∧
    (∀ U : Mat, (∀ q ∈ moduli, 0 < q) → ∃ s M s', genUniformPoly scripted degree moduli s = .ok (M, s') ∧
      ∀ i, i < moduli.length → ∀ p, p < degree → M i p = U i p) := by
  constructor
  · intro c
    have hd := draw_script scripted.normal (fun _ _ => rfl) ((List.range degree).map c) []
    simp only [List.length_map, List.length_range, List.append_nil] at hd
    refine ⟨(List.range degree).map c, _, [], bindOk _ _ _ [] (fun p => ((List.range degree).map c).getD p 0) ?_, ?_⟩
    · unfold gaussianCoeffs
      simp only [hd]
    · intro i p hp
      simp only [residues]
      rw [List.getD_eq_getElem _ _ (by simpa using hp)]
      simp
  · intro U hm
    have key : ∀ (ms : List Nat) (V : Mat), (∀ q ∈ ms, 0 < q) → ∃ s cols, uniformCols scripted degree ms s = .ok (cols, []) ∧
        ∀ i, i < ms.length → ∀ p, p < degree → (cols.getD i []).getD p 0 = V i p := by
      intro ms
      induction ms with
      | nil => intro V _; exact ⟨[], [], rfl, fun i hi => absurd hi (by simp)⟩
      | cons q qs ih =>
        intro V hq
        obtain ⟨s, cols, h1, h2⟩ := ih (fun i => V (i + 1)) (fun x hx => hq x (List.mem_cons_of_mem _ hx))
        have hd := draw_script (scripted.randrange q) (fun _ _ => rfl) ((List.range degree).map (fun p => (V 0 p : Int))) s
        simp only [List.length_map, List.length_range] at hd
        have hq0 := hq q List.mem_cons_self
        refine ⟨(List.range degree).map (fun p => (V 0 p : Int)) ++ s, (List.range degree).map (fun p => (V 0 p : Int)) :: cols, ?_, ?_⟩
        · unfold uniformCols
          rw [if_neg (by omega)]
          simp only
          rw [bindOk _ _ _ s ((List.range degree).map (fun p => (V 0 p : Int))) (by rw [hd]), bindOk _ _ _ _ _ h1]
          rfl
        · intro i hi p hp
          cases i with
          | zero =>
            rw [List.getD_cons_zero, List.getD_eq_getElem _ _ (by simpa using hp)]
            simp
          | succ i => rw [List.getD_cons_succ]; exact h2 i (by simpa using hi) p hp
    obtain ⟨s, cols, h1, h2⟩ := key moduli U hm
    refine ⟨s, _, [], bindOk _ _ _ _ _ h1, ?_⟩
    intro i hi p hp
    simp only [h2 i hi p hp, Int.toNat_natCast]

/-- The assumptions are met by a generator. -/
def constRng (v : Int) : Rng Unit where
  normal s := (v, s)
  choice l s := (l.getLastD 0, s)
  randrange q s := ((q : Int) - 1, s)
  sample n k s := ((List.range n).take k, s)

theorem constRng_ok (v : Int) : RngOk (constRng v) |v| where
  normal _ := le_rfl
  choice l s hl := by
    show l.getLastD 0 ∈ l
    rw [List.getLastD_eq_getLast?, List.getLast?_eq_some_getLast hl]
    exact List.getLast_mem hl
  randrange q s hq := by
    show 0 ≤ (q : Int) - 1 ∧ (q : Int) - 1 < q
    omega
  sample n k s hk := by
    refine ⟨(List.nodup_range).sublist (List.take_sublist _ _), ?_, ?_⟩
    · show ((List.range n).take k).length = k
      simp; omega
    · intro i hi
      exact List.mem_range.1 (List.mem_of_mem_take hi)

example : ∃ (M : Mat) (s' : Unit) (c : Nat → Int), genGaussianPoly (constRng (-3)) 4 [17, 97] () = .ok (M, s') ∧ (∀ p, |c p| ≤ 3) ∧
    ∀ i, i < 2 → ∀ p, (M i p : Int) = c p % (([17, 97] : List Nat).getD i 0 : Int) :=
  (C77_samplers_partial (constRng (-3)) 3 (constRng_ok (-3)) 4 [17, 97] (by simp) ()).1

example := (C77_rejects (constRng (-3)) 4 5 [17] ()).1 (by norm_num)

example := C77_ternary_is_binary (constRng (-3)) 3 (constRng_ok (-3)) 4 [17, 97] ()

end Verif.Props

import Verif.Model.RnsNtt
import Verif.Lemmas.NttCpu
import Mathlib.Data.List.GetD

/-!
# The in-place loops of `rns.py` are the stages of `NttCore`
-/

namespace Verif.RnsNtt
open Verif.BitReversal Verif.CkksMath Verif.NttCore Verif.NttCpu

theorem getD_set (l : List Int) (i p : Nat) (v : Int) (hi : i < l.length) :
    (l.set i v).getD p 0 = if p = i then v else l.getD p 0 := by
  simp only [List.getD_eq_getElem?_getD, List.getElem?_set]
  by_cases h : i = p
  · subst h; simp [hi]
  · rw [if_neg h, if_neg (fun e => h e.symm)]

/-- A butterfly writing `f (x, y)` and `g (x, y)` at the positions of `x` and `y`. -/
def bfly (f g : Int → Int → Int) (half k j : Nat) (c : List Int) : List Int :=
  (c.set (k + j) (f (c.getD (k + j) 0) (c.getD (k + j + half) 0))).set (k + j + half)
    (g (c.getD (k + j) 0) (c.getD (k + j + half) 0))

theorem bfly_inner (f g : Int → Int → Int) (half k m : Nat) (hm : m ≤ half) (c : List Int)
    (hk : k + 2 * half ≤ c.length) :
    ((List.range m).foldl (fun c j => bfly f g half k j c) c).length = c.length ∧
    ∀ p, ((List.range m).foldl (fun c j => bfly f g half k j c) c).getD p 0 =
      if k ≤ p ∧ p < k + m then f (c.getD p 0) (c.getD (p + half) 0)
      else if k + half ≤ p ∧ p < k + half + m then g (c.getD (p - half) 0) (c.getD p 0)
      else c.getD p 0 := by
  induction m with
  | zero =>
    refine ⟨rfl, ?_⟩
    intro p
    rw [if_neg (by omega), if_neg (by omega)]; rfl
  | succ m ih =>
    obtain ⟨h1, h2⟩ := ih (by omega)
    rw [List.range_succ, List.foldl_append]
    simp only [List.foldl_cons, List.foldl_nil]
    set d := (List.range m).foldl (fun c j => bfly f g half k j c) c with hd
    unfold bfly
    refine ⟨by simp [h1], ?_⟩
    intro p
    rw [getD_set _ _ _ _ (by rw [List.length_set]; omega), getD_set _ _ _ _ (by omega)]
    have e1 : d.getD (k + m) 0 = c.getD (k + m) 0 := by
      rw [h2, if_neg (by omega), if_neg (by omega)]
    have e2 : d.getD (k + m + half) 0 = c.getD (k + m + half) 0 := by
      rw [h2, if_neg (by omega), if_neg (by omega)]
    rw [e1, e2]
    by_cases c1 : p = k + m + half
    · subst c1
      rw [if_pos rfl, if_neg (by omega), if_pos (by omega)]
      simp
    · rw [if_neg c1]
      by_cases c2 : p = k + m
      · subst c2
        rw [if_pos rfl, if_pos (by omega)]
      · rw [if_neg c2, h2]
        by_cases c3 : k ≤ p ∧ p < k + m
        · rw [if_pos c3, if_pos (by omega)]
        · have c3' : ¬ (k ≤ p ∧ p < k + (m + 1)) := by omega
          rw [if_neg c3, if_neg c3']
          by_cases c4 : k + half ≤ p ∧ p < k + half + m
          · rw [if_pos c4, if_pos (by omega)]
          · rw [if_neg c4, if_neg (by omega)]

/-- The parallel form of a stage. -/
def par (f g : Nat → Int → Int → Int) (half : Nat) (A : Nat → Int) (p : Nat) : Int :=
  if p % (2 * half) < half then f (p / (2 * half)) (A p) (A (p + half))
  else g (p / (2 * half)) (A (p - half)) (A p)

theorem blocks_spec (f g : Nat → Int → Int → Int) (half m idx : Nat) (hh : 0 < half) (c : List Int)
    (hm : m * (2 * half) ≤ c.length) :
    let r := (List.range m).foldl (fun (s : List Int × Nat) b =>
      ((List.range half).foldl (fun c j => bfly (f s.2) (g s.2) half (b * (2 * half)) j c) s.1, s.2 + 1)) (c, idx)
    r.1.length = c.length ∧ r.2 = idx + m ∧
    ∀ p, r.1.getD p 0 = if p < m * (2 * half) then
      par (fun b => f (idx + b)) (fun b => g (idx + b)) half (fun i => c.getD i 0) p else c.getD p 0 := by
  induction m with
  | zero => simp
  | succ m ih =>
    have hm' : m * (2 * half) + 2 * half ≤ c.length := by
      calc m * (2 * half) + 2 * half = (m + 1) * (2 * half) := by ring
        _ ≤ _ := hm
    obtain ⟨h1, h2, h3⟩ := ih (by omega)
    intro r
    have hr : r = (fun (s : List Int × Nat) b =>
      ((List.range half).foldl (fun c j => bfly (f s.2) (g s.2) half (b * (2 * half)) j c) s.1, s.2 + 1))
      ((List.range m).foldl (fun (s : List Int × Nat) b =>
      ((List.range half).foldl (fun c j => bfly (f s.2) (g s.2) half (b * (2 * half)) j c) s.1, s.2 + 1)) (c, idx)) m := by
      show (List.range (m + 1)).foldl _ _ = _
      rw [List.range_succ, List.foldl_append]; rfl
    generalize hs : (List.range m).foldl (fun (s : List Int × Nat) b =>
      ((List.range half).foldl (fun c j => bfly (f s.2) (g s.2) half (b * (2 * half)) j c) s.1, s.2 + 1)) (c, idx) = s
      at h1 h2 h3 hr
    rw [hr]
    simp only
    obtain ⟨g1, g2⟩ := bfly_inner (f s.2) (g s.2) half (m * (2 * half)) half le_rfl s.1 (by omega)
    refine ⟨by rw [g1, h1], by omega, ?_⟩
    intro p
    rw [g2]
    obtain ⟨K, hK⟩ : ∃ K, K = m * (2 * half) := ⟨_, rfl⟩
    have hK1 : (m + 1) * (2 * half) = K + 2 * half := by rw [hK]; ring
    rw [hK1]
    rw [← hK] at h3 hm' ⊢
    have same : ∀ x, K ≤ x → s.1.getD x 0 = c.getD x 0 := by
      intro x hx; rw [h3, if_neg (by omega)]
    have hdm : ∀ x, x < 2 * half → (K + x) % (2 * half) = x ∧ (K + x) / (2 * half) = m := by
      intro x hx
      constructor
      · rw [hK, Nat.add_comm, Nat.add_mul_mod_self_right, Nat.mod_eq_of_lt hx]
      · rw [hK, Nat.add_comm, Nat.add_mul_div_right _ _ (by omega), Nat.div_eq_of_lt hx]; omega
    by_cases c1 : K ≤ p ∧ p < K + half
    · rw [if_pos c1, if_pos (by omega), same _ c1.1, same _ (by omega)]
      obtain ⟨x, rfl⟩ : ∃ x, p = K + x := ⟨p - K, by omega⟩
      obtain ⟨d1, d2⟩ := hdm x (by omega)
      unfold par
      rw [d1, d2, if_pos (by omega), h2]
    · rw [if_neg c1]
      by_cases c2 : K + half ≤ p ∧ p < K + half + half
      · rw [if_pos c2, if_pos (by omega), same _ (by omega), same _ (by omega)]
        obtain ⟨x, rfl⟩ : ∃ x, p = K + x := ⟨p - K, by omega⟩
        obtain ⟨d1, d2⟩ := hdm x (by omega)
        unfold par
        rw [d1, d2, if_neg (by omega), h2]
      · rw [if_neg c2, h3]
        by_cases c3 : p < K
        · rw [if_pos c3, if_pos (by omega)]
        · rw [if_neg c3, if_neg (by omega)]

theorem ctButterfly_eq (q : Int) (half k j : Nat) (w : Int) (c : List Int) :
    ctButterfly q half k j w c = bfly (fun x y => (x + y * w) % q) (fun x y => (x - y * w) % q) half k j c := rfl

theorem gsButterfly_eq (q : Int) (half k j : Nat) (w : Int) (c : List Int) :
    gsButterfly q half k j w c = bfly (fun x y => (x + y) % q) (fun x y => (x - y) * w % q) half k j c := rfl

theorem rangeCount_two_pow (k s : Nat) (h : s + 1 ≤ k) : rangeCount (2 ^ k) (2 * 2 ^ s) = 2 ^ (k - (s + 1)) := by
  unfold rangeCount
  obtain ⟨d, rfl⟩ : ∃ d, k = s + 1 + d := ⟨k - (s + 1), by omega⟩
  have e : 2 ^ (s + 1 + d) = 2 ^ d * (2 * 2 ^ s) := by rw [pow_add, pow_succ]; ring
  have hp : 0 < 2 ^ s := by positivity
  rw [e, Nat.add_sub_assoc (by omega), Nat.add_comm, Nat.add_mul_div_right _ _ (by omega),
    Nat.div_eq_of_lt (by omega)]
  simp

/-- The entries of a list as a vector modulo `q`. -/
def vec (q : Nat) (c : List Int) : Nat → ZMod q := fun i => (c.getD i 0 : ZMod q)

theorem ctBlocks_spec (k s q : Nat) (hs : s + 1 ≤ k) (psis c : List Int) (idx : Nat) (hc : c.length = 2 ^ k) :
    let r := ctBlocks q psis (2 ^ s) (rangeCount c.length (2 * 2 ^ s)) (c, idx)
    r.1.length = 2 ^ k ∧ r.2 = idx + 2 ^ (k - (s + 1)) ∧
    (∀ p, p < 2 ^ k → vec q r.1 p = ct (fun b => vec q psis (idx + b)) (2 ^ s) (vec q c) p) ∧
    (0 < q → ∀ p, p < 2 ^ k → 0 ≤ r.1.getD p 0 ∧ r.1.getD p 0 < q) := by
  intro r
  have hcount : 2 ^ (k - (s + 1)) * (2 * 2 ^ s) = 2 ^ k := by
    obtain ⟨d, rfl⟩ : ∃ d, k = s + 1 + d := ⟨k - (s + 1), by omega⟩
    rw [Nat.add_sub_cancel_left, pow_add, pow_succ]; ring
  obtain ⟨h1, h2, h3⟩ := blocks_spec (fun i x y => (x + y * psis.getD i 0) % (q : Int))
    (fun i x y => (x - y * psis.getD i 0) % (q : Int)) (2 ^ s) (2 ^ (k - (s + 1))) idx (by positivity) c
    (by rw [hcount, hc])
  have hr : r = (List.range (2 ^ (k - (s + 1)))).foldl (fun (t : List Int × Nat) b =>
      ((List.range (2 ^ s)).foldl (fun c j => bfly (fun x y => (x + y * psis.getD t.2 0) % (q : Int))
        (fun x y => (x - y * psis.getD t.2 0) % (q : Int)) (2 ^ s) (b * (2 * 2 ^ s)) j c) t.1, t.2 + 1)) (c, idx) := by
    show ctBlocks _ _ _ _ _ = _
    rw [hc, rangeCount_two_pow k s hs]
    rfl
  rw [← hr] at h1 h2 h3
  refine ⟨by rw [h1, hc], h2, ?_, ?_⟩
  · intro p hp
    unfold vec ct
    rw [h3, hcount, if_pos hp]
    unfold par
    split <;> simp [ZMod.intCast_mod]
  · intro hq p hp
    rw [h3, hcount, if_pos hp]
    unfold par
    split <;> exact ⟨Int.emod_nonneg _ (by omega), Int.emod_lt_of_pos _ (by omega)⟩

theorem gsBlocks_spec (k s q : Nat) (hs : s + 1 ≤ k) (psis c : List Int) (idx : Nat) (hc : c.length = 2 ^ k) :
    let r := gsBlocks q psis (2 ^ s) (rangeCount c.length (2 * 2 ^ s)) (c, idx)
    r.1.length = 2 ^ k ∧ r.2 = idx + 2 ^ (k - (s + 1)) ∧
    (∀ p, p < 2 ^ k → vec q r.1 p = gs (fun b => vec q psis (idx + b)) (2 ^ s) (vec q c) p) := by
  intro r
  have hcount : 2 ^ (k - (s + 1)) * (2 * 2 ^ s) = 2 ^ k := by
    obtain ⟨d, rfl⟩ : ∃ d, k = s + 1 + d := ⟨k - (s + 1), by omega⟩
    rw [Nat.add_sub_cancel_left, pow_add, pow_succ]; ring
  obtain ⟨h1, h2, h3⟩ := blocks_spec (fun _ x y => (x + y) % (q : Int))
    (fun i x y => (x - y) * psis.getD i 0 % (q : Int)) (2 ^ s) (2 ^ (k - (s + 1))) idx (by positivity) c
    (by rw [hcount, hc])
  have hr : r = (List.range (2 ^ (k - (s + 1)))).foldl (fun (t : List Int × Nat) b =>
      ((List.range (2 ^ s)).foldl (fun c j => bfly (fun x y => (x + y) % (q : Int))
        (fun x y => (x - y) * psis.getD t.2 0 % (q : Int)) (2 ^ s) (b * (2 * 2 ^ s)) j c) t.1, t.2 + 1)) (c, idx) := by
    show gsBlocks _ _ _ _ _ = _
    rw [hc, rangeCount_two_pow k s hs]
    rfl
  rw [← hr] at h1 h2 h3
  refine ⟨by rw [h1, hc], h2, ?_⟩
  intro p hp
  unfold vec gs
  rw [h3, hcount, if_pos hp]
  unfold par
  split <;> simp [ZMod.intCast_mod]

/-! ## Bit reversal of the running index -/

theorem rev_ext {x m : Nat} (hx : x < 2 ^ m) (d : Nat) : bitReversal x (m + d) = 2 ^ d * bitReversal x m := by
  induction d with
  | zero => simp
  | succ d ih =>
    have h := rev_two_pow_add (x := x) (n := m + d) 0 (by norm_num)
      (lt_of_lt_of_le hx (Nat.pow_le_pow_right (by norm_num) (by omega)))
    rw [Nat.zero_mul, Nat.zero_add, Nat.add_zero] at h
    rw [← Nat.add_assoc, h, ih, pow_succ]; ring

/-- The factor of block `b` in Cooley–Tukey stage `t`. -/
theorem rev_ct {k t b : Nat} (ht : t + 1 ≤ k) (hb : b < 2 ^ t) :
    bitReversal (2 ^ t + b) k = 2 ^ (k - (t + 1)) * (2 * bitReversal b t + 1) := by
  obtain ⟨d, rfl⟩ : ∃ d, k = t + 1 + d := ⟨k - (t + 1), by omega⟩
  have h := rev_two_pow_add (x := b) (n := t) 1 (by norm_num) hb
  rw [Nat.one_mul] at h
  rw [rev_ext (by rw [pow_succ]; omega), h, Nat.add_sub_cancel_left]

/-- The factor of block `b` in the matching Gentleman–Sande stage. -/
theorem rev_gs {k t b : Nat} (ht : t + 1 ≤ k) (hb : b < 2 ^ t) :
    bitReversal (2 ^ k - 2 ^ (t + 1) + b) k + 1 = bitReversal (2 ^ t + b) k := by
  have hpow : 2 ^ (t + 1) ≤ 2 ^ k := Nat.pow_le_pow_right (by norm_num) ht
  have e2 : 2 ^ (t + 1) = 2 * 2 ^ t := by rw [pow_succ, Nat.mul_comm]
  have hx : 2 ^ t + (2 ^ t - 1 - b) < 2 ^ k := by omega
  have h := rev_compl hx
  have e : 2 ^ k - 1 - (2 ^ t + (2 ^ t - 1 - b)) = 2 ^ k - 2 ^ (t + 1) + b := by omega
  rw [e] at h
  rw [h, rev_ct ht (by omega), rev_ct ht hb, rev_compl hb]
  have hr := rev_lt b t
  obtain ⟨d, rfl⟩ : ∃ d, k = t + 1 + d := ⟨k - (t + 1), by omega⟩
  rw [Nat.add_sub_cancel_left]
  obtain ⟨r, hr'⟩ : ∃ r, r = bitReversal b t := ⟨_, rfl⟩
  rw [← hr'] at hr ⊢
  obtain ⟨c, hc⟩ : ∃ c, 2 ^ t = r + 1 + c := ⟨2 ^ t - (r + 1), by omega⟩
  have e3 : 2 * (2 ^ t - 1 - r) + 1 = 2 * c + 1 := by omega
  rw [e3, pow_add, e2]
  have : 2 * 2 ^ t * 2 ^ d = 2 ^ d * (2 * c + 1) + 2 ^ d * (2 * r + 1) := by rw [hc]; ring
  have hp : 0 < 2 ^ d * (2 * r + 1) := by positivity
  omega

end Verif.RnsNtt

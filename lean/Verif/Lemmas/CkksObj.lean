import Verif.Lemmas.RescaleArr
import Verif.Model.CkksObj

/-!
# Broadcasting of the operations on objects
-/

namespace Verif.CkksObj
open Verif.Barrett Verif.CkksKeys Verif.CkksMul Verif.RescaleArr

/-- Two axes can be broadcast. -/
def Compat (a b : Nat) : Prop := a = b ∨ a = 1 ∨ b = 1

instance (a b : Nat) : Decidable (Compat a b) := by unfold Compat; infer_instance

/-- The length of the result. -/
def bd (a b : Nat) : Nat := if a = 1 then b else a

theorem bdim_ok_iff {a b d : Nat} : bdim a b = .ok d ↔ Compat a b ∧ d = bd a b := by
  unfold bdim Compat bd
  by_cases h1 : a = b
  · subst h1
    simp only [if_true, Except.ok.injEq, true_or, true_and, ite_self]
    exact eq_comm
  · rw [if_neg h1]
    by_cases h2 : a = 1
    · rw [if_pos h2, if_pos h2]
      simp only [Except.ok.injEq, h2, true_or, or_true, true_and]
      exact eq_comm
    · rw [if_neg h2, if_neg h2]
      by_cases h3 : b = 1
      · rw [if_pos h3]
        simp only [Except.ok.injEq, h3, or_true, true_and]
        exact eq_comm
      · simp [h1, h2, h3]

theorem bdim_ok {a b : Nat} (h : Compat a b) : bdim a b = .ok (bd a b) := bdim_ok_iff.2 ⟨h, rfl⟩

theorem bd_self (a : Nat) : bd a a = a := by unfold bd; split <;> simp_all
theorem bd_one (a : Nat) : bd a 1 = a := by unfold bd; split <;> simp_all
theorem one_bd (a : Nat) : bd 1 a = a := by simp [bd]
theorem compat_self (a : Nat) : Compat a a := Or.inl rfl
theorem compat_one (a : Nat) : Compat a 1 := Or.inr (Or.inr rfl)
theorem one_compat (a : Nat) : Compat 1 a := Or.inr (Or.inl rfl)

theorem pick_bd_left {a b i : Nat} (h : Compat a b) : pick a (pick (bd a b) i) = pick a i := by
  unfold pick
  by_cases ha : a = 1
  · simp [ha]
  · have : bd a b = a := by simp [bd, ha]
    rw [this]
    simp [ha]

theorem pick_bd_right {a b i : Nat} (h : Compat a b) : pick b (pick (bd a b) i) = pick b i := by
  unfold pick
  by_cases hb : b = 1
  · simp [hb]
  · have : bd a b = b := by
      unfold bd
      rcases h with h | h | h
      · simp [h]
      · simp [h]
      · exact absurd h hb
    rw [this]
    simp [hb]

theorem pick_pick (d i : Nat) : pick d (pick d i) = pick d i := by
  unfold pick
  split <;> rfl

theorem map2_ok_iff {α β γ : Type} {f : α → β → γ} {A : Arr α} {B : Arr β} {C : Arr γ} :
    map2 f A B = .ok C ↔ (Compat A.e B.e ∧ Compat A.n B.n ∧ Compat A.l B.l) ∧
      C = ⟨bd A.e B.e, bd A.n B.n, bd A.l B.l, fun a p i =>
        f (A.get (pick A.e a) (pick A.n p) (pick A.l i)) (B.get (pick B.e a) (pick B.n p) (pick B.l i))⟩ := by
  constructor
  · intro h
    unfold map2 at h
    simp only [bind, Except.bind] at h
    cases he : bdim A.e B.e with
    | error x => rw [he] at h; simp at h
    | ok e =>
      rw [he] at h
      simp only at h
      cases hn : bdim A.n B.n with
      | error x => rw [hn] at h; simp at h
      | ok n =>
        rw [hn] at h
        simp only at h
        cases hl : bdim A.l B.l with
        | error x => rw [hl] at h; simp at h
        | ok l =>
          rw [hl] at h
          simp only [pure, Except.pure, Except.ok.injEq] at h
          obtain ⟨c1, rfl⟩ := bdim_ok_iff.1 he
          obtain ⟨c2, rfl⟩ := bdim_ok_iff.1 hn
          obtain ⟨c3, rfl⟩ := bdim_ok_iff.1 hl
          exact ⟨⟨c1, c2, c3⟩, h.symm⟩
  · rintro ⟨⟨c1, c2, c3⟩, rfl⟩
    exact map2_eq f A B (bdim_ok c1) (bdim_ok c2) (bdim_ok c3)

theorem bind_ok_iff {α β : Type} {x : Except String α} {f : α → Except String β} {y : β} :
    (x >>= f) = .ok y ↔ ∃ a, x = .ok a ∧ f a = .ok y := by
  cases x with
  | error e => simp [bind, Except.bind]
  | ok a => simp [bind, Except.bind]

theorem elem_ok_iff {A B : Arr Nat} {k : Nat} :
    elem A k = .ok B ↔ 0 < A.e ∧ B = ⟨1, A.n, A.l, fun _ p i => A.get (min k (A.e - 1)) p i⟩ := by
  unfold elem
  by_cases h : A.e = 0
  · simp [h]
  · simp only [if_neg h, Except.ok.injEq, Nat.pos_of_ne_zero h, true_and]
    exact eq_comm

theorem compat_bd_iff {a b c : Nat} : (Compat a b ∧ Compat (bd a b) c) ↔ (Compat a b ∧ Compat a c ∧ Compat b c) := by
  unfold Compat bd
  by_cases ha : a = 1 <;> by_cases hb : b = 1 <;> by_cases hc : c = 1 <;> simp [ha, hb, hc] <;> omega

/-- The three products of `tensor_multiply` on operands of any shapes. -/
theorem tensor_ok_iff {K : CkksMul.Kernel} {A B T : CtObj} :
    tensorMultiply (some K) A B = .ok T ↔
      (0 < A.data.e ∧ 0 < B.data.e ∧ Compat A.data.n B.data.n ∧ Compat A.data.l B.data.l ∧
        Compat (bd A.data.l B.data.l) A.moduli.length) ∧
      T = ⟨⟨3, bd A.data.n B.data.n, bd (bd A.data.l B.data.l) A.moduli.length, fun a p i =>
        let u := fun k => A.data.get (min k (A.data.e - 1)) (pick A.data.n p) (pick A.data.l (pick (bd A.data.l B.data.l) i))
        let v := fun k => B.data.get (min k (B.data.e - 1)) (pick B.data.n p) (pick B.data.l (pick (bd A.data.l B.data.l) i))
        let m := A.moduli.getD (pick A.moduli.length i) 0
        (if a = 0 then mul64 (u 0) (v 0) % m
          else if a = 1 then add64 (mul64 (u 0) (v 1)) (mul64 (u 1) (v 0)) % m
          else mul64 (u 1) (v 1) % m) % 2 ^ 32⟩, A.moduli⟩ := by
  unfold tensorMultiply
  simp only [bind_ok_iff, elem_ok_iff, map2_ok_iff, pure, Except.pure, Except.ok.injEq]
  constructor
  · rintro ⟨a0, ⟨hA, rfl⟩, a1, ⟨-, rfl⟩, b0, ⟨hB, rfl⟩, b1, ⟨-, rfl⟩, p00, ⟨⟨-, h1, h2⟩, rfl⟩, m0, ⟨⟨-, -, h3⟩, rfl⟩,
      p11, ⟨-, rfl⟩, m2, ⟨-, rfl⟩, p01, ⟨-, rfl⟩, p10, ⟨-, rfl⟩, sum, ⟨-, rfl⟩, m1, ⟨-, rfl⟩, rfl⟩
    refine ⟨⟨hA, hB, h1, h2, h3⟩, ?_⟩
    simp only [stack3, row, bd_one, bd_self, pick_one]
    congr 2
    funext a p i
    simp only [pick_bd_left h1, pick_bd_right h1, pick_pick]
  · rintro ⟨⟨hA, hB, h1, h2, h3⟩, rfl⟩
    refine ⟨_, ⟨hA, rfl⟩, _, ⟨hA, rfl⟩, _, ⟨hB, rfl⟩, _, ⟨hB, rfl⟩, _, ⟨⟨compat_self 1, h1, h2⟩, rfl⟩,
      _, ⟨⟨compat_self 1, compat_one _, h3⟩, rfl⟩, _, ⟨⟨compat_self 1, h1, h2⟩, rfl⟩,
      _, ⟨⟨compat_self 1, compat_one _, h3⟩, rfl⟩, _, ⟨⟨compat_self 1, h1, h2⟩, rfl⟩, _, ⟨⟨compat_self 1, h1, h2⟩, rfl⟩,
      _, ⟨⟨compat_self _, compat_self _, compat_self _⟩, rfl⟩,
      _, ⟨⟨compat_self 1, ?_, ?_⟩, rfl⟩, ?_⟩
    · simp only [row]; exact compat_one _
    · simp only [bd_self]; exact h3
    simp only [stack3, row, bd_one, bd_self, pick_one]
    congr 2
    funext a p i
    simp only [pick_bd_left h1, pick_bd_right h1, pick_pick]

theorem bd_bd_left {a b : Nat} : bd a (bd a b) = bd a b := by
  unfold bd
  by_cases ha : a = 1 <;> simp [ha]

theorem bd_bd_right {a b : Nat} (h : Compat a b) : bd (bd a b) b = bd a b := by
  unfold bd
  rcases h with h | h | h
  · simp [h]
  · simp [h]
  · by_cases ha : a = 1 <;> simp [ha, h]

theorem compat_bd_left {a b : Nat} : Compat a (bd a b) := by
  unfold Compat bd
  by_cases ha : a = 1 <;> simp [ha]

theorem compat_bd_right {a b : Nat} (h : Compat a b) : Compat (bd a b) b := by
  unfold bd
  by_cases ha : a = 1
  · rw [if_pos ha]; exact compat_self b
  · rw [if_neg ha]; exact h

theorem mulSimple_ok_iff {ct : CtObj} {pt : PtObj} {T : CtObj} (he : pt.data.e = 1) :
    mulSimple ct pt = .ok T ↔
      (ct.moduli = pt.moduli ∧ Compat ct.data.n pt.data.n ∧ Compat ct.data.l pt.data.l) ∧
      T = ⟨⟨ct.data.e, bd ct.data.n pt.data.n, bd ct.data.l pt.data.l, fun a p i =>
        ct.data.get (pick ct.data.e a) (pick ct.data.n p) (pick ct.data.l i) *
          pt.data.get 0 (pick pt.data.n p) (pick pt.data.l i) % 2 ^ 32⟩, ct.moduli⟩ := by
  unfold mulSimple
  by_cases hm : ct.moduli = pt.moduli
  · simp only [hm, ne_eq, not_true, if_false, bind_ok_iff, map2_ok_iff, pure, Except.pure, Except.ok.injEq, he, true_and]
    constructor
    · rintro ⟨x, ⟨⟨-, h1, h2⟩, rfl⟩, rfl⟩
      exact ⟨⟨h1, h2⟩, by simp only [bd_one, pick_one]⟩
    · rintro ⟨⟨h1, h2⟩, rfl⟩
      exact ⟨_, ⟨⟨compat_one _, h1, h2⟩, rfl⟩, by simp only [bd_one, pick_one]⟩
  · simp [hm]

theorem mulBarrett_ok_iff {ms : List Nat} {ct : CtObj} {pt : PtObj} {T : CtObj} (he : pt.data.e = 1) :
    mulBarrett (some ms) ct pt = .ok T ↔
      (ct.moduli = pt.moduli ∧ Compat ct.data.n pt.data.n ∧ Compat ct.data.l pt.data.l ∧
        Compat (bd ct.data.l pt.data.l) ms.length) ∧
      T = ⟨⟨ct.data.e, bd ct.data.n pt.data.n, bd (bd ct.data.l pt.data.l) ms.length, fun a p i =>
        modularReduction (mul64
          (ct.data.get (pick ct.data.e a) (pick ct.data.n p) (pick ct.data.l (pick (bd ct.data.l pt.data.l) i)))
          (pt.data.get 0 (pick pt.data.n p) (pick pt.data.l (pick (bd ct.data.l pt.data.l) i))))
          (Barrett.precompute (ms.getD (pick ms.length i) 0)) % 2 ^ 32⟩, ct.moduli⟩ := by
  unfold mulBarrett
  by_cases hm : ct.moduli = pt.moduli
  · simp only [hm, ne_eq, not_true, if_false, bind_ok_iff, map2_ok_iff, pure, Except.pure, Except.ok.injEq, he, true_and]
    constructor
    · rintro ⟨x, ⟨⟨-, h1, h2⟩, rfl⟩, y, ⟨⟨-, -, h3⟩, rfl⟩, rfl⟩
      refine ⟨⟨h1, h2, h3⟩, ?_⟩
      simp only [bd_one, pick_one, row, pick_pick, pick_bd_left h1, pick_bd_right h1]
    · rintro ⟨⟨h1, h2, h3⟩, rfl⟩
      refine ⟨_, ⟨⟨compat_one _, h1, h2⟩, rfl⟩, _, ⟨⟨compat_one _, compat_one _, h3⟩, rfl⟩, ?_⟩
      simp only [bd_one, pick_one, row, pick_pick, pick_bd_left h1, pick_bd_right h1]
  · simp [hm]

theorem addSubtract_ok_iff {ms : List Nat} {A B C : Arr Nat} :
    addSubtract ms A B = .ok C ↔
      (Compat A.e B.e ∧ Compat A.n B.n ∧ Compat A.l B.l ∧ Compat (bd A.l B.l) ms.length) ∧
      C = ⟨bd A.e B.e, bd A.n B.n, bd (bd A.l B.l) ms.length, fun a p i =>
        let x := (A.get (pick A.e a) (pick A.n p) (pick A.l (pick (bd A.l B.l) i)) +
          B.get (pick B.e a) (pick B.n p) (pick B.l (pick (bd A.l B.l) i))) % 2 ^ 32
        let q := ms.getD (pick ms.length i) 0
        if x ≥ q then x - q else x⟩ := by
  unfold addSubtract
  simp only [bind_ok_iff, map2_ok_iff]
  constructor
  · rintro ⟨x, ⟨⟨h0, h1, h2⟩, rfl⟩, ⟨-, -, h3⟩, rfl⟩
    refine ⟨⟨h0, h1, h2, h3⟩, ?_⟩
    simp only [bd_one, row, pick_bd_left h0, pick_bd_right h0, pick_bd_left h1, pick_bd_right h1]
  · rintro ⟨⟨h0, h1, h2, h3⟩, rfl⟩
    refine ⟨_, ⟨⟨h0, h1, h2⟩, rfl⟩, ⟨compat_one _, compat_one _, h3⟩, ?_⟩
    simp only [bd_one, row, pick_bd_left h0, pick_bd_right h0, pick_bd_left h1, pick_bd_right h1]

/-- The operand of the inverse transform in `decrypt`. -/
def decryptArg (sk : SkObj) (ct : CtObj) : Mat := fun i p =>
  let m := ct.moduli.getD (pick ct.moduli.length i) 0
  let c := fun k => ct.data.get (min k (ct.data.e - 1)) (pick ct.data.n p) (pick ct.data.l i)
  add64 (c 0) (mul64 (c 1) (sk.data.get 0 (pick sk.data.n p) (pick ct.moduli.length i)) % m) % m

theorem decrypt_ok_iff {sk : SkObj} {ct : CtObj} {P : PtObj} (he : sk.data.e = 1) (hl : sk.data.l = sk.moduli.length) :
    decrypt sk ct = .ok P ↔
      (ct.moduli = sk.moduli.take ct.moduli.length ∧ 0 < ct.data.e ∧ Compat ct.data.n sk.data.n ∧
        Compat ct.data.l ct.moduli.length ∧ ct.moduli.length ≤ bd ct.data.l ct.moduli.length) ∧
      ∃ coeffs, inttMat (bd ct.data.n sk.data.n) ct.moduli (decryptArg sk ct) = .ok coeffs ∧
        P = ⟨⟨1, bd ct.data.n sk.data.n, ct.moduli.length, fun _ p i => coeffs i p % 2 ^ 32⟩, ct.moduli⟩ := by
  unfold decrypt
  by_cases hm : ct.moduli = sk.moduli.take ct.moduli.length
  · have hmin : min sk.data.l ct.moduli.length = ct.moduli.length := by
      have := congrArg List.length hm
      rw [List.length_take] at this
      omega
    simp only [ne_eq, ← hm, not_true, if_false, bind_ok_iff, map2_ok_iff, elem_ok_iff, he, hmin, true_and]
    constructor
    · rintro ⟨c0, ⟨h0, rfl⟩, c1, ⟨-, rfl⟩, prod, ⟨⟨-, h1, h2⟩, rfl⟩, red, ⟨-, rfl⟩, sum, ⟨-, rfl⟩, res, ⟨-, rfl⟩, h⟩
      simp only [bd_one, row, pick_one, bd_bd_left, bd_bd_right h2, pick_pick, pick_bd_left h1, pick_bd_left h2,
        pick_bd_right h1, pick_bd_right h2] at h
      by_cases hlt : bd ct.data.l ct.moduli.length < ct.moduli.length
      · rw [if_pos hlt] at h
        simp [bind, Except.bind, throw, throwThe, MonadExceptOf.throw] at h
      · rw [if_neg hlt] at h
        obtain ⟨coeffs, e1, e2⟩ := bind_ok_iff.1 h
        exact ⟨⟨h0, h1, h2, not_lt.1 hlt⟩, coeffs, e1, (Except.ok.inj e2).symm⟩
    · rintro ⟨⟨h0, h1, h2, h3⟩, coeffs, h4, rfl⟩
      refine ⟨_, ⟨h0, rfl⟩, _, ⟨h0, rfl⟩, _, ⟨⟨compat_self 1, h1, h2⟩, rfl⟩, _, ⟨⟨compat_self 1, compat_one _, ?_⟩, rfl⟩,
        _, ⟨⟨compat_self 1, ?_, ?_⟩, rfl⟩, _, ⟨⟨compat_self 1, ?_, ?_⟩, rfl⟩, ?_⟩
      all_goals simp only [bd_one, row, pick_one, bd_bd_left, bd_bd_right h2, pick_pick, pick_bd_left h1, pick_bd_left h2,
        pick_bd_right h1, pick_bd_right h2]
      · exact compat_bd_right h2
      · exact compat_bd_left
      · exact compat_bd_left
      · exact compat_one _
      · exact compat_bd_right h2
      · rw [if_neg (not_lt.2 h3)]
        exact bind_ok_iff.2 ⟨coeffs, h4, rfl⟩
  · simp [hm]

end Verif.CkksObj

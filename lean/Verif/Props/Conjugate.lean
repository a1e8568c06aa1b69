import Verif.Props.CkksRotate

/-! # Property C43, conjugation of ciphertexts -/

namespace Verif.Props
open Verif.Barrett Verif.NttBat Verif.Slots Verif.CkksKeys Verif.CkksMul Verif.Crt Verif.CkksRotate Verif.Automorphism

/-- C43: `Conjugation.conjugate`. If the input encrypts `m` under `s`, the output encrypts `m(X^-1)` under the same key,
up to noise `η` with `P |η| ≤ Σ_part N · (#part · ∏ part) · B + #P · P · (1 + N · Bs)`, for keys whose source is
`s(X^-1)` (those of `gen_conjugate_key`, `C40_conjugate_key`). -/
theorem C43_conjugate (kr kc : Nat) (q p : List Nat) (h : Basis kr kc q p) (hc : Chain kr kc (q ++ p)) (dnum : Nat)
    (hd : 0 < dnum) (hparts : (dnum - 1) * ((q.length + dnum - 1) / dnum) < q.length) :
    ∃ S R, precomputeSwitch q p dnum (2 ^ kr) (2 ^ kc) = .ok S ∧
      Rescale.precompute (q ++ p) p.length (2 ^ kr) (2 ^ kc) = .ok R ∧
    ∀ (bc : BcKernel) (start : Nat),
      (∀ part, part < dnum → bc[start + part]? = some (partModuli q dnum part, otherModuli q p dnum part)) →
    ∀ (s sInv : Nat → Int) (Bs : Int), 0 ≤ Bs → (∀ t, t < 2 ^ (kr + kc) → |s t| ≤ Bs) → sInv 0 = s 0 →
      (∀ j, 0 < j → j < 2 ^ (kr + kc) → sInv (2 ^ (kr + kc) - j) = -s j) →
    ∀ (src : Mat), (∀ i, i < q.length → ringOf (kr + kc) (q.getD i 0) (src i) = polyOf (kr + kc) (q.getD i 0) sInv) →
    ∀ (e : Nat → Nat → Int) (B : Int), 0 ≤ B → (∀ part, part < dnum → ∀ t, t < 2 ^ (kr + kc) → |e part t| ≤ B) →
    ∀ (keys : EvalKeys), SwitchKey (kr + kc) q p dnum s src e keys →
    ∀ (ct : Ciphertext), ct.moduli = q → Reduced (kr + kc) q ct.c0 → Reduced (kr + kc) q ct.c1 →
    ∀ (m mInv : Nat → Int), mInv 0 = m 0 → (∀ j, 0 < j → j < 2 ^ (kr + kc) → mInv (2 ^ (kr + kc) - j) = -m j) →
      (∀ i, i < q.length → ringOf (kr + kc) (q.getD i 0) (ct.c0 i) +
        ringOf (kr + kc) (q.getD i 0) (ct.c1 i) * polyOf (kr + kc) (q.getD i 0) s = polyOf (kr + kc) (q.getD i 0) m) →
    ∃ ct', conjugate S R (2 ^ (kr + kc)) ct keys p bc (some (q ++ p)) start = .ok ct' ∧ ct'.moduli = q ∧
      Reduced (kr + kc) q ct'.c0 ∧ Reduced (kr + kc) q ct'.c1 ∧
      ∃ η : Nat → Int, (∀ t, t < 2 ^ (kr + kc) → (p.prod : Int) * |η t| ≤ (∑ part ∈ Finset.range dnum,
          2 ^ (kr + kc) * (((partModuli q dnum part).length * (partModuli q dnum part).prod : Nat) : Int) * B) +
          ((p.length * p.prod : Nat) : Int) * (1 + 2 ^ (kr + kc) * Bs)) ∧
        ∀ i, i < q.length →
          ringOf (kr + kc) (q.getD i 0) (ct'.c0 i) + ringOf (kr + kc) (q.getD i 0) (ct'.c1 i) * polyOf (kr + kc) (q.getD i 0) s =
          polyOf (kr + kc) (q.getD i 0) (fun t => mInv t + η t) := by
  have hN := Nat.one_le_two_pow (n := kr + kc)
  have hl : (q ++ p).length = q.length + p.length := List.length_append
  obtain ⟨R, hR, hres⟩ := rescaleCt_spec h hc
  refine ⟨_, R, precomputeSwitch_ok h dnum hd hparts, hR, ?_⟩
  intro bc start hbc s sInv Bs hBs0 hBs hs0 hsj src hsrc e B hB0 hB keys hk ct hmod h0 h1 m mInv hm0 hmj hm
  have hflip : ∀ M, Reduced (kr + kc) q M → Reduced (kr + kc) q (fun i => Automorphism.flip (2 ^ (kr + kc)) (M i)) := by
    intro M hM i hi t ht
    unfold Automorphism.flip
    exact hM i hi _ (by omega)
  obtain ⟨S', x, x1, x2, x3, x4, x5, ν, x6, x7⟩ := C45_key_switch kr kc q p h dnum hd hparts bc start hbc
    ⟨fun i => Automorphism.flip (2 ^ (kr + kc)) (ct.c0 i), fun i => Automorphism.flip (2 ^ (kr + kc)) (ct.c1 i), q⟩ rfl
    (hflip _ h0) (hflip _ h1) s src e B hB0 hB keys hk
  rw [precomputeSwitch_ok h dnum hd hparts] at x1
  cases x1
  obtain ⟨ct', c1, c2, c3, c4, c5⟩ := hres x x3 x4 x5
  refine ⟨ct', ?_, c2, c3, c4, ?_⟩
  · unfold conjugate
    rw [hmod, x2]
    exact c1
  obtain ⟨η, n1, n2⟩ := c5 s Bs hBs0 hBs (fun i => polyOf (kr + kc) (q.getD i 0) mInv) ν _ x6 (by
      intro i hi
      have := x7 i (by omega)
      rw [if_pos hi, getD_append_left hi] at this
      rw [this]
      congr 2
      simp only
      rw [hsrc i hi, flip_ringOf (h.left.at hi).1, flip_ringOf (h.left.at hi).1,
        ← sigma_isSubst _ _ _ (by omega) s sInv (isSubst_inv _ s sInv hs0 hsj), ← map_mul, ← map_add, hm i hi,
        sigma_isSubst _ _ _ _ m mInv (isSubst_inv _ m mInv hm0 hmj)])
    (by
      intro i hi hi'
      have := x7 i hi'
      rwa [if_neg (by omega), zero_add] at this)
  refine ⟨η, n1, ?_⟩
  intro i hi
  rw [n2 i hi, polyOf_add]

/-- The hypotheses on the moduli are met with two parts; keys exist by `C40_conjugate_key`. -/
example : ∃ q p : List Nat, Basis 0 1 q p ∧ Chain 0 1 (q ++ p) ∧ (2 - 1) * ((q.length + 2 - 1) / 2) < q.length :=
  ⟨[40961, 65537], [12289], basis_rotation.1, basis_rotation.2, by decide⟩

end Verif.Props

import Verif.Model.Device
import Verif.Props.Polynomial

/-!
# C105: products do not depend on the device
-/

namespace Verif.Props
open Verif.Device Verif.Nega Verif.MatrixUtils Verif.PolymulKernel Verif.Arith Polynomial

theorem contains_iff (needle : List Char) : ∀ s, contains needle s = true ↔ ∃ u v, s = u ++ needle ++ v
  | [] => by
    unfold contains
    rw [List.isEmpty_iff]
    constructor
    · rintro rfl; exact ⟨[], [], rfl⟩
    · rintro ⟨u, v, h⟩
      have h2 := (List.append_eq_nil_iff.1 h.symm).1
      exact (List.append_eq_nil_iff.1 h2).2
  | c :: s => by
    unfold contains
    rw [Bool.or_eq_true, contains_iff needle s, List.isPrefixOf_iff_prefix]
    constructor
    · rintro (⟨v, h⟩ | ⟨u, v, h⟩)
      · exact ⟨[], v, h.symm⟩
      · exact ⟨c :: u, v, by rw [h]; rfl⟩
    · rintro ⟨u, v, h⟩
      cases u with
      | nil => exact .inl ⟨v, h.symm⟩
      | cons d u => exact .inr ⟨u, v, (List.cons.inj h).2⟩

/-- Specification: the device kind of a TPU of the version `d`, of the small variant or not. -/
def tpuKind (d : Fin 10) (lite : Bool) : List Char :=
  "TPU v".toList ++ [Nat.digitChar d.val] ++ if lite then " lite".toList else []

/-- C105 (partial): on devices that are not TPUs and on TPUs whose kind is "TPU v" and one digit, perhaps followed by
" lite", the version is found. -/
theorem C105_version_partial (rest : List (List Char)) :
    (∀ kind, (¬ ∃ u v, kind = u ++ "TPU".toList ++ v) → getTpuVersion (kind :: rest) = .ok (-1)) ∧
    ∀ d lite, getTpuVersion (tpuKind d lite :: rest) = .ok (d.val : Int) := by
  constructor
  · intro kind h
    unfold getTpuVersion
    simp only
    rw [if_pos]
    rw [← contains_iff] at h
    simpa using h
  · intro d lite
    show getTpuVersion [tpuKind d lite] = _
    revert d lite
    decide +kernel

/-- The version of other TPUs is not found: exactly these device kinds are supported. -/
theorem C105_exact (kind : List Char) (rest : List (List Char)) (v : Int) :
    getTpuVersion (kind :: rest) = .ok v ↔
      ((¬ ∃ u w, kind = u ++ "TPU".toList ++ w) ∧ v = -1) ∨ ∃ d lite, kind = tpuKind d lite ∧ v = (d.val : Int) := by
  obtain ⟨h1, h2⟩ := C105_version_partial rest
  constructor
  · intro h
    by_cases hc : ∃ u w, kind = u ++ "TPU".toList ++ w
    · right
      unfold getTpuVersion at h
      simp only at h
      rw [if_neg (by rw [(contains_iff _ _).2 hc]; exact Bool.noConfusion)] at h
      obtain ⟨k', lite, hk, hk'⟩ : ∃ (k' : List Char) (lite : Bool), kind = k' ++ (if lite then " lite".toList else []) ∧
          (if " lite".toList.isSuffixOf kind then kind.take (kind.length - " lite".toList.length) else kind) = k' := by
        by_cases hs : " lite".toList.isSuffixOf kind = true
        · obtain ⟨t, ht⟩ := List.isSuffixOf_iff_suffix.1 hs
          refine ⟨t, true, by rw [← ht]; rfl, ?_⟩
          rw [if_pos hs, ← ht, List.length_append, Nat.add_sub_cancel, List.take_left]
        · exact ⟨kind, false, by simp, by rw [if_neg hs]⟩
      rw [hk'] at h
      split at h
      · simp at h
      · rename_i hd
        rw [not_not] at hd
        split at h
        · simp at h
        · rename_i c hlast
          have hne : k' ≠ [] := by rintro rfl; simp at hlast
          have hkc : k' = "TPU v".toList ++ [c] := by
            rw [← hd, ← List.dropLast_append_getLast hne]
            rw [List.getLast?_eq_some_getLast hne] at hlast
            rw [Option.some.inj hlast]
            simp
          unfold intOfChar at h
          split at h
          · rename_i hr
            have hv := Except.ok.inj h
            have hr1 : 48 ≤ c.toNat := hr.1
            have hr2 : c.toNat ≤ 57 := hr.2
            refine ⟨⟨c.toNat - 48, by omega⟩, lite, ?_, hv.symm⟩
            unfold tpuKind
            have hcd : c = Nat.digitChar (c.toNat - 48) := by
              have h10 : ∀ d : Fin 10, Char.ofNat (d.val + 48) = Nat.digitChar d.val := by decide
              have := h10 ⟨c.toNat - 48, by omega⟩
              simp only at this
              rw [← this, Nat.sub_add_cancel hr1, Char.ofNat_toNat]
            rw [hk, hkc]
            simp only
            rw [← hcd]
          · simp at h
    · left
      rw [h1 kind hc] at h
      exact ⟨hc, (Except.ok.inj h).symm⟩
  · rintro (⟨h, rfl⟩ | ⟨d, lite, rfl, rfl⟩)
    · exact h1 kind h
    · exact h2 d lite

example : getTpuVersion ["TPU v5 lite".toList] = .ok 5 :=
  (C105_exact _ _ _).2 (.inr ⟨5, true, by decide, by decide⟩)

example : getTpuVersion ["NVIDIA H100".toList] = .ok (-1) := (C105_version_partial []).1 _ (by
  rw [← contains_iff]; decide)

/-- C105 fails: the kind of a TPU of version ten, or one with a letter after the version, raises, and with it every
polynomial product, although the branch for all other devices would compute it. -/
theorem C105_negation (d : Fin 10) (c : Char) (rest : List (List Char)) {n : Nat} (a b : Fin n → W) :
    devicePolyMul (("TPU v".toList ++ [Nat.digitChar d.val, c]) :: rest) a b = .error "AssertionError" := by
  have h : getTpuVersion (("TPU v".toList ++ [Nat.digitChar d.val, c]) :: rest) = .error "AssertionError" := by
    unfold getTpuVersion
    simp only
    rw [if_neg (by
      have : contains "TPU".toList ("TPU v".toList ++ [Nat.digitChar d.val, c]) = true :=
        (contains_iff _ _).2 ⟨[], ' ' :: 'v' :: [Nat.digitChar d.val, c], rfl⟩
      rw [this]; exact Bool.noConfusion)]
    have hs : ¬ (" lite".toList.isSuffixOf ("TPU v".toList ++ [Nat.digitChar d.val, c]) = true) := by
      rw [List.isSuffixOf_iff_suffix]
      rintro ⟨t, ht⟩
      have hl := congrArg List.length ht
      rw [List.length_append] at hl
      have hl' : t.length + 5 = 7 := hl
      have h2 := congrArg (fun z => z[2]?) ht
      match t, hl' with
      | [x, y], _ =>
        have h4 : (some ' ' : Option Char) = some 'U' := h2
        exact absurd (Option.some.inj h4) (by decide)
    rw [if_neg hs, if_pos]
    intro hd
    have := congrArg List.length hd
    simp at this
  unfold devicePolyMul
  rw [h]
  rfl

example := C105_negation 1 '0' [] ![1#32, 2#32] ![3#32, 4#32]
example : ("TPU v".toList ++ [Nat.digitChar 1, '0']) = "TPU v10".toList := by decide

/-- C105 (partial): where the version is found the products are those modulo `X^n + 1`, so they agree on all supported
devices. -/
theorem C105_products_partial (devices : List (List Char)) {n : Nat} (hn : 0 < n) (a b c : Fin n → W)
    (h : devicePolyMul devices a b = .ok c) : toPoly c = (toPoly a * toPoly b) %ₘ (X ^ n + 1) := by
  unfold devicePolyMul at h
  rcases hv : getTpuVersion devices with err | v
  · rw [hv] at h; simp [bind, Except.bind] at h
  · rw [hv] at h
    rw [← Except.ok.inj h]
    exact C14_poly_mul v hn a b

example : ∃ c, devicePolyMul [tpuKind 6 true] ![1#32, 2#32] ![3#32, 4#32] = .ok c := by
  unfold devicePolyMul
  rw [(C105_version_partial []).2]
  exact ⟨_, rfl⟩

/-- C105 (partial): the same for the external product of the bootstrapping. -/
theorem C105_vector_matrix_partial (devices devices' : List (List Char)) (fdot fdot' : FloatDot)
    (hf : FloatDotExact fdot) (hf' : FloatDotExact fdot') {b m n : Nat} (hn : 0 < n) (vec : Fin b → Fin n → W)
    (mat : Fin b → Fin m → Fin n → W) (logBase D : Nat) (hD : D ≤ 256) (hv : ∀ r i, |(vec r i).toInt| ≤ D)
    (hND : n * (255 * D) ≤ 2 ^ 24) (out out' : Fin m → Fin n → W)
    (h : vectorMatrixPolymul devices fdot vec mat logBase = .ok out)
    (h' : vectorMatrixPolymul devices' fdot' vec mat logBase = .ok out') : out = out' := by
  have key : ∀ (dv : List (List Char)) (f : FloatDot), FloatDotExact f → ∀ o,
      vectorMatrixPolymul dv f vec mat logBase = .ok o →
      ∀ j, toPoly (o j) = (∑ r, toPoly (vec r) * toPoly (mat r j)) %ₘ (X ^ n + 1) := by
    intro dv f hf o ho
    unfold vectorMatrixPolymul at ho
    rcases hv' : getTpuVersion dv with err | v
    · rw [hv'] at ho; simp [bind, Except.bind] at ho
    · rw [hv'] at ho
      exact (C14_vector_matrix v f hf hn vec mat logBase D hD hv hND).2 o ho
  funext j
  exact toPoly_injective ((key devices fdot hf out h j).trans (key devices' fdot' hf' out' h' j).symm)

/-- Non-vacuity: on a TPU of version 6 and on a CPU, degree 128, digits up to 16. -/
theorem device_example (vec : Fin 2 → Fin 128 → W) (mat : Fin 2 → Fin 3 → Fin 128 → W)
    (hv : ∀ r c, |(vec r c).toInt| ≤ ((16 : Nat) : Int)) :
    ∃ out, vectorMatrixPolymul [tpuKind 6 true] (fun _ u v => ∑ i, u i * v i) vec mat 4 = .ok out ∧
      vectorMatrixPolymul ["cpu".toList] (fun _ u v => ∑ i, u i * v i) vec mat 4 = .ok out := by
  have hx : FloatDotExact (fun _ u v => ∑ i, u i * v i) := fun _ _ _ _ _ _ => rfl
  obtain ⟨o1, h1⟩ : ∃ o, vectorMatrixPolymul [tpuKind 6 true] (fun _ u v => ∑ i, u i * v i) vec mat 4 = .ok o := by
    unfold vectorMatrixPolymul
    rw [(C105_version_partial []).2 6 true]
    show ∃ o, negacyclicVectorMatrixPolymul 6 (fun _ u v => ∑ i, u i * v i) vec mat 4 = .ok o
    unfold negacyclicVectorMatrixPolymul
    rw [if_pos (by decide)]
    rw [dif_pos (by decide)]
    exact ⟨_, rfl⟩
  obtain ⟨o2, h2⟩ : ∃ o, vectorMatrixPolymul ["cpu".toList] (fun _ u v => ∑ i, u i * v i) vec mat 4 = .ok o := by
    unfold vectorMatrixPolymul
    rw [(C105_version_partial []).1 _ (by rw [← contains_iff]; decide)]
    exact ⟨_, rfl⟩
  have h12 := C105_vector_matrix_partial _ _ _ _ hx hx (by decide) vec mat 4 16 (by decide) hv (by norm_num) o1 o2 h1 h2
  exact ⟨o1, h1, h12 ▸ h2⟩

example := device_example (fun _ _ => 16#32) (fun r i c => BitVec.ofNat 32 (r.val + i.val * c.val * 12345678))
  (fun _ _ => by decide)

end Verif.Props

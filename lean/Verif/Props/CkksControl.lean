import Verif.Lemmas.CkksControl

/-! # C41: the limb bookkeeping of `Mul` is a partition with a correct inverse permutation -/

namespace Verif.Props
open Verif.CkksMul

/-- Every `Q` limb lies in exactly one part, in order; a part is nonempty and no longer than `⌈numQ / dnum⌉`; the other
list of a part is the increasing list of all remaining limbs of `Q` and `P`; there are at most `dnum` parts. The leading
entry is the conversion from the `P` limbs to the `Q` limbs. -/
theorem C41_partition (numQ numP dnum : Nat) (hq : 0 < numQ) (hd : 0 < dnum) :
    ∃ parts, controlIndices numQ numP dnum =
        .ok (((List.range numP).map (numQ + ·), List.range numQ) :: parts) ∧
      1 ≤ parts.length ∧ parts.length ≤ dnum ∧
      (parts.map Prod.fst).flatten = List.range numQ ∧
      ∀ st ∈ parts, st.1 ≠ [] ∧ dnum * (st.1.length - 1) < numQ ∧
        (∀ i, i ∈ st.2 ↔ i < numQ + numP ∧ i ∉ st.1) ∧ st.2.Pairwise (· < ·) := by
  obtain ⟨alpha, hadef, ha, hc⟩ := controlIndices_eq numQ numP dnum hq hd
  have hr : (List.range numP).map (numQ + ·) = List.range' numQ numP := by
    rw [List.range_eq_range', List.map_add_range', Nat.add_zero]
  refine ⟨_, hr ▸ hc, ?_, ?_, ?_, ?_⟩
  · simp only [List.length_map, List.length_range]
    exact Nat.div_pos (by omega) ha
  · simp only [List.length_map, List.length_range]
    refine Nat.le_of_lt_succ (Nat.div_lt_of_lt_mul ?_)
    have hge : numQ ≤ alpha * dnum := by
      have h1 := Nat.div_add_mod (numQ + dnum - 1) dnum
      have h2 := Nat.mod_lt (numQ + dnum - 1) hd
      rw [← hadef] at h1
      rw [Nat.mul_comm]; omega
    rw [Nat.mul_succ]; omega
  · rw [List.map_map]
    change ((List.range ((numQ + alpha - 1) / alpha)).map (block alpha numQ)).flatten = _
    rw [flatten_blocks, Nat.min_eq_left]
    have h1 := Nat.div_add_mod (numQ + alpha - 1) alpha
    have h2 := Nat.mod_lt (numQ + alpha - 1) ha
    rw [Nat.mul_comm]; omega
  · intro st hst
    obtain ⟨j, hj, rfl⟩ := List.mem_map.1 hst
    have hj' := List.mem_range.1 hj
    have hjlt : j * alpha < numQ := by
      have : (j + 1) * alpha ≤ numQ + alpha - 1 := (Nat.le_div_iff_mul_le ha).1 hj'
      rw [Nat.add_mul] at this; omega
    have hlen : (block alpha numQ j).length = min alpha (numQ - j * alpha) := by unfold block; simp
    refine ⟨?_, ?_, ?_, ?_⟩
    · intro h
      have := congrArg List.length h
      simp only [hlen, List.length_nil] at this
      omega
    · show dnum * ((block alpha numQ j).length - 1) < numQ
      rw [hlen]
      have h1 := Nat.div_mul_le_self (numQ + dnum - 1) dnum
      rw [← hadef] at h1
      have h2 : dnum * (min alpha (numQ - j * alpha) - 1) ≤ dnum * (alpha - 1) :=
        Nat.mul_le_mul_left _ (by omega)
      obtain ⟨a', rfl⟩ : ∃ a', alpha = a' + 1 := ⟨alpha - 1, by omega⟩
      rw [Nat.add_mul, Nat.mul_comm a'] at h1
      simp only [Nat.add_sub_cancel] at h2
      omega
    · intro i
      simp [List.mem_filter]
    · exact List.pairwise_lt_range.filter _

example := C41_partition 5 2 2 (by norm_num) (by norm_num)

/-- `restore_index` undoes the concatenation order: reading the concatenation of the entries of the selected and of the
remaining limbs of any part through it yields every entry at its own limb. -/
theorem C41_restore {α : Type} (numQ numP dnum : Nat) (control : List (List Nat × List Nat))
    (h : controlIndices numQ numP dnum = .ok control) (st : List Nat × List Nat) (hst : st ∈ control.tail)
    (v : Nat → α) (i : Nat) (hi : i < numQ + numP) :
    ((restoreIndex (st.1 ++ st.2))[i]?).bind (fun pos => (st.1.map v ++ st.2.map v)[pos]?) = some (v i) := by
  rcases Nat.eq_zero_or_pos dnum with rfl | hd
  · simp [controlIndices] at h
  rcases Nat.eq_zero_or_pos numQ with rfl | hq
  · unfold controlIndices at h
    rw [if_neg (by omega)] at h
    simp only at h
    rw [if_pos (Nat.div_eq_of_lt (by omega))] at h
    exact absurd h (by simp)
  obtain ⟨alpha, -, ha, hc⟩ := controlIndices_eq numQ numP dnum hq hd
  rw [hc] at h
  obtain rfl := Except.ok.inj h
  obtain ⟨j, hj, rfl⟩ := List.mem_map.1 hst
  have hj' := List.mem_range.1 hj
  have hperm := perm_select (numQ + numP) (block alpha numQ j) (by unfold block; exact List.nodup_range') (by
    intro i hi
    unfold block at hi
    rw [List.mem_range'_1] at hi
    omega)
  simp only
  obtain ⟨order, horder⟩ : ∃ order, order = block alpha numQ j ++
    (List.range (numQ + numP)).filter (fun i => !(block alpha numQ j).contains i) := ⟨_, rfl⟩
  rw [← List.map_append, ← horder]
  rw [← horder] at hperm
  have hl : order.length = numQ + numP := by rw [hperm.length_eq, List.length_range]
  rw [← hl] at hperm hi
  have hmem : i ∈ order := hperm.mem_iff.2 (List.mem_range.2 hi)
  obtain ⟨pos, hpos, hip⟩ := List.mem_iff_getElem.1 hmem
  have := (restoreIndex_spec order hperm).2 pos hpos
  rw [hip] at this
  rw [this]
  simp [List.getElem?_eq_getElem hpos, hip]

/-- Instance: the third part (limbs 3 and 4) of five limbs with two extension limbs. -/
example := C41_restore 5 2 2 [([5, 6], [0, 1, 2, 3, 4]), ([0, 1, 2], [3, 4, 5, 6]), ([3, 4], [0, 1, 2, 5, 6])] (by decide +kernel)
  ([3, 4], [0, 1, 2, 5, 6]) (by simp) (fun i => i * i) 5 (by norm_num)

/-- Without limbs, or with zero parts requested, a division by zero is raised. -/
theorem C41_rejects (numQ numP dnum : Nat) :
    (numQ = 0 ∨ dnum = 0) ↔ controlIndices numQ numP dnum = .error "ZeroDivisionError" := by
  constructor
  · rintro (rfl | rfl)
    · unfold controlIndices
      rcases Nat.eq_zero_or_pos dnum with rfl | hd
      · rfl
      rw [if_neg (by omega)]
      simp only
      rw [if_pos (Nat.div_eq_of_lt (by omega))]
    · rfl
  · intro h
    by_contra hn
    obtain ⟨_, _, _, hc⟩ := controlIndices_eq numQ numP dnum (by omega) (by omega)
    rw [hc] at h
    exact absurd h (by simp)

/-- Five limbs in two parts with two extension limbs. -/
example : controlIndices 5 2 2 =
    .ok [([5, 6], [0, 1, 2, 3, 4]), ([0, 1, 2], [3, 4, 5, 6]), ([3, 4], [0, 1, 2, 5, 6])] ∧
    restoreIndex [3, 4, 0, 1, 2, 5, 6] = [2, 3, 4, 0, 1, 5, 6] := by decide

/-- Five limbs with `dnum = 4` give only three parts. -/
example : (controlIndices 5 2 4).map List.length = .ok 4 := by decide

end Verif.Props

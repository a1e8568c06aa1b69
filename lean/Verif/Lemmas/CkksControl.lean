import Verif.Model.CkksMul
import Mathlib.Tactic.Ring
import Mathlib.Tactic.Linarith
import Mathlib.Data.List.Range
import Mathlib.Data.List.Perm.Basic
import Mathlib.Data.List.Nodup

/-! # Lemmas on the limb bookkeeping of `Mul` -/

namespace Verif.CkksMul

/-- The `j`-th block of `alpha` consecutive indices below `n`. -/
def block (alpha n j : Nat) : List Nat := List.range' (j * alpha) (min alpha (n - j * alpha))

theorem extractIndex_succ (alpha n : Nat) : extractIndex alpha (n + 1) =
    if n % alpha = 0 then extractIndex alpha n ++ [[n]]
    else (extractIndex alpha n).dropLast ++ [(extractIndex alpha n).getLastD [] ++ [n]] := by
  unfold extractIndex
  rw [List.range_succ, List.foldl_append]; rfl

theorem extractIndex_aux (alpha : Nat) (ha : 0 < alpha) (n : Nat) :
    extractIndex alpha n = (List.range ((n + alpha - 1) / alpha)).map (block alpha n) := by
  induction n with
  | zero =>
    have : (0 + alpha - 1) / alpha = 0 := Nat.div_eq_of_lt (by omega)
    rw [this]; rfl
  | succ n ih =>
    rw [extractIndex_succ, ih]
    obtain ⟨k, r, hn, hr⟩ : ∃ k r, n = k * alpha + r ∧ r < alpha :=
      ⟨n / alpha, n % alpha, by rw [Nat.mul_comm]; exact (Nat.div_add_mod n alpha).symm, Nat.mod_lt _ ha⟩
    have hmod : n % alpha = r := by rw [hn, Nat.mul_comm, Nat.mul_add_mod, Nat.mod_eq_of_lt hr]
    have hk1 : (n + 1 + alpha - 1) / alpha = k + 1 := by
      have : n + 1 + alpha - 1 = r + (k + 1) * alpha := by rw [hn, Nat.add_mul]; omega
      rw [this, Nat.add_mul_div_right _ _ ha, Nat.div_eq_of_lt hr]; omega
    have hsame : ∀ j, j < k → block alpha n j = block alpha (n + 1) j := by
      intro j hj
      have : (j + 1) * alpha ≤ k * alpha := Nat.mul_le_mul_right _ hj
      rw [Nat.add_mul] at this
      unfold block
      rw [Nat.min_eq_left (by omega), Nat.min_eq_left (by omega)]
    have hmap : (List.range k).map (block alpha n) = (List.range k).map (block alpha (n + 1)) :=
      List.map_congr_left (fun j hj => hsame j (List.mem_range.1 hj))
    rw [hk1, List.range_succ, List.map_append, List.map_singleton, hmod]
    rcases Nat.eq_zero_or_pos r with h0 | h0
    · have hk : (n + alpha - 1) / alpha = k := by
        have : n + alpha - 1 = (alpha - 1) + k * alpha := by omega
        rw [this, Nat.add_mul_div_right _ _ ha, Nat.div_eq_of_lt (by omega)]; omega
      rw [if_pos h0, hk, hmap]
      congr 2
      unfold block
      rw [show min alpha (n + 1 - k * alpha) = 1 by omega, show k * alpha = n by omega]; rfl
    · have hk : (n + alpha - 1) / alpha = k + 1 := by
        have : n + alpha - 1 = (r - 1) + (k + 1) * alpha := by rw [hn, Nat.add_mul]; omega
        rw [this, Nat.add_mul_div_right _ _ ha, Nat.div_eq_of_lt (by omega)]; omega
      rw [if_neg (by omega), hk, List.range_succ, List.map_append, List.map_singleton, hmap, List.dropLast_concat]
      congr 2
      rw [List.getLastD_concat]
      unfold block
      rw [show min alpha (n + 1 - k * alpha) = r + 1 by omega, show min alpha (n - k * alpha) = r by omega,
        List.range'_concat]
      simp; omega

theorem flatten_blocks (alpha n : Nat) (k : Nat) :
    ((List.range k).map (block alpha n)).flatten = List.range (min n (k * alpha)) := by
  induction k with
  | zero => simp
  | succ k ih =>
    rw [List.range_succ, List.map_append, List.flatten_append, ih]
    simp only [List.map_cons, List.map_nil, List.flatten_cons, List.flatten_nil, List.append_nil]
    unfold block
    rw [List.range_eq_range', List.range_eq_range', Nat.add_mul, Nat.one_mul]
    by_cases h : k * alpha ≤ n
    · rw [Nat.min_eq_right h]
      have happ := List.range'_append (s := 0) (m := k * alpha) (n := min alpha (n - k * alpha)) (step := 1)
      rw [Nat.one_mul, Nat.zero_add] at happ
      rw [happ]
      congr 1
      omega
    · rw [show min alpha (n - k * alpha) = 0 by omega, Nat.min_eq_left (by omega), Nat.min_eq_left (by omega)]
      simp

theorem restore_fold (l : List Nat) (s : Nat) (r : List Nat) (hnd : l.Nodup) (hlt : ∀ v ∈ l, v < r.length) :
    ((l.zipIdx s).foldl (fun r vp => r.set vp.1 vp.2) r).length = r.length ∧
    (∀ i (hi : i < l.length), ((l.zipIdx s).foldl (fun r vp => r.set vp.1 vp.2) r)[l[i]]? = some (s + i)) ∧
    ∀ v, v ∉ l → ((l.zipIdx s).foldl (fun r vp => r.set vp.1 vp.2) r)[v]? = r[v]? := by
  induction l generalizing s r with
  | nil => simp
  | cons a l ih =>
    have hnd' := List.nodup_cons.1 hnd
    obtain ⟨h1, h2, h3⟩ := ih (s + 1) (r.set a s) hnd'.2 (fun v hv => by
      rw [List.length_set]; exact hlt v (List.mem_cons_of_mem _ hv))
    simp only [List.zipIdx_cons, List.foldl_cons]
    refine ⟨by rw [h1, List.length_set], ?_, ?_⟩
    · intro i hi
      cases i with
      | zero =>
        simp only [List.getElem_cons_zero]
        rw [h3 a hnd'.1, List.getElem?_set_self (hlt a List.mem_cons_self)]; simp
      | succ i =>
        simp only [List.getElem_cons_succ]
        rw [h2 i (by simpa using hi)]
        congr 1; omega
    · intro v hv
      have hva : a ≠ v := fun h => hv (h ▸ List.mem_cons_self)
      rw [h3 v (fun h => hv (List.mem_cons_of_mem _ h)), List.getElem?_set_ne hva]

theorem restoreIndex_spec (order : List Nat) (h : order.Perm (List.range order.length)) :
    (restoreIndex order).length = order.length ∧
    ∀ i (hi : i < order.length), (restoreIndex order)[order[i]]? = some i := by
  have hnd : order.Nodup := h.nodup_iff.2 List.nodup_range
  have hlt : ∀ v ∈ order, v < (List.replicate order.length 0).length := by
    intro v hv
    rw [List.length_replicate]
    exact List.mem_range.1 ((h.mem_iff).1 hv)
  obtain ⟨h1, h2, _⟩ := restore_fold order 0 _ hnd hlt
  refine ⟨by unfold restoreIndex; rw [h1, List.length_replicate], fun i hi => ?_⟩
  have := h2 i hi
  rw [Nat.zero_add] at this
  exact this

/-- Reading the concatenated entries through the restore index gives them in natural order. -/
theorem restoreIndex_get (order : List Nat) (h : order.Perm (List.range order.length)) (i : Nat)
    (hi : i < order.length) :
    (restoreIndex order).getD i 0 < order.length ∧ order.getD ((restoreIndex order).getD i 0) 0 = i := by
  have hmem : i ∈ order := h.mem_iff.2 (List.mem_range.2 hi)
  obtain ⟨j, hj, hij⟩ := List.mem_iff_getElem.1 hmem
  have := (restoreIndex_spec order h).2 j hj
  rw [hij] at this
  rw [List.getD_eq_getElem?_getD, this, Option.getD_some]
  refine ⟨hj, ?_⟩
  rw [List.getD_eq_getElem?_getD, List.getElem?_eq_getElem hj, Option.getD_some, hij]

theorem perm_select (n : Nat) (sel : List Nat) (hnd : sel.Nodup) (hlt : ∀ i ∈ sel, i < n) :
    (sel ++ (List.range n).filter (fun i => !sel.contains i)).Perm (List.range n) := by
  refine (List.perm_ext_iff_of_nodup ?_ List.nodup_range).2 ?_
  · refine List.nodup_append'.2 ⟨hnd, List.nodup_range.filter _, ?_⟩
    intro i hi hi'
    have := (List.mem_filter.1 hi').2
    simp at this
    exact this hi
  · intro i
    simp only [List.mem_append, List.mem_filter, List.mem_range]
    constructor
    · rintro (h | h)
      · exact hlt i h
      · exact h.1
    · intro h
      by_cases hc : i ∈ sel
      · exact Or.inl hc
      · exact Or.inr ⟨h, by simpa using hc⟩

/-- The bookkeeping in closed form. -/
theorem controlIndices_eq (numQ numP dnum : Nat) (hq : 0 < numQ) (hd : 0 < dnum) :
    ∃ alpha, alpha = (numQ + dnum - 1) / dnum ∧ 0 < alpha ∧
    controlIndices numQ numP dnum = .ok ((List.range' numQ numP, List.range numQ) ::
      (List.range ((numQ + alpha - 1) / alpha)).map (fun part => (block alpha numQ part,
        (List.range (numQ + numP)).filter (fun i => !(block alpha numQ part).contains i)))) := by
  refine ⟨_, rfl, Nat.div_pos (by omega) hd, ?_⟩
  have ha : 0 < (numQ + dnum - 1) / dnum := Nat.div_pos (by omega) hd
  unfold controlIndices
  simp only
  rw [if_neg (by omega), if_neg (by omega), extractIndex_aux _ ha]
  rw [if_neg (by simp)]
  congr 2
  apply List.map_congr_left
  intro part hp
  have hp' := List.mem_range.1 hp
  rw [List.getD_eq_getElem?_getD, List.getElem?_map, List.getElem?_range hp']
  rfl

end Verif.CkksMul

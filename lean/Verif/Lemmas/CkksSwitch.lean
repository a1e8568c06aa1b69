import Verif.Lemmas.CkksLift
import Verif.Lemmas.CkksControl

/-! # Lemmas for `KeySwitcher` -/

namespace Verif.CkksMul
open Verif.Barrett Verif.NttBat Verif.Slots Verif.CkksKeys Verif.Crt Verif.Props

theorem mapM_eq_map {α β : Type} (f : α → Except String β) (g : α → β) (l : List α) (h : ∀ a ∈ l, f a = .ok (g a)) :
    l.mapM f = .ok (l.map g) := by
  induction l with
  | nil => rfl
  | cons a l ih =>
    rw [List.mapM_cons, h a List.mem_cons_self, ih (fun b hb => h b (List.mem_cons_of_mem _ hb))]
    rfl

/-- The tables of a modulus. -/
def tablesFor (kr kc m : Nat) : Tables :=
  match precomputeTables (2 ^ kr) (2 ^ kc) m with
  | .ok T => T
  | .error _ => Rescale.noTables

variable {kr kc : Nat}

theorem tablesFor_ok {m : Nat} (h : FourStep kr kc m) :
    precomputeTables (2 ^ kr) (2 ^ kc) m = .ok (tablesFor kr kc m) := by
  obtain ⟨psi, T, -, -, h3, -⟩ := tables_ok kr kc m h
  unfold tablesFor
  rw [h3]

theorem tablesOf_basis {q p : List Nat} (h : Basis kr kc q p) :
    TablesOf kr kc (q ++ p) (fun i => tablesFor kr kc ((q ++ p).getD i 0)) :=
  fun _ hi => tablesFor_ok (h.at hi)

theorem mulBarrett_spec (k : Nat) (ms : List Nat) (hg : ∀ m ∈ ms, GoodModulus m) (c pt : Mat)
    (hc : Reduced k ms c) (hpt : Reduced k ms pt) :
    ∃ r, mulBarrett (some ms) ms ms c pt = .ok r ∧
      ∀ i, i < ms.length → ∀ p, p < 2 ^ k → r i p = c i p * pt i p % ms.getD i 0 := by
  refine ⟨_, by unfold mulBarrett; simp only; rw [if_neg (by simp)], ?_⟩
  intro i hi p hp
  have hm := hg _ (getD_mem hi)
  have hx := hc i hi p hp
  have hy := hpt i hi p hp
  have := hm.lt
  have := hm.pos
  have hlt := Nat.mod_lt (c i p * pt i p) (show 0 < ms.getD i 0 by omega)
  rw [mul64_eq (by omega) (by omega), C28_reduction_partial _ _ hm (lt_two_pow_of_lt_sq (Nat.mul_lt_mul'' hx hy))]
  exact Nat.mod_eq_of_lt (by omega)

theorem fold_add_mod (m : Nat) (hm0 : 0 < m) (hm : m < 2 ^ 32) (x : Nat → Nat) (n : Nat) (hx : ∀ j, j < n → x j < m) :
    (List.range n).foldl (fun acc j => add64 acc (x j) % m) 0 < m ∧
    (((List.range n).foldl (fun acc j => add64 acc (x j) % m) 0 : Nat) : ZMod m) = ∑ j ∈ Finset.range n, (x j : ZMod m) := by
  induction n with
  | zero => simp [hm0]
  | succ n ih =>
    obtain ⟨h1, h2⟩ := ih (fun j hj => hx j (by omega))
    rw [List.range_succ, List.foldl_append]
    simp only [List.foldl_cons, List.foldl_nil]
    have := hx n (by omega)
    have e : add64 ((List.range n).foldl (fun acc j => add64 acc (x j) % m) 0) (x n) =
        (List.range n).foldl (fun acc j => add64 acc (x j) % m) 0 + x n := by
      generalize (List.range n).foldl (fun acc j => add64 acc (x j) % m) 0 = v at *
      unfold add64; omega
    rw [e]
    refine ⟨Nat.mod_lt _ hm0, ?_⟩
    rw [ZMod.natCast_mod, Nat.cast_add, h2, Finset.sum_range_succ]

theorem fold_mul_mod (m : Nat) (hm1 : 1 < m) (hm : m < 2 ^ 32) (l : List Nat) :
    ∀ a, a < m →
    l.foldl (fun acc x => mul64 acc (x % m) % m) a < m ∧
    ((l.foldl (fun acc x => mul64 acc (x % m) % m) a : Nat) : ZMod m) = (a : ZMod m) * (l.prod : ZMod m) := by
  induction l with
  | nil => intro a ha; simp [ha]
  | cons x l ih =>
    intro a ha
    simp only [List.foldl_cons]
    have hx := Nat.mod_lt x (show 0 < m by omega)
    obtain ⟨h1, h2⟩ := ih (mul64 a (x % m) % m) (Nat.mod_lt _ (by omega))
    refine ⟨h1, ?_⟩
    rw [h2, mul64_eq (by omega) (by omega), ZMod.natCast_mod, Nat.cast_mul, ZMod.natCast_mod, List.prod_cons, Nat.cast_mul]
    ring

/-- The moduli of a part. -/
def partLen (numQ dnum : Nat) : Nat := (numQ + dnum - 1) / dnum

/-- Indices of a part. -/
def partIdx (numQ dnum i : Nat) : List Nat :=
  List.range' (i * partLen numQ dnum) (min (i * partLen numQ dnum + partLen numQ dnum) numQ - i * partLen numQ dnum)

/-- The other indices. -/
def outIdx (numQ total dnum i : Nat) : List Nat :=
  (List.range total).filter (fun j => !(decide (i * partLen numQ dnum ≤ j) &&
    decide (j < min (i * partLen numQ dnum + partLen numQ dnum) numQ)))

theorem mem_partIdx {numQ dnum i j : Nat} : j ∈ partIdx numQ dnum i ↔
    i * partLen numQ dnum ≤ j ∧ j < min (i * partLen numQ dnum + partLen numQ dnum) numQ := by
  unfold partIdx
  rw [List.mem_range'_1]
  omega

theorem mem_outIdx {numQ total dnum i j : Nat} : j ∈ outIdx numQ total dnum i ↔
    j < total ∧ ¬ j ∈ partIdx numQ dnum i := by
  unfold outIdx
  rw [mem_partIdx, List.mem_filter, List.mem_range]
  constructor
  · rintro ⟨h1, h2⟩
    refine ⟨h1, ?_⟩
    rintro ⟨h3, h4⟩
    simp [h3, h4] at h2
  · rintro ⟨h1, h2⟩
    refine ⟨h1, ?_⟩
    by_contra hc
    simp at hc
    exact h2 ⟨hc.1, by omega⟩

/-- A part is nonempty and its membership is integer division. -/
theorem partIdx_iff {numQ dnum i j : Nat} (hd : 0 < dnum) (hj : j < numQ) :
    j ∈ partIdx numQ dnum i ↔ j / partLen numQ dnum = i := by
  have ha : 0 < partLen numQ dnum := Nat.div_pos (by omega) hd
  rw [mem_partIdx]
  generalize partLen numQ dnum = a at *
  rw [Nat.div_eq_iff ha]
  constructor
  · rintro ⟨h1, h2⟩; omega
  · rintro ⟨h1, h2⟩; omega

/-- The kernel returned by `precompute_constants`. -/
def switcherOf (kr kc : Nat) (q p : List Nat) (dnum : Nat) : KeySwitcher where
  r := 2 ^ kr
  c := 2 ^ kc
  tablesQ := (List.range dnum).map (fun i => (partIdx q.length dnum i).map (fun j => tablesFor kr kc (q.getD j 0)))
  tablesOut := (List.range dnum).map (fun i =>
    (outIdx q.length (q ++ p).length dnum i).map (fun j => tablesFor kr kc ((q ++ p).getD j 0)))
  moduliQ := (List.range dnum).map (fun i => (partIdx q.length dnum i).map (fun j => q.getD j 0))
  moduliOut := (List.range dnum).map (fun i => (outIdx q.length (q ++ p).length dnum i).map (fun j => (q ++ p).getD j 0))

theorem precomputeSwitch_ok {q p : List Nat} (h : Basis kr kc q p) (dnum : Nat) (hd : 0 < dnum)
    (hparts : (dnum - 1) * partLen q.length dnum < q.length) :
    precomputeSwitch q p dnum (2 ^ kr) (2 ^ kc) = .ok (switcherOf kr kc q p dnum) := by
  unfold precomputeSwitch
  rw [if_neg (by omega)]
  have hlenp := List.length_pos_iff.2 h.neP
  have hl : (q ++ p).length = q.length + p.length := List.length_append
  dsimp only
  rw [mapM_eq_map _ (fun i => (((partIdx q.length dnum i).map (fun j => tablesFor kr kc (q.getD j 0)),
    (outIdx q.length (q ++ p).length dnum i).map (fun j => tablesFor kr kc ((q ++ p).getD j 0))),
    ((partIdx q.length dnum i).map (fun j => q.getD j 0),
    (outIdx q.length (q ++ p).length dnum i).map (fun j => (q ++ p).getD j 0)))) (List.range dnum) ?_]
  · simp only [bind, Except.bind, pure, Except.pure, List.map_map]
    rfl
  · intro i hi
    have hi' := List.mem_range.1 hi
    have ha : 0 < partLen q.length dnum := Nat.div_pos (by have := List.length_pos_iff.2 h.neQ; omega) hd
    have hstart : i * partLen q.length dnum < q.length :=
      lt_of_le_of_lt (Nat.mul_le_mul_right _ (by omega)) hparts
    have hq1 : (partIdx q.length dnum i).map (fun j => q.getD j 0) ≠ [] := by
      intro hc
      have := congrArg List.length hc
      unfold partIdx at this
      simp at this
      omega
    have hq2 : (outIdx q.length (q ++ p).length dnum i).map (fun j => (q ++ p).getD j 0) ≠ [] := by
      intro hc
      have hm : q.length ∈ outIdx q.length (q ++ p).length dnum i := by
        rw [mem_outIdx, mem_partIdx]
        omega
      rw [List.map_eq_nil_iff.1 hc] at hm
      exact absurd hm (by simp)
    have e1 : (List.range' (i * ((q.length + dnum - 1) / dnum))
        (min (i * ((q.length + dnum - 1) / dnum) + (q.length + dnum - 1) / dnum) q.length - i * ((q.length + dnum - 1) / dnum))) =
        partIdx q.length dnum i := rfl
    have e2 : (List.range (q ++ p).length).filter (fun j => !(decide (i * ((q.length + dnum - 1) / dnum) ≤ j) &&
        decide (j < min (i * ((q.length + dnum - 1) / dnum) + (q.length + dnum - 1) / dnum) q.length))) =
        outIdx q.length (q ++ p).length dnum i := rfl
    rw [e1, e2, if_neg (by
      rintro (hc | hc)
      · exact hq1 hc
      · exact hq2 hc)]
    rw [mapM_eq_map _ (fun m => tablesFor kr kc m) _ (by
      intro m hm
      obtain ⟨j, hj, rfl⟩ := List.mem_map.1 hm
      have hj' := mem_partIdx.1 hj
      exact tablesFor_ok (h.four _ (List.mem_append_left _ (getD_mem (by omega)))))]
    rw [mapM_eq_map _ (fun m => tablesFor kr kc m) _ (by
      intro m hm
      obtain ⟨j, hj, rfl⟩ := List.mem_map.1 hm
      exact tablesFor_ok (h.at (mem_outIdx.1 hj).1))]
    simp only [bind, Except.bind, pure, Except.pure, List.map_map]
    rfl

/-- One part: an integer polynomial congruent to `c1` modulo the moduli of the part. -/
theorem switchPart_spec {q p : List Nat} (h : Basis kr kc q p) (dnum : Nat) (hd : 0 < dnum)
    (hparts : (dnum - 1) * partLen q.length dnum < q.length) (bc : BcKernel) (start i : Nat) (hi : i < dnum)
    (hbc : bc[start + i]? = some ((partIdx q.length dnum i).map (fun j => (q ++ p).getD j 0),
      (outIdx q.length (q ++ p).length dnum i).map (fun j => (q ++ p).getD j 0)))
    (c1 : Mat) (hc1 : Reduced (kr + kc) q c1) :
    ∃ (M : Mat) (D : Nat → Int), switchPart (switcherOf kr kc q p dnum) q p bc start i c1 = .ok M ∧
      Reduced (kr + kc) (q ++ p) M ∧
      (∀ t, t < 2 ^ (kr + kc) → 0 ≤ D t ∧ D t < ((partIdx q.length dnum i).length *
        ((partIdx q.length dnum i).map (fun j => (q ++ p).getD j 0)).prod : Nat)) ∧
      (∀ l, l < (q ++ p).length → ringOf (kr + kc) ((q ++ p).getD l 0) (M l) = polyOf (kr + kc) ((q ++ p).getD l 0) D) ∧
      ∀ l, l ∈ partIdx q.length dnum i → M l = c1 l := by
  have ha : 0 < partLen q.length dnum := Nat.div_pos (by have := List.length_pos_iff.2 h.neQ; omega) hd
  have hstart : i * partLen q.length dnum < q.length :=
    lt_of_le_of_lt (Nat.mul_le_mul_right _ (by omega)) hparts
  have hl : (q ++ p).length = q.length + p.length := List.length_append
  have hsel : ∀ j ∈ partIdx q.length dnum i, j < (q ++ p).length := by
    intro j hj
    have := mem_partIdx.1 hj
    omega
  have hlenI : (partIdx q.length dnum i).length =
      min (i * partLen q.length dnum + partLen q.length dnum) q.length - i * partLen q.length dnum := by
    unfold partIdx; simp
  have hgetI : ∀ j, j < (partIdx q.length dnum i).length → (partIdx q.length dnum i).getD j 0 = i * partLen q.length dnum + j := by
    intro j hj
    rw [List.getD_eq_getElem _ _ hj]
    simp [partIdx]
  obtain ⟨conv, D, h1, h2, h3, h4⟩ := convert_spec h _ (tablesOf_basis h) (partIdx q.length dnum i)
    (outIdx q.length (q ++ p).length dnum i)
    (by intro hc; rw [hc] at hlenI; simp at hlenI; omega)
    (by unfold partIdx; exact List.nodup_range') hsel (fun j hj => (mem_outIdx.1 hj).1) c1
    (by
      intro j hj t ht
      have := mem_partIdx.1 hj
      rw [getD_append_left (by omega)]
      exact hc1 j (by omega) t ht) _ _ rfl rfl
    (fun j => inttFlat (2 ^ kr) (2 ^ kc) (((partIdx q.length dnum i).map (fun j => q.getD j 0)).getD j 0)
      (((partIdx q.length dnum i).map (fun j => tablesFor kr kc (q.getD j 0))).getD j Rescale.noTables)
      (c1 (i * partLen q.length dnum + j)))
    (by
      intro j hj
      have hj2 : i * partLen q.length dnum + j < q.length := by omega
      have := hgetI j hj
      rw [List.getD_eq_getElem _ _ hj] at this
      rw [hgetI j hj, getD_append_left hj2, List.getD_eq_getElem (_ : List Tables) _ (by simpa using hj), List.getElem_map,
        List.getD_eq_getElem ((partIdx q.length dnum i).map (fun j => q.getD j 0)) _ (by simpa using hj), List.getElem_map, this])
  refine ⟨fun l => if i * partLen q.length dnum ≤ l ∧ l < min (i * partLen q.length dnum + partLen q.length dnum) q.length then c1 l
    else nttFlat (2 ^ kr) (2 ^ kc)
      (((outIdx q.length (q ++ p).length dnum i).map (fun j => (q ++ p).getD j 0)).getD
        ((outIdx q.length (q ++ p).length dnum i).idxOf l) 0)
      (((outIdx q.length (q ++ p).length dnum i).map (fun j => tablesFor kr kc ((q ++ p).getD j 0))).getD
        ((outIdx q.length (q ++ p).length dnum i).idxOf l) Rescale.noTables)
      (conv ((outIdx q.length (q ++ p).length dnum i).idxOf l)), D, ?_, ?_, h2, ?_, ?_⟩
  · have t1 : (switcherOf kr kc q p dnum).tablesQ.getD i [] = (partIdx q.length dnum i).map (fun j => tablesFor kr kc (q.getD j 0)) := by
      unfold switcherOf
      simp only
      rw [List.getD_eq_getElem _ _ (by simpa using hi), List.getElem_map, List.getElem_range]
    have t2 : (switcherOf kr kc q p dnum).tablesOut.getD i [] =
        (outIdx q.length (q ++ p).length dnum i).map (fun j => tablesFor kr kc ((q ++ p).getD j 0)) := by
      unfold switcherOf
      simp only
      rw [List.getD_eq_getElem _ _ (by simpa using hi), List.getElem_map, List.getElem_range]
    have t1' : (switcherOf kr kc q p dnum).moduliQ.getD i [] = (partIdx q.length dnum i).map (fun j => q.getD j 0) := by
      unfold switcherOf
      simp only
      rw [List.getD_eq_getElem _ _ (by simpa using hi), List.getElem_map, List.getElem_range]
    have t2' : (switcherOf kr kc q p dnum).moduliOut.getD i [] =
        (outIdx q.length (q ++ p).length dnum i).map (fun j => (q ++ p).getD j 0) := by
      unfold switcherOf
      simp only
      rw [List.getD_eq_getElem _ _ (by simpa using hi), List.getElem_map, List.getElem_range]
    have t3 : (switcherOf kr kc q p dnum).tablesQ.length = dnum := by unfold switcherOf; simp
    have e2 : (List.range (q ++ p).length).filter (fun j => !(decide (i * ((q.length + dnum - 1) / dnum) ≤ j) &&
        decide (j < min (i * ((q.length + dnum - 1) / dnum) + (q.length + dnum - 1) / dnum) q.length))) =
        outIdx q.length (q ++ p).length dnum i := rfl
    unfold switchPart
    simp only [t1, t2, t1', t2', t3, e2, hbc]
    rw [if_neg (by
      rw [List.length_map, List.length_map, hlenI]
      simp only [partLen]
      omega)]
    rw [if_neg (by
      rw [List.length_map, List.length_map, hlenI]
      simp only [partLen]
      omega)]
    have e3 : (switcherOf kr kc q p dnum).r = 2 ^ kr := rfl
    have e4 : (switcherOf kr kc q p dnum).c = 2 ^ kc := rfl
    unfold partLen at h1
    simp only [e3, e4]
    change Except.bind (basisChangeMat _ _ _ _) _ = _
    rw [h1]
    rfl
  · intro l hl2 t ht
    simp only
    split_ifs with hc
    · rw [getD_append_left (by omega)]
      exact hc1 l (by omega) t ht
    · have hm : l ∈ outIdx q.length (q ++ p).length dnum i := mem_outIdx.2 ⟨hl2, fun hm => hc (mem_partIdx.1 hm)⟩
      have hidx := List.idxOf_lt_length_of_mem hm
      have hg : (outIdx q.length (q ++ p).length dnum i).getD ((outIdx q.length (q ++ p).length dnum i).idxOf l) 0 = l := by
        rw [List.getD_eq_getElem _ _ hidx, List.getElem_idxOf]
      have := (h4 _ hidx).1 t ht
      simp only [hg] at this
      rw [List.getD_eq_getElem (_ : List Tables) _ (by simpa using hidx), List.getElem_map, List.getElem_idxOf,
        List.getD_eq_getElem ((outIdx q.length (q ++ p).length dnum i).map (fun j => (q ++ p).getD j 0)) _ (by simpa using hidx),
        List.getElem_map, List.getElem_idxOf]
      exact this
  · intro l hl2
    simp only
    split_ifs with hc
    · exact h3 l (mem_partIdx.2 hc)
    · have hm : l ∈ outIdx q.length (q ++ p).length dnum i := mem_outIdx.2 ⟨hl2, fun hm => hc (mem_partIdx.1 hm)⟩
      have hidx := List.idxOf_lt_length_of_mem hm
      have hg : (outIdx q.length (q ++ p).length dnum i).getD ((outIdx q.length (q ++ p).length dnum i).idxOf l) 0 = l := by
        rw [List.getD_eq_getElem _ _ hidx, List.getElem_idxOf]
      have := (h4 _ hidx).2
      rw [hg] at this
      rw [List.getD_eq_getElem (_ : List Tables) _ (by simpa using hidx), List.getElem_map, List.getElem_idxOf,
        List.getD_eq_getElem ((outIdx q.length (q ++ p).length dnum i).map (fun j => (q ++ p).getD j 0)) _ (by simpa using hidx),
        List.getElem_map, List.getElem_idxOf]
      exact this
  · intro l hm
    simp only
    rw [if_pos (mem_partIdx.1 hm)]

end Verif.CkksMul

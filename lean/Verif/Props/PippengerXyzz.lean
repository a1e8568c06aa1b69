import Verif.Lemmas.PippengerXyzz
import Verif.Props.Pippenger
import Verif.Props.EcXyzz

/-!
# C61: Pippenger over XYZZ coordinates; C64: the zero flags
-/

namespace Verif.Props

open Verif.EcCurve Verif.EcChunks Verif.Pippenger Finset

attribute [local irreducible] P TWIST_D

/-! ## C64 -/

/-- C64: the flag of bucket `b` of window `w` before step `i` (after all steps for `i = n`) says that no earlier scalar
selected that bucket. -/
theorem C64_bucket_flags (k : Nat) (scalars : List Int) (i w b : Nat) (hi : i ≤ scalars.length) (hw : w < windowNum k)
    (hb : b < 2 ^ k) :
    (((zeroStates k scalars).getD i []).getD w []).getD b true = true ↔
      ∀ j, j < i → scalars.getD j 0 / 2 ^ (w * k) % 2 ^ k ≠ b := by
  rw [((zeroStates_spec k scalars i hi).2 w hw).2 b hb]
  refine forall_congr' fun j => forall_congr' fun _ => not_congr ?_
  have := slice_nonneg k (scalars.getD j 0) w
  unfold slice at this ⊢
  omega

example := C64_bucket_flags 4 [5, 18, 7] 2 1 1 (by decide) (by decide +kernel) (by decide)

/-- The shapes of the flag arrays. -/
theorem C64_shapes (k : Nat) (scalars : List Int) : (zeroStates k scalars).length = scalars.length + 1 ∧
    ∀ i, i ≤ scalars.length → ((zeroStates k scalars).getD i []).length = windowNum k ∧
      ∀ w, w < windowNum k → (((zeroStates k scalars).getD i []).getD w []).length = 2 ^ k :=
  ⟨zeroStates_length k scalars, fun i hi => ⟨(zeroStates_spec k scalars i hi).1,
    fun w hw => ((zeroStates_spec k scalars i hi).2 w hw).1⟩⟩

/-- C64: before step `i` of the reduction, when the `i` top buckets have been processed, the flags of the running sum
and of the window sum both say that these buckets are all flagged. -/
theorem C64_reduction_flags (z : List Bool) (i : Nat) (hi : i ≤ z.length) :
    ((brZero z).2.1.getD i true = true ↔ ∀ b, z.length - i ≤ b → b < z.length → z.getD b true = true) ∧
    ((brZero z).2.2.getD i true = true ↔ ∀ b, z.length - i ≤ b → b < z.length → z.getD b true = true) := by
  rw [brZero_temp z i hi, brZero_window z i hi, and_self, List.all_eq_true]
  constructor
  · intro h b h1 h2
    rw [List.getD_eq_getElem _ _ h2]
    apply h
    rw [List.mem_take_iff_getElem]
    refine ⟨z.length - 1 - b, by simp; omega, ?_⟩
    rw [List.getElem_reverse]
    congr 1
    omega
  · intro h x hx
    rw [List.mem_take_iff_getElem] at hx
    obtain ⟨j, hj, rfl⟩ := hx
    simp only [List.length_reverse] at hj
    have := h (z.length - 1 - j) (by omega) (by omega)
    rw [List.getD_eq_getElem _ _ (by omega)] at this
    rw [id, List.getElem_reverse]
    exact this

/-- The flags of a history with three scalars: bucket 5 of window 0 is marked after the first. -/
example : (((zeroStates 4 [5, 18, 7]).getD 0 []).getD 0 []).getD 5 true = true ∧
    (((zeroStates 4 [5, 18, 7]).getD 1 []).getD 0 []).getD 5 true = false ∧
    (((zeroStates 4 [5, 18, 7]).getD 3 []).getD 1 []).getD 1 true = false ∧
    (((zeroStates 4 [5, 18, 7]).getD 3 []).getD 0 []).getD 6 true = true := by decide +kernel

/-! ## C61 -/

/-- Packed chunk coordinates of an affine point. -/
def LXRep {b : ZMod P} (p : Quad (List Nat)) (A : (shortW 0 b).Point) : Prop := ∃ u, LRep4 p u ∧ XRep (some u) A

/-- The `x`-coordinates of two packed points differ: the domain of the addition formula. -/
def diffX (p q : Quad (List Nat)) : Bool :=
  decide (((arrayToInt 16 p.1 : Nat) : ZMod P) * ((arrayToInt 16 q.2.2.1 : Nat) : ZMod P) ≠
    ((arrayToInt 16 q.1 : Nat) : ZMod P) * ((arrayToInt 16 p.2.2.1 : Nat) : ZMod P))

/-- The `y`-coordinate is not zero: the domain of the doubling formula. -/
def nonzeroY (p : Quad (List Nat)) : Bool := decide (((arrayToInt 16 p.2.1 : Nat) : ZMod P) ≠ 0)

/-- `lazyXyzz` instrumented with the domains of the formulas; `blank` does not represent a point. -/
def checkedXyzz : Ops (Quad (List Nat) × Bool) := guard lazyXyzz false diffX nonzeroY

theorem diffX_iff {p q : Quad (List Nat)} {u v : Quad (ZMod P)} (hp : LRep4 p u) (hq : LRep4 q v) :
    diffX p q = true ↔ u.1 * v.2.2.1 ≠ v.1 * u.2.2.1 := by
  unfold diffX
  rw [decide_eq_true_eq, (unpack_LRep hp.1).2, (unpack_LRep hp.2.2.1).2, (unpack_LRep hq.1).2, (unpack_LRep hq.2.2.1).2]

theorem nonzeroY_iff {p : Quad (List Nat)} {u : Quad (ZMod P)} (hp : LRep4 p u) : nonzeroY p = true ↔ u.2.1 ≠ 0 := by
  unfold nonzeroY
  rw [decide_eq_true_eq, (unpack_LRep hp.2.1).2]

theorem checkedXyzz_ok {b : ZMod P} :
    OpsOkX checkedXyzz (Guarded (LXRep (b := b))) (fun x => x.2 = false) := by
  refine guard_okX ?_ ?_ ?_
  · rintro p q A B ⟨u, hp, hu⟩ ⟨v, hq, hv⟩ h
    rw [diffX_iff hp hq] at h
    refine ⟨_, paddLazyXyzz_rep hp hq, xyzzAdd_rep u v A B hu hv ?_⟩
    rw [ne_eq, div_eq_div_iff hu.1 hv.1]
    exact h
  · rintro p A ⟨u, hp, hu⟩ h
    rw [nonzeroY_iff hp] at h
    exact ⟨_, pdulLazyXyzz_rep hp, xyzzDouble_rep u A hu two_ne h⟩
  · rintro p A B ⟨u, hp, hu⟩ ⟨v, hq, hv⟩
    obtain rfl := LRep4.unique hp hq
    obtain ⟨_, _, _, _, h1⟩ := hu
    obtain ⟨_, _, _, _, h2⟩ := hv
    rw [h1, h2]

/-- C61 (partial): if in the run of `MSMPippenger` every addition and every doubling whose result is used is in the
domain of its formula (different `x`-coordinates; `y ≠ 0`) and no window is empty, then the result represents
`∑ k_i A_i`.  The condition is stated as a run of the same algorithm on points paired with a bit that records it.
What is missing: the code does not ensure the condition, and the claim is false without it (`C61_empty_window`). -/
theorem C61_partial {b : ZMod P} (k : Nat) (hk : 0 < k) (scalars : List Int) (points : List (Quad (List Nat)))
    (As : List (shortW 0 b).Point) (hp : List.Forall₂ LXRep points As) (hlen : scalars.length = points.length)
    (hs : ∀ c ∈ scalars, 0 ≤ c ∧ c < 2 ^ (k * windowNum k)) (r : Quad (List Nat))
    (hrun : msmXyzz checkedXyzz k scalars (points.map fun p => (p, true)) = .ok (r, true)) :
    msmXyzz lazyXyzz k scalars points = .ok r ∧
      LXRep r (∑ i ∈ range As.length, scalars.getD i 0 • As.getD i 0) := by
  constructor
  · have := msmXyzz_hom (guard_hom lazyXyzz rfl false diffX nonzeroY) k scalars (points.map fun p => (p, true))
    unfold checkedXyzz at hrun
    rw [hrun, List.map_map] at this
    simpa [Except.map, Function.comp_def] using this.symm
  · have h0 : points.map (fun p => (p, true)) ≠ [] := by
      intro h
      unfold msmXyzz shapesOk at hrun
      rw [h] at hrun
      simp at hrun
    have hsh : shapesOk 1 (points.map fun p => (p, true)).length scalars.length = true := by
      have : points.length ≠ 0 := by simpa using h0
      simp [shapesOk, hlen, this, Nat.mod_one]
    have hp' : List.Forall₂ (Guarded LXRep) (points.map fun p => (p, true)) As := by
      rw [List.forall₂_map_left_iff]
      exact hp.imp fun p A h (_ : true = true) => h
    obtain ⟨r', hr, hR⟩ := msmXyzz_ok checkedXyzz_ok k hk scalars _ As hp' hsh
    rw [hrun] at hr
    cases hr
    have := hR rfl
    rwa [msmSpec_exact _ _ _ (by rw [hlen, hp.length_eq]) hs] at this

/-- The masked bucket accumulation (`selection_list`) computes the same buckets as the indexed one
(`selection_index_list`), for every point arithmetic. -/
theorem C61_mask {α : Type} (o : Ops α) (k : Nat) (scalars : List Int) (points : List α)
    (hlen : scalars.length = points.length) :
    xAccumulateMask o (List.replicate (windowNum k) (List.replicate (2 ^ k) o.blank)) points (xyzzMask k scalars)
      (zeroStates k scalars) =
    xAccumulate o (List.replicate (windowNum k) (List.replicate (2 ^ k) o.blank)) points (xyzzSelection k scalars)
      (zeroStates k scalars) := by
  refine xAccumulateMask_eq o k scalars points _ hlen (fun i hi => (C64_shapes k scalars).2 i (by omega)) _ (by simp) ?_
  intro w hw
  rw [List.getD_eq_getElem _ _ (by simpa using hw)]
  simp

example := C61_mask lazyXyzz 4 [5, 18] [lazyXyzz.blank, lazyXyzz.blank] rfl

/-! ### Empty windows -/

/-- Coordinates of the right shape. -/
def LOk (p : Quad (List Nat)) : Prop := ∃ u, LRep4 p u

/-- `ZZ = 0`: no point is represented. -/
def LBad (p : Quad (List Nat)) : Prop := ∃ u, LRep4 p u ∧ u.2.2.1 = 0

theorem LBad.ok {p : Quad (List Nat)} (h : LBad p) : LOk p := ⟨h.choose, h.choose_spec.1⟩

theorem LOk.padd {p q : Quad (List Nat)} (hp : LOk p) (hq : LOk q) : LOk (lazyXyzz.padd p q) := by
  obtain ⟨u, hu⟩ := hp
  obtain ⟨v, hv⟩ := hq
  exact ⟨_, paddLazyXyzz_rep hu hv⟩

theorem LBad.padd_left {p q : Quad (List Nat)} (hp : LBad p) (hq : LOk q) : LBad (lazyXyzz.padd p q) := by
  obtain ⟨⟨x1, y1, z1, w1⟩, hu, h0⟩ := hp
  obtain ⟨⟨x2, y2, z2, w2⟩, hv⟩ := hq
  refine ⟨_, paddLazyXyzz_rep hu hv, ?_⟩
  dsimp only at h0
  subst h0
  simp [xyzzAdd]

theorem LBad.padd_right {p q : Quad (List Nat)} (hp : LOk p) (hq : LBad q) : LBad (lazyXyzz.padd p q) := by
  obtain ⟨⟨x1, y1, z1, w1⟩, hu⟩ := hp
  obtain ⟨⟨x2, y2, z2, w2⟩, hv, h0⟩ := hq
  refine ⟨_, paddLazyXyzz_rep hu hv, ?_⟩
  dsimp only at h0
  subst h0
  simp [xyzzAdd]

theorem LOk.pdul {p : Quad (List Nat)} (hp : LOk p) : LOk (lazyXyzz.pdul p) := by
  obtain ⟨u, hu⟩ := hp
  exact ⟨_, pdulLazyXyzz_rep hu⟩

theorem LBad.pdul {p : Quad (List Nat)} (hp : LBad p) : LBad (lazyXyzz.pdul p) := by
  obtain ⟨⟨x1, y1, z1, w1⟩, hu, h0⟩ := hp
  refine ⟨_, pdulLazyXyzz_rep hu, ?_⟩
  dsimp only at h0
  subst h0
  simp [xyzzDouble]

theorem LBad.blank : LBad lazyXyzz.blank := by
  have h := (chunkConst_rep 0 (by norm_num)).congr Nat.cast_zero.symm
  exact ⟨(0, 0, 0, 0), ⟨h, h, h, h⟩, rfl⟩

/-- Points of which the bad ones absorb every operation. -/
structure BadOps {α : Type} [DecidableEq α] (o : Ops α) (Ok Bad : α → Prop) : Prop where
  sel : o.selEq = selDec
  blank : Bad o.blank
  ok : ∀ p, Bad p → Ok p
  padd : ∀ p q, Ok p → Ok q → Ok (o.padd p q)
  left : ∀ p q, Bad p → Ok q → Bad (o.padd p q)
  right : ∀ p q, Ok p → Bad q → Bad (o.padd p q)
  pdul : ∀ p, Ok p → Ok (o.pdul p)
  pdulBad : ∀ p, Bad p → Bad (o.pdul p)

theorem lazyXyzz_bad : BadOps lazyXyzz LOk LBad where
  sel := rfl
  blank := LBad.blank
  ok _ h := h.ok
  padd _ _ hp hq := hp.padd hq
  left _ _ hp hq := hp.padd_left hq
  right _ _ hp hq := LBad.padd_right hp hq
  pdul _ hp := hp.pdul
  pdulBad _ hp := hp.pdul

section
variable {α : Type} [DecidableEq α] {o : Ops α} {Ok Bad : α → Prop}

theorem BadOps.shapes (ho : BadOps o Ok Bad) : OpsOkX o (fun p (_ : PUnit) => Ok p) Bad where
  blank := ho.blank
  weak _ _ h := ho.ok _ h
  padd _ _ _ _ hp hq := ho.padd _ _ hp hq
  pdul _ _ hp := ho.pdul _ hp
  zcheck := by
    intro p q A B pz qz hp hq
    have hp' : Ok p := by
      cases pz with
      | true => exact ho.ok _ hp.2
      | false => exact hp
    have hq' : Ok q := by
      cases qz with
      | true => exact ho.ok _ hq.2
      | false => exact hq
    unfold paddZeroCheck
    simp only [ho.sel, selDec]
    cases pz <;> cases qz <;> simp only [RZ, Bool.and_true, Bool.and_false, if_true, Bool.false_eq_true,
      if_false, Bool.or_true, Bool.or_false] at hp hq ⊢
    · split_ifs
      · exact ho.pdul _ hp'
      · exact ho.padd _ _ hp' hq'
    · split_ifs
      · exact ho.pdul _ hp'
      · exact hp'
    · split_ifs
      · exact ho.pdul _ hp'
      · exact hq'
    · refine ⟨trivial, ?_⟩
      split_ifs
      · exact ho.pdulBad _ hp.2
      · exact hp.2

theorem windowMerge_bad (ho : BadOps o Ok Bad) (k : Nat) (l : List α) (hl : ∀ p ∈ l, Ok p) (hb : ∃ p ∈ l, Bad p) :
    Bad (windowMerge o k l) := by
  have hit : ∀ n p, Ok p → Ok (o.pdul^[n] p) := by
    intro n
    induction n with
    | zero => exact fun p h => h
    | succ n ih => exact fun p h => by rw [Function.iterate_succ_apply]; exact ih _ (ho.pdul _ h)
  have hitb : ∀ n p, Bad p → Bad (o.pdul^[n] p) := by
    intro n
    induction n with
    | zero => exact fun p h => h
    | succ n ih => exact fun p h => by rw [Function.iterate_succ_apply]; exact ih _ (ho.pdulBad _ h)
  have hne : l ≠ [] := by
    rintro rfl
    simp at hb
  unfold windowMerge
  rw [List.foldl_reverse]
  obtain ⟨i, x, rfl⟩ : ∃ i x, l = i ++ [x] := ⟨l.dropLast, l.getLast hne, (List.dropLast_concat_getLast hne).symm⟩
  rw [show (i ++ [x]).length - 1 = i.length by simp, List.take_left, List.getD_append_right _ _ _ _ le_rfl]
  simp only [Nat.sub_self, List.getD_cons_zero]
  clear hne
  have hok : ∀ i : List α, (∀ p ∈ i ++ [x], Ok p) →
      Ok (i.foldr (fun s r => o.padd (o.pdul^[k] r) s) x) := by
    intro i
    induction i with
    | nil => exact fun h => h x (by simp)
    | cons y i ih =>
      intro h
      exact ho.padd _ _ (hit k _ (ih fun p hp => h p (by simp at hp ⊢; tauto))) (h y (by simp))
  induction i with
  | nil =>
    obtain ⟨p, hp, h⟩ := hb
    simp at hp
    subst hp
    exact h
  | cons y i ih =>
    have hl' : ∀ p ∈ i ++ [x], Ok p := fun p hp => hl p (by simp at hp ⊢; tauto)
    obtain ⟨p, hp, h⟩ := hb
    rw [List.cons_append, List.mem_cons] at hp
    rw [List.foldr_cons]
    rcases hp with rfl | hp
    · exact ho.right _ _ (hit k _ (hok i hl')) h
    · exact ho.left _ _ (hitb k _ (ih hl' ⟨p, hp, h⟩)) (hl y (by simp))

theorem msmXyzz_bad (ho : BadOps o Ok Bad) (k : Nat) (scalars : List Int) (points : List α)
    (hp : ∀ p ∈ points, Ok p) (h0 : points ≠ []) (hlen : scalars.length = points.length) (w : Nat)
    (hw : w < windowNum k) (hz : ∀ c ∈ scalars, c / 2 ^ (w * k) % 2 ^ k = 0) :
    ∃ r, msmXyzz o k scalars points = .ok r ∧ Bad r := by
  have hn : points.length ≠ 0 := by simpa using h0
  have hsh : shapesOk 1 points.length scalars.length = true := by simp [shapesOk, hlen, hn, Nat.mod_one]
  unfold msmXyzz
  rw [if_pos hsh]
  refine ⟨_, rfl, ?_⟩
  obtain ⟨h1, h2⟩ := xAccumulate_ok ho.shapes k scalars points (fun _ => PUnit.unit) hlen (fun i hi => by
    rw [List.getD_eq_getElem _ _ hi]
    exact hp _ (List.getElem_mem hi)) points.length le_rfl
  change (xAccumulate o _ points _ _).length = _ at h1
  change ∀ w, w < windowNum k → ∃ V : Nat → PUnit, XRow _ Bad o.blank (2 ^ k)
    ((xAccumulate o _ points _ _).getD w []) _ V ∧ _ at h2
  generalize xAccumulate o (List.replicate (windowNum k) (List.replicate (2 ^ k) o.blank)) points
    (xyzzSelection k scalars) ((zeroStates k scalars).take points.length) = acc at *
  rw [zeroStates_length, Nat.add_sub_cancel, hlen, h1]
  have hred : ∀ w, w < windowNum k → RZ (fun p (_ : PUnit) => Ok p) Bad
      (((((zeroStates k scalars).getD points.length []).getD w []).reverse.take (2 ^ k - 1)).all id)
      (xReduce o (acc.getD w []) (brZero (((zeroStates k scalars).getD points.length []).getD w [])))
      PUnit.unit := by
    intro w hw
    obtain ⟨V, hV, -⟩ := h2 w hw
    exact xReduce_ok ho.shapes hV
  apply windowMerge_bad ho
  · intro p hp
    rw [List.mem_map] at hp
    obtain ⟨w', hw', rfl⟩ := hp
    exact (hred w' (by simpa using hw')).weak ho.shapes
  · refine ⟨_, List.mem_map.2 ⟨w, by simpa using hw, rfl⟩, ?_⟩
    have hf : ((((zeroStates k scalars).getD points.length []).getD w []).reverse.take (2 ^ k - 1)).all id = true := by
      obtain ⟨-, hzs⟩ := zeroStates_spec k scalars points.length (by omega)
      obtain ⟨hl, hb⟩ := hzs w hw
      rw [List.all_eq_true]
      intro x hx
      rw [List.mem_take_iff_getElem] at hx
      obtain ⟨j, hj, rfl⟩ := hx
      simp only [List.length_reverse, hl] at hj
      rw [id, List.getElem_reverse, ← List.getD_eq_getElem _ true, hb _ (by omega)]
      intro i hi
      have hi' : i < scalars.length := by omega
      rw [List.getD_eq_getElem _ _ hi']
      unfold slice
      rw [hz _ (List.getElem_mem hi')]
      simp only [hl, Int.toNat_zero]
      omega
    have := hred w hw
    rw [hf] at this
    exact this.2

end

/-- C61 is false: whenever some window of all scalars is zero (for example whenever all scalars are below
`2^(k (windows - 1))`), the coordinates returned by `MSMPippenger` have `ZZ = 0` modulo the prime and represent no
point at all, whatever the points are. -/
theorem C61_empty_window {b : ZMod P} (k : Nat) (_hk : 0 < k) (scalars : List Int) (points : List (Quad (List Nat)))
    (hp : ∀ p ∈ points, LOk p) (h0 : points ≠ []) (hlen : scalars.length = points.length) (w : Nat)
    (hw : w < windowNum k) (hz : ∀ c ∈ scalars, c / 2 ^ (w * k) % 2 ^ k = 0) :
    ∃ r, msmXyzz lazyXyzz k scalars points = .ok r ∧ ∀ A : (shortW 0 b).Point, ¬ LXRep r A := by
  obtain ⟨r, hr, u, hu, h0⟩ := msmXyzz_bad lazyXyzz_bad k scalars points hp h0 hlen w hw hz
  refine ⟨r, hr, ?_⟩
  rintro A ⟨v, hv, h, -⟩
  obtain rfl := LRep4.unique hu hv
  exact h h0

/-- In terms of integers: `MSMPippenger` on scalars below `2^(k (windows - 1))` returns, for all affine points,
coordinates `(X, Y, ZZ, ZZZ)` with `ZZ` a multiple of the prime. -/
theorem C61_small_scalars (k : Nat) (hk : 0 < k) (scalars : List Int) (points : List (Nat × Nat))
    (hp : ∀ q ∈ points, q.1 ≤ 2 ^ 16 * P ∧ q.2 ≤ 2 ^ 16 * P) (h0 : points ≠ []) (hlen : scalars.length = points.length)
    (hs : ∀ c ∈ scalars, 0 ≤ c ∧ c < 2 ^ (k * (windowNum k - 1))) :
    ∃ r, msmXyzzInts k scalars points = .ok r ∧ r.2.2.1 % P = 0 := by
  obtain ⟨pts, h1, h2, h3⟩ : ∃ pts, (points.mapM fun q => packPoint (q.1, q.2, 1, 1)) = .ok pts ∧
      pts.length = points.length ∧ ∀ p ∈ pts, LOk p := by
    clear h0 hlen
    induction points with
    | nil => exact ⟨[], rfl, rfl, by simp⟩
    | cons q points ih =>
      obtain ⟨pts, h1, h2, h3⟩ := ih fun q hq => hp q (by simp [hq])
      have hq := hp q (by simp)
      have hone : 1 ≤ 2 ^ 16 * P := by decide +kernel
      obtain ⟨p, hp1, hp2⟩ := packPoint_rep (q.1, q.2, 1, 1)
        ((q.1 : ZMod P), (q.2 : ZMod P), ((1 : Nat) : ZMod P), ((1 : Nat) : ZMod P))
        ⟨⟨hq.1, hq.2, hone, hone⟩, rfl⟩
      refine ⟨p :: pts, ?_, by simp [h2], ?_⟩
      · rw [List.mapM_cons, hp1, h1]
        rfl
      · intro p' hp'
        rcases List.mem_cons.1 hp' with rfl | h
        · exact ⟨_, hp2⟩
        · exact h3 _ h
  have hw := windowNum_pos k hk
  have hne : pts ≠ [] := by
    rintro rfl
    exact h0 (List.length_eq_zero_iff.1 h2.symm)
  obtain ⟨r, hr, u, hu, hz⟩ := msmXyzz_bad lazyXyzz_bad k scalars pts h3 hne (by rw [hlen, h2]) (windowNum k - 1) (by omega)
    (fun c hc => by
      have h := hs c hc
      rw [Int.ediv_eq_zero_of_lt h.1 (by rw [Nat.mul_comm]; exact h.2)]
      rfl)
  refine ⟨unpackPoint r, ?_, ?_⟩
  · unfold msmXyzzInts
    rw [h1]
    show (msmXyzz lazyXyzz k scalars pts >>= _) = _
    rw [hr]
    rfl
  · have := unpackPoint_rep hu
    have h := this.2
    rw [h] at hz
    exact Nat.mod_eq_zero_of_dvd ((ZMod.natCast_eq_zero_iff _ _).1 hz)

/-- (`C61_small_scalars`, a case of `C61_empty_window`.) For `1 * G` with the configured generator `G` and windows of four bits the code does not return a point. -/
example : ∃ r, msmXyzzInts 4 [1] [(GEN_X, GEN_Y)] = .ok r ∧ r.2.2.1 % P = 0 :=
  C61_small_scalars 4 (by norm_num) [1] [(GEN_X, GEN_Y)] (by
    intro q hq
    rw [List.mem_singleton] at hq
    subst hq
    decide +kernel) (by simp) rfl (by
    intro c hc
    rw [List.mem_singleton] at hc
    subst hc
    decide +kernel)

/-! ### The hypothesis of `C61_partial` -/

theorem replicate_succ_getD {α : Type} (n : Nat) (x d : α) : (List.replicate (n + 1) x).getD n d = x := by
  rw [List.getD_eq_getElem _ _ (by simp)]
  simp

/-- The run for one point, windows of one bit, and the scalar `2^254 - 1`: all window sums are the point itself. -/
theorem run_one {α : Type} (o : Ops α) (p : α) (h : ∀ x y, o.selEq o.blank p x y = y) :
    msmXyzz o 1 [2 ^ 254 - 1] [p] = .ok (windowMerge o 1 (List.replicate 254 p)) := by
  have hs : xyzzSelection 1 [2 ^ 254 - 1] = [List.replicate 254 1] := by decide +kernel
  have hz : zeroStates 1 [2 ^ 254 - 1] = [List.replicate 254 [true, true], List.replicate 254 [true, false]] := by
    decide +kernel
  have hn : windowNum 1 = 254 := by decide +kernel
  have hr : ∀ {β : Type} (x d : β) (w : Nat), w < 254 → (List.replicate 254 x).getD w d = x := by
    intro β x d w hw
    rw [List.getD_eq_getElem _ _ (by rw [List.length_replicate]; exact hw), List.getElem_replicate]
  have hacc : xAccumulate o (List.replicate 254 (List.replicate (2 ^ 1) o.blank)) [p] [List.replicate 254 1]
      [List.replicate 254 [true, true]] = List.replicate 254 [o.blank, p] := by
    unfold xAccumulate
    rw [show List.range [p].length = [0] from rfl, List.foldl_cons, List.foldl_nil]
    unfold xStep
    rw [List.eq_replicate_iff]
    refine ⟨by rw [List.length_map, List.length_range, List.length_replicate], ?_⟩
    intro row hrow
    rw [List.mem_map] at hrow
    obtain ⟨w, hw, rfl⟩ := hrow
    rw [List.length_replicate, List.mem_range] at hw
    simp only [List.getD_cons_zero]
    rw [hr _ _ _ hw, hr _ _ _ hw, hr _ _ _ hw]
    rfl
  unfold msmXyzz
  rw [if_pos (by simp [shapesOk]), hs, hz, hn]
  simp only [List.length_cons, List.length_nil, Nat.zero_add, List.take_succ_cons, List.take_zero, Nat.add_sub_cancel,
    List.getD_cons_succ, List.getD_cons_zero]
  rw [hacc]
  congr 2
  rw [List.eq_replicate_iff]
  refine ⟨by rw [List.length_map, List.length_range, List.length_replicate], ?_⟩
  intro x hx
  rw [List.mem_map] at hx
  obtain ⟨w, hw, rfl⟩ := hx
  rw [List.length_replicate, List.mem_range] at hw
  rw [hr _ _ _ hw, hr _ _ _ hw]
  show paddZeroCheck o o.blank (paddZero o o.blank p true false) true false = p
  exact h _ _

theorem gcds : (List.range 253).all (fun j => Nat.gcd (2 * (2 ^ (j + 1) - 1)) ORDER == 1 &&
    Nat.gcd (2 ^ (j + 2) - 3) ORDER == 1 && Nat.gcd (2 ^ (j + 2) - 1) ORDER == 1) = true := by decide +kernel

/-- One doubling and one addition of the merge. -/
theorem merge_step {G : (shortW (0 : ZMod P) 1).Point} {p q : Quad (List Nat)} {B : (shortW (0 : ZMod P) 1).Point}
    (hp : LXRep p G) (hq : LXRep q B) (h1 : B + B ≠ 0) (h2 : B + B ≠ G) (h3 : B + B ≠ -G) :
    ∃ r, checkedXyzz.padd (checkedXyzz.pdul (q, true)) (p, true) = (r, true) ∧ LXRep r (B + B + G) := by
  obtain ⟨u, hu1, hu2⟩ := hq
  obtain ⟨v, hv1, hv2⟩ := hp
  have hy := XRep_y_ne hu2 h1
  have hd := xyzzDouble_rep u _ hu2 two_ne hy
  have hdl := pdulLazyXyzz_rep hu1
  have hx := XRep_ne_x hd hv2 h2 h3
  have e1 : nonzeroY q = true := (nonzeroY_iff hu1).2 hy
  have e2 : diffX (pdulLazyXyzz q) p = true := by
    refine (diffX_iff hdl hv1).2 ?_
    have hz : (xyzzDouble 0 u).2.2.1 ≠ 0 := hd.1
    rw [ne_eq, ← div_eq_div_iff hz hv2.1]
    exact hx
  refine ⟨paddLazyXyzz (pdulLazyXyzz q) p, ?_, _, paddLazyXyzz_rep hdl hv1, xyzzAdd_rep _ _ _ _ hd hv2 hx⟩
  show (paddLazyXyzz (pdulLazyXyzz q) p, (true && nonzeroY q) && true && diffX (pdulLazyXyzz q) p) = _
  rw [e1, e2]
  rfl

theorem nsmul_generator_ne {G : (shortW (0 : ZMod P) 1).Point} (hG : IsXY G (GEN_X : ZMod P) (GEN_Y : ZMod P)) (m : Nat)
    (hm : Nat.gcd m ORDER = 1) : m • G ≠ 0 := by
  have hord := order_generator hG
  have hG0 : G ≠ 0 := by
    rintro rfl
    obtain ⟨h, e⟩ := hG
    cases e
  intro h
  have h1 := addOrderOf_dvd_of_nsmul_eq_zero h
  have h2 := addOrderOf_dvd_of_nsmul_eq_zero hord
  have := Nat.dvd_gcd h1 h2
  rw [hm, Nat.dvd_one, AddMonoid.addOrderOf_eq_one_iff] at this
  exact hG0 this

theorem merge_run {G : (shortW (0 : ZMod P) 1).Point} (hG : IsXY G (GEN_X : ZMod P) (GEN_Y : ZMod P))
    {p : Quad (List Nat)} (hp : LXRep p G) (j : Nat) (hj : j < 254) : ∃ q, (List.replicate j (p, true)).foldr
      (fun s r => checkedXyzz.padd (checkedXyzz.pdul^[1] r) s) (p, true) = (q, true) ∧
        LXRep q ((2 ^ (j + 1) - 1) • G) := by
  induction j with
  | zero => exact ⟨p, rfl, by rw [zero_add, pow_one, one_nsmul]; exact hp⟩
  | succ j ih =>
    obtain ⟨q, hq, hqr⟩ := ih (by omega)
    have hg := List.all_eq_true.1 gcds j (List.mem_range.2 (by omega))
    simp only [Bool.and_eq_true, beq_iff_eq] at hg
    obtain ⟨⟨g1, g2⟩, g3⟩ := hg
    rw [List.replicate_succ, List.foldr_cons, hq]
    have hpow : 2 ≤ 2 ^ (j + 1) := by
      rw [pow_succ]
      have := Nat.one_le_two_pow (n := j)
      omega
    have hpow2 : 2 ^ (j + 2) = 2 * 2 ^ (j + 1) := by rw [pow_succ]; ring
    have := merge_step hp hqr (by
      rw [← add_nsmul, ← two_mul]
      exact nsmul_generator_ne hG _ g1) (by
      intro h
      refine nsmul_generator_ne hG _ g2 ?_
      rw [show 2 ^ (j + 2) - 3 = ((2 ^ (j + 1) - 1) + (2 ^ (j + 1) - 1)) - 1 by omega, sub_nsmul _ (by omega),
        add_nsmul, h, one_nsmul, add_neg_cancel]) (by
      intro h
      refine nsmul_generator_ne hG _ g3 ?_
      rw [show 2 ^ (j + 2) - 1 = ((2 ^ (j + 1) - 1) + (2 ^ (j + 1) - 1)) + 1 by omega, add_nsmul,
        add_nsmul, h, one_nsmul, neg_add_cancel])
    rwa [← add_nsmul, ← succ_nsmul,
      show (2 ^ (j + 1) - 1) + (2 ^ (j + 1) - 1) + 1 = 2 ^ (j + 1 + 1) - 1 by omega] at this

/-- The hypothesis of `C61_partial` is met by the configured generator with the scalar `2^254 - 1` and `k = 1`; the run
has 253 doublings and 253 additions. -/
example : ∃ (G : (shortW (0 : ZMod P) 1).Point) (p r : Quad (List Nat)), IsXY G (GEN_X : ZMod P) (GEN_Y : ZMod P) ∧
    packPoint (GEN_X, GEN_Y, 1, 1) = .ok p ∧ LXRep p G ∧
    msmXyzz checkedXyzz 1 [2 ^ 254 - 1] ([p].map fun p => (p, true)) = .ok (r, true) := by
  obtain ⟨G, hG⟩ := exists_generator
  have hI : IRep (GEN_X, GEN_Y, 1, 1) ((GEN_X : ZMod P), (GEN_Y : ZMod P), ((1 : Nat) : ZMod P), ((1 : Nat) : ZMod P)) :=
    ⟨by decide +kernel, rfl⟩
  obtain ⟨p, hp1, hp2⟩ := packPoint_rep _ _ hI
  have hpG : LXRep p G := by
    refine ⟨_, hp2, ?_⟩
    rw [Nat.cast_one]
    exact ⟨one_ne_zero, one_ne_zero, by rw [one_pow, one_pow], by rwa [div_one, div_one]⟩
  obtain ⟨r, hr, -⟩ := merge_run hG hpG 253 (by norm_num)
  refine ⟨G, p, r, hG, hp1, hpG, ?_⟩
  rw [List.map_singleton, run_one]
  · unfold windowMerge
    rw [List.length_replicate, List.foldl_reverse, show 254 - 1 = 253 from rfl, replicate_succ_getD 253,
      List.take_replicate, show min 253 254 = 253 from rfl]
    exact congrArg _ hr
  · intro x y
    have hb : lazyXyzz.blank ≠ p := by
      intro h
      obtain ⟨u, hu, hz⟩ := LBad.blank
      rw [h] at hu
      have := LRep4.unique hu hp2
      rw [this] at hz
      rw [Nat.cast_one] at hz
      exact one_ne_zero hz
    show (selDec lazyXyzz.blank p x.1 y.1, if lazyXyzz.blank = p then _ else y.2) = y
    rw [selDec, if_neg hb, if_neg hb]

end Verif.Props

import Verif.Lemmas.EcBatchConv
import Verif.Props.Pippenger
import Verif.Props.EcXyzz
import Verif.Props.EcRnsCurve
import Verif.Props.Crt

/-!
# C82: batched packs act on each point separately, and the conversions of batches are faithful

`packOf l` is the array (coordinate, point, chunk) of a list of points, `firstOf l` the array (point, coordinate, chunk).
The right-hand sides are the one-point formulas, whose meaning is C58 and C59.
-/

namespace Verif.Props

open Verif.EcBatch Verif.EcCurve Verif.EcChunks Verif.EcRns Verif.Pippenger

attribute [local irreducible] P TWIST_D

/-! ## The operations -/

/-- `padd_lazy_twisted_pack`, `pdul_lazy_twisted_pack` and `pneg_lazy_twisted_pack` on any batch of points with 25
chunks, whatever the chunks are: each point of the result is what the formula gives for that point alone. -/
theorem C82_lazy_twisted (ps qs : List (Quad (List Nat))) (hl : ps.length = qs.length) (hp : ∀ q ∈ ps, Chunks 25 q)
    (hq : ∀ q ∈ qs, Chunks 25 q) :
    paddLazyTwistedPack (packOf ps) (packOf qs) = .ok (packOf (List.zipWith paddLazyTwisted ps qs)) ∧
    pdulLazyTwistedPack (packOf ps) = packOf (ps.map pdulLazyTwisted) ∧
    pnegLazyTwistedPack (packOf ps) = packOf (ps.map pnegLazyTwisted) := by
  obtain ⟨ps, rfl⟩ := lift_rows 25 ps hp
  obtain ⟨qs, rfl⟩ := lift_rows 25 qs hq
  rw [List.length_map, List.length_map] at hl
  refine ⟨?_, ?_, ?_⟩
  · obtain ⟨l, rfl, rfl⟩ := zip_family ps qs hl
    have h := paddLazyTwistedB_maps l (fun t => t.1) (fun t => t.2)
    unfold paddLazyTwistedPack sameBatch
    rw [if_pos (by simp [at0, packOf])]
    congr 1
    rw [List.map_map, List.map_map, zipWith_maps]
    refine Eq.trans ?_ h
    simp only [at0, packOf, List.map_map, List.getD_cons_zero, List.getD_cons_succ]
    rfl
  · have h := pdulLazyTwistedB_maps ps (fun t => t)
    rw [List.map_map]
    refine Eq.trans ?_ h
    simp only [pdulLazyTwistedPack, at0, packOf, List.map_map, List.getD_cons_zero, List.getD_cons_succ]
    rfl
  · have h := pnegLazyTwistedB_maps ps (fun t => t)
    rw [List.map_map]
    refine Eq.trans ?_ h
    simp only [pnegLazyTwistedPack, at0, packOf, List.map_map, List.getD_cons_zero, List.getD_cons_succ]
    rfl

/-- `padd_lazy_xyzz_pack` and `pdul_lazy_xyzz_pack`. -/
theorem C82_lazy_xyzz (ps qs : List (Quad (List Nat))) (hl : ps.length = qs.length) (hp : ∀ q ∈ ps, Chunks 25 q)
    (hq : ∀ q ∈ qs, Chunks 25 q) :
    paddLazyXyzzPack (packOf ps) (packOf qs) = .ok (packOf (List.zipWith paddLazyXyzz ps qs)) ∧
    pdulLazyXyzzPack (packOf ps) = packOf (ps.map pdulLazyXyzz) := by
  obtain ⟨ps, rfl⟩ := lift_rows 25 ps hp
  obtain ⟨qs, rfl⟩ := lift_rows 25 qs hq
  rw [List.length_map, List.length_map] at hl
  refine ⟨?_, ?_⟩
  · obtain ⟨l, rfl, rfl⟩ := zip_family ps qs hl
    have h := paddLazyXyzzB_maps l (fun t => t.1) (fun t => t.2)
    unfold paddLazyXyzzPack sameBatch
    rw [if_pos (by simp [at0, packOf])]
    congr 1
    rw [List.map_map, List.map_map, zipWith_maps]
    refine Eq.trans ?_ h
    simp only [at0, packOf, List.map_map, List.getD_cons_zero, List.getD_cons_succ]
    rfl
  · have h := pdulLazyXyzzB_maps ps (fun t => t)
    rw [List.map_map]
    refine Eq.trans ?_ h
    simp only [pdulLazyXyzzPack, at0, packOf, List.map_map, List.getD_cons_zero, List.getD_cons_succ]
    rfl

/-- `padd_barrett_xyzz_pack` and `pdul_barrett_xyzz_pack`, 24 chunks. -/
theorem C82_barrett_xyzz (ps qs : List (Quad (List Nat))) (hl : ps.length = qs.length) (hp : ∀ q ∈ ps, Chunks 24 q)
    (hq : ∀ q ∈ qs, Chunks 24 q) :
    paddBarrettXyzzPack (packOf ps) (packOf qs) = .ok (packOf (List.zipWith paddBarrettXyzz ps qs)) ∧
    pdulBarrettXyzzPack (packOf ps) = packOf (ps.map pdulBarrettXyzz) := by
  obtain ⟨ps, rfl⟩ := lift_rows 24 ps hp
  obtain ⟨qs, rfl⟩ := lift_rows 24 qs hq
  rw [List.length_map, List.length_map] at hl
  refine ⟨?_, ?_⟩
  · obtain ⟨l, rfl, rfl⟩ := zip_family ps qs hl
    have h := paddBarrettXyzzB_maps l (fun t => t.1) (fun t => t.2)
    unfold paddBarrettXyzzPack sameBatch
    rw [if_pos (by simp [at0, packOf])]
    congr 1
    rw [List.map_map, List.map_map, zipWith_maps]
    refine Eq.trans ?_ h
    simp only [at0, packOf, List.map_map, List.getD_cons_zero, List.getD_cons_succ]
    rfl
  · have h := pdulBarrettXyzzB_maps ps (fun t => t)
    rw [List.map_map]
    refine Eq.trans ?_ h
    simp only [pdulBarrettXyzzPack, at0, packOf, List.map_map, List.getD_cons_zero, List.getD_cons_succ]
    rfl

/-- The residue versions, which stack all products of a step into one array and split the result: for every reduction
table and every batch, each point of the result is what the formula gives for that point alone. -/
theorem C82_rns (mat : Mat) (ps qs : List Pt) (hl : ps.length = qs.length) :
    paddRnsTwistedPack mat (packOf ps) (packOf qs) = .ok (packOf (List.zipWith (paddTwisted mat) ps qs)) ∧
    pdulRnsTwistedPack mat (packOf ps) = .ok (packOf (ps.map (pdulTwisted mat))) ∧
    paddRnsXyzzPack mat (packOf ps) (packOf qs) = .ok (packOf (List.zipWith (paddXyzz mat) ps qs)) ∧
    pdulRnsXyzzPack mat (packOf ps) = .ok (packOf (ps.map (pdulXyzz mat))) := by
  obtain ⟨e1, e2⟩ := zip_maps ps qs hl
  refine ⟨?_, ?_, ?_, ?_⟩
  · have h := paddRnsTwisted_maps mat (ps.zip qs) (fun t => t.1) (fun t => t.2)
    rw [e1, e2] at h
    rw [h, ← List.map_uncurry_zip_eq_zipWith]
    rfl
  · have h := pdulRnsTwisted_maps mat ps (fun t => t)
    rw [List.map_id'] at h
    exact h
  · have h := paddRnsXyzz_maps mat (ps.zip qs) (fun t => t.1) (fun t => t.2)
    rw [e1, e2] at h
    rw [h, ← List.map_uncurry_zip_eq_zipWith]
    rfl
  · have h := pdulRnsXyzz_maps mat ps (fun t => t)
    rw [List.map_id'] at h
    exact h

example := C82_rns (exactMatrix P) [([1], [2], [3], [4]), ([5], [6], [7], [8])] [([9], [2], [3], [4]), ([5], [9], [7], [8])] rfl

/-- Batches of different sizes are rejected by every addition. -/
theorem C82_mismatch (mat : Mat) (ps qs : List (Quad (List Nat))) (hl : ps.length ≠ qs.length) :
    (∃ e, paddLazyTwistedPack (packOf ps) (packOf qs) = .error e) ∧
    (∃ e, paddLazyXyzzPack (packOf ps) (packOf qs) = .error e) ∧
    (∃ e, paddBarrettXyzzPack (packOf ps) (packOf qs) = .error e) ∧
    (∃ e, paddRnsTwistedPack mat (packOf ps) (packOf qs) = .error e) ∧
    (∃ e, paddRnsXyzzPack mat (packOf ps) (packOf qs) = .error e) := by
  have h : ¬ (at0 (packOf ps) 0).length = (at0 (packOf qs) 0).length := by simpa [at0, packOf] using hl
  refine ⟨⟨_, if_neg h⟩, ⟨_, if_neg h⟩, ⟨_, if_neg h⟩, ?_, ?_⟩
  · refine ⟨"ValueError", ?_⟩
    have : stackMul mat 4 (packOf ps) (packOf qs) = .error "ValueError" := by
      unfold stackMul
      rw [if_neg]
      simp only [vstack, packOf, List.flatten_cons, List.flatten_nil, List.length_append, List.length_map, List.length_nil]
      omega
    unfold paddRnsTwistedPack
    rw [this]
    rfl
  · refine ⟨"ValueError", ?_⟩
    have : stackMul mat 6 (packOf ps ++ (packOf ps).drop 2)
        ((packOf qs).drop 2 ++ (packOf qs).drop 2 ++ (packOf qs).take 2) = .error "ValueError" := by
      unfold stackMul
      rw [if_neg]
      simp only [vstack, packOf, List.drop_succ_cons, List.drop_zero, List.take_succ_cons, List.take_zero,
        List.cons_append, List.nil_append, List.flatten_cons, List.flatten_nil, List.length_append, List.length_map,
        List.length_nil]
      omega
    unfold paddRnsXyzzPack
    rw [this]
    rfl

example := C82_mismatch (exactMatrix P) [([1], [2], [3], [4])] [] (by simp)

/-- The `_batch_first` variants take arrays with the point as first axis; the result has the coordinate first with the
default argument, the point first with `transpose=(1, 0, 2)`, and an argument that is not a permutation raises. -/
theorem C82_batch_first (ps qs : List (Quad (List Nat))) (hl : ps.length = qs.length) (hp : ∀ q ∈ ps, Chunks 24 q)
    (hq : ∀ q ∈ qs, Chunks 24 q) :
    paddBarrettXyzzBatchFirst (firstOf ps) (firstOf qs) = .ok (packOf (List.zipWith paddBarrettXyzz ps qs)) ∧
    paddBarrettXyzzBatchFirst (firstOf ps) (firstOf qs) (1, 0, 2) =
      .ok (firstOf (List.zipWith paddBarrettXyzz ps qs)) ∧
    pdulBarrettXyzzBatchFirst (firstOf ps) = .ok (packOf (ps.map pdulBarrettXyzz)) ∧
    pdulBarrettXyzzBatchFirst (firstOf ps) (1, 0, 2) = .ok (firstOf (ps.map pdulBarrettXyzz)) ∧
    (∀ t : Nat × Nat × Nat, ¬ [t.1, t.2.1, t.2.2].Perm [0, 1, 2] →
      pdulBarrettXyzzBatchFirst (firstOf ps) t = .error "ValueError") := by
  obtain ⟨h1, h2⟩ := C82_barrett_xyzz ps qs hl hp hq
  have hB : paddBarrettXyzzB (at1 (firstOf ps) 0) (at1 (firstOf ps) 1) (at1 (firstOf ps) 2) (at1 (firstOf ps) 3)
      (at1 (firstOf qs) 0) (at1 (firstOf qs) 1) (at1 (firstOf qs) 2) (at1 (firstOf qs) 3) =
      packOf (List.zipWith paddBarrettXyzz ps qs) := by
    obtain ⟨a1, a2, a3, a4⟩ := at1_firstOf ps
    obtain ⟨b1, b2, b3, b4⟩ := at1_firstOf qs
    rw [a1, a2, a3, a4, b1, b2, b3, b4]
    unfold paddBarrettXyzzPack sameBatch at h1
    rw [if_pos (by simp [at0, packOf, hl])] at h1
    exact Except.ok.inj h1
  have hD : pdulBarrettXyzzB (at1 (firstOf ps) 0) (at1 (firstOf ps) 1) (at1 (firstOf ps) 2) (at1 (firstOf ps) 3) =
      packOf (ps.map pdulBarrettXyzz) := by
    obtain ⟨a1, a2, a3, a4⟩ := at1_firstOf ps
    rw [a1, a2, a3, a4]
    exact h2
  have c1 : ∀ q ∈ List.zipWith paddBarrettXyzz ps qs, Chunks 24 q := by
    obtain ⟨ps, rfl⟩ := lift_rows 24 ps hp
    obtain ⟨qs, rfl⟩ := lift_rows 24 qs hq
    intro q hq
    obtain ⟨i, hi, rfl⟩ := List.mem_iff_getElem.1 hq
    rw [List.getElem_zipWith, List.getElem_map, List.getElem_map]
    exact chunks_paddBarrett _ _
  have c2 : ∀ q ∈ ps.map pdulBarrettXyzz, Chunks 24 q := by
    obtain ⟨ps, rfl⟩ := lift_rows 24 ps hp
    intro q hq
    obtain ⟨i, hi, rfl⟩ := List.mem_iff_getElem.1 hq
    rw [List.getElem_map, List.getElem_map]
    exact chunks_pdulBarrett _
  have hlen : (firstOf ps).length = (firstOf qs).length := by simp [firstOf, hl]
  refine ⟨?_, ?_, ?_, ?_, ?_⟩
  · unfold paddBarrettXyzzBatchFirst
    rw [if_pos hlen, hB, transpose_id 24 _ c1]
  · unfold paddBarrettXyzzBatchFirst
    rw [if_pos hlen, hB, transpose_swap 24 _ c1]
  · unfold pdulBarrettXyzzBatchFirst
    rw [hD, transpose_id 24 _ c2]
  · unfold pdulBarrettXyzzBatchFirst
    rw [hD, transpose_swap 24 _ c2]
  · intro t ht
    exact if_neg ht

/-! ## The conversions -/

/-- Integers to a pack and back: for every nonempty batch of points with the same positive number of coordinates, all in
range, the conversion succeeds, entry `(j, i)` of the pack is coordinate `j` of point `i`, and the conversion back gives
the points. -/
theorem C82_convert (base n c : Nat) (hb : 0 < base) (hc : 0 < c) (points : List (List Int)) (h0 : points ≠ [])
    (hlen : ∀ p ∈ points, p.length = c) (hr : ∀ p ∈ points, ∀ x ∈ p, 0 ≤ x ∧ x < 2 ^ (base * n)) :
    ∃ pack, batchToPack base n points = .ok pack ∧ pack.length = c ∧ (∀ a ∈ pack, a.length = points.length) ∧
      (∀ i j, i < points.length → j < c → ((pack.getD j []).getD i []).length = n ∧
        (arrayToInt base ((pack.getD j []).getD i []) : Int) = (points.getD i []).getD j 0) ∧
      packToBatch base pack = points.map (fun p => p.map Int.toNat) := by
  have hval : ∀ p ∈ points, ∀ x ∈ p, (constArray base n x.toNat).length = n ∧
      arrayToInt base (constArray base n x.toNat) = x.toNat ∧ ((x.toNat : Nat) : Int) = x := by
    intro p hp x hx
    obtain ⟨hx0, hx1⟩ := hr p hp x hx
    have hlt : x.toNat < 2 ^ (base * n) := by
      zify
      rw [Int.toNat_of_nonneg hx0]
      exact hx1
    have h := constArray_rep base n x.toNat hb hlt
    exact ⟨h.len, by rw [arrayToInt_eq _ _ h.lt, h.val], Int.toNat_of_nonneg hx0⟩
  have e := batchToPack_ok base n c hb hc points h0 hlen (fun p hp x hx => (hr p hp x hx).2)
  have hx0 : (points.map fun p => p.map fun x => constArray base n x.toNat) ≠ [] := by simpa using h0
  have hxc : ∀ a ∈ (points.map fun p => p.map fun x => constArray base n x.toNat), a.length = c := by
    intro a ha
    obtain ⟨p, hp, rfl⟩ := List.mem_map.1 ha
    simpa using hlen p hp
  obtain ⟨s1, s2, s3⟩ := swap01_rect _ c hx0 hxc
  refine ⟨_, e, s1, by simpa using s2, ?_, ?_⟩
  · intro i j hi hj
    have hj' : j < (points[i]).length := by rw [hlen _ (List.getElem_mem hi)]; exact hj
    rw [s3 i j (by simpa using hi) hj, getD_map _ _ _ hi, getD_map _ _ _ hj', List.getD_eq_getElem _ [] hi,
      List.getD_eq_getElem _ 0 hj']
    obtain ⟨v1, v2, v3⟩ := hval _ (List.getElem_mem hi) _ (List.getElem_mem hj')
    exact ⟨v1, by rw [v2, v3]⟩
  · unfold packToBatch
    rw [swap01_swap01 _ c hx0 hc hxc, List.map_map]
    apply List.map_congr_left
    intro p hp
    simp only [Function.comp_apply, arrayToIntList, List.map_map]
    apply List.map_congr_left
    intro x hx
    exact (hval p hp x hx).2.1

example := C82_convert 16 1 3 (by norm_num) (by norm_num) [[1, 2, 3], [4, 5, 65535]] (by simp) (by decide) (by decide)

/-- What the conversion rejects: an empty batch, points without coordinates, points with different numbers of
coordinates, and any coordinate that does not fit. -/
theorem C82_convert_rejects (base n : Nat) (hb : 0 < base) (points : List (List Int)) :
    ((∀ p ∈ points, p = []) → batchToPack base n points = .error "ValueError") ∧
    ((∃ p ∈ points, ∃ x ∈ p, (2 : Int) ^ (base * n) ≤ x) → batchToPack base n points = .error "AssertionError") ∧
    ((∀ p ∈ points, ∀ x ∈ p, x < (2 : Int) ^ (base * n)) → (∃ p ∈ points, ∃ q ∈ points, p.length ≠ q.length) →
      batchToPack base n points = .error "ValueError") := by
  refine ⟨?_, ?_, ?_⟩
  · exact batchToPack_empty base n points
  · exact batchToPack_large base n hb points
  · exact batchToPack_ragged base n hb points

/-- A negative coordinate is not rejected: it is converted to zero (the residue version reduces it instead). -/
theorem C82_convert_negative (base n : Nat) (x : Int) (hx : x < 0) (hb : 0 < base) :
    ∃ pack, batchToPack base n [[x]] = .ok pack ∧ packToBatch base pack = [[0]] := by
  have e : x.toNat = 0 := by omega
  obtain ⟨pack, h1, -, -, -, h2⟩ := C82_convert base n 1 hb one_pos [[0]] (by simp) (by simp)
    (by simp)
  refine ⟨pack, ?_, by simpa using h2⟩
  rw [← h1]
  simp [batchToPack, intListToArray, intToArrayZ, e]

example := C82_convert_negative 16 24 (-5) (by norm_num) (by norm_num)

/-- The residue conversions: for all integers (negative ones included) the batch comes back reduced modulo the product of
the moduli, hence unchanged when the coordinates are in range. -/
theorem C82_convert_rns (c : Nat) (hc : 0 < c) (points : List (List Int)) (h0 : points ≠ [])
    (hlen : ∀ p ∈ points, p.length = c) :
    ∃ pack, batchToPackRns points = .ok pack ∧ pack.length = c ∧
      packToBatchRns pack = .ok (points.map fun p => p.map fun x => x % (MODULI.prod : Int)) := by
  have e := batchToPackRns_ok c hc points h0 hlen
  have hx0 : points.map intListToArrayRns ≠ [] := by simpa using h0
  have hxc : ∀ a ∈ points.map intListToArrayRns, a.length = c := by
    intro a ha
    obtain ⟨p, hp, rfl⟩ := List.mem_map.1 ha
    simpa [intListToArrayRns] using hlen p hp
  refine ⟨_, e, (swap01_rect _ c hx0 hxc).1, ?_⟩
  unfold packToBatchRns
  rw [swap01_swap01 _ c hx0 hc hxc, mapM_map_ok]
  intro p hp
  unfold arrayRnsToIntList intListToArrayRns
  rw [mapM_map_ok]
  intro x _
  exact rns_roundtrip x

example := C82_convert_rns 3 (by norm_num) [[1, 2, 3], [4, -5, 65535]] (by simp) (by decide)

/-! ## From integers to integers -/

/-- Integer coordinates of a point of odd order in the extended coordinates of the twisted Edwards form. -/
def TPt (q : Quad Nat) (A : (W1 : WeierstrassCurve.Affine (ZMod P)).Point) : Prop :=
  OddPt A ∧ ∃ u, IRep q u ∧ ERep blsTwist u A

/-- Integer coordinates of a point other than zero in XYZZ coordinates, each at most `p << 16`. -/
def XPt {b : ZMod P} (q : Quad Nat) (A : (shortW 0 b).Point) : Prop := ∃ u, IRep q u ∧ XRep (some u) A

/-- The same with coordinates below `p`. -/
def BPt {b : ZMod P} (q : Quad Nat) (A : (shortW 0 b).Point) : Prop :=
  (q.1 < P ∧ q.2.1 < P ∧ q.2.2.1 < P ∧ q.2.2.2 < P) ∧
    XRep (some ((q.1 : ZMod P), (q.2.1 : ZMod P), (q.2.2.1 : ZMod P), (q.2.2.2 : ZMod P))) A

/-- The list of the four coordinates, as the conversions take it. -/
def coords (q : Quad Nat) : List Int := [(q.1 : Int), (q.2.1 : Int), (q.2.2.1 : Int), (q.2.2.2 : Int)]

/-- The list of the four coordinates, as the conversions return it. -/
def coordsN (q : Quad Nat) : List Nat := [q.1, q.2.1, q.2.2.1, q.2.2.2]

/-- The chunk arrays of the four coordinates. -/
def arrays (n : Nat) (q : Quad Nat) : Quad (List Nat) :=
  (constArray 16 n q.1, constArray 16 n q.2.1, constArray 16 n q.2.2.1, constArray 16 n q.2.2.2)

theorem pack_in (n : Nat) (ps : List (Quad Nat)) (h0 : ps ≠ []) (h : ∀ q ∈ ps, q.1 < 2 ^ (16 * n) ∧
    q.2.1 < 2 ^ (16 * n) ∧ q.2.2.1 < 2 ^ (16 * n) ∧ q.2.2.2 < 2 ^ (16 * n)) :
    batchToPack 16 n (ps.map coords) = .ok (packOf (ps.map (arrays n))) := by
  rw [batchToPack_ok 16 n 4 (by norm_num) (by norm_num) _ (by simpa using h0), ← swap01_firstOf _ (by simpa using h0)]
  · rw [List.map_map, firstOf, List.map_map]
    congr 2
  · intro p hp
    obtain ⟨q, -, rfl⟩ := List.mem_map.1 hp
    rfl
  · intro p hp x hx
    obtain ⟨q, hq, rfl⟩ := List.mem_map.1 hp
    obtain ⟨h1, h2, h3, h4⟩ := h q hq
    simp only [coords, List.mem_cons, List.not_mem_nil, or_false] at hx
    rcases hx with rfl | rfl | rfl | rfl
    · exact_mod_cast h1
    · exact_mod_cast h2
    · exact_mod_cast h3
    · exact_mod_cast h4

theorem pack_out (l : List (Quad (List Nat))) : packToBatch 16 (packOf l) = (l.map unpackPoint).map coordsN := by
  unfold packToBatch
  rw [swap01_packOf, firstOf, List.map_map, List.map_map]
  rfl

theorem forall_zip {α β γ δ : Type} {R : α → β → Prop} {S : γ → δ → Prop} {T : β → β → Prop} (f : α → α → γ)
    (g : β → β → δ) (h : ∀ x y a b, R x a → R y b → T a b → S (f x y) (g a b)) {xs ys : List α} {as bs : List β}
    (h1 : List.Forall₂ R xs as) (h2 : List.Forall₂ R ys bs) (h3 : List.Forall₂ T as bs) :
    List.Forall₂ S (List.zipWith f xs ys) (List.zipWith g as bs) := by
  induction h1 generalizing ys bs with
  | nil => exact .nil
  | cons hx _ ih =>
    cases h3 with
    | cons ht ht' =>
      cases h2 with
      | cons hy hy' => exact .cons (h _ _ _ _ hx hy ht) (ih hy' ht')

theorem forall_map {α β γ δ : Type} {R : α → β → Prop} {S : γ → δ → Prop} (f : α → γ) (g : β → δ)
    (h : ∀ x a, R x a → S (f x) (g a)) {xs : List α} {as : List β} (h1 : List.Forall₂ R xs as) :
    List.Forall₂ S (xs.map f) (as.map g) := by
  induction h1 with
  | nil => exact .nil
  | cons hx _ ih => exact .cons (h _ _ hx) ih

theorem forall_true {β : Type} : ∀ {as bs : List β}, as.length = bs.length → List.Forall₂ (fun _ _ => True) as bs
  | [], [], _ => .nil
  | _ :: _, _ :: _, h => .cons trivial (forall_true (by simpa using h))

theorem arrays_LRep {q : Quad Nat} {u : Quad (ZMod P)} (h : IRep q u) : LRep4 (arrays 25 q) u := by
  obtain ⟨⟨h1, h2, h3, h4⟩, rfl⟩ := h
  have hr := chunk_room
  exact ⟨⟨_, constArray_rep 16 25 q.1 (by norm_num) (by omega), h1, rfl⟩,
    ⟨_, constArray_rep 16 25 q.2.1 (by norm_num) (by omega), h2, rfl⟩,
    ⟨_, constArray_rep 16 25 q.2.2.1 (by norm_num) (by omega), h3, rfl⟩,
    ⟨_, constArray_rep 16 25 q.2.2.2 (by norm_num) (by omega), h4, rfl⟩⟩

theorem P_room : P < 2 ^ (16 * 24) := by decide +kernel

theorem arrays_BRep {q : Quad Nat} (h : q.1 < P ∧ q.2.1 < P ∧ q.2.2.1 < P ∧ q.2.2.2 < P) :
    BRep4 (arrays 24 q) ((q.1 : ZMod P), (q.2.1 : ZMod P), (q.2.2.1 : ZMod P), (q.2.2.2 : ZMod P)) := by
  obtain ⟨h1, h2, h3, h4⟩ := h
  have hr := P_room
  exact ⟨⟨_, constArray_rep 16 24 q.1 (by norm_num) (by omega), h1, rfl⟩,
    ⟨_, constArray_rep 16 24 q.2.1 (by norm_num) (by omega), h2, rfl⟩,
    ⟨_, constArray_rep 16 24 q.2.2.1 (by norm_num) (by omega), h3, rfl⟩,
    ⟨_, constArray_rep 16 24 q.2.2.2 (by norm_num) (by omega), h4, rfl⟩⟩

theorem unpack_BRep {l : List Nat} {x : ZMod P} (h : BRep l x) :
    arrayToInt 16 l < P ∧ ((arrayToInt 16 l : Nat) : ZMod P) = x := by
  obtain ⟨v, h1, h2, rfl⟩ := h
  rw [arrayToInt_eq _ _ h1.lt, h1.val]
  exact ⟨h2, rfl⟩

theorem LRep4.chunks {p : Quad (List Nat)} {u : Quad (ZMod P)} (h : LRep4 p u) : Chunks 25 p := by
  obtain ⟨⟨_, a, -⟩, ⟨_, b, -⟩, ⟨_, c, -⟩, ⟨_, d, -⟩⟩ := h
  exact ⟨a.len, b.len, c.len, d.len⟩

theorem BRep4.chunks {p : Quad (List Nat)} {u : Quad (ZMod P)} (h : BRep4 p u) : Chunks 24 p := by
  obtain ⟨⟨_, a, -⟩, ⟨_, b, -⟩, ⟨_, c, -⟩, ⟨_, d, -⟩⟩ := h
  exact ⟨a.len, b.len, c.len, d.len⟩

theorem forall_mem_left {α β : Type} {R : α → β → Prop} {xs : List α} {as : List β} (h : List.Forall₂ R xs as) :
    ∀ x ∈ xs, ∃ a, R x a := by
  induction h with
  | nil => simp
  | cons hx _ ih =>
    intro y hy
    rcases List.mem_cons.1 hy with rfl | hy
    · exact ⟨_, hx⟩
    · exact ih y hy

theorem forall_and_mem {α β : Type} {R : α → β → Prop} {Q : β → Prop} {xs : List α} {as : List β}
    (h : List.Forall₂ R xs as) (hQ : ∀ a ∈ as, Q a) : List.Forall₂ (fun x a => R x a ∧ Q a) xs as := by
  induction h with
  | nil => exact .nil
  | cons hx _ ih => exact .cons ⟨hx, hQ _ List.mem_cons_self⟩ (ih fun a ha => hQ a (List.mem_cons_of_mem _ ha))

/-- A batch of points in twisted Edwards form, given by integer coordinates: packing two batches, adding, doubling or
negating the packs and unpacking gives integer coordinates of the sums, doubles and negatives, point by point. -/
theorem C82_twisted_ints (ps qs : List (Quad Nat)) (As Bs : List (W1 : WeierstrassCurve.Affine (ZMod P)).Point)
    (hp : List.Forall₂ TPt ps As) (hq : List.Forall₂ TPt qs Bs) (hl : ps.length = qs.length) (h0 : ps ≠ []) :
    ∃ a b r, batchToPack 16 25 (ps.map coords) = .ok a ∧ batchToPack 16 25 (qs.map coords) = .ok b ∧
      paddLazyTwistedPack a b = .ok r ∧
      (∃ out, packToBatch 16 r = out.map coordsN ∧ List.Forall₂ TPt out (List.zipWith (· + ·) As Bs)) ∧
      (∃ out, packToBatch 16 (pdulLazyTwistedPack a) = out.map coordsN ∧ List.Forall₂ TPt out (As.map fun A => A + A)) ∧
      (∃ out, packToBatch 16 (pnegLazyTwistedPack a) = out.map coordsN ∧ List.Forall₂ TPt out (As.map fun A => -A)) := by
  have h0' : qs ≠ [] := by
    rintro rfl
    exact h0 (List.length_eq_zero_iff.1 hl)
  have hroom : ∀ {l : List (Quad Nat)} {Cs}, List.Forall₂ TPt l Cs → ∀ q ∈ l, q.1 < 2 ^ (16 * 25) ∧
      q.2.1 < 2 ^ (16 * 25) ∧ q.2.2.1 < 2 ^ (16 * 25) ∧ q.2.2.2 < 2 ^ (16 * 25) := by
    intro l Cs h q hq
    obtain ⟨A, -, u, hi, -⟩ := forall_mem_left h q hq
    have := hi.1
    have hr := chunk_room
    omega
  have hin : ∀ {l : List (Quad Nat)} {Cs}, List.Forall₂ TPt l Cs → List.Forall₂ LTRep (l.map (arrays 25)) Cs := by
    intro l Cs h
    have := forall_map (S := LTRep) (arrays 25) id (fun x A hx => by
      obtain ⟨hA, u, hi, hu⟩ := hx
      exact ⟨hA, u, arrays_LRep hi, hu⟩) h
    rwa [List.map_id] at this
  have hout : ∀ {l : List (Quad (List Nat))} {Cs}, List.Forall₂ LTRep l Cs → List.Forall₂ TPt (l.map unpackPoint) Cs := by
    intro l Cs h
    have := forall_map (S := TPt) unpackPoint id (fun x A hx => by
      obtain ⟨hA, u, hi, hu⟩ := hx
      exact ⟨hA, u, unpackPoint_rep hi, hu⟩) h
    rwa [List.map_id] at this
  have hch : ∀ {l : List (Quad (List Nat))} {Cs}, List.Forall₂ LTRep l Cs → ∀ q ∈ l, Chunks 25 q := by
    intro l Cs h q hq
    obtain ⟨A, -, u, hu, -⟩ := forall_mem_left h q hq
    exact LRep4.chunks hu
  have rp := hin hp
  have rq := hin hq
  obtain ⟨e1, e2, e3⟩ := C82_lazy_twisted _ _ (by simpa using hl) (hch rp) (hch rq)
  refine ⟨_, _, _, pack_in 25 ps h0 (hroom hp), pack_in 25 qs h0' (hroom hq), e1, ?_, ?_, ?_⟩
  · rw [pack_out]
    refine ⟨_, rfl, hout ?_⟩
    refine forall_zip (T := fun _ _ => True) _ _ ?_ rp rq (forall_true (by rw [← hp.length_eq, ← hq.length_eq, hl]))
    rintro x y A B ⟨hA, u, hx, hu⟩ ⟨hB, v, hy, hv⟩ -
    exact ⟨hA.add hB, C59_lazy_add x y u v A B hx hy hA hB hu hv⟩
  · rw [e2, pack_out]
    refine ⟨_, rfl, hout (forall_map _ _ ?_ rp)⟩
    rintro x A ⟨hA, u, hx, hu⟩
    exact ⟨hA.add hA, C59_lazy_double x u A hx hA hu⟩
  · rw [e3, pack_out]
    refine ⟨_, rfl, hout (forall_map _ _ ?_ rp)⟩
    rintro x A ⟨hA, u, hx, hu⟩
    exact ⟨hA.neg, C59_lazy_neg x u A hx hu⟩

/-- The same in XYZZ coordinates with lazy reduction, for batches in which no pair is equal or opposite and no doubled
point has order two (the cases the formulas do not cover, C58). -/
theorem C82_lazy_xyzz_ints {b : ZMod P} (ps qs : List (Quad Nat)) (As Bs : List (shortW 0 b).Point)
    (hp : List.Forall₂ XPt ps As) (hq : List.Forall₂ XPt qs Bs) (h0 : ps ≠ [])
    (hne : List.Forall₂ (fun A B => A ≠ B ∧ A ≠ -B) As Bs) :
    ∃ a b r, batchToPack 16 25 (ps.map coords) = .ok a ∧ batchToPack 16 25 (qs.map coords) = .ok b ∧
      paddLazyXyzzPack a b = .ok r ∧
      (∃ out, packToBatch 16 r = out.map coordsN ∧ List.Forall₂ XPt out (List.zipWith (· + ·) As Bs)) ∧
      ((∀ A ∈ As, A + A ≠ 0) → ∃ out, packToBatch 16 (pdulLazyXyzzPack a) = out.map coordsN ∧
        List.Forall₂ XPt out (As.map fun A => A + A)) := by
  have hl : ps.length = qs.length := by rw [hp.length_eq, hq.length_eq, hne.length_eq]
  have h0' : qs ≠ [] := by
    rintro rfl
    exact h0 (List.length_eq_zero_iff.1 hl)
  have hroom : ∀ {l : List (Quad Nat)} {Cs : List (shortW 0 b).Point}, List.Forall₂ XPt l Cs → ∀ q ∈ l,
      q.1 < 2 ^ (16 * 25) ∧ q.2.1 < 2 ^ (16 * 25) ∧ q.2.2.1 < 2 ^ (16 * 25) ∧ q.2.2.2 < 2 ^ (16 * 25) := by
    intro l Cs h q hq
    obtain ⟨A, u, hi, -⟩ := forall_mem_left h q hq
    have := hi.1
    have hr := chunk_room
    omega
  let R : Quad (List Nat) → (shortW 0 b).Point → Prop := fun x A => ∃ u, LRep4 x u ∧ XRep (some u) A
  have hin : ∀ {l : List (Quad Nat)} {Cs}, List.Forall₂ XPt l Cs → List.Forall₂ R (l.map (arrays 25)) Cs := by
    intro l Cs h
    have := forall_map (S := R) (arrays 25) id (fun x A hx => by
      obtain ⟨u, hi, hu⟩ := hx
      exact ⟨u, arrays_LRep hi, hu⟩) h
    rwa [List.map_id] at this
  have hout : ∀ {l : List (Quad (List Nat))} {Cs}, List.Forall₂ R l Cs → List.Forall₂ XPt (l.map unpackPoint) Cs := by
    intro l Cs h
    have := forall_map (S := XPt) unpackPoint id (fun x A hx => by
      obtain ⟨u, hi, hu⟩ := hx
      exact ⟨u, unpackPoint_rep hi, hu⟩) h
    rwa [List.map_id] at this
  have hch : ∀ {l : List (Quad (List Nat))} {Cs}, List.Forall₂ R l Cs → ∀ q ∈ l, Chunks 25 q := by
    intro l Cs h q hq
    obtain ⟨A, u, hu, -⟩ := forall_mem_left h q hq
    exact LRep4.chunks hu
  have rp := hin hp
  have rq := hin hq
  obtain ⟨e1, e2⟩ := C82_lazy_xyzz _ _ (by simpa using hl) (hch rp) (hch rq)
  refine ⟨_, _, _, pack_in 25 ps h0 (hroom hp), pack_in 25 qs h0' (hroom hq), e1, ?_, ?_⟩
  · rw [pack_out]
    refine ⟨_, rfl, hout (forall_zip _ _ ?_ rp rq hne)⟩
    rintro x y A B ⟨u, hx, hu⟩ ⟨v, hy, hv⟩ ⟨n1, n2⟩
    exact C58_lazy_add x y u v A B hx hy hu hv n1 n2
  · intro hd
    rw [e2, pack_out]
    refine ⟨_, rfl, hout ?_⟩
    have rp' : List.Forall₂ (fun x A => R x A ∧ A + A ≠ 0) (ps.map (arrays 25)) As := forall_and_mem rp hd
    refine forall_map _ _ ?_ rp'
    rintro x A ⟨⟨u, hx, hu⟩, hA⟩
    exact C58_lazy_double x u A hx hu hA

/-- The same with Barrett reduction, 24 chunks and canonical coordinates. -/
theorem C82_barrett_xyzz_ints {b : ZMod P} (ps qs : List (Quad Nat)) (As Bs : List (shortW 0 b).Point)
    (hp : List.Forall₂ BPt ps As) (hq : List.Forall₂ BPt qs Bs) (h0 : ps ≠ [])
    (hne : List.Forall₂ (fun A B => A ≠ B ∧ A ≠ -B) As Bs) :
    ∃ a b r, batchToPack 16 24 (ps.map coords) = .ok a ∧ batchToPack 16 24 (qs.map coords) = .ok b ∧
      paddBarrettXyzzPack a b = .ok r ∧
      (∃ out, packToBatch 16 r = out.map coordsN ∧ List.Forall₂ BPt out (List.zipWith (· + ·) As Bs)) ∧
      ((∀ A ∈ As, A + A ≠ 0) → ∃ out, packToBatch 16 (pdulBarrettXyzzPack a) = out.map coordsN ∧
        List.Forall₂ BPt out (As.map fun A => A + A)) := by
  have hl : ps.length = qs.length := by rw [hp.length_eq, hq.length_eq, hne.length_eq]
  have h0' : qs ≠ [] := by
    rintro rfl
    exact h0 (List.length_eq_zero_iff.1 hl)
  have hroom : ∀ {l : List (Quad Nat)} {Cs : List (shortW 0 b).Point}, List.Forall₂ BPt l Cs → ∀ q ∈ l,
      q.1 < 2 ^ (16 * 24) ∧ q.2.1 < 2 ^ (16 * 24) ∧ q.2.2.1 < 2 ^ (16 * 24) ∧ q.2.2.2 < 2 ^ (16 * 24) := by
    intro l Cs h q hq
    obtain ⟨A, hi, -⟩ := forall_mem_left h q hq
    have hr := P_room
    omega
  let R : Quad (List Nat) → (shortW 0 b).Point → Prop := fun x A => ∃ u, BRep4 x u ∧ XRep (some u) A
  have hin : ∀ {l : List (Quad Nat)} {Cs}, List.Forall₂ BPt l Cs → List.Forall₂ R (l.map (arrays 24)) Cs := by
    intro l Cs h
    have := forall_map (S := R) (arrays 24) id (fun x A hx => ⟨_, arrays_BRep hx.1, hx.2⟩) h
    rwa [List.map_id] at this
  have hout : ∀ {l : List (Quad (List Nat))} {Cs}, List.Forall₂ R l Cs → List.Forall₂ BPt (l.map unpackPoint) Cs := by
    intro l Cs h
    have := forall_map (S := BPt) unpackPoint id (fun x A hx => by
      obtain ⟨⟨u1, u2, u3, u4⟩, ⟨a, b, c, d⟩, hu⟩ := hx
      have a := unpack_BRep a
      have b := unpack_BRep b
      have c := unpack_BRep c
      have d := unpack_BRep d
      refine ⟨⟨a.1, b.1, c.1, d.1⟩, ?_⟩
      simp only [unpackPoint, a.2, b.2, c.2, d.2]
      exact hu) h
    rwa [List.map_id] at this
  have hch : ∀ {l : List (Quad (List Nat))} {Cs}, List.Forall₂ R l Cs → ∀ q ∈ l, Chunks 24 q := by
    intro l Cs h q hq
    obtain ⟨A, u, hu, -⟩ := forall_mem_left h q hq
    exact BRep4.chunks hu
  have rp := hin hp
  have rq := hin hq
  obtain ⟨e1, e2⟩ := C82_barrett_xyzz _ _ (by simpa using hl) (hch rp) (hch rq)
  refine ⟨_, _, _, pack_in 24 ps h0 (hroom hp), pack_in 24 qs h0' (hroom hq), e1, ?_, ?_⟩
  · rw [pack_out]
    refine ⟨_, rfl, hout (forall_zip _ _ ?_ rp rq hne)⟩
    rintro x y A B ⟨u, hx, hu⟩ ⟨v, hy, hv⟩ ⟨n1, n2⟩
    exact C58_barrett_add x y u v A B hx hy hu hv n1 n2
  · intro hd
    rw [e2, pack_out]
    refine ⟨_, rfl, hout ?_⟩
    have rp' : List.Forall₂ (fun x A => R x A ∧ A + A ≠ 0) (ps.map (arrays 24)) As := forall_and_mem rp hd
    refine forall_map _ _ ?_ rp'
    rintro x A ⟨⟨u, hx, hu⟩, hA⟩
    exact C58_barrett_double x u A hx hu hA

/-! ## Non-vacuity -/

/-- Batches of two points with arbitrary chunks: hypotheses of `C82_lazy_twisted` and `C82_lazy_xyzz`. -/
example : ∃ ps qs : List (Quad (List Nat)), ps.length = qs.length ∧ (∀ q ∈ ps, Chunks 25 q) ∧ (∀ q ∈ qs, Chunks 25 q) ∧
    ps.length = 2 ∧ ps ≠ qs := by
  let a := List.replicate 25 7
  let b := List.replicate 25 65535
  refine ⟨[(a, b, a, b), (b, b, a, a)], [(a, a, a, a), (b, a, b, b)], rfl, ?_, ?_, rfl, by decide⟩ <;>
  · intro q hq
    fin_cases hq <;> exact ⟨rfl, rfl, rfl, rfl⟩

/-- The same with 24 chunks: hypotheses of `C82_barrett_xyzz` and `C82_batch_first`. -/
example : ∃ ps qs : List (Quad (List Nat)), ps.length = qs.length ∧ (∀ q ∈ ps, Chunks 24 q) ∧ (∀ q ∈ qs, Chunks 24 q) ∧
    ps.length = 2 ∧ ps ≠ qs := by
  let a := List.replicate 24 7
  let b := List.replicate 24 65535
  refine ⟨[(a, b, a, b), (b, b, a, a)], [(a, a, a, a), (b, a, b, b)], rfl, ?_, ?_, rfl, by decide⟩ <;>
  · intro q hq
    fin_cases hq <;> exact ⟨rfl, rfl, rfl, rfl⟩

/-- Batches that the conversion accepts (`C82_convert`), and batches it rejects for each reason (`C82_convert_rejects`). -/
example : (∀ p ∈ [[(1 : Int), 2, 3], [4, 5, 65535]], p.length = 3) ∧
    (∀ p ∈ [[(1 : Int), 2, 3], [4, 5, 65535]], ∀ x ∈ p, 0 ≤ x ∧ x < 2 ^ (16 * 1)) ∧
    (∃ p ∈ [[(1 : Int), 2], [4, 65536]], ∃ x ∈ p, (2 : Int) ^ (16 * 1) ≤ x) ∧
    (∃ p ∈ [[(1 : Int), 2], [4]], ∃ q ∈ [[(1 : Int), 2], [4]], p.length ≠ q.length) := by decide

/-- The generator and its double form a batch with the two added points in the other order: hypotheses of `C82_twisted_ints`. -/
example : ∃ (ps qs : List (Quad Nat)) (As Bs : List (W1 : WeierstrassCurve.Affine (ZMod P)).Point),
    List.Forall₂ TPt ps As ∧ List.Forall₂ TPt qs Bs ∧ ps.length = qs.length ∧ ps.length = 2 ∧ (∀ A ∈ As, A ≠ 0) := by
  have : NeZero P := ⟨P_pos.ne'⟩
  have hv : ∀ z : ZMod P, z.val ≤ 2 ^ 16 * P := fun z => by have := ZMod.val_lt z; omega
  obtain ⟨G, hG, -, h⟩ := C59_subgroup
  have h1 := h 1
  have h2 := h 2
  rw [one_nsmul] at h1
  rw [two_nsmul] at h2
  have hG2 := hG.double (by decide +kernel)
  have key : ∀ (A : (W1 : WeierstrassCurve.Affine (ZMod P)).Point) (x y : ZMod P), OddPt A → IsXY A x y → ∃ q, TPt q A := by
    intro A x y hA hxy
    have := C65_twist_int_coordinates blsTwist C59_constants x y A hxy hA
    let t := twistIntCoordinates blsTwist (x, y)
    refine ⟨(t.1.val, t.2.1.val, t.2.2.1.val, t.2.2.2.val), hA, _, ⟨⟨hv _, hv _, hv _, hv _⟩, rfl⟩, ?_⟩
    simp only [ZMod.natCast_zmod_val]
    exact this
  obtain ⟨q1, k1⟩ := key _ _ _ h1 hG
  obtain ⟨q2, k2⟩ := key _ _ _ h2 hG2
  refine ⟨[q1, q2], [q2, q1], [G, G + G], [G + G, G], .cons k1 (.cons k2 .nil), .cons k2 (.cons k1 .nil), rfl, rfl, ?_⟩
  intro A hA
  simp only [List.mem_cons, List.not_mem_nil, or_false] at hA
  rcases hA with rfl | rfl
  · exact hG.ne_zero
  · exact hG2.ne_zero

/-- Two batches of two points of `y² = x³ + 1` in XYZZ coordinates, both lazily reduced and canonical: hypotheses
of `C82_lazy_xyzz_ints` and `C82_barrett_xyzz_ints`. -/
example : ∃ (ps qs : List (Quad Nat)) (As Bs : List (shortW (0 : ZMod P) 1).Point),
    List.Forall₂ XPt ps As ∧ List.Forall₂ XPt qs Bs ∧ List.Forall₂ BPt ps As ∧ List.Forall₂ BPt qs Bs ∧ ps.length = 2 ∧
    List.Forall₂ (fun A B => A ≠ B ∧ A ≠ -B) As Bs ∧ (∀ A ∈ As, A + A ≠ 0) := by
  obtain ⟨A, hA⟩ := exists_generator
  obtain ⟨B, hB⟩ : ∃ B : (shortW (0 : ZMod P) 1).Point, IsXY B 2 3 := exists_isXY disc_ne two_ne (by decide +kernel)
  have hx : ((GEN_X : Nat) : ZMod P) ≠ 2 := by decide +kernel
  have b1 : BPt (GEN_X, GEN_Y, 1, 1) A :=
    ⟨by decide +kernel, by simp only [Nat.cast_one]; exact xrep_affine hA⟩
  have b2 : BPt (2, 3, 1, 1) B :=
    ⟨by decide +kernel, by simp only [Nat.cast_one, Nat.cast_ofNat]; exact xrep_affine hB⟩
  have up : ∀ {q : Quad Nat} {C : (shortW (0 : ZMod P) 1).Point}, BPt q C → XPt q C := by
    rintro q C ⟨h, hr⟩
    exact ⟨_, ⟨by omega, rfl⟩, hr⟩
  have n1 : A ≠ B := by
    rintro rfl
    exact hx (hA.unique hB).1
  have n2 : A ≠ -B := by
    rintro rfl
    exact hx (hB.neg.unique hA).1.symm
  have n3 : B ≠ -A := by
    rintro rfl
    exact hx (hA.neg.unique hB).1
  have d1 : A + A ≠ 0 := (hA.double (by decide +kernel)).ne_zero
  have d2 : B + B ≠ 0 := (hB.double (by decide +kernel)).ne_zero
  refine ⟨[_, _], [_, _], [A, B], [B, A], .cons (up b1) (.cons (up b2) .nil), .cons (up b2) (.cons (up b1) .nil),
    .cons b1 (.cons b2 .nil), .cons b2 (.cons b1 .nil), rfl, .cons ⟨n1, n2⟩ (.cons ⟨n1.symm, n3⟩ .nil), ?_⟩
  intro C hC
  simp only [List.mem_cons, List.not_mem_nil, or_false] at hC
  rcases hC with rfl | rfl
  · exact d1
  · exact d2

end Verif.Props

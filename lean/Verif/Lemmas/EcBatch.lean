import Verif.Model.EcBatch
import Verif.Lemmas.EcChunks
import Mathlib.Data.List.GetD

/-!
# Batched operations act on each row
-/

namespace Verif.EcBatch
open Verif.EcChunks Verif.EcCurve Verif.EcRns

/-! ## Lists -/

theorem zipWith_maps {ι α β γ : Type*} (l : List ι) (f : α → β → γ) (g : ι → α) (h : ι → β) :
    List.zipWith f (l.map g) (l.map h) = l.map fun i => f (g i) (h i) := by
  rw [List.zipWith_map, List.zipWith_self]

theorem bcast_maps {ι : Type*} (l : List ι) (g : ι → List Nat) (c : List Nat) :
    bcast (l.map g).length c = l.map fun _ => c := by
  simp [bcast, List.map_const']

theorem bcast_len {ι : Type*} (l : List ι) (c : List Nat) : bcast l.length c = l.map fun _ => c := by
  simp [bcast, List.map_const']

/-! ## Lengths of rows -/

theorem carryLoop_length (s : Nat) (l : List Nat) : (carryLoop s l).length = l.length := by
  induction l using carryLoop.induct s with
  | case1 l h ih => rw [carryLoop, dif_pos h, ih, carryStep_length]
  | case2 l h => rw [carryLoop, dif_neg h]

theorem split_length (b k : Nat) (l : List Nat) : (split b k l).length = k * l.length := by
  induction l with
  | nil => simp [split]
  | cons a l ih =>
    simp only [split, List.map_cons, List.flatten_cons, List.length_append, List.length_map, List.length_range,
      List.length_cons] at *
    rw [ih]; ring

theorem conv_length (a b : List Nat) : (conv a b).length = a.length + b.length := by simp [conv]

theorem mergePairs_length (w sh n : Nat) (l : List Nat) (h : l.length = 2 * n) : (mergePairs w sh l).length = n := by
  induction n generalizing l with
  | zero => rw [List.length_eq_zero_iff.1 (by omega : l.length = 0)]; rfl
  | succ n ih =>
    match l, h with
    | x :: y :: l, h => simp [mergePairs, ih l (by simp at h; omega)]

theorem joinPairs_length (n : Nat) (l : List Nat) (h : l.length = 2 * n) : (joinPairs l).length = n := by
  induction n generalizing l with
  | zero => rw [List.length_eq_zero_iff.1 (by omega : l.length = 0)]; rfl
  | succ n ih =>
    match l, h with
    | x :: y :: l, h => simp [joinPairs, ih l (by simp at h; omega)]

theorem rechunkify_length (n : Nat) (l : List Nat) (h : l.length = 4 * n) : (rechunkify l).length = n := by
  unfold rechunkify
  exact mergePairs_length _ _ n _ (mergePairs_length _ _ (2 * n) _ (by omega))

theorem product_length (m n : Nat) (a b : List Nat) (ha : a.length = m) (hb : b.length = n) (h : 2 ∣ m + n) :
    (rechunkify (conv (split 256 2 a) (split 256 2 b))).length = (m + n) / 2 := by
  apply rechunkify_length
  rw [conv_length, split_length, split_length, ha, hb]
  omega

theorem mulCore_length (m n : Nat) (a b : List Nat) (ha : a.length = m) (hb : b.length = n) (h : 2 ∣ m + n) :
    (mulCore a b).length = (m + n) / 2 := by
  unfold mulCore
  rw [List.length_map, carryLoop_length, product_length m n a b ha hb h]

theorem compareB_maps {ι : Type*} (l : List ι) (f g : ι → List Nat) :
    compareB (l.map f) (l.map g) = l.map fun i => EcChunks.compare (f i) (g i) := zipWith_maps l _ f g

/-! ## Rows of a fixed length -/

/-- A row with `n` entries. -/
abbrev Row (n : Nat) := {r : List Nat // r.length = n}

/-- `add_2u16` on a row. -/
def rAdd2 {n : Nat} (a b : Row n) : Row n := ⟨EcChunks.add2 a.1 b.1, by simp [EcChunks.add2, carryLoop_length, a.2, b.2]⟩
/-- `add_3u16` on a row. -/
def rAdd3 {n : Nat} (a b c : Row n) : Row n := ⟨EcChunks.add3 a.1 b.1 c.1, by simp [EcChunks.add3, carryLoop_length, a.2, b.2, c.2]⟩

theorem sub2_length (n : Nat) (hn : 2 ≤ n) (a b : List Nat) (ha : a.length = n) (hb : b.length = n) :
    (sub2 n a b).length = n := by
  simp only [sub2, List.length_map, List.length_modify, carryLoop_length, List.length_zipWith, List.length_append,
    List.length_replicate, List.length_cons, List.length_nil, ha, hb]
  omega

theorem add2B_maps {ι : Type*} {n : Nat} (hn : 2 ≤ n) (l : List ι) (f g : ι → Row n) :
    add2B (l.map fun i => (f i).1) (l.map fun i => (g i).1) = l.map fun i => (rAdd2 (f i) (g i)).1 := by
  unfold add2B
  rw [zipWith_maps, carryLoopBatch_eq 16 le_rfl, List.map_map, List.map_map]
  · rfl
  · intro r hr
    obtain ⟨i, -, rfl⟩ := List.mem_map.1 hr
    simp [addRow, (f i).2, (g i).2, hn]

theorem add3B_maps {ι : Type*} {n : Nat} (hn : 2 ≤ n) (l : List ι) (f g h : ι → Row n) :
    add3B (l.map fun i => (f i).1) (l.map fun i => (g i).1) (l.map fun i => (h i).1) =
      l.map fun i => (rAdd3 (f i) (g i) (h i)).1 := by
  unfold add3B
  rw [zipWith_maps, zipWith_maps, carryLoopBatch_eq 16 le_rfl, List.map_map, List.map_map]
  · rfl
  · intro r hr
    obtain ⟨i, -, rfl⟩ := List.mem_map.1 hr
    simp [addRow, (f i).2, (g i).2, (h i).2, hn]

theorem sub2B_maps {ι : Type*} {n : Nat} (hn : 2 ≤ n) (l : List ι) (f g : ι → Row n) :
    sub2B n (l.map fun i => (f i).1) (l.map fun i => (g i).1) = l.map fun i => sub2 n (f i).1 (g i).1 := by
  simp only [sub2B]
  rw [List.map_map, zipWith_maps, List.map_map, carryLoopBatch_eq 16 le_rfl, List.map_map, List.map_map]
  · rfl
  · intro r hr
    obtain ⟨i, -, rfl⟩ := List.mem_map.1 hr
    simp only [Function.comp_apply, addRow, List.length_zipWith, List.length_append, List.length_replicate,
      List.length_cons, List.length_nil, (f i).2, (g i).2]
    omega

theorem whereRows_maps {ι : Type*} (l : List ι) (c : ι → Bool) (f g : ι → List Nat) :
    whereRows (l.map c) (l.map f) (l.map g) = l.map fun i => if c i then f i else g i := by
  unfold whereRows List.zip
  rw [zipWith_maps, zipWith_maps]

theorem condSubMod_length (n : Nat) (hn : 2 ≤ n) (m a : List Nat) (hm : m.length = n) (ha : a.length = n) :
    (condSubMod n m a).length = n := by
  unfold condSubMod
  split_ifs
  · exact sub2_length n hn a m ha hm
  · exact ha

/-- `cond_sub_mod_u16` on a row. -/
def rCondSubMod {n : Nat} (hn : 2 ≤ n) (m a : Row n) : Row n := ⟨condSubMod n m.1 a.1, condSubMod_length n hn _ _ m.2 a.2⟩

theorem condSubModB_maps {ι : Type*} {n : Nat} (hn : 2 ≤ n) (m : Row n) (l : List ι) (f : ι → Row n) :
    condSubModB n m.1 (l.map fun i => (f i).1) = l.map fun i => (rCondSubMod hn m (f i)).1 := by
  simp only [condSubModB]
  rw [bcast_maps, compareB_maps, sub2B_maps hn l f (fun _ => m), List.map_map, whereRows_maps]
  simp [rCondSubMod, condSubMod]

theorem condSub_length (n : Nat) (hn : 2 ≤ n) (m a b : List Nat) (hm : m.length = n) (ha : a.length = n)
    (hb : b.length = n) : (condSub n m a b).length = n := by
  unfold condSub
  apply sub2_length n hn _ _ _ hb
  split_ifs
  · exact ha
  · simp [ha, hm]

/-- `cond_sub_2u16` on a row. -/
def rCondSub {n : Nat} (hn : 2 ≤ n) (m a b : Row n) : Row n :=
  ⟨condSub n m.1 a.1 b.1, condSub_length n hn _ _ _ m.2 a.2 b.2⟩

theorem condSubB_maps {ι : Type*} {n : Nat} (hn : 2 ≤ n) (m : Row n) (l : List ι) (f g : ι → Row n) :
    condSubB n m.1 (l.map fun i => (f i).1) (l.map fun i => (g i).1) = l.map fun i => (rCondSub hn m (f i) (g i)).1 := by
  simp only [condSubB]
  rw [compareB_maps, List.map_map, List.map_map, whereRows_maps]
  have := sub2B_maps hn l (fun i => (⟨if EcChunks.compare (f i).1 (g i).1 ≥ 0 then (f i).1 else addRow (f i).1 m.1, by
    split_ifs
    · exact (f i).2
    · simp [addRow, (f i).2, m.2]⟩ : Row n)) g
  simp only [Function.comp_apply, decide_eq_true_eq]
  rw [this]
  rfl

theorem mulCoreB_maps {ι : Type*} (m n : Nat) (h : 2 ∣ m + n) (h4 : 4 ≤ m + n) (l : List ι) (f : ι → Row m) (g : ι → Row n) :
    mulCoreB (l.map fun i => (f i).1) (l.map fun i => (g i).1) = l.map fun i => mulCore (f i).1 (g i).1 := by
  unfold mulCoreB
  rw [zipWith_maps, List.map_map, carryLoopBatch_eq 32 (by omega), List.map_map, List.map_map]
  · rfl
  · intro r hr
    obtain ⟨i, -, rfl⟩ := List.mem_map.1 hr
    rw [Function.comp_apply, product_length m n _ _ (f i).2 (g i).2 h]
    omega

theorem P_CHUNK_length : P_CHUNK.length = 24 := by decide +kernel
theorem MU_CHUNK_length : MU_CHUNK.length = 24 := by decide +kernel
theorem P_S16_CHUNK_length : P_S16_CHUNK.length = 25 := by decide +kernel
theorem TWIST_D_CHUNK_length : TWIST_D_CHUNK.length = 25 := by decide +kernel

/-- The modulus as a row. -/
def rP : Row 24 := ⟨P_CHUNK, P_CHUNK_length⟩
/-- The Barrett constant as a row. -/
def rMU : Row 24 := ⟨MU_CHUNK, MU_CHUNK_length⟩
/-- The shifted modulus as a row. -/
def rPS : Row 25 := ⟨P_S16_CHUNK, P_S16_CHUNK_length⟩
/-- The curve constant as a row. -/
def rD : Row 25 := ⟨TWIST_D_CHUNK, TWIST_D_CHUNK_length⟩

theorem mul2_length (a b : Row 24) : (mul2 24 a.1 b.1).length = 48 := by
  simp [mul2, split_length, mulCore_length 24 24 a.1 b.1 a.2 b.2 (by omega)]

theorem mulShift_length (a : Row 48) (b : Row 24) : (mulShift 95 24 a.1 b.1).length = 24 := by
  have h1 : (split 256 4 (mulCore a.1 b.1)).length = 144 := by
    rw [split_length, mulCore_length 48 24 a.1 b.1 a.2 b.2 (by omega)]
  rw [mulShift, List.length_take, joinPairs_length 25]
  · rfl
  · simp [h1]

/-- The product of two rows. -/
def rMul2 (a b : Row 24) : Row 48 := ⟨mul2 24 a.1 b.1, mul2_length a b⟩
/-- The shifted product of two rows. -/
def rMulShift (a : Row 48) (b : Row 24) : Row 24 := ⟨mulShift 95 24 a.1 b.1, mulShift_length a b⟩

theorem mul2B_maps {ι : Type*} (l : List ι) (f g : ι → Row 24) :
    mul2B 24 (l.map fun i => (f i).1) (l.map fun i => (g i).1) = l.map fun i => (rMul2 (f i) (g i)).1 := by
  unfold mul2B
  rw [mulCoreB_maps 24 24 (by omega) (by omega), List.map_map]
  rfl

theorem mulShiftB_maps {ι : Type*} (l : List ι) (f : ι → Row 48) (g : ι → Row 24) :
    mulShiftB 95 24 (l.map fun i => (f i).1) (l.map fun i => (g i).1) = l.map fun i => (rMulShift (f i) (g i)).1 := by
  unfold mulShiftB
  rw [mulCoreB_maps 48 24 (by omega) (by omega), List.map_map]
  rfl

/-- The unreduced difference of `mod_mul_barrett_2u16`. -/
def rDiff (x e : Row 48) : Row 24 :=
  ⟨(sub2 48 x.1 e.1).take 24, by rw [List.length_take, sub2_length 48 (by omega) _ _ x.2 e.2]; rfl⟩

/-- `mod_mul_barrett_2u16` on a row. -/
def rMulB (a b : Row 24) : Row 24 :=
  ⟨modMulBarrett a.1 b.1, by
    unfold modMulBarrett
    exact condSubMod_length 24 (by omega) _ _ P_CHUNK_length
      (rDiff (rMul2 a b) (rMul2 (rMulShift (rMul2 a b) rMU) rP)).2⟩

theorem modMulBarrettB_maps {ι : Type*} (l : List ι) (f g : ι → Row 24) :
    modMulBarrettB (l.map fun i => (f i).1) (l.map fun i => (g i).1) = l.map fun i => (rMulB (f i) (g i)).1 := by
  simp only [modMulBarrettB]
  rw [mul2B_maps, bcast_maps]
  have h1 := mulShiftB_maps l (fun i => rMul2 (f i) (g i)) (fun _ => rMU)
  change mulShiftB 95 24 _ (l.map fun _ => MU_CHUNK) = _ at h1
  rw [h1, bcast_maps]
  have h2 := mul2B_maps l (fun i => rMulShift (rMul2 (f i) (g i)) rMU) (fun _ => rP)
  change mul2B 24 _ (l.map fun _ => P_CHUNK) = _ at h2
  rw [h2, sub2B_maps (by omega), List.map_map]
  exact condSubModB_maps (by omega) rP l
    (fun i => rDiff (rMul2 (f i) (g i)) (rMul2 (rMulShift (rMul2 (f i) (g i)) rMU) rP))

theorem mul2u8_length (a b : Row 25) : (mul2u8 25 a.1 b.1).length = 100 := by
  simp [mul2u8, split_length, mulCore_length 25 25 a.1 b.1 a.2 b.2 (by omega)]

theorem lazy_inner_length (v : List Nat) (hv : v.length = 100) :
    (rechunkify (addRow (v.take 48) (matVec 48 (v.drop 48) LAZY_MAT)) ++ [0]).length = 13 := by
  rw [List.length_append, rechunkify_length 12]
  · rfl
  · simp [addRow, matVec, hv]

theorem modMulLazy_length (a b : Row 25) : (modMulLazy a.1 b.1).length = 25 := by
  have := lazy_inner_length (mul2u8 25 a.1 b.1) (mul2u8_length a b)
  simp only [modMulLazy, modMulLazyWith]
  rw [List.length_take, split_length, List.length_map, carryLoop_length]
  simp only [addRow] at this
  rw [this]
  rfl

/-- `mod_mul_lazy_2u16` on a row. -/
def rMulL (a b : Row 25) : Row 25 := ⟨modMulLazy a.1 b.1, modMulLazy_length a b⟩

theorem modMulLazyB_maps {ι : Type*} (l : List ι) (f g : ι → Row 25) :
    modMulLazyB (l.map fun i => (f i).1) (l.map fun i => (g i).1) = l.map fun i => (rMulL (f i) (g i)).1 := by
  simp only [modMulLazyB, mul2u8B]
  rw [mulCoreB_maps 25 25 (by omega) (by omega), List.map_map, List.map_map, zipWith_maps, List.map_map,
    carryLoopBatch_eq 32 (by omega), List.map_map, List.map_map]
  · rfl
  · intro r hr
    obtain ⟨i, -, rfl⟩ := List.mem_map.1 hr
    have := lazy_inner_length _ (mul2u8_length (f i) (g i))
    simp only [Function.comp_apply]
    unfold mul2u8 at this
    rw [this]
    omega

/-! ## The formulas on chunks -/

/-- The coordinate-first array of a list of points. -/
def packOf (l : List (Quad (List Nat))) : Arr3 :=
  [l.map fun q => q.1, l.map fun q => q.2.1, l.map fun q => q.2.2.1, l.map fun q => q.2.2.2]

/-- Forget the lengths. -/
def vals {n : Nat} (q : Quad (Row n)) : Quad (List Nat) := (q.1.1, q.2.1.1, q.2.2.1.1, q.2.2.2.1)

theorem condSubModP {ι : Type*} (l : List ι) (f : ι → Row 24) :
    condSubModB 24 P_CHUNK (l.map fun i => (f i).1) = l.map fun i => (rCondSubMod (by omega) rP (f i)).1 :=
  condSubModB_maps (by omega) rP l f
theorem condSubP {ι : Type*} (l : List ι) (f g : ι → Row 24) :
    condSubB 24 P_CHUNK (l.map fun i => (f i).1) (l.map fun i => (g i).1) =
      l.map fun i => (rCondSub (by omega) rP (f i) (g i)).1 :=
  condSubB_maps (by omega) rP l f g
theorem condSubModS {ι : Type*} (l : List ι) (f : ι → Row 25) :
    condSubModB 25 P_S16_CHUNK (l.map fun i => (f i).1) = l.map fun i => (rCondSubMod (by omega) rPS (f i)).1 :=
  condSubModB_maps (by omega) rPS l f
theorem condSubS {ι : Type*} (l : List ι) (f g : ι → Row 25) :
    condSubB 25 P_S16_CHUNK (l.map fun i => (f i).1) (l.map fun i => (g i).1) =
      l.map fun i => (rCondSub (by omega) rPS (f i) (g i)).1 :=
  condSubB_maps (by omega) rPS l f g
theorem bcastD {ι : Type*} (l : List ι) (f : ι → Row 25) :
    bcast (l.map fun i => (f i).1).length TWIST_D_CHUNK = l.map fun _ => rD.1 := bcast_maps l _ _
theorem bcastS {ι : Type*} (l : List ι) (f : ι → Row 25) :
    bcast (l.map fun i => (f i).1).length P_S16_CHUNK = l.map fun _ => rPS.1 := bcast_maps l _ _
theorem add2B_maps24 {ι : Type*} (l : List ι) (f g : ι → Row 24) :
    add2B (l.map fun i => (f i).1) (l.map fun i => (g i).1) = l.map fun i => (rAdd2 (f i) (g i)).1 :=
  add2B_maps (by omega) l f g
theorem add2B_maps25 {ι : Type*} (l : List ι) (f g : ι → Row 25) :
    add2B (l.map fun i => (f i).1) (l.map fun i => (g i).1) = l.map fun i => (rAdd2 (f i) (g i)).1 :=
  add2B_maps (by omega) l f g
theorem add3B_maps24 {ι : Type*} (l : List ι) (f g h : ι → Row 24) :
    add3B (l.map fun i => (f i).1) (l.map fun i => (g i).1) (l.map fun i => (h i).1) =
      l.map fun i => (rAdd3 (f i) (g i) (h i)).1 := add3B_maps (by omega) l f g h
theorem add3B_maps25 {ι : Type*} (l : List ι) (f g h : ι → Row 25) :
    add3B (l.map fun i => (f i).1) (l.map fun i => (g i).1) (l.map fun i => (h i).1) =
      l.map fun i => (rAdd3 (f i) (g i) (h i)).1 := add3B_maps (by omega) l f g h
theorem sub2B_maps25 {ι : Type*} (l : List ι) (f g : ι → Row 25) :
    sub2B 25 (l.map fun i => (f i).1) (l.map fun i => (g i).1) = l.map fun i => sub2 25 (f i).1 (g i).1 :=
  sub2B_maps (by omega) l f g

variable {ι : Type*}

theorem paddBarrettXyzzB_maps (l : List ι) (f g : ι → Quad (Row 24)) :
    paddBarrettXyzzB (l.map fun i => (f i).1.1) (l.map fun i => (f i).2.1.1) (l.map fun i => (f i).2.2.1.1)
      (l.map fun i => (f i).2.2.2.1) (l.map fun i => (g i).1.1) (l.map fun i => (g i).2.1.1)
      (l.map fun i => (g i).2.2.1.1) (l.map fun i => (g i).2.2.2.1) =
      packOf (l.map fun i => paddBarrettXyzz (vals (f i)) (vals (g i))) := by
  simp only [paddBarrettXyzzB, modMulBarrettB_maps, condSubP, condSubModP, add3B_maps24, packOf, List.map_map]
  rfl

theorem pdulBarrettXyzzB_maps (l : List ι) (f : ι → Quad (Row 24)) :
    pdulBarrettXyzzB (l.map fun i => (f i).1.1) (l.map fun i => (f i).2.1.1) (l.map fun i => (f i).2.2.1.1)
      (l.map fun i => (f i).2.2.2.1) = packOf (l.map fun i => pdulBarrettXyzz (vals (f i))) := by
  simp only [pdulBarrettXyzzB, modMulBarrettB_maps, condSubP, condSubModP, add3B_maps24, add2B_maps24, packOf,
    List.map_map]
  rfl

theorem paddLazyXyzzB_maps (l : List ι) (f g : ι → Quad (Row 25)) :
    paddLazyXyzzB (l.map fun i => (f i).1.1) (l.map fun i => (f i).2.1.1) (l.map fun i => (f i).2.2.1.1)
      (l.map fun i => (f i).2.2.2.1) (l.map fun i => (g i).1.1) (l.map fun i => (g i).2.1.1)
      (l.map fun i => (g i).2.2.1.1) (l.map fun i => (g i).2.2.2.1) =
      packOf (l.map fun i => paddLazyXyzz (vals (f i)) (vals (g i))) := by
  simp only [paddLazyXyzzB, modMulLazyB_maps, condSubS, condSubModS, add3B_maps25, packOf, List.map_map]
  rfl

theorem pdulLazyXyzzB_maps (l : List ι) (f : ι → Quad (Row 25)) :
    pdulLazyXyzzB (l.map fun i => (f i).1.1) (l.map fun i => (f i).2.1.1) (l.map fun i => (f i).2.2.1.1)
      (l.map fun i => (f i).2.2.2.1) = packOf (l.map fun i => pdulLazyXyzz (vals (f i))) := by
  simp only [pdulLazyXyzzB, modMulLazyB_maps, condSubS, condSubModS, add3B_maps25, add2B_maps25, packOf, List.map_map]
  rfl

theorem paddLazyTwistedB_maps (l : List ι) (f g : ι → Quad (Row 25)) :
    paddLazyTwistedB (l.map fun i => (f i).1.1) (l.map fun i => (f i).2.1.1) (l.map fun i => (f i).2.2.1.1)
      (l.map fun i => (f i).2.2.2.1) (l.map fun i => (g i).1.1) (l.map fun i => (g i).2.1.1)
      (l.map fun i => (g i).2.2.1.1) (l.map fun i => (g i).2.2.2.1) =
      packOf (l.map fun i => paddLazyTwisted (vals (f i)) (vals (g i))) := by
  simp only [paddLazyTwistedB, bcastD, modMulLazyB_maps, condSubS, condSubModS, add2B_maps25, packOf, List.map_map]
  rfl

theorem pdulLazyTwistedB_maps (l : List ι) (f : ι → Quad (Row 25)) :
    pdulLazyTwistedB (l.map fun i => (f i).1.1) (l.map fun i => (f i).2.1.1) (l.map fun i => (f i).2.2.1.1)
      (l.map fun i => (f i).2.2.2.1) = packOf (l.map fun i => pdulLazyTwisted (vals (f i))) := by
  simp only [pdulLazyTwistedB, modMulLazyB_maps, bcastS, condSubS, condSubModS, add2B_maps25, packOf, List.map_map]
  rfl

theorem pnegLazyTwistedB_maps (l : List ι) (f : ι → Quad (Row 25)) :
    pnegLazyTwistedB (l.map fun i => (f i).1.1) (l.map fun i => (f i).2.1.1) (l.map fun i => (f i).2.2.1.1)
      (l.map fun i => (f i).2.2.2.1) = packOf (l.map fun i => pnegLazyTwisted (vals (f i))) := by
  simp only [pnegLazyTwistedB, bcastS, sub2B_maps25, packOf, List.map_map]
  rfl

/-! ## The formulas on residues -/

theorem modMulR_maps (mat : Mat) (l : List ι) (f g : ι → List Nat) :
    modMulR mat (l.map f) (l.map g) = l.map fun i => modMul mat (f i) (g i) := zipWith_maps l _ f g

theorem negateR_maps (l : List ι) (f : ι → List Nat) : negateR (l.map f) = l.map fun i => negate (f i) := by
  simp [negateR]

theorem negateZR_maps (l : List ι) (f : ι → List Nat) : negateZR (l.map f) = l.map fun i => negateZ (f i) := by
  simp [negateZR]

theorem addSubR_maps (l : List ι) (v : ι → List Nat) (ws : List (ι → List Nat)) :
    addSubR (l.map v) (ws.map fun w => l.map w) = l.map fun i => addSubVals (v i) (ws.map fun w => w i) := by
  induction ws generalizing v with
  | nil => simp [addSubR, addSubVals]
  | cons w ws ih =>
    simp only [addSubR, addSubVals, List.map_cons, List.foldl_cons, accR] at ih ⊢
    rw [zipWith_maps]
    exact ih _

theorem addSubR1 (l : List ι) (v w : ι → List Nat) :
    addSubR (l.map v) [l.map w] = l.map fun i => addSubVals (v i) [w i] := addSubR_maps l v [w]
theorem addSubR2 (l : List ι) (v w1 w2 : ι → List Nat) :
    addSubR (l.map v) [l.map w1, l.map w2] = l.map fun i => addSubVals (v i) [w1 i, w2 i] := addSubR_maps l v [w1, w2]
theorem addSubR3 (l : List ι) (v w1 w2 w3 : ι → List Nat) :
    addSubR (l.map v) [l.map w1, l.map w2, l.map w3] = l.map fun i => addSubVals (v i) [w1 i, w2 i, w3 i] :=
  addSubR_maps l v [w1, w2, w3]

theorem slice_flatten {α : Type*} (B : Nat) (xs : List (List α)) (h : ∀ x ∈ xs, x.length = B) :
    (List.range xs.length).map (fun i => (xs.flatten.drop (i * B)).take B) = xs := by
  induction xs with
  | nil => rfl
  | cons x xs ih =>
    have hx := h x List.mem_cons_self
    rw [List.length_cons, List.range_succ_eq_map, List.map_cons, List.map_map]
    congr 1
    · simp [← hx]
    · refine Eq.trans ?_ (ih fun y hy => h y (List.mem_cons_of_mem _ hy))
      apply List.map_congr_left
      intro i _
      simp only [Function.comp_apply, List.flatten_cons]
      rw [List.drop_append, List.drop_eq_nil_of_le (by rw [hx]; exact Nat.le_mul_of_pos_left B (Nat.succ_pos i)),
        List.nil_append, hx, Nat.succ_mul, Nat.add_sub_cancel]

theorem flatten_len {α : Type*} (B : Nat) (xs : List (List α)) (h : ∀ x ∈ xs, x.length = B) :
    xs.flatten.length = xs.length * B := by
  induction xs with
  | nil => simp
  | cons x xs ih =>
    simp [h x List.mem_cons_self, ih (fun y hy => h y (List.mem_cons_of_mem _ hy))]
    ring

theorem vsplit_vstack (B : Nat) (xs : List Arr2) (hk : xs ≠ []) (h : ∀ x ∈ xs, x.length = B) :
    vsplit xs.length (vstack xs) = .ok xs := by
  have hp : 0 < xs.length := List.length_pos_iff.2 hk
  unfold vsplit vstack
  rw [flatten_len B xs h, if_pos (Nat.mul_mod_right _ _), Nat.mul_div_cancel_left _ hp, slice_flatten B xs h]

theorem zipWith_flatten_maps (l : List ι) (op : List Nat → List Nat → List Nat) (fs gs : List (ι → List Nat))
    (h : fs.length = gs.length) :
    List.zipWith op (fs.map fun f => l.map f).flatten (gs.map fun g => l.map g).flatten =
      (List.zipWith (fun f g => l.map fun i => op (f i) (g i)) fs gs).flatten := by
  induction fs generalizing gs with
  | nil => cases gs <;> simp_all
  | cons f fs ih =>
    match gs, h with
    | g :: gs, h =>
      simp only [List.map_cons, List.flatten_cons, List.zipWith_cons_cons]
      rw [List.zipWith_append (by simp), zipWith_maps, ih gs (by simpa using h)]

theorem stackMul_maps (mat : Mat) (l : List ι) (fs gs : List (ι → List Nat)) (h : fs.length = gs.length)
    (h0 : fs ≠ []) :
    stackMul mat fs.length (fs.map fun f => l.map f) (gs.map fun g => l.map g) =
      .ok (List.zipWith (fun f g => l.map fun i => modMul mat (f i) (g i)) fs gs) := by
  have hl : ∀ hs : List (ι → List Nat), (vstack (hs.map fun f => l.map f)).length = hs.length * l.length := by
    intro hs
    unfold vstack
    rw [flatten_len l.length, List.length_map]
    intro x hx
    obtain ⟨f, -, rfl⟩ := List.mem_map.1 hx
    simp
  unfold stackMul
  rw [if_pos (by rw [hl, hl, h])]
  unfold modMulR vstack
  rw [zipWith_flatten_maps l _ fs gs h]
  have hlen : (List.zipWith (fun f g => l.map fun i => modMul mat (f i) (g i)) fs gs).length = fs.length := by
    simp [h]
  rw [← hlen]
  apply vsplit_vstack l.length
  · intro hc
    rw [hc] at hlen
    exact h0 (List.length_eq_zero_iff.1 hlen.symm)
  · intro x hx
    rw [List.mem_iff_getElem] at hx
    obtain ⟨i, hi, rfl⟩ := hx
    simp

theorem stackMul2 (mat : Mat) (l : List ι) (f1 f2 g1 g2 : ι → List Nat) :
    stackMul mat 2 [l.map f1, l.map f2] [l.map g1, l.map g2] =
      .ok [l.map fun i => modMul mat (f1 i) (g1 i), l.map fun i => modMul mat (f2 i) (g2 i)] :=
  stackMul_maps mat l [f1, f2] [g1, g2] rfl (by simp)
theorem stackMul3 (mat : Mat) (l : List ι) (f1 f2 f3 g1 g2 g3 : ι → List Nat) :
    stackMul mat 3 [l.map f1, l.map f2, l.map f3] [l.map g1, l.map g2, l.map g3] =
      .ok [l.map fun i => modMul mat (f1 i) (g1 i), l.map fun i => modMul mat (f2 i) (g2 i),
        l.map fun i => modMul mat (f3 i) (g3 i)] :=
  stackMul_maps mat l [f1, f2, f3] [g1, g2, g3] rfl (by simp)
theorem stackMul4 (mat : Mat) (l : List ι) (f1 f2 f3 f4 g1 g2 g3 g4 : ι → List Nat) :
    stackMul mat 4 [l.map f1, l.map f2, l.map f3, l.map f4] [l.map g1, l.map g2, l.map g3, l.map g4] =
      .ok [l.map fun i => modMul mat (f1 i) (g1 i), l.map fun i => modMul mat (f2 i) (g2 i),
        l.map fun i => modMul mat (f3 i) (g3 i), l.map fun i => modMul mat (f4 i) (g4 i)] :=
  stackMul_maps mat l [f1, f2, f3, f4] [g1, g2, g3, g4] rfl (by simp)
theorem stackMul6 (mat : Mat) (l : List ι) (f1 f2 f3 f4 f5 f6 g1 g2 g3 g4 g5 g6 : ι → List Nat) :
    stackMul mat 6 [l.map f1, l.map f2, l.map f3, l.map f4, l.map f5, l.map f6]
      [l.map g1, l.map g2, l.map g3, l.map g4, l.map g5, l.map g6] =
      .ok [l.map fun i => modMul mat (f1 i) (g1 i), l.map fun i => modMul mat (f2 i) (g2 i),
        l.map fun i => modMul mat (f3 i) (g3 i), l.map fun i => modMul mat (f4 i) (g4 i),
        l.map fun i => modMul mat (f5 i) (g5 i), l.map fun i => modMul mat (f6 i) (g6 i)] :=
  stackMul_maps mat l [f1, f2, f3, f4, f5, f6] [g1, g2, g3, g4, g5, g6] rfl (by simp)

theorem ok_bind {ε α β : Type} (a : α) (k : α → Except ε β) : ((Except.ok a : Except ε α) >>= k) = k a := rfl

theorem paddRnsXyzz_maps (mat : Mat) (l : List ι) (f g : ι → Pt) :
    paddRnsXyzzPack mat (packOf (l.map f)) (packOf (l.map g)) =
      .ok (packOf (l.map fun i => paddXyzz mat (f i) (g i))) := by
  simp only [paddRnsXyzzPack, packOf, List.map_map, List.cons_append, List.nil_append, List.drop_succ_cons,
    List.drop_zero, List.take_succ_cons, List.take_zero, stackMul6, ok_bind, at0, List.getD_cons_zero,
    List.getD_cons_succ, negateR_maps, addSubR1, modMulR_maps, stackMul3, addSubR3, Function.comp_def, paddXyzz]
  rfl

theorem pdulRnsXyzz_maps (mat : Mat) (l : List ι) (f : ι → Pt) :
    pdulRnsXyzzPack mat (packOf (l.map f)) = .ok (packOf (l.map fun i => pdulXyzz mat (f i))) := by
  simp only [pdulRnsXyzzPack, packOf, List.map_map, at0, List.getD_cons_zero, List.getD_cons_succ, add2R, add3R,
    addSubR1, addSubR2, addSubR3, modMulR_maps, stackMul3, stackMul4, ok_bind, negateR_maps, Function.comp_def, pdulXyzz, EcRns.add2, EcRns.add3]
  rfl

theorem paddRnsTwisted_maps (mat : Mat) (l : List ι) (f g : ι → Pt) :
    paddRnsTwistedPack mat (packOf (l.map f)) (packOf (l.map g)) =
      .ok (packOf (l.map fun i => paddTwisted mat (f i) (g i))) := by
  simp only [paddRnsTwistedPack, packOf, List.map_map, at0, stackMul4, ok_bind, List.getD_cons_zero,
    List.getD_cons_succ, add2R, addSubR1, addSubR2, bcast_maps, stackMul2, negateZR_maps, Function.comp_def, paddTwisted, EcRns.add2]
  rfl

theorem pdulRnsTwisted_maps (mat : Mat) (l : List ι) (f : ι → Pt) :
    pdulRnsTwistedPack mat (packOf (l.map f)) = .ok (packOf (l.map fun i => pdulTwisted mat (f i))) := by
  simp only [pdulRnsTwistedPack, packOf, List.map_map, at0, stackMul4, ok_bind, List.getD_cons_zero,
    List.getD_cons_succ, add2R, addSubR1, addSubR2, negateR_maps, Function.comp_def, pdulTwisted, EcRns.add2]
  rfl

/-! ## Axes -/

/-- The batch-first array of a list of points. -/
def firstOf (l : List (Quad (List Nat))) : Arr3 := l.map fun q => [q.1, q.2.1, q.2.2.1, q.2.2.2]

theorem getD_map {α β : Type*} (f : α → β) (l : List α) (i : Nat) (h : i < l.length) (d : β) :
    (l.map f).getD i d = f l[i] := by
  rw [List.getD_eq_getElem _ _ (by simpa using h), List.getElem_map]

theorem map_range_getD {α : Type*} (l : List α) (d : α) (n : Nat) (h : l.length = n) :
    (List.range n).map (fun i => l.getD i d) = l := by
  subst h
  apply List.ext_getElem
  · simp
  · intro i h1 h2
    simp [h2]

theorem swap01_rect (x : Arr3) (c : Nat) (h0 : x ≠ []) (hc : ∀ a ∈ x, a.length = c) :
    (swap01 x).length = c ∧ (∀ b ∈ swap01 x, b.length = x.length) ∧
    ∀ i j, i < x.length → j < c → ((swap01 x).getD j []).getD i [] = (x.getD i []).getD j [] := by
  obtain ⟨a, x', rfl⟩ := List.exists_cons_of_ne_nil h0
  have ha : a.length = c := hc a List.mem_cons_self
  refine ⟨by simp [swap01, ha], ?_, ?_⟩
  · intro b hb
    obtain ⟨j, -, rfl⟩ := List.mem_map.1 hb
    simp
  · intro i j hi hj
    simp only [swap01]
    rw [getD_map _ _ _ (by simpa [ha] using hj), getD_map _ _ _ hi, List.getElem_range,
      List.getD_eq_getElem _ [] hi]

theorem swap01_swap01 (x : Arr3) (c : Nat) (h0 : x ≠ []) (hpos : 0 < c) (hc : ∀ a ∈ x, a.length = c) :
    swap01 (swap01 x) = x := by
  obtain ⟨h1, h2, h3⟩ := swap01_rect x c h0 hc
  have hne : swap01 x ≠ [] := by
    intro h
    rw [h] at h1
    simp at h1
    omega
  obtain ⟨k1, k2, k3⟩ := swap01_rect (swap01 x) x.length hne h2
  apply List.ext_getElem k1
  intro i hi hi'
  apply List.ext_getElem
  · rw [k2 _ (List.getElem_mem hi), h1, hc _ (List.getElem_mem hi')]
  · intro j hj hj'
    have hjc : j < c := by rwa [hc _ (List.getElem_mem hi')] at hj'
    have e := k3 j i (by omega) hi'
    rw [h3 i j hi' hjc] at e
    rw [List.getD_eq_getElem _ [] hi, List.getD_eq_getElem _ [] hi', List.getD_eq_getElem _ [] hj,
      List.getD_eq_getElem _ [] hj'] at e
    exact e

theorem swap01_packOf (l : List (Quad (List Nat))) : swap01 (packOf l) = firstOf l := by
  simp only [swap01, packOf, firstOf, List.getD_cons_zero, List.length_map, List.map_cons, List.map_nil]
  apply List.ext_getElem
  · simp
  · intro i h1 h2
    have hi : i < l.length := by simpa using h2
    simp [hi]

theorem swap01_firstOf (l : List (Quad (List Nat))) (h0 : l ≠ []) : swap01 (firstOf l) = packOf l := by
  obtain ⟨a, l', rfl⟩ := List.exists_cons_of_ne_nil h0
  have e : List.range 4 = [0, 1, 2, 3] := rfl
  simp [swap01, firstOf, packOf, e, Function.comp_def]

theorem at1_firstOf (l : List (Quad (List Nat))) : at1 (firstOf l) 0 = l.map (fun q => q.1) ∧
    at1 (firstOf l) 1 = l.map (fun q => q.2.1) ∧ at1 (firstOf l) 2 = l.map (fun q => q.2.2.1) ∧
    at1 (firstOf l) 3 = l.map (fun q => q.2.2.2) := by
  simp [at1, firstOf, Function.comp_def]

theorem shape_packOf (l : List (Quad (List Nat))) (n : Nat) (h0 : l ≠ []) (h : ∀ q ∈ l, q.1.length = n) :
    shape3 (packOf l) = (4, l.length, n) := by
  obtain ⟨a, l', rfl⟩ := List.exists_cons_of_ne_nil h0
  simp [shape3, packOf, h a List.mem_cons_self]

/-- All coordinates have `n` chunks. -/
def Chunks (n : Nat) (q : Quad (List Nat)) : Prop :=
  q.1.length = n ∧ q.2.1.length = n ∧ q.2.2.1.length = n ∧ q.2.2.2.length = n

theorem inner_row (n : Nat) (l : List (Quad (List Nat))) (f : Quad (List Nat) → List Nat) (hf : ∀ q ∈ l, (f q).length = n) :
    (List.range l.length).map (fun j => (List.range n).map fun k => ((l.map f).getD j []).getD k 0) = l.map f := by
  apply List.ext_getElem
  · simp
  · intro i h1 h2
    have hi : i < l.length := by simpa using h2
    rw [List.getElem_map, List.getElem_range, getD_map _ _ _ hi, List.getElem_map,
      map_range_getD _ _ _ (hf _ (List.getElem_mem hi))]

theorem transpose_id (n : Nat) (l : List (Quad (List Nat))) (h : ∀ q ∈ l, Chunks n q) :
    transpose3 (0, 1, 2) (packOf l) = .ok (packOf l) := by
  by_cases h0 : l = []
  · subst h0; rfl
  simp only [transpose3]
  rw [if_pos (List.Perm.refl _), shape_packOf l n h0 (fun q hq => (h q hq).1)]
  simp only [axis, if_true, one_ne_zero, zero_ne_one, if_false, OfNat.zero_ne_ofNat,
    OfNat.one_ne_ofNat]
  congr 1
  have e : List.range 4 = [0, 1, 2, 3] := rfl
  rw [e]
  simp only [List.map_cons, List.map_nil, packOf, List.getD_cons_zero, List.getD_cons_succ]
  rw [inner_row n l (fun q => q.1) (fun q hq => (h q hq).1), inner_row n l (fun q => q.2.1) (fun q hq => (h q hq).2.1),
    inner_row n l (fun q => q.2.2.1) (fun q hq => (h q hq).2.2.1),
    inner_row n l (fun q => q.2.2.2) (fun q hq => (h q hq).2.2.2)]

theorem transpose_swap (n : Nat) (l : List (Quad (List Nat))) (h : ∀ q ∈ l, Chunks n q) :
    transpose3 (1, 0, 2) (packOf l) = .ok (firstOf l) := by
  by_cases h0 : l = []
  · subst h0; rfl
  simp only [transpose3]
  rw [if_pos (List.Perm.swap _ _ _), shape_packOf l n h0 (fun q hq => (h q hq).1)]
  simp only [axis, if_true, one_ne_zero, zero_ne_one, if_false, OfNat.zero_ne_ofNat,
    OfNat.one_ne_ofNat]
  congr 1
  have e : List.range 4 = [0, 1, 2, 3] := rfl
  rw [e]
  apply List.ext_getElem
  · simp [firstOf]
  · intro i h1 h2
    have hi : i < l.length := by simpa [firstOf] using h2
    obtain ⟨c1, c2, c3, c4⟩ := h _ (List.getElem_mem hi)
    simp only [List.getElem_map, List.getElem_range, List.map_cons, List.map_nil, packOf, List.getD_cons_zero,
      List.getD_cons_succ, firstOf]
    rw [getD_map _ _ _ hi, getD_map _ _ _ hi, getD_map _ _ _ hi, getD_map _ _ _ hi, map_range_getD _ _ _ c1,
      map_range_getD _ _ _ c2, map_range_getD _ _ _ c3, map_range_getD _ _ _ c4]

/-- Points with `n` chunks, as rows. -/
theorem lift_rows (n : Nat) (l : List (Quad (List Nat))) (h : ∀ q ∈ l, Chunks n q) :
    ∃ l' : List (Quad (Row n)), l = l'.map vals := by
  induction l with
  | nil => exact ⟨[], rfl⟩
  | cons q l ih =>
    obtain ⟨l', rfl⟩ := ih (fun p hp => h p (List.mem_cons_of_mem _ hp))
    obtain ⟨h1, h2, h3, h4⟩ := h q List.mem_cons_self
    exact ⟨(⟨q.1, h1⟩, ⟨q.2.1, h2⟩, ⟨q.2.2.1, h3⟩, ⟨q.2.2.2, h4⟩) :: l', rfl⟩

theorem zip_maps {α β : Type*} (ps : List α) (qs : List β) (h : ps.length = qs.length) :
    (ps.zip qs).map (fun t => t.1) = ps ∧ (ps.zip qs).map (fun t => t.2) = qs := by
  constructor
  · exact List.map_fst_zip (by omega)
  · exact List.map_snd_zip (by omega)

end Verif.EcBatch

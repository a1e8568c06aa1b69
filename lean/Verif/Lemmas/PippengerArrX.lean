import Verif.Lemmas.PippengerArr
import Verif.Lemmas.PippengerXyzz

/-!
# The array programs of the MSM in XYZZ coordinates, and the assembled classes
-/

namespace Verif.PippengerArr
open Verif.EcBatch Verif.EcCurve Verif.Pippenger

theorem range_getD {β : Type} (l : List β) (d : β) : l = (List.range l.length).map fun i => l.getD i d := by
  apply List.ext_getElem
  · simp
  · intro i h1 h2
    simp [h1]

section
variable {P : Packs} {o : Ops Q4} {Q : Q4 → Prop} (hP : PW P o Q)
include hP

theorem PW.alter_maps {ι : Type} (l : List ι) (f g : ι → Q4) (c : ι → Bool) (hf : ∀ i ∈ l, Q (f i))
    (hg : ∀ i ∈ l, Q (g i)) :
    paddAlterA P (packOf (l.map f)) (packOf (l.map g)) (l.map c) =
      .ok (packOf (l.map fun i => paddAlter o (f i) (g i) (c i))) := by
  unfold paddAlterA
  rw [hP.padd_maps l f g hf hg, ok_bind, where3_maps]
  rfl

theorem PW.selective_maps {ι : Type} (l : List ι) (f g : ι → Q4) (s z : ι → Bool) (hf : ∀ i ∈ l, Q (f i))
    (hg : ∀ i ∈ l, Q (g i)) :
    selectivePaddA P (packOf (l.map f)) (packOf (l.map g)) (l.map s) (l.map z) =
      .ok (packOf (l.map fun i => selectivePadd o (f i) (g i) (s i) (z i))) := by
  unfold selectivePaddA
  rw [hP.padd_maps l f g hf hg, ok_bind]
  simp only
  rw [where3_maps, zipWith_maps, where3_maps]
  rfl

theorem PW.zero_maps {ι : Type} (l : List ι) (f g : ι → Q4) (pz qz : ι → Bool) (hf : ∀ i ∈ l, Q (f i))
    (hg : ∀ i ∈ l, Q (g i)) :
    paddZeroA P (packOf (l.map f)) (packOf (l.map g)) (l.map pz) (l.map qz) =
      .ok (packOf (l.map fun i => paddZero o (f i) (g i) (pz i) (qz i))) := by
  unfold paddZeroA
  rw [hP.padd_maps l f g hf hg, ok_bind]
  simp only
  rw [where3_maps, zipWith_maps, where3_maps]
  rfl

theorem PW.zeroCheck_maps {ι : Type} (l : List ι) (f g : ι → Q4) (pz qz : ι → Bool) (hf : ∀ i ∈ l, Q (f i))
    (hg : ∀ i ∈ l, Q (g i)) :
    paddZeroCheckA P (packOf (l.map f)) (packOf (l.map g)) (l.map pz) (l.map qz) =
      .ok (packOf (l.map fun i => paddZeroCheck o (f i) (g i) (pz i) (qz i))) := by
  unfold paddZeroCheckA
  rw [hP.padd_maps l f g hf hg, ok_bind, hP.pdul_maps l f hf, ok_bind]
  simp only
  rw [where3_maps, zipWith_maps, where3_maps, equalRows_maps, where3_maps]
  simp only [paddZeroCheck, hP.sel, decide_eq_true_iff]
  rfl

theorem PW.czero (p q : Q4) (pz qz : Bool) (hp : Q p) (hq : Q q) : Q (paddZero o p q pz qz) := by
  unfold paddZero
  split
  · split
    · exact hp
    · exact hq
  · exact hP.cpadd _ _ hp hq

theorem PW.czeroCheck (p q : Q4) (pz qz : Bool) (hp : Q p) (hq : Q q) : Q (paddZeroCheck o p q pz qz) := by
  unfold paddZeroCheck
  rw [hP.sel]
  split
  · exact hP.cpdul _ hp
  · exact hP.czero p q pz qz hp hq

theorem PW.calter (p q : Q4) (pz : Bool) (hp : Q p) (hq : Q q) : Q (paddAlter o p q pz) := by
  unfold paddAlter
  split
  · exact hq
  · exact hP.cpadd _ _ hp hq

theorem PW.cselective (p q : Q4) (s z : Bool) (hp : Q p) (hq : Q q) : Q (selectivePadd o p q s z) := by
  unfold selectivePadd
  split
  · exact hq
  · split
    · exact hP.cpadd _ _ hp hq
    · exact hp

omit hP in
theorem bcast_coords (n : Nat) (p : Q4) :
    ((coordsA p).map fun r => List.replicate n r) = packOf ((List.range n).map fun _ => p) := by
  rw [List.map_const', List.length_range]
  exact bcastBlank_coords p n

/-- One step of the accumulation. -/
theorem PW.xStep {m n : Nat} (hn : 0 < n) {b : List (List Q4)} (hb : Tab Q m n b) (p : Q4) (hp : Q p) (sel : List Nat)
    (hsel : sel.length = m) (z : List (List Bool)) (hz : z.length = m) :
    baXyzzBody P m (pack4 b) (coordsA p) sel z = .ok (pack4 (xStep o b p sel z)) ∧ Tab Q m n (xStep o b p sel z) := by
  have hne : ∀ r ∈ b, r ≠ [] := by
    rintro r hr rfl
    have := hb.cols _ hr
    simp at this
    omega
  have hzs : List.zipWith (clampGet true) z sel =
      (List.range m).map fun w => gather true (z.getD w []) (sel.getD w 0) := by
    apply List.ext_getElem
    · simp [hsel, hz]
    · intro i h1 h2
      have hi : i < m := by simpa using h2
      rw [List.getElem_zipWith, List.getElem_map, List.getElem_range, getD_lt z i [] (by omega),
        getD_lt sel i 0 (by omega)]
      rfl
  constructor
  · unfold baXyzzBody
    simp only
    rw [bcast_coords, selectBuckets_pack4 o.blank b sel (by rw [hb.rows, hsel]) hne, ok_bind, hzs, hb.rows,
      hP.alter_maps, ok_bind, ← hb.rows, setBuckets_pack4 b sel _ (by rw [hb.rows, hsel])]
    · rfl
    · intro i hi
      exact hb.gather hn (List.mem_range.1 hi) _
    · intro i _
      exact hp
  · exact hb.set (fun i => sel.getD i 0) _ fun i hi => hP.calter _ _ _ (hb.gather hn hi _) hp

/-- The accumulation, in both versions. -/
theorem PW.xBa {m n : Nat} (hn : 0 < n) {b : List (List Q4)} (hb : Tab Q m n b) (pts : List Q4) (hq : ∀ q ∈ pts, Q q)
    (sel : List (List Nat)) (hsel : sel.length = pts.length) (hsel' : ∀ r ∈ sel, r.length = m)
    (z : List (List (List Bool))) (hz : z.length = pts.length) (hz' : ∀ r ∈ z, r.length = m) :
    baXyzzA P pts.length (pack4 b) (firstOf pts) sel z = .ok (pack4 (xAccumulate o b pts sel z)) ∧
    baXyzzLoopA P pts.length (pack4 b) (firstOf pts) sel z = .ok (pack4 (xAccumulate o b pts sel z)) ∧
      Tab Q m n (xAccumulate o b pts sel z) := by
  have hfirst : firstOf pts = pts.map coordsA := rfl
  have hsl : ∀ i, i < pts.length → (sel.getD i []).length = m := fun i hi => by
    rw [getD_lt _ _ _ (by omega)]
    exact hsel' _ (List.getElem_mem _)
  have hzl : ∀ i, i < pts.length → (z.getD i []).length = m := fun i hi => by
    rw [getD_lt _ _ _ (by omega)]
    exact hz' _ (List.getElem_mem _)
  have hstep := fun (t : List (List Q4)) (i : Nat) (hi : i ∈ List.range pts.length) (ht : Tab Q m n t) =>
    hP.xStep hn ht (pts.getD i o.blank) (hP.getD hq i) (sel.getD i []) (hsl i (List.mem_range.1 hi)) (z.getD i [])
      (hzl i (List.mem_range.1 hi))
  have key := foldlM_sim pack4 (Tab Q m n) (fun b (ps : Arr2 × List Nat × List (List Bool)) =>
      baXyzzBody P m b ps.1 ps.2.1 ps.2.2)
    (fun b i => Pippenger.xStep o b (pts.getD i o.blank) (sel.getD i []) (z.getD i []))
    (fun i => (coordsA (pts.getD i o.blank), sel.getD i [], z.getD i [])) (List.range pts.length) hstep b hb
  refine ⟨?_, ?_, key.2⟩
  · unfold baXyzzA scan
    simp only [head_pack4, hb.rows]
    have e : (firstOf pts).zip (sel.zip z) =
        (List.range pts.length).map fun i => (coordsA (pts.getD i o.blank), sel.getD i [], z.getD i []) := by
      rw [hfirst]
      conv_lhs => rw [range_getD pts o.blank, range_getD sel [], range_getD z [], hsel, hz]
      unfold List.zip
      rw [List.map_map, zipWith_maps, zipWith_maps]
      rfl
    rw [if_pos (by simp [firstOf, hsel, hz]), if_pos (by simp [firstOf, hsel, hz]), e]
    exact key.1
  · have key2 := foldlM_sim pack4 (Tab Q m n) (fun b (i : Nat) =>
        baXyzzBody P m b (clampGet [] (firstOf pts) i) (clampGet [] sel i) (clampGet [] z i))
      (fun b i => Pippenger.xStep o b (pts.getD i o.blank) (sel.getD i []) (z.getD i [])) id (List.range pts.length)
      (fun t i hi ht => by
        have hi' := List.mem_range.1 hi
        have e1 : clampGet [] (firstOf pts) i = coordsA (pts.getD i o.blank) := by
          rw [hfirst, clampGet, List.length_map, Nat.min_eq_left (by omega), getD_lt _ _ _ (by simpa using hi'),
            List.getElem_map, getD_lt _ _ _ hi']
        have e2 : clampGet [] sel i = sel.getD i [] := by rw [clampGet, Nat.min_eq_left (by omega)]
        have e3 : clampGet [] z i = z.getD i [] := by rw [clampGet, Nat.min_eq_left (by omega)]
        simp only [id_eq, e1, e2, e3]
        exact hstep t i hi ht) b hb
    unfold baXyzzLoopA
    simp only [head_pack4, hb.rows]
    have h := key2.1
    rw [List.map_id] at h
    exact h

omit hP in
/-- Running conjunctions of columns are columns of running conjunctions. -/
theorem scanl_cols {ι : Type} (l : List ι) (cols : List (ι → Bool)) (a : ι → Bool) :
    (cols.map fun c => l.map c).scanl (List.zipWith fun x y => x && y) (l.map a) =
      (cols.scanl (fun f c => fun i => f i && c i) a).map (fun f => l.map f) := by
  induction cols generalizing a with
  | nil => rfl
  | cons c cols ih => rw [List.map_cons, List.scanl_cons, List.scanl_cons, List.map_cons, zipWith_maps, ih]

omit hP in
theorem scanl_at {ι : Type} (i : ι) (cols : List (ι → Bool)) (a : ι → Bool) :
    (cols.scanl (fun f c => fun i => f i && c i) a).map (fun f => f i) =
      (cols.map fun c => c i).scanl (fun x y => x && y) (a i) := by
  induction cols generalizing a with
  | nil => rfl
  | cons c cols ih => rw [List.scanl_cons, List.map_cons, ih, List.map_cons, List.scanl_cons]

omit hP in
theorem getD_cols {ι : Type} (l : List ι) (F : List (ι → Bool)) (i : Nat) (hi : i < F.length) :
    (F.map fun f => l.map f).getD i [] = l.map fun x => (F.map fun f => f x).getD i true := by
  rw [getD_lt _ _ _ (by simpa using hi), List.getElem_map]
  apply List.map_congr_left
  intro x _
  rw [getD_lt _ _ _ (by simpa using hi), List.getElem_map]

omit hP in
/-- The flag arrays are the flags of each window. -/
theorem brZeroA_eq (m n : Nat) (z : List (List Bool)) (hm : z.length = m) (hn : ∀ r ∈ z, r.length = n) :
    (∀ i, i < n → (brZeroA m n z).1.getD i [] = (List.range m).map fun w => (brZero (z.getD w [])).1.getD i true) ∧
    (∀ i, i ≤ n → (brZeroA m n z).2.1.getD i [] = (List.range m).map fun w => (brZero (z.getD w [])).2.1.getD i true) ∧
    (∀ i, i ≤ n → (brZeroA m n z).2.2.getD i [] = (List.range m).map fun w => (brZero (z.getD w [])).2.2.getD i true) ∧
    (brZeroA m n z).1.length = n ∧ (brZeroA m n z).2.1.length = n + 1 ∧ (brZeroA m n z).2.2.length = n + 1 := by
  let cols : List (Nat → Bool) := (List.range n).reverse.map fun j => fun w => (z.getD w []).getD j true
  have hcl : cols.length = n := by simp [cols]
  have hb : (brZeroA m n z).1 = cols.map fun c => (List.range m).map c := by
    simp only [brZeroA, cols, List.map_map]
    apply List.map_congr_left
    intro j _
    conv_lhs => rw [range_getD z [], hm]
    rw [List.map_map]
    rfl
  have hrep : List.replicate m true = (List.range m).map fun _ : Nat => true := by simp
  have ht : (brZeroA m n z).2.1 = (cols.scanl (fun f c => fun i => f i && c i) fun _ => true).map
      fun f => (List.range m).map f := by
    rw [← scanl_cols, ← hb, ← hrep]
    rfl
  have hw : (brZeroA m n z).2.2 = (((cols.scanl (fun f c => fun i => f i && c i) fun _ => true).drop 1).scanl
      (fun f c => fun i => f i && c i) fun _ => true).map fun f => (List.range m).map f := by
    rw [← scanl_cols, List.map_drop, ← ht, ← hrep]
    rfl
  have hcol : ∀ w, w < m → (cols.map fun c => c w) = (z.getD w []).reverse := by
    intro w hw
    have : (z.getD w []).length = n := by
      rw [getD_lt _ _ _ (by omega)]
      exact hn _ (List.getElem_mem _)
    rw [reverse_range (z.getD w []) true, this]
    simp [cols, Function.comp_def]
  refine ⟨?_, ?_, ?_, by simp [hb, hcl], by simp [ht, hcl], by simp [hw, hcl]⟩
  · intro i hi
    rw [hb, getD_cols _ _ _ (by omega)]
    apply List.map_congr_left
    intro w hw
    rw [hcol w (List.mem_range.1 hw)]
    rfl
  · intro i hi
    rw [ht, getD_cols _ _ _ (by simp [hcl]; omega)]
    apply List.map_congr_left
    intro w hw
    rw [scanl_at, hcol w (List.mem_range.1 hw)]
    rfl
  · intro i hi
    rw [hw, getD_cols _ _ _ (by simp [hcl]; omega)]
    apply List.map_congr_left
    intro w hw
    rw [scanl_at, List.map_drop, scanl_at, hcol w (List.mem_range.1 hw)]
    rfl

omit hP in
theorem take_range {β : Type} (l : List β) (n : Nat) (d : β) (h : n ≤ l.length) :
    l.take n = (List.range n).map fun i => l.getD i d := by
  apply List.ext_getElem
  · simp [h]
  · intro i h1 h2
    have : i < l.length := by simp at h2; omega
    simp [this]

omit hP in
theorem drop_range {β : Type} (l : List β) (n : Nat) (d : β) (h : l.length = n + 1) :
    l.drop 1 = (List.range n).map fun i => l.getD (i + 1) d := by
  apply List.ext_getElem
  · simp [h]
  · intro i h1 h2
    have : i + 1 < l.length := by simp at h2; omega
    simp [this, Nat.add_comm]

/-- The reduction, in both versions. -/
theorem PW.xBr {m n : Nat} (hm : 0 < m) (hn : 0 < n) {b : List (List Q4)} (hb : Tab Q m n b) (z : List (List Bool))
    (hz : z.length = m) (hz' : ∀ r ∈ z, r.length = n) :
    brXyzzA P n (pack4 b) (bcastBlank (coordsA o.blank) m) (bcastBlank (coordsA o.blank) m)
        ((brZeroA m n z).1.take n) ((brZeroA m n z).2.1.take n) ((brZeroA m n z).2.2.take n) =
      .ok (packOf ((List.range m).map fun w => xReduce o (b.getD w []) (brZero (z.getD w [])))) ∧
    brXyzzLoopA P n (pack4 b) (bcastBlank (coordsA o.blank) m) (bcastBlank (coordsA o.blank) m)
        ((brZeroA m n z).1.take n) ((brZeroA m n z).2.1.take n) ((brZeroA m n z).2.2.take n) =
      .ok (packOf ((List.range m).map fun w => xReduce o (b.getD w []) (brZero (z.getD w [])))) ∧
    ∀ w, w < m → Q (xReduce o (b.getD w []) (brZero (z.getD w []))) := by
  obtain ⟨z1, z2, z3, l1, l2, l3⟩ := brZeroA_eq m n z hz hz'
  have hinit : bcastBlank (coordsA o.blank) m = packOf ((List.range m).map fun _ => o.blank) := by
    rw [bcastBlank_coords]
    simp
  let col : Nat → Arr3 := fun i => packOf ((List.range m).map fun w => (b.getD w []).reverse.getD i o.blank)
  let fb : Nat → List Bool := fun i => (List.range m).map fun w => (brZero (z.getD w [])).1.getD i true
  let ft : Nat → List Bool := fun i => (List.range m).map fun w => (brZero (z.getD w [])).2.1.getD i true
  let fw : Nat → List Bool := fun i => (List.range m).map fun w => (brZero (z.getD w [])).2.2.getD i true
  have hQ : ∀ i w, w < m → Q ((b.getD w []).reverse.getD i o.blank) := fun i w hw =>
    hP.getD (fun q hq => hb.all _ (hb.row hw) q (List.mem_reverse.1 hq)) i
  have hflip : flipBuckets (pack4 b) = (List.range n).map col := by
    rw [flipBuckets_pack4 o.blank hm hb]
    apply List.ext_getElem
    · simp
    · intro i h1 h2
      have hi : i < n := by simpa using h2
      simp only [List.getElem_map, List.getElem_reverse, List.getElem_range, List.length_range, col]
      conv_lhs => rw [range_getD b [], hb.rows]
      rw [List.map_map]
      congr 1
      apply List.map_congr_left
      intro w hw
      have hl := hb.cols _ (hb.row (List.mem_range.1 hw))
      simp only [Function.comp_apply]
      generalize b.getD w [] = r at hl
      rw [getD_lt _ _ _ (by omega), getD_lt r.reverse i _ (by rw [List.length_reverse]; omega), List.getElem_reverse]
      simp only [hl]
  let G : (Nat → Q4) × (Nat → Q4) → Nat → (Nat → Q4) × (Nat → Q4) := fun t i =>
    (fun w => paddZero o (t.1 w) ((b.getD w []).reverse.getD i o.blank) ((brZero (z.getD w [])).2.1.getD i true)
      ((brZero (z.getD w [])).1.getD i true),
    fun w => paddZeroCheck o (t.2 w) (paddZero o (t.1 w) ((b.getD w []).reverse.getD i o.blank)
      ((brZero (z.getD w [])).2.1.getD i true) ((brZero (z.getD w [])).1.getD i true))
      ((brZero (z.getD w [])).2.2.getD i true) ((brZero (z.getD w [])).2.1.getD (i + 1) true))
  let φ : (Nat → Q4) × (Nat → Q4) → Arr3 × Arr3 := fun t => (packOf ((List.range m).map t.1), packOf ((List.range m).map t.2))
  let I : (Nat → Q4) × (Nat → Q4) → Prop := fun t => ∀ w, w < m → Q (t.1 w) ∧ Q (t.2 w)
  have hstep : ∀ t i, I t → brXyzzBody P (φ t) (col i) (fb i) (ft i) (ft (i + 1)) (fw i) = .ok (φ (G t i)) ∧ I (G t i) := by
    intro t i ht
    have h1 : ∀ w, w < m → Q ((G t i).1 w) := fun w hw => hP.czero _ _ _ _ (ht w hw).1 (hQ i w hw)
    refine ⟨?_, fun w hw => ⟨h1 w hw, hP.czeroCheck _ _ _ _ (ht w hw).2 (h1 w hw)⟩⟩
    simp only [brXyzzBody, φ, col, fb, ft, fw]
    rw [hP.zero_maps _ _ _ _ _ (fun w hw => (ht w (List.mem_range.1 hw)).1) (fun w hw => hQ i w (List.mem_range.1 hw)),
      ok_bind, hP.zeroCheck_maps _ _ _ _ _ (fun w hw => (ht w (List.mem_range.1 hw)).2)
        (fun w hw => h1 w (List.mem_range.1 hw))]
    rfl
  have hpt : ∀ w (js : List Nat) (t : (Nat → Q4) × (Nat → Q4)),
      (((js.foldl G t).1 w, (js.foldl G t).2 w) : Q4 × Q4) =
        js.foldl (fun tw i =>
          let t := paddZero o tw.1 ((b.getD w []).reverse.getD i o.blank) ((brZero (z.getD w [])).2.1.getD i true)
            ((brZero (z.getD w [])).1.getD i true)
          (t, paddZeroCheck o tw.2 t ((brZero (z.getD w [])).2.2.getD i true)
            ((brZero (z.getD w [])).2.1.getD (i + 1) true))) (t.1 w, t.2 w) := by
    intro w js
    induction js with
    | nil => intro t; rfl
    | cons j js ih => intro t; rw [List.foldl_cons, ih, List.foldl_cons]
  have hr : ∀ w, w < m → ((List.range (n - 1)).foldl G (fun _ => o.blank, fun _ => o.blank)).2 w =
      xReduce o (b.getD w []) (brZero (z.getD w [])) := by
    intro w hw
    have h := hpt w (List.range (n - 1)) (fun _ => o.blank, fun _ => o.blank)
    unfold xReduce
    rw [hb.cols _ (hb.row hw), ← h]
  have he : (List.range m).map ((List.range (n - 1)).foldl G (fun _ => o.blank, fun _ => o.blank)).2 =
      (List.range m).map fun w => xReduce o (b.getD w []) (brZero (z.getD w [])) :=
    List.map_congr_left fun w hw => hr w (List.mem_range.1 hw)
  have hI : I (fun _ => o.blank, fun _ => o.blank) := fun _ _ => ⟨hP.blank, hP.blank⟩
  have key := foldlM_sim φ I (fun tw (x : Arr3 × List Bool × List Bool × List Bool × List Bool) =>
    brXyzzBody P tw x.1 x.2.1 x.2.2.1 x.2.2.2.1 x.2.2.2.2) G
    (fun i => (col i, fb i, ft i, ft (i + 1), fw i)) (List.range (n - 1)) (fun t i _ ht => hstep t i ht) _ hI
  have hbz : ((brZeroA m n z).1.take n).take (n - 1) = (List.range (n - 1)).map fb := by
    rw [List.take_take, Nat.min_eq_left (by omega), take_range _ _ [] (by omega)]
    exact List.map_congr_left fun i hi => z1 i (by have := List.mem_range.1 hi; omega)
  have htz : ((brZeroA m n z).2.1.take n).take (n - 1) = (List.range (n - 1)).map ft := by
    rw [List.take_take, Nat.min_eq_left (by omega), take_range _ _ [] (by omega)]
    exact List.map_congr_left fun i hi => z2 i (by have := List.mem_range.1 hi; omega)
  have hgt : ∀ i, i < n → ((brZeroA m n z).2.1.take n).getD i [] = ft i := by
    intro i hi
    rw [take_range _ _ [] (by omega), getD_lt _ _ _ (by simpa using hi), List.getElem_map, List.getElem_range]
    exact z2 i (by omega)
  have htz1 : ((brZeroA m n z).2.1.take n).drop 1 = (List.range (n - 1)).map fun i => ft (i + 1) := by
    rw [drop_range _ (n - 1) [] (by rw [List.length_take]; omega)]
    exact List.map_congr_left fun i hi => hgt (i + 1) (by have := List.mem_range.1 hi; omega)
  have hwz : ((brZeroA m n z).2.2.take n).take (n - 1) = (List.range (n - 1)).map fw := by
    rw [List.take_take, Nat.min_eq_left (by omega), take_range _ _ [] (by omega)]
    exact List.map_congr_left fun i hi => z3 i (by have := List.mem_range.1 hi; omega)
  have hxs : (flipBuckets (pack4 b)).take (n - 1) = (List.range (n - 1)).map col := by
    rw [hflip, ← List.map_take, List.take_range, Nat.min_eq_left (by omega)]
  refine ⟨?_, ?_, ?_⟩
  · unfold brXyzzA scan
    simp only [hbz, htz, htz1, hwz, hxs]
    unfold List.zip
    rw [zipWith_maps, zipWith_maps, zipWith_maps, zipWith_maps, if_pos (by simp), if_pos (by simp), hinit]
    have h := key.1
    simp only [φ] at h
    rw [h, ok_bind, he]
    rfl
  · have key2 := foldlM_sim φ I (fun tw (i : Nat) => brXyzzBody P tw (clampGet [] (flipBuckets (pack4 b)) i)
        (clampGet [] ((brZeroA m n z).1.take n) i) (clampGet [] ((brZeroA m n z).2.1.take n) i)
        (clampGet [] ((brZeroA m n z).2.1.take n) (i + 1)) (clampGet [] ((brZeroA m n z).2.2.take n) i)) G id
      (List.range (n - 1)) (fun t i hi ht => by
        have hi' : i < n - 1 := List.mem_range.1 hi
        have hmin : ∀ {β : Type} (l : List β) (d : β) (j : Nat), l.length = n → j < n → clampGet d l j = l.getD j d := by
          intro β l d j hl hj
          rw [clampGet, Nat.min_eq_left (by omega)]
        have e0 : clampGet [] (flipBuckets (pack4 b)) i = col i := by
          rw [hmin _ _ _ (by simp [hflip]) (by omega), hflip, getD_lt _ _ _ (by simp; omega), List.getElem_map,
            List.getElem_range]
        have e1 : clampGet [] ((brZeroA m n z).1.take n) i = fb i := by
          rw [hmin _ _ _ (by rw [List.length_take]; omega) (by omega), take_range _ _ [] (by omega),
            getD_lt _ _ _ (by simp; omega), List.getElem_map, List.getElem_range]
          exact z1 i (by omega)
        have e2 : clampGet [] ((brZeroA m n z).2.1.take n) i = ft i := by
          rw [hmin _ _ _ (by rw [List.length_take]; omega) (by omega), hgt i (by omega)]
        have e3 : clampGet [] ((brZeroA m n z).2.1.take n) (i + 1) = ft (i + 1) := by
          rw [hmin _ _ _ (by rw [List.length_take]; omega) (by omega), hgt (i + 1) (by omega)]
        have e4 : clampGet [] ((brZeroA m n z).2.2.take n) i = fw i := by
          rw [hmin _ _ _ (by rw [List.length_take]; omega) (by omega), take_range _ _ [] (by omega),
            getD_lt _ _ _ (by simp; omega), List.getElem_map, List.getElem_range]
          exact z3 i (by omega)
        simp only [id_eq, e0, e1, e2, e3, e4]
        exact hstep t i ht) _ hI
    unfold brXyzzLoopA
    have h := key2.1
    rw [List.map_id] at h
    simp only [φ] at h
    simp only [hinit]
    rw [h, ok_bind, he]
    rfl
  · intro w hw
    rw [← hr w hw]
    exact (key.2 w hw).2

/-- The merge by a Python loop is the merge by a scan. -/
theorem PW.mergeLoop (k : Nat) (l : List Q4) (h0 : l ≠ []) (hq : ∀ q ∈ l, Q q) :
    windowMergeLoopA P k (packOf l) = .ok (coordsA (windowMerge o k l)) := by
  have hpos : 0 < l.length := List.length_pos_of_ne_nil h0
  have hcol : ∀ i, i < l.length → ((packOf l).map fun a => [clampGet [] a i]) = packOf [l.getD i o.blank] := by
    intro i hi
    rw [packOf_eq, packOf_eq, List.map_map]
    apply List.map_congr_left
    intro π _
    simp only [Function.comp_apply, clampGet, List.length_map, List.map_cons, List.map_nil]
    rw [Nat.min_eq_left (by omega), getD_lt _ _ _ (by simpa using hi), List.getElem_map, getD_lt _ _ _ hi]
  have key := foldlM_sim (fun q => packOf [q]) Q (fun r (w : Nat) => do
      let r ← foriLoop P.pdul k r
      P.padd r ((packOf l).map fun a => [clampGet [] a w])) (fun r i => o.padd (o.pdul^[k] r) (l.getD i o.blank)) id
    (List.range (l.length - 1)).reverse
    (fun t i hi ht => by
      have hi' : i < l.length - 1 := List.mem_range.1 (List.mem_reverse.1 hi)
      obtain ⟨h1, h2⟩ := hP.fori k t ht
      refine ⟨?_, hP.cpadd _ _ h2 (hP.getD hq _)⟩
      rw [h1, ok_bind, id_eq, hcol i (by omega)]
      exact hP.padd [_] [_] rfl (by simpa using h2) (by simpa using hP.getD hq i))
    (l.getD (l.length - 1) o.blank) (hP.getD hq _)
  have h := key.1
  rw [List.map_id] at h
  unfold windowMergeLoopA
  rw [head_packOf]
  simp only
  rw [hcol _ (by omega), h, ok_bind]
  have e : (List.range (l.length - 1)).reverse.foldl (fun r i => o.padd (o.pdul^[k] r) (l.getD i o.blank))
      (l.getD (l.length - 1) o.blank) = windowMerge o k l := by
    unfold windowMerge
    rw [take_range l (l.length - 1) o.blank (by omega), ← List.map_reverse, List.foldl_map]
  rw [e]
  simp [packOf, coordsA, projs, pure, Except.pure]

omit hP in
theorem flatten_zipWith {α β γ : Type} (f : α → β → γ) (n : Nat) : ∀ (x : List (List α)) (y : List (List β)),
    (∀ r ∈ x, r.length = n) → (∀ r ∈ y, r.length = n) →
    (List.zipWith (List.zipWith f) x y).flatten = List.zipWith f x.flatten y.flatten
  | [], _, _, _ => by simp
  | _ :: _, [], _, _ => by simp
  | a :: x, b :: y, hx, hy => by
    rw [List.zipWith_cons_cons, List.flatten_cons, List.flatten_cons, List.flatten_cons, List.zipWith_append,
      flatten_zipWith f n x y (fun r h => hx r (List.mem_cons_of_mem _ h)) (fun r h => hy r (List.mem_cons_of_mem _ h))]
    rw [hx _ List.mem_cons_self, hy _ List.mem_cons_self]

/-- One step of the masked accumulation, with all buckets in one axis. -/
theorem PW.maskStep {m n : Nat} {b : List (List Q4)} (hb : Tab Q m n b) (p : Q4) (hp : Q p)
    (s z : List (List Bool)) (hs : s.length = m) (hs' : ∀ r ∈ s, r.length = n) (hz : z.length = m)
    (hz' : ∀ r ∈ z, r.length = n) :
    selectivePaddA P (packOf b.flatten) ((coordsA p).map fun r => List.replicate b.flatten.length r) s.flatten z.flatten =
      .ok (packOf (xStepMask o b p s z).flatten) ∧ Tab Q m n (xStepMask o b p s z) := by
  have hlen : ∀ {β : Type} (l : List (List β)), l.length = m → (∀ r ∈ l, r.length = n) → l.flatten.length = m * n := by
    intro β l h1 h2
    rw [List.length_flatten, List.map_congr_left h2, List.map_const', List.sum_replicate, h1, smul_eq_mul]
  have hbl := hlen b hb.rows hb.cols
  have hsl := hlen s hs hs'
  have hzl := hlen z hz hz'
  have hzip : ∀ r ∈ List.zipWith List.zip s z, r.length = n := by
    intro r hr
    obtain ⟨i, hi, rfl⟩ := List.mem_iff_getElem.1 hr
    rw [List.getElem_zipWith, List.length_zip, hs' _ (List.getElem_mem _), hz' _ (List.getElem_mem _), Nat.min_self]
  have hall : ∀ q ∈ b.flatten, Q q := by
    intro q hq
    obtain ⟨r, hr, hq⟩ := List.mem_flatten.1 hq
    exact hb.all r hr q hq
  constructor
  · rw [hbl, bcast_coords]
    have e1 := range_getD b.flatten o.blank
    have e2 := range_getD s.flatten true
    have e3 := range_getD z.flatten true
    rw [hbl] at e1
    rw [hsl] at e2
    rw [hzl] at e3
    rw [e1, e2, e3, hP.selective_maps]
    · congr 2
      unfold xStepMask
      have hz2 : List.zipWith List.zip s z = List.zipWith (List.zipWith Prod.mk) s z := rfl
      rw [flatten_zipWith _ n b _ hb.cols hzip, hz2, flatten_zipWith Prod.mk n s z hs' hz']
      conv_rhs => rw [e1, e2, e3, zipWith_maps, zipWith_maps]
    · intro i _
      exact hP.getD hall i
    · intro i _
      exact hp
  · unfold xStepMask
    refine ⟨by simp [hb.rows, hs, hz], ?_, ?_⟩
    · intro r hr
      obtain ⟨i, hi, rfl⟩ := List.mem_iff_getElem.1 hr
      rw [List.getElem_zipWith, List.length_zipWith, hb.cols _ (List.getElem_mem _), hzip _ (List.getElem_mem _),
        Nat.min_self]
    · intro r hr q hq
      obtain ⟨i, hi, rfl⟩ := List.mem_iff_getElem.1 hr
      rw [List.getElem_zipWith] at hq
      obtain ⟨j, hj, rfl⟩ := List.mem_iff_getElem.1 hq
      rw [List.getElem_zipWith]
      exact hP.cselective _ _ _ _ (hb.all _ (List.getElem_mem _) _ (List.getElem_mem _)) hp

/-- The masked accumulation, in both versions. -/
theorem PW.mask {m n : Nat} {b : List (List Q4)} (hb : Tab Q m n b) (pts : List Q4) (hq : ∀ q ∈ pts, Q q)
    (s z : List (List (List Bool))) (hs : s.length = pts.length) (hs' : ∀ r ∈ s, r.length = m ∧ ∀ t ∈ r, t.length = n)
    (hz : z.length = pts.length) (hz' : ∀ r ∈ z, r.length = m ∧ ∀ t ∈ r, t.length = n) :
    baMaskA P pts.length (packOf b.flatten) (firstOf pts) (s.map List.flatten) (z.map List.flatten) =
      .ok (packOf (xAccumulateMask o b pts s z).flatten) ∧
    baMaskLoopA P pts.length (packOf b.flatten) (firstOf pts) (s.map List.flatten) (z.map List.flatten) =
      .ok (packOf (xAccumulateMask o b pts s z).flatten) := by
  have hfirst : firstOf pts = pts.map coordsA := rfl
  have hsl : ∀ i, i < pts.length → s.getD i [] ∈ s := fun i hi => by
    rw [getD_lt _ _ _ (by omega)]
    exact List.getElem_mem _
  have hzl : ∀ i, i < pts.length → z.getD i [] ∈ z := fun i hi => by
    rw [getD_lt _ _ _ (by omega)]
    exact List.getElem_mem _
  have hlen : ∀ t : List (List Q4), Tab Q m n t → t.flatten.length = m * n := by
    intro l h
    rw [List.length_flatten, List.map_congr_left h.cols, List.map_const', List.sum_replicate, h.rows, smul_eq_mul]
  have hstep := fun (t : List (List Q4)) (i : Nat) (hi : i ∈ List.range pts.length) (ht : Tab Q m n t) =>
    hP.maskStep ht (pts.getD i o.blank) (hP.getD hq i) (s.getD i []) (z.getD i [])
      (hs' _ (hsl i (List.mem_range.1 hi))).1 (hs' _ (hsl i (List.mem_range.1 hi))).2
      (hz' _ (hzl i (List.mem_range.1 hi))).1 (hz' _ (hzl i (List.mem_range.1 hi))).2
  constructor
  · have key := foldlM_sim (fun t : List (List Q4) => packOf t.flatten) (Tab Q m n)
      (fun c (ps : Arr2 × List Bool × List Bool) =>
        selectivePaddA P c (ps.1.map fun r => List.replicate (m * n) r) ps.2.1 ps.2.2)
      (fun b i => xStepMask o b (pts.getD i o.blank) (s.getD i []) (z.getD i []))
      (fun i => (coordsA (pts.getD i o.blank), (s.getD i []).flatten, (z.getD i []).flatten)) (List.range pts.length)
      (fun t i hi ht => by
        have := hstep t i hi ht
        rw [hlen t ht] at this
        exact this) b hb
    unfold baMaskA scan
    simp only [head_packOf, hlen b hb]
    have e : (firstOf pts).zip ((s.map List.flatten).zip (z.map List.flatten)) = (List.range pts.length).map fun i =>
        (coordsA (pts.getD i o.blank), (s.getD i []).flatten, (z.getD i []).flatten) := by
      rw [hfirst]
      conv_lhs => rw [range_getD pts o.blank, range_getD s [], range_getD z [], hs, hz]
      unfold List.zip
      rw [List.map_map, List.map_map, List.map_map, zipWith_maps, zipWith_maps]
      rfl
    rw [if_pos (by simp [firstOf, hs, hz]), if_pos (by simp [firstOf, hs, hz]), e]
    exact key.1
  · have key := foldlM_sim (fun t : List (List Q4) => packOf t.flatten) (Tab Q m n)
      (fun c (i : Nat) => selectivePaddA P c ((clampGet [] (firstOf pts) i).map fun r => List.replicate (m * n) r)
        (clampGet [] (s.map List.flatten) i) (clampGet [] (z.map List.flatten) i))
      (fun b i => xStepMask o b (pts.getD i o.blank) (s.getD i []) (z.getD i [])) id (List.range pts.length)
      (fun t i hi ht => by
        have hi' := List.mem_range.1 hi
        have e1 : clampGet [] (firstOf pts) i = coordsA (pts.getD i o.blank) := by
          rw [hfirst, clampGet, List.length_map, Nat.min_eq_left (by omega), getD_lt _ _ _ (by simpa using hi'),
            List.getElem_map, getD_lt _ _ _ hi']
        have e2 : ∀ y : List (List (List Bool)), y.length = pts.length →
            clampGet [] (y.map List.flatten) i = (y.getD i []).flatten := by
          intro y hy
          rw [clampGet, List.length_map, Nat.min_eq_left (by omega), getD_lt _ _ _ (by rw [List.length_map]; omega),
            List.getElem_map, getD_lt _ _ _ (by omega)]
        have := hstep t i hi ht
        rw [hlen t ht] at this
        simp only [id_eq, e1, e2 s hs, e2 z hz]
        exact this) b hb
    have h := key.1
    rw [List.map_id] at h
    unfold baMaskLoopA
    simp only [head_packOf, hlen b hb]
    exact h

end

end Verif.PippengerArr

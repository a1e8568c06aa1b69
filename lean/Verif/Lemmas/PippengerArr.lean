import Verif.Model.PippengerArr
import Verif.Lemmas.EcBatchConv
import Verif.Lemmas.Pippenger

/-!
# The array programs of the MSM against the algorithms on lists of points

A pack is a list of four projections applied to a list of points, so every array operation commutes with each projection
separately.
-/

namespace Verif.PippengerArr
open Verif.EcBatch Verif.EcCurve Verif.Pippenger

/-- A point: four rows of chunks. -/
abbrev Q4 := Quad (List Nat)

/-- The four coordinates. -/
def projs : List (Q4 → List Nat) := [fun q => q.1, fun q => q.2.1, fun q => q.2.2.1, fun q => q.2.2.2]

theorem packOf_eq (l : List Q4) : packOf l = projs.map fun π => l.map π := rfl

/-- The array (coordinate, window, bucket, chunk) of a table of points. -/
def pack4 (rows : List (List Q4)) : Arr4 := projs.map fun π => rows.map fun r => r.map π

/-- The array (coordinate, chunk) of a point. -/
def coordsA (q : Q4) : Arr2 := projs.map fun π => π q

theorem projs_ext (p q : Q4) : (∀ π ∈ projs, π p = π q) ↔ p = q := by
  obtain ⟨a, b, c, d⟩ := p
  obtain ⟨a', b', c', d'⟩ := q
  simp [projs]

theorem head_packOf (l : List Q4) : ((packOf l).getD 0 []).length = l.length := by simp [packOf]

theorem head_pack4 (rows : List (List Q4)) : ((pack4 rows).getD 0 []).length = rows.length := by simp [pack4, projs]

theorem getD_lt {β : Type} (l : List β) (i : Nat) (d : β) (h : i < l.length) : l.getD i d = l[i] := by
  rw [List.getD_eq_getElem?_getD, List.getElem?_eq_getElem h, Option.getD_some]

theorem selectBuckets_pack4 (d : Q4) (rows : List (List Q4)) (sel : List Nat) (hl : rows.length = sel.length)
    (hne : ∀ r ∈ rows, r ≠ []) :
    selectBuckets (pack4 rows) sel =
      .ok (packOf ((List.range rows.length).map fun i => gather d (rows.getD i []) (sel.getD i 0))) := by
  unfold selectBuckets
  rw [if_pos (by rw [head_pack4, hl]), packOf_eq, pack4, List.map_map]
  congr 1
  apply List.map_congr_left
  intro π _
  apply List.ext_getElem
  · simp [hl]
  · intro i h1 h2
    have hi : i < rows.length := by simpa using h2
    have hs : i < sel.length := by omega
    have hpos : 0 < rows[i].length := List.length_pos_of_ne_nil (hne _ (List.getElem_mem hi))
    simp only [Function.comp_apply, List.getElem_zipWith, List.getElem_map, List.getElem_range, gather, clampGet,
      List.length_map]
    rw [getD_lt rows i [] hi, getD_lt sel i 0 hs]
    have hm : min sel[i] (rows[i].length - 1) < rows[i].length := by omega
    rw [getD_lt rows[i] _ d hm, getD_lt (rows[i].map π) _ [] (by simpa using hm), List.getElem_map]

theorem setBuckets_pack4 (rows : List (List Q4)) (sel : List Nat) (U : Nat → Q4) (hl : rows.length = sel.length) :
    setBuckets (pack4 rows) sel (packOf ((List.range rows.length).map U)) =
      pack4 ((List.range rows.length).map fun i => (rows.getD i []).set (sel.getD i 0) (U i)) := by
  unfold setBuckets
  rw [packOf_eq, pack4, pack4, zipWith_maps]
  apply List.map_congr_left
  intro π _
  apply List.ext_getElem
  · simp [hl]
  · intro i h1 h2
    have hi : i < rows.length := by simpa using h2
    have hs : i < sel.length := by omega
    simp only [List.getElem_zipWith, List.getElem_zip, List.getElem_map, List.getElem_range]
    rw [getD_lt rows i [] hi, getD_lt sel i 0 hs, List.map_set]

theorem replicate_range {β : Type} (par sw : Nat) (pts : List β) (d : β) (h : pts.length = par) :
    (pts.map fun r => List.replicate sw r).flatten = (List.range (par * sw)).map fun i => pts.getD (i / sw) d := by
  subst h
  induction pts with
  | nil => simp
  | cons p pts ih =>
    rw [List.map_cons, List.flatten_cons, ih, List.length_cons, Nat.add_mul, Nat.one_mul, Nat.add_comm, List.range_add,
      List.map_append, List.map_map]
    rcases Nat.eq_zero_or_pos sw with rfl | hsw
    · simp
    · congr 1
      · apply List.ext_getElem
        · simp
        · intro i h1 h2
          have : i < sw := by simpa using h1
          simp [Nat.div_eq_of_lt this]
      · apply List.map_congr_left
        intro i _
        rw [Function.comp_apply, Nat.add_div_left _ hsw, List.getD_cons_succ]

theorem bcastPoint_packOf (par sw : Nat) (pts : List Q4) (d : Q4) (h : pts.length = par) :
    bcastPoint sw (packOf pts) = packOf ((List.range (par * sw)).map fun i => pts.getD (i / sw) d) := by
  unfold bcastPoint
  rw [← replicate_range par sw pts d h, packOf_eq, packOf_eq, List.map_map]
  apply List.map_congr_left
  intro π _
  simp [Function.comp_def, List.map_flatten]

theorem where3_maps {ι : Type} (l : List ι) (c : ι → Bool) (f g : ι → Q4) :
    where3 (l.map c) (packOf (l.map f)) (packOf (l.map g)) = packOf (l.map fun i => if c i then f i else g i) := by
  unfold where3
  rw [packOf_eq, packOf_eq, packOf_eq, zipWith_maps]
  apply List.map_congr_left
  intro π _
  rw [List.map_map, List.map_map, List.map_map, whereRows_maps]
  apply List.map_congr_left
  intro i _
  simp only [Function.comp_apply]
  split <;> rfl

theorem equalRows_maps {ι : Type} (l : List ι) (f g : ι → Q4) :
    equalRows (packOf (l.map f)) (packOf (l.map g)) = l.map fun i => decide (f i = g i) := by
  unfold equalRows
  rw [head_packOf, List.length_map]
  apply List.ext_getElem
  · simp
  · intro i h1 h2
    have hi : i < l.length := by simpa using h2
    rw [List.getElem_map, List.getElem_map, List.getElem_range, packOf_eq, packOf_eq, zipWith_maps, Bool.eq_iff_iff,
      List.all_eq_true, decide_eq_true_iff, ← projs_ext]
    simp only [List.mem_map, id_eq, forall_exists_index, and_imp, forall_apply_eq_imp_iff₂, decide_eq_true_iff]
    refine forall_congr' fun π => forall_congr' fun _ => ?_
    rw [getD_lt _ _ _ (by simpa using hi), getD_lt _ _ _ (by simpa using hi)]
    simp

/-- The packed operations act on each point as the operations of `o`, on points satisfying `Q`, which is preserved. -/
structure PW (P : Packs) (o : Ops Q4) (Q : Q4 → Prop) : Prop where
  padd : ∀ ps qs, ps.length = qs.length → (∀ q ∈ ps, Q q) → (∀ q ∈ qs, Q q) →
    P.padd (packOf ps) (packOf qs) = .ok (packOf (List.zipWith o.padd ps qs))
  pdul : ∀ ps, (∀ q ∈ ps, Q q) → P.pdul (packOf ps) = .ok (packOf (ps.map o.pdul))
  pneg : ∀ ps, (∀ q ∈ ps, Q q) → P.pneg (packOf ps) = .ok (packOf (ps.map o.pneg))
  blank : Q o.blank
  cpadd : ∀ p q, Q p → Q q → Q (o.padd p q)
  cpdul : ∀ p, Q p → Q (o.pdul p)
  cpneg : ∀ p, Q p → Q (o.pneg p)
  sel : ∀ p q a b, o.selEq p q a b = if p = q then a else b

section
variable {P : Packs} {o : Ops Q4} {Q : Q4 → Prop} (hP : PW P o Q)
include hP

theorem PW.padd_maps {ι : Type} (l : List ι) (f g : ι → Q4) (hf : ∀ i ∈ l, Q (f i)) (hg : ∀ i ∈ l, Q (g i)) :
    P.padd (packOf (l.map f)) (packOf (l.map g)) = .ok (packOf (l.map fun i => o.padd (f i) (g i))) := by
  rw [hP.padd _ _ (by simp) (by simpa using hf) (by simpa using hg), zipWith_maps]

theorem PW.pdul_maps {ι : Type} (l : List ι) (f : ι → Q4) (hf : ∀ i ∈ l, Q (f i)) :
    P.pdul (packOf (l.map f)) = .ok (packOf (l.map fun i => o.pdul (f i))) := by
  rw [hP.pdul _ (by simpa using hf), List.map_map]
  rfl

theorem PW.pneg_maps {ι : Type} (l : List ι) (f : ι → Q4) (hf : ∀ i ∈ l, Q (f i)) :
    P.pneg (packOf (l.map f)) = .ok (packOf (l.map fun i => o.pneg (f i))) := by
  rw [hP.pneg _ (by simpa using hf), List.map_map]
  rfl

theorem PW.cpaddCheck (p q : Q4) (hp : Q p) (hq : Q q) : Q (paddCheck o p q) := by
  unfold paddCheck
  rw [hP.sel]
  split
  · exact hP.cpdul _ hp
  · exact hP.cpadd _ _ hp hq

theorem PW.paddCheck_maps {ι : Type} (l : List ι) (f g : ι → Q4) (hf : ∀ i ∈ l, Q (f i)) (hg : ∀ i ∈ l, Q (g i)) :
    paddCheckA P (packOf (l.map f)) (packOf (l.map g)) = .ok (packOf (l.map fun i => paddCheck o (f i) (g i))) := by
  unfold paddCheckA
  rw [hP.padd_maps l f g hf hg, ok_bind, hP.pdul_maps l f hf, ok_bind, equalRows_maps, where3_maps]
  simp only [paddCheck, hP.sel, decide_eq_true_iff]
  rfl

theorem PW.paddSign_maps {ι : Type} (l : List ι) (f g : ι → Q4) (s : ι → Int) (hf : ∀ i ∈ l, Q (f i))
    (hg : ∀ i ∈ l, Q (g i)) :
    paddSignA P (packOf (l.map f)) (packOf (l.map g)) (l.map s) =
      .ok (packOf (l.map fun i => paddSign o (f i) (g i) (s i))) := by
  unfold paddSignA
  rw [hP.pneg_maps l g hg, ok_bind, List.map_map, where3_maps, hP.padd_maps l _ _ hf]
  · simp [paddSign]
  · intro i hi
    split
    · exact hP.cpneg _ (hg i hi)
    · exact hg i hi

omit hP in
/-- A monadic fold that follows a pure one step by step. -/
theorem foldlM_sim {σ τ β γ : Type} (φ : τ → σ) (I : τ → Prop) (F : σ → β → Except String σ) (G : τ → γ → τ) (ψ : γ → β)
    (xs : List γ) (h : ∀ t x, x ∈ xs → I t → F (φ t) (ψ x) = .ok (φ (G t x)) ∧ I (G t x)) (t : τ) (ht : I t) :
    (xs.map ψ).foldlM F (φ t) = .ok (φ (xs.foldl G t)) ∧ I (xs.foldl G t) := by
  induction xs generalizing t with
  | nil => exact ⟨rfl, ht⟩
  | cons x xs ih =>
    obtain ⟨h1, h2⟩ := h t x List.mem_cons_self ht
    have := ih (fun t x hx => h t x (List.mem_cons_of_mem _ hx)) _ h2
    rw [List.map_cons, List.foldlM_cons, h1, ok_bind, List.foldl_cons]
    exact this

/-- A table with `m` rows of `n` points that satisfy `Q`. -/
structure Tab (Q : Q4 → Prop) (m n : Nat) (b : List (List Q4)) : Prop where
  rows : b.length = m
  cols : ∀ r ∈ b, r.length = n
  all : ∀ r ∈ b, ∀ q ∈ r, Q q

omit hP in
theorem Tab.replicate (m n : Nat) (q : Q4) (hq : Q q) : Tab Q m n (List.replicate m (List.replicate n q)) := by
  refine ⟨by simp, ?_, ?_⟩
  · intro r hr
    rw [List.eq_of_mem_replicate hr, List.length_replicate]
  · intro r hr p hp
    rw [List.eq_of_mem_replicate hr] at hp
    rwa [List.eq_of_mem_replicate hp]

omit hP in
theorem Tab.row {m n i : Nat} {b : List (List Q4)} (h : Tab Q m n b) (hi : i < m) : b.getD i [] ∈ b := by
  rw [getD_lt _ _ _ (by rw [h.rows]; exact hi)]
  exact List.getElem_mem _

omit hP in
theorem Tab.gather {m n i s : Nat} {b : List (List Q4)} (h : Tab Q m n b) (hn : 0 < n) (hi : i < m) (d : Q4) :
    Q (Pippenger.gather d (b.getD i []) s) := by
  have hl := h.cols _ (h.row hi)
  unfold Pippenger.gather
  rw [getD_lt _ _ _ (by omega)]
  exact h.all _ (h.row hi) _ (List.getElem_mem _)

omit hP in
theorem Tab.set {m n : Nat} {b : List (List Q4)} (h : Tab Q m n b) (s : Nat → Nat) (U : Nat → Q4)
    (hU : ∀ i, i < m → Q (U i)) : Tab Q m n ((List.range b.length).map fun i => (b.getD i []).set (s i) (U i)) := by
  refine ⟨by simp [h.rows], ?_, ?_⟩
  · intro r hr
    obtain ⟨i, hi, rfl⟩ := List.mem_map.1 hr
    rw [List.length_set]
    exact h.cols _ (h.row (by have := List.mem_range.1 hi; rwa [h.rows] at this))
  · intro r hr q hq
    obtain ⟨i, hi, rfl⟩ := List.mem_map.1 hr
    have hi : i < m := by have := List.mem_range.1 hi; rwa [h.rows] at this
    rcases List.mem_or_eq_of_mem_set hq with hq | rfl
    · exact h.all _ (h.row hi) _ hq
    · exact hU i hi

theorem PW.getD {l : List Q4} (h : ∀ q ∈ l, Q q) (i : Nat) : Q (l.getD i o.blank) := by
  by_cases hi : i < l.length
  · rw [getD_lt _ _ _ hi]
    exact h _ (List.getElem_mem _)
  · rw [List.getD_eq_getElem?_getD, List.getElem?_eq_none (by omega)]
    exact hP.blank

/-- One step of the accumulation. -/
theorem PW.baStep {wn par n : Nat} (hn : 0 < n) {b : List (List Q4)} (hb : Tab Q (par * wn) n b) (pts : List Q4)
    (hpts : pts.length = par) (hq : ∀ q ∈ pts, Q q) (sel : List Nat) (hsel : sel.length = par * wn) :
    (do
      let s ← selectBuckets (pack4 b) sel
      let u ← P.padd s (bcastPoint wn (packOf pts))
      pure (setBuckets (pack4 b) sel u)) = .ok (pack4 (baStep o wn b pts sel)) ∧
      Tab Q (par * wn) n (baStep o wn b pts sel) := by
  have hne : ∀ r ∈ b, r ≠ [] := by
    rintro r hr rfl
    have := hb.cols _ hr
    simp at this
    omega
  have hU : ∀ i, i < par * wn → Q (o.padd (gather o.blank (b.getD i []) (sel.getD i 0)) (pts.getD (i / wn) o.blank)) :=
    fun i hi => hP.cpadd _ _ (hb.gather hn hi _) (hP.getD hq _)
  constructor
  · rw [selectBuckets_pack4 o.blank b sel (by rw [hb.rows, hsel]) hne, ok_bind, bcastPoint_packOf par wn pts o.blank hpts,
      ← hb.rows, hP.padd_maps, ok_bind, setBuckets_pack4 b sel _ (by rw [hb.rows, hsel])]
    · rfl
    · intro i hi
      exact hb.gather hn (by have := List.mem_range.1 hi; rwa [hb.rows] at this) _
    · intro i _
      exact hP.getD hq _
  · exact hb.set (fun i => sel.getD i 0) _ hU

/-- One step of the signed accumulation. -/
theorem PW.baStepSigned {wn par n : Nat} (hn : 0 < n) {b : List (List Q4)} (hb : Tab Q (par * wn) n b) (pts : List Q4)
    (hpts : pts.length = par) (hq : ∀ q ∈ pts, Q q) (sel : List Nat) (hsel : sel.length = par * wn) (sgn : List Int)
    (hsgn : sgn.length = par * wn) :
    (do
      let s ← selectBuckets (pack4 b) sel
      let u ← paddSignA P s (bcastPoint wn (packOf pts)) sgn
      pure (setBuckets (pack4 b) sel u)) = .ok (pack4 (baStepSigned o wn b pts sel sgn)) ∧
      Tab Q (par * wn) n (baStepSigned o wn b pts sel sgn) := by
  have hne : ∀ r ∈ b, r ≠ [] := by
    rintro r hr rfl
    have := hb.cols _ hr
    simp at this
    omega
  have hU : ∀ i, i < par * wn → Q (paddSign o (gather o.blank (b.getD i []) (sel.getD i 0)) (pts.getD (i / wn) o.blank)
      (sgn.getD i 0)) := by
    intro i hi
    unfold paddSign
    refine hP.cpadd _ _ (hb.gather hn hi _) ?_
    split
    · exact hP.cpneg _ (hP.getD hq _)
    · exact hP.getD hq _
  have hs : sgn = (List.range b.length).map fun i => sgn.getD i 0 := by
    apply List.ext_getElem
    · simp [hsgn, hb.rows]
    · intro i h1 h2
      simp [h1]
  constructor
  · rw [selectBuckets_pack4 o.blank b sel (by rw [hb.rows, hsel]) hne, ok_bind, bcastPoint_packOf par wn pts o.blank hpts,
      ← hb.rows]
    conv_lhs => rw [hs]
    rw [hP.paddSign_maps, ok_bind, setBuckets_pack4 b sel _ (by rw [hb.rows, hsel])]
    · rfl
    · intro i hi
      exact hb.gather hn (by have := List.mem_range.1 hi; rwa [hb.rows] at this) _
    · intro i _
      exact hP.getD hq _
  · exact hb.set (fun i => sel.getD i 0) _ hU

omit hP in
theorem mem_reshapeRow {β : Type} {l : List β} {n i : Nat} {x : β} (h : x ∈ reshapeRow l n i) : x ∈ l :=
  List.mem_of_mem_drop (List.mem_of_mem_take h)

omit hP in
theorem groupPoints_firstOf (par : Nat) (hpar : 0 < par) (pts : List Q4) (hd : par ∣ pts.length) :
    groupPoints par (firstOf pts) =
      .ok ((List.range (pts.length / par)).map fun s => packOf (reshapeRow pts par s)) := by
  unfold groupPoints
  have hl : (firstOf pts).length = pts.length := by simp [firstOf]
  rw [hl, if_pos ⟨by omega, Nat.mod_eq_zero_of_dvd hd⟩]
  congr 1
  apply List.map_congr_left
  intro s hs
  have hs := List.mem_range.1 hs
  have h1 : (s + 1) * par ≤ pts.length := by
    obtain ⟨c, hc⟩ := hd
    rw [hc, Nat.mul_div_cancel_left _ hpar] at hs
    rw [hc, Nat.mul_comm]
    exact Nat.mul_le_mul_left _ hs
  have e : reshapeRow (firstOf pts) par s = firstOf (reshapeRow pts par s) := by
    simp [reshapeRow, firstOf, List.map_drop, List.map_take]
  rw [e, swap01_firstOf]
  intro h
  have := length_reshapeRow pts par s h1
  rw [h] at this
  simp at this
  omega

omit hP in
theorem groupRows_ok {β : Type} (n S : Nat) (hn : 0 < n) (sel : List (List β)) (h : sel.flatten.length = S * n) :
    groupRows n sel = .ok ((List.range S).map fun s => reshapeRow sel.flatten n s) := by
  unfold groupRows
  rw [h, if_pos ⟨by omega, by simp⟩, Nat.mul_div_cancel _ hn]

/-- The accumulation. -/
theorem PW.ba {wn par n S : Nat} (hn : 0 < n) (hwn : 0 < wn) (hpar : 0 < par) (hS : 0 < S) {b : List (List Q4)}
    (hb : Tab Q (par * wn) n b) (pts : List Q4) (hpts : pts.length = par * S) (hq : ∀ q ∈ pts, Q q) (sel : List (List Nat))
    (hsel : sel.flatten.length = S * (wn * par)) :
    baTwistedA P S (pack4 b) ((List.range S).map fun s => packOf (reshapeRow pts par s))
      ((List.range S).map fun s => reshapeRow sel.flatten (wn * par) s) =
        .ok (pack4 (bucketAccumulation o wn par S b pts sel)) ∧
      Tab Q (par * wn) n (bucketAccumulation o wn par S b pts sel) := by
  have hrow : ∀ s, s < S → (reshapeRow pts par s).length = par := fun s hs =>
    length_reshapeRow pts par s (by rw [hpts, Nat.mul_comm]; exact Nat.mul_le_mul_left _ hs)
  have hrow' : ∀ s, s < S → (reshapeRow sel.flatten (wn * par) s).length = par * wn := fun s hs => by
    rw [Nat.mul_comm par]
    exact length_reshapeRow _ _ s (by rw [hsel]; exact Nat.mul_le_mul_right _ hs)
  have hp0 : ((((List.range S).map fun s => packOf (reshapeRow pts par s)).getD 0 []).getD 0 []).length = par := by
    have e0 : ((List.range S).map fun s => packOf (reshapeRow pts par s)).getD 0 [] = packOf (reshapeRow pts par 0) := by
      rw [getD_lt _ _ _ (by simpa using hS), List.getElem_map, List.getElem_range]
    rw [e0, head_packOf, hrow 0 hS]
  have hsw : par * wn / par = wn := Nat.mul_div_cancel_left _ hpar
  unfold baTwistedA
  simp only [head_pack4, hp0, hb.rows, hsw]
  rw [if_pos ⟨trivial, by simp⟩]
  unfold scan
  rw [if_pos (by simp)]
  unfold bucketAccumulation List.zip
  rw [zipWith_maps]
  exact foldlM_sim (pack4) (Tab Q (par * wn) n) _
    (fun b s => Pippenger.baStep o wn b (reshapeRow pts par s) (reshapeRow sel.flatten (wn * par) s))
    (fun s => (packOf (reshapeRow pts par s), reshapeRow sel.flatten (wn * par) s)) (List.range S)
    (fun t s hs ht => hP.baStep hn ht _ (hrow s (List.mem_range.1 hs)) (fun q hq' => hq q (mem_reshapeRow hq')) _
      (hrow' s (List.mem_range.1 hs))) b hb

/-- The signed accumulation. -/
theorem PW.baSigned {wn par n S : Nat} (hn : 0 < n) (hwn : 0 < wn) (hpar : 0 < par) (hS : 0 < S) {b : List (List Q4)}
    (hb : Tab Q (par * wn) n b) (pts : List Q4) (hpts : pts.length = par * S) (hq : ∀ q ∈ pts, Q q) (sel : List (List Nat))
    (hsel : sel.flatten.length = S * (wn * par)) (sgn : List (List Int)) (hsgn : sgn.flatten.length = S * (wn * par)) :
    baSignedA P S (pack4 b) ((List.range S).map fun s => packOf (reshapeRow pts par s))
      ((List.range S).map fun s => reshapeRow sel.flatten (wn * par) s)
      ((List.range S).map fun s => reshapeRow sgn.flatten (wn * par) s) =
        .ok (pack4 (bucketAccumulationSigned o wn par S b pts sel sgn)) ∧
      Tab Q (par * wn) n (bucketAccumulationSigned o wn par S b pts sel sgn) := by
  have hrow : ∀ s, s < S → (reshapeRow pts par s).length = par := fun s hs =>
    length_reshapeRow pts par s (by rw [hpts, Nat.mul_comm]; exact Nat.mul_le_mul_left _ hs)
  have hrow' : ∀ s, s < S → (reshapeRow sel.flatten (wn * par) s).length = par * wn := fun s hs => by
    rw [Nat.mul_comm par]
    exact length_reshapeRow _ _ s (by rw [hsel]; exact Nat.mul_le_mul_right _ hs)
  have hrow'' : ∀ s, s < S → (reshapeRow sgn.flatten (wn * par) s).length = par * wn := fun s hs => by
    rw [Nat.mul_comm par]
    exact length_reshapeRow _ _ s (by rw [hsgn]; exact Nat.mul_le_mul_right _ hs)
  have hp0 : ((((List.range S).map fun s => packOf (reshapeRow pts par s)).getD 0 []).getD 0 []).length = par := by
    have e0 : ((List.range S).map fun s => packOf (reshapeRow pts par s)).getD 0 [] = packOf (reshapeRow pts par 0) := by
      rw [getD_lt _ _ _ (by simpa using hS), List.getElem_map, List.getElem_range]
    rw [e0, head_packOf, hrow 0 hS]
  have hsw : par * wn / par = wn := Nat.mul_div_cancel_left _ hpar
  unfold baSignedA
  simp only [head_pack4, hp0, hb.rows, hsw]
  rw [if_pos ⟨trivial, by simp, by simp⟩]
  unfold scan
  rw [if_pos (by simp)]
  unfold bucketAccumulationSigned List.zip
  rw [zipWith_maps, zipWith_maps]
  exact foldlM_sim (pack4) (Tab Q (par * wn) n) _
    (fun b s => Pippenger.baStepSigned o wn b (reshapeRow pts par s) (reshapeRow sel.flatten (wn * par) s)
      (reshapeRow sgn.flatten (wn * par) s))
    (fun s => (packOf (reshapeRow pts par s), reshapeRow sel.flatten (wn * par) s, reshapeRow sgn.flatten (wn * par) s))
    (List.range S)
    (fun t s hs ht => hP.baStepSigned hn ht _ (hrow s (List.mem_range.1 hs)) (fun q hq' => hq q (mem_reshapeRow hq')) _
      (hrow' s (List.mem_range.1 hs)) _ (hrow'' s (List.mem_range.1 hs))) b hb

omit hP in
theorem flipBuckets_pack4 (d : Q4) {m n : Nat} (hm : 0 < m) {b : List (List Q4)} (hb : Tab Q m n b) :
    flipBuckets (pack4 b) = (List.range n).reverse.map fun j => packOf (b.map fun r => r.getD j d) := by
  have h0 : (((pack4 b).getD 0 []).getD 0 []).length = n := by
    have hl : 0 < b.length := by rw [hb.rows]; exact hm
    have : (pack4 b).getD 0 [] = b.map fun r => r.map fun q => q.1 := rfl
    rw [this, getD_lt _ _ _ (by simpa using hl), List.getElem_map, List.length_map]
    exact hb.cols _ (List.getElem_mem _)
  unfold flipBuckets
  rw [h0]
  apply List.map_congr_left
  intro j hj
  have hj : j < n := List.mem_range.1 (List.mem_reverse.1 hj)
  rw [pack4, List.map_map, packOf_eq]
  apply List.map_congr_left
  intro π _
  simp only [Function.comp_apply, List.map_map]
  apply List.map_congr_left
  intro r hr
  have := hb.cols r hr
  simp only [Function.comp_apply]
  rw [getD_lt _ _ _ (by rw [List.length_map]; omega), getD_lt _ _ _ (by omega), List.getElem_map]

omit hP in
theorem reverse_range {β : Type} (r : List β) (d : β) : r.reverse = (List.range r.length).reverse.map fun j => r.getD j d := by
  rw [List.map_reverse]
  congr 1
  apply List.ext_getElem
  · simp
  · intro i h1 h2
    simp [h1]

omit hP in
theorem bcastBlank_coords (q : Q4) (n : Nat) : bcastBlank (coordsA q) n = packOf (List.replicate n q) := by
  simp [bcastBlank, coordsA, packOf_eq, Function.comp_def]

/-- The reduction of all windows. -/
theorem PW.br {m n : Nat} (hm : 0 < m) {b : List (List Q4)} (hb : Tab Q m n b) :
    brTwistedA P n (pack4 b) (bcastBlank (coordsA o.blank) m) (bcastBlank (coordsA o.blank) m) =
      .ok (packOf (b.map (bucketReduce o))) ∧ ∀ q ∈ b.map (bucketReduce o), Q q := by
  have hinit : bcastBlank (coordsA o.blank) m = packOf (b.map fun _ => o.blank) := by
    rw [bcastBlank_coords, List.map_const', hb.rows]
  have hQ : ∀ r ∈ b, ∀ j, Q (r.getD j o.blank) := fun r hr j => hP.getD (hb.all r hr) j
  let G : (List Q4 → Q4) × (List Q4 → Q4) → Nat → (List Q4 → Q4) × (List Q4 → Q4) := fun t j =>
    (fun r => o.padd (t.1 r) (r.getD j o.blank), fun r => paddCheck o (t.2 r) (o.padd (t.1 r) (r.getD j o.blank)))
  have key := foldlM_sim (σ := Arr3 × Arr3) (fun t : (List Q4 → Q4) × (List Q4 → Q4) => (packOf (b.map t.1), packOf (b.map t.2)))
    (fun t => ∀ r ∈ b, Q (t.1 r) ∧ Q (t.2 r))
    (fun tw b => do
      let t ← P.padd tw.1 b
      let w ← paddCheckA P tw.2 t
      pure (t, w)) G (fun j => packOf (b.map fun r => r.getD j o.blank)) (List.range n).reverse
    (fun t j _ ht => by
      have h1 : ∀ r ∈ b, Q (o.padd (t.1 r) (r.getD j o.blank)) := fun r hr => hP.cpadd _ _ (ht r hr).1 (hQ r hr j)
      refine ⟨?_, fun r hr => ⟨h1 r hr, hP.cpaddCheck _ _ (ht r hr).2 (h1 r hr)⟩⟩
      simp only
      rw [hP.padd_maps b _ _ (fun r hr => (ht r hr).1) (fun r hr => hQ r hr j), ok_bind,
        hP.paddCheck_maps b _ _ (fun r hr => (ht r hr).2) h1]
      rfl)
    (fun _ => o.blank, fun _ => o.blank) (fun _ _ => ⟨hP.blank, hP.blank⟩)
  have hpt : ∀ r (js : List Nat) (t : (List Q4 → Q4) × (List Q4 → Q4)),
      (((js.foldl G t).1 r, (js.foldl G t).2 r) : Q4 × Q4) =
        (js.map fun j => r.getD j o.blank).foldl (fun tw b =>
          let t := o.padd tw.1 b
          (t, paddCheck o tw.2 t)) (t.1 r, t.2 r) := by
    intro r js
    induction js with
    | nil => intro t; rfl
    | cons j js ih => intro t; rw [List.foldl_cons, ih, List.map_cons, List.foldl_cons]
  have hr : ∀ r ∈ b, ((List.range n).reverse.foldl G (fun _ => o.blank, fun _ => o.blank)).2 r = bucketReduce o r := by
    intro r hr
    have h := hpt r (List.range n).reverse (fun _ => o.blank, fun _ => o.blank)
    unfold bucketReduce
    rw [reverse_range r o.blank, hb.cols r hr, ← h]
  have he : b.map ((List.range n).reverse.foldl G (fun _ => o.blank, fun _ => o.blank)).2 = b.map (bucketReduce o) :=
    List.map_congr_left hr
  constructor
  · unfold brTwistedA scan
    rw [flipBuckets_pack4 o.blank hm hb, List.take_of_length_le (by simp), if_pos (by simp), hinit, key.1, ok_bind, he]
    rfl
  · intro q hq
    obtain ⟨r, hr', rfl⟩ := List.mem_map.1 hq
    rw [← hr r hr']
    exact (key.2 r hr').2

theorem PW.zip_all {l m : List Q4} (hl : ∀ q ∈ l, Q q) (hm : ∀ q ∈ m, Q q) : ∀ q ∈ List.zipWith o.padd l m, Q q := by
  intro q hq
  obtain ⟨i, hi, rfl⟩ := List.mem_iff_getElem.1 hq
  rw [List.getElem_zipWith]
  exact hP.cpadd _ _ (hl _ (List.getElem_mem _)) (hm _ (List.getElem_mem _))

/-- The summation over the parallel groups. -/
theorem PW.batch {wn par : Nat} (hpar : 0 < par) (sums : List Q4) (hl : sums.length = par * wn) (hq : ∀ q ∈ sums, Q q) :
    batchSumA P par (bcastBlank (coordsA o.blank) wn) (packOf sums) = .ok (packOf (batchSum o wn par sums)) ∧
      (batchSum o wn par sums).length = wn ∧ ∀ q ∈ batchSum o wn par sums, Q q := by
  have hrow : ∀ s, s < par → (reshapeRow sums wn s).length = wn := fun s hs =>
    length_reshapeRow sums wn s (by rw [hl]; exact Nat.mul_le_mul_right _ hs)
  have e : ((List.range par).map fun j => (packOf sums).map fun a => reshapeRow a wn j) =
      (List.range par).map fun j => packOf (reshapeRow sums wn j) := by
    apply List.map_congr_left
    intro j _
    rw [packOf_eq, packOf_eq, List.map_map]
    apply List.map_congr_left
    intro π _
    simp [reshapeRow, List.map_drop, List.map_take]
  unfold batchSumA scan
  simp only [head_packOf, hl, Nat.mul_div_cancel_left _ hpar, Nat.mul_mod_right]
  rw [if_pos ⟨by omega, trivial⟩, if_pos (by simp), e, bcastBlank_coords]
  unfold batchSum
  exact foldlM_sim packOf (fun l => l.length = wn ∧ ∀ q ∈ l, Q q) P.padd
    (fun acc j => List.zipWith o.padd acc (reshapeRow sums wn j)) (fun j => packOf (reshapeRow sums wn j)) (List.range par)
    (fun t j hj ht => by
      have hj := hrow j (List.mem_range.1 hj)
      refine ⟨hP.padd _ _ (by rw [ht.1, hj]) ht.2 (fun q h => hq q (mem_reshapeRow h)), by simp [ht.1, hj], ?_⟩
      exact hP.zip_all ht.2 (fun q h => hq q (mem_reshapeRow h)))
    _ ⟨by simp, fun q h => by rw [List.eq_of_mem_replicate h]; exact hP.blank⟩

theorem PW.fori (k : Nat) (q : Q4) (hq : Q q) : foriLoop P.pdul k (packOf [q]) = .ok (packOf [o.pdul^[k] q]) ∧
    Q (o.pdul^[k] q) := by
  induction k generalizing q with
  | zero => exact ⟨rfl, hq⟩
  | succ k ih =>
    have h := hP.pdul [q] (by simpa using hq)
    obtain ⟨h1, h2⟩ := ih (o.pdul q) (hP.cpdul _ hq)
    refine ⟨?_, by rw [Function.iterate_succ_apply]; exact h2⟩
    rw [foriLoop, h, ok_bind, Function.iterate_succ_apply]
    exact h1

/-- The merge of the windows. -/
theorem PW.merge (k : Nat) (l : List Q4) (h0 : l ≠ []) (hq : ∀ q ∈ l, Q q) :
    windowMergeA P k (packOf l) = .ok (coordsA (windowMerge o k l)) ∧ Q (windowMerge o k l) := by
  have hpos : 0 < l.length := List.length_pos_of_ne_nil h0
  have hfirst : firstOf l = l.map coordsA := rfl
  have hone : ∀ q : Q4, ((coordsA q).map fun x => [x]) = packOf [q] := fun q => rfl
  have hinit : (((l.map coordsA).getD (l.length - 1) []).map fun x => [x]) = packOf [l.getD (l.length - 1) o.blank] := by
    rw [getD_lt _ _ _ (by rw [List.length_map]; omega), List.getElem_map, getD_lt _ _ _ (by omega), hone]
  have key := foldlM_sim (fun q => packOf [q]) Q (fun r w => do
      let r ← foriLoop P.pdul k r
      P.padd r (w.map fun x => [x])) (fun r s => o.padd (o.pdul^[k] r) s) coordsA (l.take (l.length - 1)).reverse
    (fun t x hx ht => by
      have hx' : Q x := hq x (List.mem_of_mem_take (List.mem_reverse.1 hx))
      obtain ⟨h1, h2⟩ := hP.fori k t ht
      refine ⟨?_, hP.cpadd _ _ h2 hx'⟩
      rw [h1, ok_bind, hone]
      exact hP.padd [_] [_] rfl (by simpa using h2) (by simpa using hx'))
    (l.getD (l.length - 1) o.blank) (hP.getD hq _)
  unfold windowMergeA scan
  rw [swap01_packOf, hfirst, head_packOf]
  simp only
  rw [if_pos (by simp), hinit, ← List.map_take, ← List.map_reverse, key.1, ok_bind]
  refine ⟨?_, key.2⟩
  simp [packOf, coordsA, projs, windowMerge, pure, Except.pure]

omit hP in
theorem initBuckets_coords (q : Q4) (wn par n : Nat) :
    initBuckets (coordsA q) wn par n = pack4 (List.replicate (par * wn) (List.replicate n q)) := by
  unfold initBuckets coordsA pack4
  rw [List.map_map]
  apply List.map_congr_left
  intro π _
  simp [List.flatten_replicate_replicate]

end

end Verif.PippengerArr

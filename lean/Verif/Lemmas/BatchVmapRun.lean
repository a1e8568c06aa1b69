import Verif.Lemmas.BatchVmap

/-!
# When `batch_vmap` succeeds, and its result
-/

namespace Verif.BatchVmap

variable {D α : Type}

theorem leadDim_iff (l : List (List Nat)) (n : Nat) : leadDim l = some n ↔ l ≠ [] ∧ ∀ s ∈ l, s.head? = some n := by
  cases l with
  | nil => simp [leadDim]
  | cons s rest =>
    cases s with
    | nil => simp [leadDim]
    | cons m s =>
      rw [leadDim]
      split
      · rename_i h
        rw [List.all_eq_true] at h
        constructor
        · intro e
          cases e
          refine ⟨by simp, ?_⟩
          intro t ht
          rcases List.mem_cons.1 ht with rfl | ht
          · rfl
          · simpa using h t ht
        · rintro ⟨_, h2⟩
          have := h2 _ (List.mem_cons_self ..)
          simpa using this
      · rename_i h
        simp only [reduceCtorEq, ne_eq, not_false_eq_true, true_and, false_iff]
        intro h2
        apply h
        rw [List.all_eq_true]
        intro t ht
        have h3 := h2 _ (List.mem_cons_self ..)
        have h4 := h2 t (List.mem_cons_of_mem _ ht)
        rw [h4, ← h3]
        simp

theorem mapLead_shape_iff (f : JaxFn D α) (args : List (Tree D (List Nat))) (S : Tree D (List Nat)) :
    (mapLead f).shape args = .ok S ↔ ∃ n S0, (args.flatMap Tree.leaves ≠ [] ∧
      ∀ s ∈ args.flatMap Tree.leaves, s.head? = some n) ∧ f.shape (args.map (Tree.map List.tail)) = .ok S0 ∧
      S = S0.map (n :: ·) := by
  simp only [mapLead]
  cases h : leadDim (args.flatMap Tree.leaves) with
  | none =>
    simp only [reduceCtorEq, false_iff]
    rintro ⟨n, S0, h1, _⟩
    rw [← leadDim_iff, h] at h1; cases h1
  | some n =>
    simp only
    cases hf : f.shape (args.map (Tree.map List.tail)) with
    | error e =>
      constructor
      · intro h'; cases h'
      · rintro ⟨_, _, _, h', _⟩; cases h'
    | ok S0 =>
      constructor
      · intro h'; cases h'; exact ⟨n, S0, (leadDim_iff _ _).1 h, rfl, rfl⟩
      · rintro ⟨n', S0', h1, h2, rfl⟩
        rw [← leadDim_iff, h] at h1
        cases h1; cases h2; rfl

/-- The results of a call. -/
def outTree (S : Tree D (List Nat)) (v : Nat → List Nat → α) : Tree D (Arr α) :=
  ⟨S.treedef, S.leaves.zipIdx.map (fun s => ⟨s.1, v s.2⟩)⟩

theorem call_ok_iff (f : JaxFn D α) (args : List (Tree D (Arr α))) (R : Tree D (Arr α)) :
    f.call args = .ok R ↔ ∃ S, f.shape (args.map shapes) = .ok S ∧ R = outTree S (f.val args) := by
  unfold JaxFn.call
  cases f.shape (args.map shapes) with
  | error e =>
    constructor
    · intro h; cases h
    · rintro ⟨_, h, _⟩; cases h
  | ok S =>
    constructor
    · intro h; cases h; exact ⟨S, rfl, rfl⟩
    · rintro ⟨_, h, rfl⟩; cases h; rfl

/-- The mapped leaves with their axes. -/
def pairs (items : List (Tree D (Arr α) × Option (List Nat))) : List (Arr α × Nat) :=
  (mapped (fun x axs => x.leaves.zip axs) items).flatten

theorem leaves_mapped (items : List (Tree D (Arr α) × Option (List Nat))) (g : Arr α → Nat → Arr α) :
    ((mapped (fun (x : Tree D (Arr α)) axs => (⟨x.treedef, List.zipWith g x.leaves axs⟩ : Tree D (Arr α))) items).map
      shapes).flatMap Tree.leaves = (pairs items).map (fun p => (g p.1 p.2).shape) := by
  unfold pairs
  induction items with
  | nil => rfl
  | cons p items ih =>
    rcases p with ⟨x, _ | axs⟩
    · simpa only [mapped] using ih
    · simp only [mapped, List.map_cons, List.flatMap_cons, ih, List.flatten_cons, List.map_append]
      congr 1
      simp only [shapes, Tree.map, List.map_zipWith, List.zip]

theorem slice_eq_whole (k : Nat) (p : Tree D (Arr α) × Option (List Nat)) :
    slice k p = whole id (fun x axs => ⟨x.treedef, List.zipWith (sliceLeaf k) x.leaves axs⟩) p := by
  rcases p with ⟨x, _ | axs⟩ <;> rfl

/-- The arguments in the place `k`. -/
theorem insertAll_slices (items : List (Tree D (Arr α) × Option (List Nat))) (k : Nat) :
    insertAll (unb id 0 items) (mapped (fun (x : Tree D (Arr α)) axs =>
      (⟨x.treedef, List.zipWith (sliceLeaf k) x.leaves axs⟩ : Tree D (Arr α))) items) = items.map (slice k) := by
  have := insertAll_unb id (fun (x : Tree D (Arr α)) axs =>
      (⟨x.treedef, List.zipWith (sliceLeaf k) x.leaves axs⟩ : Tree D (Arr α))) items []
  simp only [List.length_nil, List.nil_append] at this
  rw [this]
  apply List.map_congr_left
  intro p _
  exact (slice_eq_whole k p).symm

theorem insertAll_shapes (items : List (Tree D (Arr α) × Option (List Nat)))
    (g : Tree D (Arr α) → List Nat → Tree D (List Nat))
    (hg : ∀ x axs, g x axs = shapes (slice 0 (x, some axs))) :
    insertAll ((unb id 0 items).map (fun p => (p.1, shapes p.2))) (mapped g items) =
      items.map (fun p => shapes (slice 0 p)) := by
  rw [unb_map]
  have := insertAll_unb (fun x => shapes (id x)) g items []
  simp only [List.length_nil, List.nil_append] at this
  rw [this]
  apply List.map_congr_left
  rintro ⟨x, _ | axs⟩ _
  · rfl
  · simp only [whole, hg]

/-- The leaves of the loop's result. -/
def loopOutLeaf (f : JaxFn D α) (items : List (Tree D (Arr α) × Option (List Nat))) (b q : Nat) (s : List Nat × Nat) : Arr α :=
  ⟨q :: b :: s.1, fun l => f.val (items.map (slice (l.headD 0 * b + l.tail.headD 0))) s.2 l.tail.tail⟩

/-- The leaves of the tail's result. -/
def tailOutLeaf (f : JaxFn D α) (items : List (Tree D (Arr α) × Option (List Nat))) (m r : Nat) (s : List Nat × Nat) : Arr α :=
  ⟨r :: s.1, fun l => f.val (items.map (slice (l.headD 0 + m))) s.2 l.tail⟩

theorem zipIdx_map_map {A B : Type} (l : List A) (u : A → A) (g : A × Nat → B) :
    (l.map u).zipIdx.map g = l.zipIdx.map (fun s => g (u s.1, s.2)) := by
  rw [List.zipIdx_map, List.map_map]; rfl

theorem loop_iff (f : JaxFn D α) (items : List (Tree D (Arr α) × Option (List Nat))) (b : Nat) (Lo : Tree D (Arr α)) :
    (mapLead (mapLead (f2 f (unb id 0 items)))).call (mapped (loopTree b) items) = .ok Lo ↔
      ∃ q S, pairs items ≠ [] ∧ (∀ p ∈ pairs items, p.1.shape.getD p.2 0 / b = q) ∧
        f.shape (items.map (fun p => shapes (slice 0 p))) = .ok S ∧
        Lo = ⟨S.treedef, S.leaves.zipIdx.map (loopOutLeaf f items b q)⟩ := by
  have hl := leaves_mapped items (loopLeaf b)
  have hl2 : (((mapped (loopTree b) items).map shapes).map (Tree.map List.tail)).flatMap Tree.leaves =
      (pairs items).map (fun p => (row 0 (loopLeaf b p.1 p.2)).shape) := by
    rw [List.map_map, ← leaves_mapped items (fun x o => row 0 (loopLeaf b x o)), mapped_map, mapped_map]
    congr 2
    funext x axs
    simp only [loopTree, Function.comp, shapes, Tree.map, List.map_zipWith, row]
  have hshape : insertAll ((unb id 0 items).map (fun p => (p.1, shapes p.2)))
      ((((mapped (loopTree b) items).map shapes).map (Tree.map List.tail)).map (Tree.map List.tail)) =
      items.map (fun p => shapes (slice 0 p)) := by
    rw [List.map_map, List.map_map, mapped_map]
    apply insertAll_shapes
    intro x axs
    simp only [loopTree, Function.comp, shapes, Tree.map, List.map_zipWith, slice]
    congr 1
  have hval : ∀ (leaf : Nat) (l : List Nat), (mapLead (mapLead (f2 f (unb id 0 items)))).val (mapped (loopTree b) items) leaf l =
      f.val (items.map (slice (l.headD 0 * b + l.tail.headD 0))) leaf l.tail.tail := by
    intro leaf l
    simp only [mapLead, f2]
    rw [List.map_map, mapped_map]
    congr 1
    rw [← insertAll_slices]
    congr 2
    funext x axs
    simp only [loopTree, Function.comp, Tree.map, List.map_zipWith, row_row_loop]
  rw [call_ok_iff]
  constructor
  · rintro ⟨S1, h1, rfl⟩
    obtain ⟨q, S2, ⟨hne, hq⟩, h2, rfl⟩ := (mapLead_shape_iff _ _ _).1 h1
    obtain ⟨c, S, ⟨hne2, hc⟩, h3, rfl⟩ := (mapLead_shape_iff _ _ _).1 h2
    rw [show (mapped (loopTree b) items) = mapped (fun (x : Tree D (Arr α)) axs =>
      (⟨x.treedef, List.zipWith (loopLeaf b) x.leaves axs⟩ : Tree D (Arr α))) items from rfl, hl] at hne hq
    rw [hl2] at hne2 hc
    have hp : pairs items ≠ [] := fun h => hne (by rw [h]; rfl)
    have hc' : c = b := by
      obtain ⟨p, hpm⟩ := List.exists_mem_of_ne_nil _ hp
      have := hc _ (List.mem_map_of_mem hpm)
      simp only [row, loopLeaf, splitLead, List.tail_cons, List.head?_cons, Option.some.injEq] at this
      exact this.symm
    subst hc'
    refine ⟨q, S, hp, ?_, ?_, ?_⟩
    · intro p hpm
      have := hq _ (List.mem_map_of_mem hpm)
      simpa only [loopLeaf, splitLead, List.head?_cons, Option.some.injEq] using this
    · rw [← hshape]; exact h3
    · unfold outTree
      simp only [Tree.map, Tree.mk.injEq, true_and, List.map_map]
      rw [zipIdx_map_map]
      apply List.map_congr_left
      intro s _
      simp only [loopOutLeaf, Function.comp, Arr.mk.injEq, true_and]
      funext l
      exact hval s.2 l
  · rintro ⟨q, S, hp, hq, hS, rfl⟩
    refine ⟨(S.map (b :: ·)).map (q :: ·), ?_, ?_⟩
    · rw [mapLead_shape_iff]
      refine ⟨q, S.map (b :: ·), ⟨?_, ?_⟩, ?_, rfl⟩
      · rw [show (mapped (loopTree b) items) = mapped (fun (x : Tree D (Arr α)) axs =>
          (⟨x.treedef, List.zipWith (loopLeaf b) x.leaves axs⟩ : Tree D (Arr α))) items from rfl, hl]
        simpa using hp
      · rw [show (mapped (loopTree b) items) = mapped (fun (x : Tree D (Arr α)) axs =>
          (⟨x.treedef, List.zipWith (loopLeaf b) x.leaves axs⟩ : Tree D (Arr α))) items from rfl, hl]
        intro s hs
        obtain ⟨p, hpm, rfl⟩ := List.mem_map.1 hs
        simp only [loopLeaf, splitLead, List.head?_cons, Option.some.injEq]
        exact hq p hpm
      · rw [mapLead_shape_iff]
        refine ⟨b, S, ⟨?_, ?_⟩, ?_, rfl⟩
        · rw [hl2]; simpa using hp
        · rw [hl2]
          intro s hs
          obtain ⟨p, hpm, rfl⟩ := List.mem_map.1 hs
          simp only [row, loopLeaf, splitLead, List.tail_cons, List.head?_cons]
        · rw [← hS, ← hshape]; rfl
    · unfold outTree
      simp only [Tree.map, Tree.mk.injEq, true_and, List.map_map]
      rw [zipIdx_map_map]
      apply List.map_congr_left
      intro s _
      simp only [loopOutLeaf, Function.comp, Arr.mk.injEq, true_and]
      funext l
      exact (hval s.2 l).symm

theorem tail_iff (f : JaxFn D α) (items : List (Tree D (Arr α) × Option (List Nat))) (b m : Nat)
    (hm : ∀ p ∈ pairs items, p.1.shape.getD p.2 0 / b * b = m) (To : Tree D (Arr α)) :
    (mapLead (f2 f (unb id 0 items))).call (mapped (tailTree b) items) = .ok To ↔
      ∃ r S, pairs items ≠ [] ∧ (∀ p ∈ pairs items, p.1.shape.getD p.2 0 - m = r) ∧
        f.shape (items.map (fun p => shapes (slice 0 p))) = .ok S ∧
        To = ⟨S.treedef, S.leaves.zipIdx.map (tailOutLeaf f items m r)⟩ := by
  have hl := leaves_mapped items (tailLeaf b)
  have hshape : insertAll ((unb id 0 items).map (fun p => (p.1, shapes p.2)))
      (((mapped (tailTree b) items).map shapes).map (Tree.map List.tail)) =
      items.map (fun p => shapes (slice 0 p)) := by
    rw [List.map_map, mapped_map]
    apply insertAll_shapes
    intro x axs
    simp only [tailTree, Function.comp, shapes, Tree.map, List.map_zipWith, slice]
    congr 1
  have hrow : ∀ (k : Nat), mapped (fun (x : Tree D (Arr α)) axs => (⟨x.treedef, List.zipWith (fun y o => row k (tailLeaf b y o)) x.leaves axs⟩ : Tree D (Arr α))) items =
      mapped (fun (x : Tree D (Arr α)) axs => (⟨x.treedef, List.zipWith (sliceLeaf (k + m)) x.leaves axs⟩ : Tree D (Arr α))) items := by
    intro k
    unfold pairs at hm
    clear hl hshape
    induction items with
    | nil => rfl
    | cons p items ih =>
      rcases p with ⟨x, _ | axs⟩
      · simp only [mapped] at hm ⊢
        exact ih hm
      · simp only [mapped, List.flatten_cons, List.mem_append] at hm ⊢
        rw [ih (fun p hp => hm p (Or.inr hp))]
        congr 2
        have h1 : ∀ p ∈ x.leaves.zip axs, p.1.shape.getD p.2 0 / b * b = m := fun p hp => hm p (Or.inl hp)
        clear hm ih
        generalize x.leaves = ls at h1
        induction ls generalizing axs with
        | nil => simp
        | cons y ls ih2 =>
          cases axs with
          | nil => simp
          | cons o axs =>
            simp only [List.zip_cons_cons, List.mem_cons] at h1
            simp only [List.zipWith_cons_cons]
            rw [ih2 axs (fun p hp => h1 p (Or.inr hp)), row_tail, h1 (y, o) (Or.inl rfl)]
  have hval : ∀ (leaf : Nat) (l : List Nat), (mapLead (f2 f (unb id 0 items))).val (mapped (tailTree b) items) leaf l =
      f.val (items.map (slice (l.headD 0 + m))) leaf l.tail := by
    intro leaf l
    simp only [mapLead, f2]
    rw [mapped_map]
    congr 1
    rw [← insertAll_slices, ← hrow]
    congr 2
    funext x axs
    simp only [tailTree, Tree.map, List.map_zipWith]
  rw [call_ok_iff]
  constructor
  · rintro ⟨S1, h1, rfl⟩
    obtain ⟨r, S, ⟨hne, hr⟩, h2, rfl⟩ := (mapLead_shape_iff _ _ _).1 h1
    rw [show (mapped (tailTree b) items) = mapped (fun (x : Tree D (Arr α)) axs =>
      (⟨x.treedef, List.zipWith (tailLeaf b) x.leaves axs⟩ : Tree D (Arr α))) items from rfl, hl] at hne hr
    have hp : pairs items ≠ [] := fun h => hne (by rw [h]; rfl)
    refine ⟨r, S, hp, ?_, ?_, ?_⟩
    · intro p hpm
      have := hr _ (List.mem_map_of_mem hpm)
      simp only [tailLeaf, dropLead, moveToFront, List.head?_cons, List.headD_cons, Option.some.injEq, hm p hpm] at this
      exact this
    · rw [← hshape]; exact h2
    · unfold outTree
      simp only [Tree.map, Tree.mk.injEq, true_and]
      rw [zipIdx_map_map]
      apply List.map_congr_left
      intro s _
      simp only [tailOutLeaf, Arr.mk.injEq, true_and]
      funext l
      exact hval s.2 l
  · rintro ⟨r, S, hp, hr, hS, rfl⟩
    refine ⟨S.map (r :: ·), ?_, ?_⟩
    · rw [mapLead_shape_iff]
      refine ⟨r, S, ⟨?_, ?_⟩, ?_, rfl⟩
      · rw [show (mapped (tailTree b) items) = mapped (fun (x : Tree D (Arr α)) axs =>
          (⟨x.treedef, List.zipWith (tailLeaf b) x.leaves axs⟩ : Tree D (Arr α))) items from rfl, hl]
        simpa using hp
      · rw [show (mapped (tailTree b) items) = mapped (fun (x : Tree D (Arr α)) axs =>
          (⟨x.treedef, List.zipWith (tailLeaf b) x.leaves axs⟩ : Tree D (Arr α))) items from rfl, hl]
        intro s hs
        obtain ⟨p, hpm, rfl⟩ := List.mem_map.1 hs
        simp only [tailLeaf, dropLead, moveToFront, List.head?_cons, List.headD_cons, Option.some.injEq, hm p hpm]
        exact hr p hpm
      · rw [← hS, ← hshape]; rfl
    · unfold outTree
      simp only [Tree.map, Tree.mk.injEq, true_and]
      rw [zipIdx_map_map]
      apply List.map_congr_left
      intro s _
      simp only [tailOutLeaf, Arr.mk.injEq, true_and]
      funext l
      exact (hval s.2 l).symm

/-- The results for all places, stacked. -/
def stacked (f : JaxFn D α) (items : List (Tree D (Arr α) × Option (List Nat))) (n : Nat) (s : List Nat × Nat) : Arr α :=
  ⟨n :: s.1, fun l => f.val (items.map (slice (l.headD 0))) s.2 l.tail⟩

theorem postprocess_iff (f : JaxFn D α) (items : List (Tree D (Arr α) × Option (List Nat))) (b q r : Nat) (s : List Nat × Nat)
    (a : Int) (A : Arr α) :
    postprocess (loopOutLeaf f items b q s) (tailOutLeaf f items (q * b) r s) a = .ok A ↔
      ∃ o, AxisIs (s.1.length + 1) a o ∧ A = moveFromFront (stacked f items (q * b + r) s) o := by
  have hc : concatLead (mergeLead (loopOutLeaf f items b q s)) (tailOutLeaf f items (q * b) r s) =
      .ok (stacked f items (q * b + r) s) := by
    unfold concatLead
    rw [if_neg (by simp [mergeLead, loopOutLeaf, tailOutLeaf])]
    simp only [mergeLead, loopOutLeaf, tailOutLeaf, stacked, List.headD_cons, List.tail_cons, Except.ok.injEq, Arr.mk.injEq,
      true_and]
    funext l
    show (if l.headD 0 < q * b then f.val (List.map (slice (l.headD 0 / b * b + l.headD 0 % b)) items) s.2 l.tail
      else f.val (List.map (slice (l.headD 0 - q * b + q * b)) items) s.2 l.tail) = _
    by_cases h : l.headD 0 < q * b
    · rw [if_pos h, Nat.div_add_mod']
    · rw [if_neg h, Nat.sub_add_cancel (by omega)]
  unfold postprocess
  rw [hc]
  show (match normAxis (stacked f items (q * b + r) s).shape.length a with
    | none => Except.error "ValueError"
    | some o => pure (moveFromFront (stacked f items (q * b + r) s) o)) = .ok A ↔ _
  have hlen : (stacked f items (q * b + r) s).shape.length = s.1.length + 1 := rfl
  rw [hlen]
  cases hn : normAxis (s.1.length + 1) a with
  | none =>
    simp only [reduceCtorEq, false_iff]
    rintro ⟨o, ho, _⟩
    rw [← normAxis_some, hn] at ho; cases ho
  | some o =>
    constructor
    · intro h; cases h; exact ⟨o, (normAxis_some _ _ _).1 hn, rfl⟩
    · rintro ⟨o', ho, rfl⟩
      rw [← normAxis_some, hn] at ho; cases ho; rfl

/-- `out_axes` fits results of the given structure and shapes, and stands for the given axes of the leaves. -/
inductive OutFits (S : Tree D (List Nat)) : OutAxes D → List Nat → Prop
  | int (a : Int) (outs : List Nat) : List.Forall₂ (fun s o => AxisIs (s.length + 1) a o) S.leaves outs → OutFits S (.int a) outs
  | tree (t : Tree D Int) (outs : List Nat) : t.treedef = S.treedef → t.leaves.length = S.leaves.length →
      List.Forall₂ (fun (p : List Nat × Int) o => AxisIs (p.1.length + 1) p.2 o) (S.leaves.zip t.leaves) outs →
      OutFits S (.tree t) outs

theorem post_all (f : JaxFn D α) (items : List (Tree D (Arr α) × Option (List Nat))) (b q r : Nat) :
    ∀ (Z : List (List Nat × Nat)) (as : List Int) (_ : as.length = Z.length) (out : List (Arr α)),
    ((((Z.map (loopOutLeaf f items b q)).zip (Z.map (tailOutLeaf f items (q * b) r))).zip as).mapM
      (fun (p : (Arr α × Arr α) × Int) => postprocess p.1.1 p.1.2 p.2)) = .ok out ↔
      ∃ outs, List.Forall₂ (fun (p : List Nat × Int) o => AxisIs (p.1.length + 1) p.2 o) ((Z.map Prod.fst).zip as) outs ∧
        out = List.zipWith (fun s o => moveFromFront (stacked f items (q * b + r) s) o) Z outs := by
  intro Z as hlen out
  rw [mapM_ok_iff]
  induction Z generalizing as out with
  | nil =>
    simp only [List.map_nil, List.zip_nil_left, List.forall₂_nil_left_iff, List.zipWith_nil_left]
    constructor
    · intro h; exact ⟨[], rfl, h⟩
    · rintro ⟨_, _, h⟩; exact h
  | cons s Z ih =>
    cases as with
    | nil => simp at hlen
    | cons a as =>
      simp only [List.map_cons, List.zip_cons_cons]
      have ih := ih as (by simpa using hlen)
      constructor
      · intro h
        cases h
        rename_i A out h1 h2
        obtain ⟨o, ho, rfl⟩ := (postprocess_iff _ _ _ _ _ _ _ _).1 h1
        obtain ⟨outs, h3, rfl⟩ := (ih out).1 h2
        exact ⟨o :: outs, .cons ho h3, rfl⟩
      · rintro ⟨outs, h, rfl⟩
        cases h
        rename_i o outs h1 h2
        rw [List.zipWith_cons_cons]
        exact .cons ((postprocess_iff _ _ _ _ _ _ _ _).2 ⟨o, h1, rfl⟩) ((ih _).2 ⟨outs, h2, rfl⟩)

theorem outFits_int (ls : List (List Nat)) (a : Int) (outs : List Nat) :
    List.Forall₂ (fun (p : List Nat × Int) o => AxisIs (p.1.length + 1) p.2 o) (ls.zip (List.replicate ls.length a)) outs ↔
      List.Forall₂ (fun s o => AxisIs (s.length + 1) a o) ls outs := by
  induction ls generalizing outs with
  | nil => simp
  | cons s ls ih =>
    rw [List.length_cons, List.replicate_succ, List.zip_cons_cons]
    constructor
    · intro h; cases h; rename_i h1 h2; exact .cons h1 ((ih _).1 h2)
    · intro h; cases h; rename_i h1 h2; exact .cons h1 ((ih _).2 h2)

/-- The tree `out_axes` has as many leaves as its structure says. -/
def OutOk (S : Tree D (List Nat)) (oa : OutAxes D) : Prop :=
  ∀ t, oa = .tree t → t.treedef = S.treedef → t.leaves.length = S.leaves.length

theorem finish_iff [DecidableEq D] (f : JaxFn D α) (items : List (Tree D (Arr α) × Option (List Nat))) (b q r : Nat)
    (S : Tree D (List Nat)) (oa : OutAxes D) (hoa : OutOk S oa) (R : Tree D (Arr α)) :
    finish ⟨S.treedef, S.leaves.zipIdx.map (loopOutLeaf f items b q)⟩
      ⟨S.treedef, S.leaves.zipIdx.map (tailOutLeaf f items (q * b) r)⟩ oa = .ok R ↔
      ∃ outs, OutFits S oa outs ∧ R = ⟨S.treedef, List.zipWith (fun s o => moveFromFront (stacked f items (q * b + r) s) o)
        S.leaves.zipIdx outs⟩ := by
  have hZ : S.leaves.zipIdx.map Prod.fst = S.leaves := by simp
  have body : ∀ as : List Int, as.length = S.leaves.length →
      ((do
        let leaves ← (((S.leaves.zipIdx.map (loopOutLeaf f items b q)).zip
          (S.leaves.zipIdx.map (tailOutLeaf f items (q * b) r))).zip as).mapM
            (fun (p : (Arr α × Arr α) × Int) => postprocess p.1.1 p.1.2 p.2)
        pure (⟨S.treedef, leaves⟩ : Tree D (Arr α)) : Except String (Tree D (Arr α))) = .ok R ↔
      ∃ outs, List.Forall₂ (fun (p : List Nat × Int) o => AxisIs (p.1.length + 1) p.2 o) (S.leaves.zip as) outs ∧
        R = ⟨S.treedef, List.zipWith (fun s o => moveFromFront (stacked f items (q * b + r) s) o) S.leaves.zipIdx outs⟩) := by
    intro as has
    have h := post_all f items b q r S.leaves.zipIdx as (by simpa using has)
    rw [hZ] at h
    constructor
    · intro hR
      cases hm : (((S.leaves.zipIdx.map (loopOutLeaf f items b q)).zip
          (S.leaves.zipIdx.map (tailOutLeaf f items (q * b) r))).zip as).mapM
            (fun (p : (Arr α × Arr α) × Int) => postprocess p.1.1 p.1.2 p.2) with
      | error e => rw [hm] at hR; cases hR
      | ok out =>
        rw [hm] at hR
        obtain ⟨outs, h1, rfl⟩ := (h out).1 hm
        cases hR
        exact ⟨outs, h1, rfl⟩
    · rintro ⟨outs, h1, rfl⟩
      rw [(h _).2 ⟨outs, h1, rfl⟩]
      rfl
  cases oa with
  | int a =>
    have e : finish ⟨S.treedef, S.leaves.zipIdx.map (loopOutLeaf f items b q)⟩
      ⟨S.treedef, S.leaves.zipIdx.map (tailOutLeaf f items (q * b) r)⟩ (.int a) = (do
        let leaves ← (((S.leaves.zipIdx.map (loopOutLeaf f items b q)).zip
          (S.leaves.zipIdx.map (tailOutLeaf f items (q * b) r))).zip (List.replicate S.leaves.length a)).mapM
            (fun (p : (Arr α × Arr α) × Int) => postprocess p.1.1 p.1.2 p.2)
        pure (⟨S.treedef, leaves⟩ : Tree D (Arr α)) : Except String (Tree D (Arr α))) := by
      unfold finish
      rw [if_neg (by simp)]
      simp only [List.length_map, List.length_zipIdx]
      rfl
    rw [e, body _ (by simp)]
    constructor
    · rintro ⟨outs, h, rfl⟩; exact ⟨outs, .int a outs ((outFits_int _ _ _).1 h), rfl⟩
    · rintro ⟨outs, h, rfl⟩; cases h; rename_i h; exact ⟨outs, (outFits_int _ _ _).2 h, rfl⟩
  | tree t =>
    by_cases ht : t.treedef = S.treedef
    · have e : finish ⟨S.treedef, S.leaves.zipIdx.map (loopOutLeaf f items b q)⟩
        ⟨S.treedef, S.leaves.zipIdx.map (tailOutLeaf f items (q * b) r)⟩ (.tree t) = (do
          let leaves ← (((S.leaves.zipIdx.map (loopOutLeaf f items b q)).zip
            (S.leaves.zipIdx.map (tailOutLeaf f items (q * b) r))).zip t.leaves).mapM
              (fun (p : (Arr α × Arr α) × Int) => postprocess p.1.1 p.1.2 p.2)
          pure (⟨S.treedef, leaves⟩ : Tree D (Arr α)) : Except String (Tree D (Arr α))) := by
        unfold finish
        rw [if_neg (by simp)]
        simp only [ht, ne_eq, not_true_eq_false, if_false]
        rfl
      rw [e, body _ (hoa t rfl ht)]
      constructor
      · rintro ⟨outs, h, rfl⟩; exact ⟨outs, .tree t outs ht (hoa t rfl ht) h, rfl⟩
      · rintro ⟨outs, h, rfl⟩; cases h; rename_i h; exact ⟨outs, h, rfl⟩
    · have e : finish ⟨S.treedef, S.leaves.zipIdx.map (loopOutLeaf f items b q)⟩
        ⟨S.treedef, S.leaves.zipIdx.map (tailOutLeaf f items (q * b) r)⟩ (.tree t) = .error "ValueError" := by
        unfold finish
        rw [if_neg (by simp)]
        simp only [ht, ne_eq, not_false_eq_true, if_true]
        rfl
      rw [e]
      constructor
      · intro h; cases h
      · rintro ⟨outs, h, _⟩; cases h; exact absurd ‹_› ht

/-- The batch dimensions of the fitted arguments, leaf by leaf. -/
theorem common_iff (n : Nat) (zs : List (Tree D (Arr α) × AxArg D)) (res : List (Option (List Nat)))
    (h : List.Forall₂ (fun p o => Fits p.1 p.2 o) zs res) :
    Common n ((zs.map Prod.fst).zip res) ↔ ∀ p ∈ pairs ((zs.map Prod.fst).zip res), p.1.shape.getD p.2 0 = n := by
  induction h with
  | nil => simp [Common, pairs, mapped]
  | @cons z r zs res h1 h2 ih =>
    have hcons : Common n (((z :: zs).map Prod.fst).zip (r :: res)) ↔
        (∀ axs, r = some axs → List.Forall₂ (fun x o => x.shape[o]? = some n) z.1.leaves axs) ∧
        Common n ((zs.map Prod.fst).zip res) := by
      simp only [Common, List.map_cons, List.zip_cons_cons, List.mem_cons, forall_eq_or_imp]
    have key : ∀ (ls : List (Arr α)) (axs : List Nat), List.Forall₂ (fun (x : Arr α) o => o < x.shape.length) ls axs →
        (List.Forall₂ (fun x o => x.shape[o]? = some n) ls axs ↔ ∀ p ∈ ls.zip axs, p.1.shape.getD p.2 0 = n) := by
      intro ls axs hl
      induction hl with
      | nil => simp
      | @cons x o ls axs h1 _ ih =>
        rw [List.forall₂_cons, ih]
        simp only [List.zip_cons_cons, List.mem_cons, forall_eq_or_imp]
        rw [List.getD_eq_getElem _ _ h1, List.getElem?_eq_getElem h1, Option.some.injEq]
    rw [hcons, ih]
    obtain ⟨x, ax⟩ := z
    change Fits x ax r at h1
    cases h1 with
    | none => simp [pairs, mapped]
    | int a axs hne hf =>
      have hl : List.Forall₂ (fun (y : Arr α) o => o < y.shape.length) x.leaves axs := hf.imp (fun _ _ h => h.1)
      simp only [Option.some.injEq, forall_eq', pairs, List.map_cons, List.zip_cons_cons, mapped, List.flatten_cons, List.mem_append]
      rw [key _ _ hl]
      constructor
      · rintro ⟨h1, h2⟩ p (hp | hp)
        · exact h1 p hp
        · exact h2 p hp
      · intro h; exact ⟨fun p hp => h p (Or.inl hp), fun p hp => h p (Or.inr hp)⟩
    | tree t axs hne htd hlen hf =>
      have hl : List.Forall₂ (fun (y : Arr α) o => o < y.shape.length) x.leaves axs := by
        have : List.Forall₂ (fun (p : Arr α × Int) o => o < p.1.shape.length) (x.leaves.zip t.leaves) axs :=
          hf.imp (fun _ _ h => h.1)
        have e : x.leaves = (x.leaves.zip t.leaves).map Prod.fst := by
          rw [List.map_fst_zip]; omega
        rw [e, List.forall₂_map_left_iff]
        exact this
      simp only [Option.some.injEq, forall_eq', pairs, List.map_cons, List.zip_cons_cons, mapped, List.flatten_cons, List.mem_append]
      rw [key _ _ hl]
      constructor
      · rintro ⟨h1, h2⟩ p (hp | hp)
        · exact h1 p hp
        · exact h2 p hp
      · intro h; exact ⟨fun p hp => h p (Or.inl hp), fun p hp => h p (Or.inr hp)⟩

theorem pairs_ne_nil (zs : List (Tree D (Arr α) × AxArg D)) (res : List (Option (List Nat)))
    (h : List.Forall₂ (fun p o => Fits p.1 p.2 o) zs res) :
    pairs ((zs.map Prod.fst).zip res) ≠ [] ↔ ∃ o ∈ res, o ≠ none := by
  induction h with
  | nil => simp [pairs, mapped]
  | @cons z r zs res h1 h2 ih =>
    obtain ⟨x, ax⟩ := z
    change Fits x ax r at h1
    cases h1 with
    | none =>
      simp only [pairs, List.map_cons, List.zip_cons_cons, mapped] at ih ⊢
      rw [ih]
      simp
    | int a axs hne hf =>
      refine iff_of_true ?_ ⟨_, List.mem_cons_self .., by simp⟩
      simp only [pairs, List.map_cons, List.zip_cons_cons, mapped, List.flatten_cons]
      intro h
      have h := (List.append_eq_nil_iff.1 h).1
      have hl := hf.length_eq
      have h' := congrArg List.length h
      rw [List.length_zip, ← hl, Nat.min_self, List.length_nil] at h'
      exact hne (List.length_eq_zero_iff.1 h')
    | tree t axs hne htd hlen hf =>
      refine iff_of_true ?_ ⟨_, List.mem_cons_self .., by simp⟩
      simp only [pairs, List.map_cons, List.zip_cons_cons, mapped, List.flatten_cons]
      intro h
      have h := (List.append_eq_nil_iff.1 h).1
      have hl := hf.length_eq
      rw [List.length_zip, hlen, Nat.min_self] at hl
      have h' := congrArg List.length h
      rw [List.length_zip, ← hl, Nat.min_self, List.length_nil] at h'
      exact hne (List.length_eq_zero_iff.1 h')

/-- The steps of `batch_vmap`. -/
theorem batchVmap_run [DecidableEq D] (f : JaxFn D α) (ia : InAxes D) (oa : OutAxes D) (b : Nat) (args : List (Tree D (Arr α)))
    (R : Tree D (Arr α)) :
    batchVmap f ia oa b args = .ok R ↔ ∃ u, collect b 0 (args.zip (ia.tuple args.length)) = .ok u ∧
      ∃ Lo, (mapLead (mapLead (f2 f u.1))).call u.2.1 = .ok Lo ∧ ∃ To, (mapLead (f2 f u.1)).call u.2.2 = .ok To ∧
        finish Lo To oa = .ok R := by
  unfold batchVmap
  cases collect b 0 (args.zip (ia.tuple args.length)) with
  | error e =>
    constructor
    · intro h; cases h
    · rintro ⟨_, h, _⟩; cases h
  | ok u =>
    show (do
      let loopOut ← (mapLead (mapLead (f2 f u.1))).call u.2.1
      let tailOut ← (mapLead (f2 f u.1)).call u.2.2
      finish loopOut tailOut oa : Except String _) = .ok R ↔ _
    cases hL : (mapLead (mapLead (f2 f u.1))).call u.2.1 with
    | error e =>
      constructor
      · intro h; cases h
      · rintro ⟨_, h, _, h', _⟩; cases h; rw [hL] at h'; cases h'
    | ok Lo =>
      show (do
        let tailOut ← (mapLead (f2 f u.1)).call u.2.2
        finish Lo tailOut oa : Except String _) = .ok R ↔ _
      cases hT : (mapLead (f2 f u.1)).call u.2.2 with
      | error e =>
        constructor
        · intro h; cases h
        · rintro ⟨_, h, _, _, _, h', _⟩; cases h; rw [hT] at h'; cases h'
      | ok To =>
        constructor
        · intro h; exact ⟨u, rfl, Lo, hL, To, hT, h⟩
        · rintro ⟨_, h, _, h1, _, h2, h3⟩
          cases h
          rw [hL] at h1; cases h1
          rw [hT] at h2; cases h2
          exact h3

theorem treesOk_of_fits (zs : List (Tree D (Arr α) × AxArg D)) (res : List (Option (List Nat)))
    (h : List.Forall₂ (fun p o => Fits p.1 p.2 o) zs res) : TreesOk zs := by
  induction h with
  | nil => intro p hp; simp at hp
  | cons h1 _ ih =>
    intro p hp t ht hd
    rcases List.mem_cons.1 hp with rfl | hp
    · rw [ht] at h1
      cases h1
      assumption
    · exact ih p hp t ht hd

theorem outOk_of_fits (S : Tree D (List Nat)) (oa : OutAxes D) (outs : List Nat) (h : OutFits S oa outs) : OutOk S oa := by
  intro t ht _
  subst ht
  cases h
  assumption

/-- A case in which `batch_vmap` succeeds, and its result. -/
theorem batchVmap_of [DecidableEq D] (f : JaxFn D α) (ia : InAxes D) (oa : OutAxes D) (b : Nat) (args : List (Tree D (Arr α)))
    (hb : b ≠ 0) (res : List (Option (List Nat))) (n : Nat) (S : Tree D (List Nat)) (outs : List Nat)
    (hfit : List.Forall₂ (fun p o => Fits p.1 p.2 o) (args.zip (ia.tuple args.length)) res) (hsome : ∃ o ∈ res, o ≠ none)
    (hcn : Common n (((args.zip (ia.tuple args.length)).map Prod.fst).zip res))
    (hS : f.shape ((((args.zip (ia.tuple args.length)).map Prod.fst).zip res).map (fun p => shapes (slice 0 p))) = .ok S)
    (ho : OutFits S oa outs) :
    batchVmap f ia oa b args = .ok ⟨S.treedef, List.zipWith (fun s o => moveFromFront
        (stacked f (((args.zip (ia.tuple args.length)).map Prod.fst).zip res) n s) o) S.leaves.zipIdx outs⟩ := by
  rw [batchVmap_run]
  have hz := treesOk_of_fits _ _ hfit
  generalize args.zip (ia.tuple args.length) = zs at *
  have hp := (pairs_ne_nil zs res hfit).2 hsome
  have hcn := (common_iff n zs res hfit).1 hcn
  refine ⟨_, (collect_ok_iff b zs hz 0 _).2 ⟨res, hfit, fun h0 => absurd h0 hb, rfl⟩, ?_⟩
  dsimp only
  refine ⟨_, (loop_iff _ _ _ _).2 ⟨n / b, S, hp, fun p hpm => by rw [hcn p hpm], hS, rfl⟩,
    _, (tail_iff _ _ _ (n / b * b) (fun p hpm => by rw [hcn p hpm]) _).2
      ⟨n - n / b * b, S, hp, fun p hpm => by rw [hcn p hpm], hS, rfl⟩, ?_⟩
  rw [finish_iff _ _ _ _ _ _ _ (outOk_of_fits _ _ _ ho)]
  refine ⟨outs, ho, ?_⟩
  have : n / b * b + (n - n / b * b) = n := Nat.add_sub_cancel' (Nat.div_mul_le_self n b)
  rw [this]

/-- When `batch_vmap` succeeds, and its result. -/
theorem batchVmap_iff [DecidableEq D] (f : JaxFn D α) (ia : InAxes D) (oa : OutAxes D) (b : Nat) (args : List (Tree D (Arr α)))
    (hz : TreesOk (args.zip (ia.tuple args.length))) (hoa : ∀ ss S, f.shape ss = .ok S → OutOk S oa) (R : Tree D (Arr α)) :
    batchVmap f ia oa b args = .ok R ↔ b ≠ 0 ∧ ∃ res n S outs,
      List.Forall₂ (fun p o => Fits p.1 p.2 o) (args.zip (ia.tuple args.length)) res ∧ (∃ o ∈ res, o ≠ none) ∧
      Common n (((args.zip (ia.tuple args.length)).map Prod.fst).zip res) ∧
      f.shape ((((args.zip (ia.tuple args.length)).map Prod.fst).zip res).map (fun p => shapes (slice 0 p))) = .ok S ∧
      OutFits S oa outs ∧ R = ⟨S.treedef, List.zipWith (fun s o => moveFromFront
        (stacked f (((args.zip (ia.tuple args.length)).map Prod.fst).zip res) n s) o) S.leaves.zipIdx outs⟩ := by
  constructor
  · rw [batchVmap_run]
    generalize args.zip (ia.tuple args.length) = zs at hz
    rintro ⟨u, hu, Lo, hL, To, hT, hR⟩
    obtain ⟨res, hfit, hb, rfl⟩ := (collect_ok_iff b zs hz 0 u).1 hu
    have hcom := fun n => common_iff n zs res hfit
    have hpn := pairs_ne_nil zs res hfit
    dsimp only at hL hT
    obtain ⟨q, S, hp, hq, hS, rfl⟩ := (loop_iff _ _ _ _).1 hL
    have hm : ∀ p ∈ pairs ((zs.map Prod.fst).zip res), p.1.shape.getD p.2 0 / b * b = q * b :=
      fun p hp => by rw [hq p hp]
    obtain ⟨r, S', _, hr, hS', rfl⟩ := (tail_iff _ _ _ (q * b) hm _).1 hT
    rw [hS] at hS'; cases hS'
    obtain ⟨outs, ho, rfl⟩ := (finish_iff _ _ _ _ _ _ _ (hoa _ _ hS) _).1 hR
    have hsome := hpn.1 hp
    refine ⟨?_, res, q * b + r, S, outs, hfit, hsome, ?_, hS, ho, rfl⟩
    · intro h0
      obtain ⟨o, h1, h2⟩ := hsome
      exact h2 (hb h0 o h1)
    · rw [hcom]
      intro p hpm
      have h1 := hm p hpm
      have h2 := hr p hpm
      have h3 := Nat.div_mul_le_self (p.1.shape.getD p.2 0) b
      omega
  · rintro ⟨hb, res, n, S, outs, hfit, hsome, hcn, hS, ho, rfl⟩
    exact batchVmap_of f ia oa b args hb res n S outs hfit hsome hcn hS ho

end Verif.BatchVmap

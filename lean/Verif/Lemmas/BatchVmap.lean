import Verif.Model.BatchVmap
import Mathlib.Data.List.Forall2
import Mathlib.Data.List.GetD

/-!
# Lemmas about `batch_vmap` on arrays and pytrees
-/

namespace Verif.BatchVmap

variable {D α : Type}

/-- `o` is the axis that `a` stands for in an array of rank `rank`. -/
def AxisIs (rank : Nat) (a : Int) (o : Nat) : Prop := o < rank ∧ ((o : Int) = a ∨ (o : Int) = a + rank)

/-- The entry `ax` of `in_axes` fits the argument `arg`, and stands for the given axes of its leaves, or for none. -/
inductive Fits (arg : Tree D (Arr α)) : AxArg D → Option (List Nat) → Prop
  | none : Fits arg .none none
  | int (a : Int) (axs : List Nat) : arg.leaves ≠ [] →
      List.Forall₂ (fun x o => AxisIs x.shape.length a o) arg.leaves axs → Fits arg (.int a) (some axs)
  | tree (t : Tree D Int) (axs : List Nat) : arg.leaves ≠ [] → t.treedef = arg.treedef →
      t.leaves.length = arg.leaves.length →
      List.Forall₂ (fun (p : Arr α × Int) o => AxisIs p.1.shape.length p.2 o) (arg.leaves.zip t.leaves) axs →
      Fits arg (.tree t) (some axs)

/-- All batch dimensions are `n`. -/
def Common (n : Nat) (items : List (Tree D (Arr α) × Option (List Nat))) : Prop :=
  ∀ p ∈ items, ∀ axs, p.2 = some axs → List.Forall₂ (fun x o => x.shape[o]? = some n) p.1.leaves axs

/-- Equal structures have equally many leaves. -/
def TreesOk (zs : List (Tree D (Arr α) × AxArg D)) : Prop :=
  ∀ p ∈ zs, ∀ t, p.2 = .tree t → t.treedef = p.1.treedef → t.leaves.length = p.1.leaves.length

/-- The part of an array at place `k` of the axis `o`. -/
def sliceLeaf (k : Nat) (x : Arr α) (o : Nat) : Arr α := ⟨x.shape.eraseIdx o, fun idx => x.get (idx.insertIdx o k)⟩

/-- The part of an argument at place `k`; an unbatched argument is passed whole. -/
def slice (k : Nat) (p : Tree D (Arr α) × Option (List Nat)) : Tree D (Arr α) :=
  match p.2 with
  | none => p.1
  | some axs => ⟨p.1.treedef, List.zipWith (sliceLeaf k) p.1.leaves axs⟩

theorem normAxis_some (rank : Nat) (a : Int) (o : Nat) : normAxis rank a = some o ↔ AxisIs rank a o := by
  unfold normAxis AxisIs
  split
  · rw [Option.some.injEq]
    split <;> omega
  · constructor
    · intro h; cases h
    · rintro ⟨h1, h2⟩; omega

/-- The reshaped leading part. -/
def loopLeaf (b : Nat) (x : Arr α) (o : Nat) : Arr α :=
  splitLead (x.shape.getD o 0 / b) b (takeLead (x.shape.getD o 0 / b * b) (moveToFront x o))

/-- The rest. -/
def tailLeaf (b : Nat) (x : Arr α) (o : Nat) : Arr α :=
  dropLead (x.shape.getD o 0 / b * b) (moveToFront x o)

theorem row_row_loop (b i j : Nat) (x : Arr α) (o : Nat) :
    row j (row i (loopLeaf b x o)) = sliceLeaf (i * b + j) x o := by
  simp [row, loopLeaf, sliceLeaf, splitLead, takeLead, moveToFront]

theorem row_tail (b k : Nat) (x : Arr α) (o : Nat) :
    row k (tailLeaf b x o) = sliceLeaf (k + x.shape.getD o 0 / b * b) x o := by
  simp [row, tailLeaf, sliceLeaf, dropLead, moveToFront]

theorem preprocess_ok_iff (b : Nat) (x : Arr α) (a : Int) (r : Arr α × Arr α) :
    preprocess b x a = .ok r ↔ b ≠ 0 ∧ ∃ o, AxisIs x.shape.length a o ∧ r = (loopLeaf b x o, tailLeaf b x o) := by
  unfold preprocess
  cases h : normAxis x.shape.length a with
  | none =>
    simp only [reduceCtorEq, false_iff]
    rintro ⟨_, o, ho, _⟩
    rw [← normAxis_some, h] at ho; cases ho
  | some o =>
    have ho := (normAxis_some _ _ _).1 h
    simp only
    split
    · rename_i hb; simp [hb]
    · rename_i hb
      simp only [Except.ok.injEq]
      constructor
      · intro e; exact ⟨hb, o, ho, e.symm⟩
      · rintro ⟨_, o', ho', e⟩
        rw [← normAxis_some, h] at ho'
        cases ho'
        exact e.symm

theorem mapM_ok_iff {A B : Type} (f : A → Except String B) : ∀ (l : List A) (r : List B),
    l.mapM f = .ok r ↔ List.Forall₂ (fun a b => f a = .ok b) l r
  | [], r => by
    simp only [List.mapM_nil, List.forall₂_nil_left_iff]
    constructor
    · intro h; cases h; rfl
    · intro h; rw [h]; rfl
  | a :: l, r => by
    rw [List.mapM_cons]
    cases ha : f a with
    | error e =>
      constructor
      · intro h; cases h
      · intro h; cases h; rename_i h1 _; rw [ha] at h1; cases h1
    | ok b =>
      cases hl : l.mapM f with
      | error e =>
        constructor
        · intro h; cases h
        · intro h; cases h; rename_i _ h1
          rw [← mapM_ok_iff f l, hl] at h1; cases h1
      | ok bs =>
        constructor
        · intro h
          cases h
          exact .cons ha ((mapM_ok_iff f l bs).1 hl)
        · intro h
          cases h
          rename_i b' bs' h1 h2
          rw [ha] at h1; cases h1
          rw [← mapM_ok_iff f l, hl] at h2; cases h2
          rfl

/-- The arguments of the loop. -/
def loopTree (b : Nat) (arg : Tree D (Arr α)) (axs : List Nat) : Tree D (Arr α) :=
  ⟨arg.treedef, List.zipWith (loopLeaf b) arg.leaves axs⟩

/-- The arguments of the tail. -/
def tailTree (b : Nat) (arg : Tree D (Arr α)) (axs : List Nat) : Tree D (Arr α) :=
  ⟨arg.treedef, List.zipWith (tailLeaf b) arg.leaves axs⟩

theorem forall2_pre (b : Nat) (hb : b ≠ 0) : ∀ (l : List (Arr α × Int)) (out : List (Arr α × Arr α)),
    List.Forall₂ (fun p r => preprocess b p.1 p.2 = .ok r) l out ↔
      ∃ axs, List.Forall₂ (fun (p : Arr α × Int) o => AxisIs p.1.shape.length p.2 o) l axs ∧
        out = List.zipWith (fun p o => (loopLeaf b p.1 o, tailLeaf b p.1 o)) l axs
  | [], out => by
    simp only [List.forall₂_nil_left_iff]
    constructor
    · intro h; exact ⟨[], rfl, by simpa using h⟩
    · rintro ⟨axs, rfl, h⟩; simpa using h
  | p :: l, out => by
    constructor
    · intro h
      cases h
      rename_i r rs h1 h2
      obtain ⟨_, o, ho, rfl⟩ := (preprocess_ok_iff _ _ _ _).1 h1
      obtain ⟨axs, h3, rfl⟩ := (forall2_pre b hb l rs).1 h2
      exact ⟨o :: axs, .cons ho h3, rfl⟩
    · rintro ⟨axs, h, rfl⟩
      cases h
      rename_i o axs h1 h2
      rw [List.zipWith_cons_cons]
      exact .cons ((preprocess_ok_iff _ _ _ _).2 ⟨hb, o, h1, rfl⟩) ((forall2_pre b hb l _).2 ⟨axs, h2, rfl⟩)

/-- When the preparation of one argument succeeds, and its result. -/
theorem preprocessTree_ok_iff [DecidableEq D] (b : Nat) (arg : Tree D (Arr α)) (t : Tree D Int)
    (ht : t.treedef = arg.treedef → t.leaves.length = arg.leaves.length) (r : Tree D (Arr α) × Tree D (Arr α)) :
    preprocessTree b arg t = .ok r ↔ b ≠ 0 ∧ arg.leaves ≠ [] ∧ t.treedef = arg.treedef ∧ ∃ axs,
      List.Forall₂ (fun (p : Arr α × Int) o => AxisIs p.1.shape.length p.2 o) (arg.leaves.zip t.leaves) axs ∧
      r = (loopTree b arg axs, tailTree b arg axs) := by
  unfold preprocessTree
  split
  · rename_i h
    simp only [reduceCtorEq, false_iff]
    rintro ⟨_, _, h', _⟩; exact h h'
  · rename_i h
    have h : t.treedef = arg.treedef := not_not.1 h
    have hlen := ht h
    have key : ∀ axs, List.Forall₂ (fun (p : Arr α × Int) o => AxisIs p.1.shape.length p.2 o)
        (arg.leaves.zip t.leaves) axs → axs.length = arg.leaves.length := by
      intro axs ha
      have := ha.length_eq
      rw [List.length_zip, hlen, Nat.min_self] at this
      exact this.symm
    have z1 : ∀ (l : List (Arr α)) (q : List Int) (axs : List Nat), l.length = q.length →
        (List.zipWith (fun (p : Arr α × Int) o => (loopLeaf b p.1 o, tailLeaf b p.1 o)) (l.zip q) axs).map Prod.fst
          = List.zipWith (loopLeaf b) l axs ∧
        (List.zipWith (fun (p : Arr α × Int) o => (loopLeaf b p.1 o, tailLeaf b p.1 o)) (l.zip q) axs).map Prod.snd
          = List.zipWith (tailLeaf b) l axs := by
      intro l
      induction l with
      | nil => intro q axs _; simp
      | cons x l ih =>
        intro q axs hl
        cases q with
        | nil => simp at hl
        | cons a q =>
          cases axs with
          | nil => simp
          | cons o axs =>
            have := ih q axs (by simpa using hl)
            simp only [List.zip_cons_cons, List.zipWith_cons_cons, List.map_cons, this.1, this.2, and_self]
    cases hm : (arg.leaves.zip t.leaves).mapM (fun (p : Arr α × Int) => preprocess b p.1 p.2) with
    | error e =>
      constructor
      · intro h'; cases h'
      · rintro ⟨hb, _, _, axs, ha, _⟩
        have := (mapM_ok_iff _ _ _).2 ((forall2_pre b hb _ _).2 ⟨axs, ha, rfl⟩)
        rw [hm] at this; cases this
    | ok out =>
      have hf := (mapM_ok_iff _ _ _).1 hm
      have hlo : out.length = arg.leaves.length := by
        have := hf.length_eq
        rw [List.length_zip, hlen, Nat.min_self] at this
        exact this.symm
      by_cases he : out = []
      · subst he
        have : arg.leaves = [] := List.length_eq_zero_iff.1 (by simpa using hlo.symm)
        constructor
        · intro h'; cases h'
        · rintro ⟨_, h', _⟩; exact absurd this h'
      · have hb : b ≠ 0 := by
          rintro rfl
          clear hm
          generalize arg.leaves.zip t.leaves = l at hf
          cases hf with
          | nil => exact he rfl
          | cons h1 _ => exact ((preprocess_ok_iff _ _ _ _).1 h1).1 rfl
        have hne : arg.leaves ≠ [] := by
          intro h0; rw [h0] at hlo; exact he (List.length_eq_zero_iff.1 hlo)
        obtain ⟨axs, ha, rfl⟩ := (forall2_pre b hb _ _).1 hf
        have hz := z1 arg.leaves t.leaves axs hlen.symm
        have e1 : (do
            if List.zipWith (fun (p : Arr α × Int) o => (loopLeaf b p.1 o, tailLeaf b p.1 o))
              (arg.leaves.zip t.leaves) axs = [] then throw "ValueError"
            pure ((⟨arg.treedef, (List.zipWith (fun (p : Arr α × Int) o => (loopLeaf b p.1 o, tailLeaf b p.1 o))
              (arg.leaves.zip t.leaves) axs).map Prod.fst⟩ : Tree D (Arr α)),
              (⟨arg.treedef, (List.zipWith (fun (p : Arr α × Int) o => (loopLeaf b p.1 o, tailLeaf b p.1 o))
              (arg.leaves.zip t.leaves) axs).map Prod.snd⟩ : Tree D (Arr α))) : Except String _)
            = .ok (loopTree b arg axs, tailTree b arg axs) := by
          rw [if_neg he, hz.1, hz.2]; rfl
        show (do
            if _ = [] then throw "ValueError"
            pure _ : Except String _) = .ok r ↔ _
        rw [e1, Except.ok.injEq]
        constructor
        · intro e; exact ⟨hb, hne, h, axs, ha, e.symm⟩
        · rintro ⟨_, _, _, axs', ha', rfl⟩
          have : axs = axs' := by
            clear hm hf he hlo hz e1
            have : ∀ (l : List (Arr α × Int)) (u v : List Nat),
                List.Forall₂ (fun (p : Arr α × Int) o => AxisIs p.1.shape.length p.2 o) l u →
                List.Forall₂ (fun (p : Arr α × Int) o => AxisIs p.1.shape.length p.2 o) l v → u = v := by
              intro l u v hu
              induction hu generalizing v with
              | nil => intro hv; cases hv; rfl
              | cons h1 _ ih =>
                intro hv; cases hv; rename_i h2 h3
                rw [ih _ h3]
                congr 1
                have e1 := (normAxis_some _ _ _).2 h1
                have e2 := (normAxis_some _ _ _).2 h2
                rw [e1] at e2; exact Option.some.inj e2
            exact this _ _ _ ha ha'
          rw [this]

/-- The arguments with the axes they are mapped over. -/
def unb {A B : Type} (h : A → B) : Nat → List (A × Option (List Nat)) → List (Nat × B)
  | _, [] => []
  | i, (x, none) :: l => (i, h x) :: unb h (i + 1) l
  | i, (_, some _) :: l => unb h (i + 1) l

/-- The mapped arguments. -/
def mapped {A B : Type} (g : A → List Nat → B) : List (A × Option (List Nat)) → List B
  | [] => []
  | (_, none) :: l => mapped g l
  | (x, some axs) :: l => g x axs :: mapped g l

/-- One argument as it is passed on. -/
def whole {A B : Type} (h : A → B) (g : A → List Nat → B) (p : A × Option (List Nat)) : B :=
  match p.2 with
  | none => h p.1
  | some axs => g p.1 axs

/-- Inserting the unbatched arguments again gives the arguments in their order. -/
theorem insertAll_unb {A B : Type} (h : A → B) (g : A → List Nat → B) : ∀ (items : List (A × Option (List Nat))) (pre : List B),
    insertAll (unb h pre.length items) (pre ++ mapped g items) = pre ++ items.map (whole h g)
  | [], pre => by simp [insertAll, unb, mapped]
  | (x, none) :: l, pre => by
    have := insertAll_unb h g l (pre ++ [h x])
    simp only [List.length_append, List.length_singleton, List.append_assoc, List.singleton_append] at this
    simp only [unb, mapped, List.map_cons, whole, ← this, insertAll, List.foldl_cons, List.take_left, List.drop_left]
  | (x, some axs) :: l, pre => by
    have := insertAll_unb h g l (pre ++ [g x axs])
    simp only [List.length_append, List.length_singleton, List.append_assoc, List.singleton_append] at this
    simp only [unb, mapped, List.map_cons, whole, ← this]

theorem mapped_map {A B C : Type} (g : A → List Nat → B) (u : B → C) : ∀ items : List (A × Option (List Nat)),
    (mapped g items).map u = mapped (fun x axs => u (g x axs)) items
  | [] => rfl
  | (x, none) :: l => by simp only [mapped, mapped_map g u l]
  | (x, some axs) :: l => by simp only [mapped, List.map_cons, mapped_map g u l]

theorem unb_map {A B C : Type} (h : A → B) (u : B → C) : ∀ (i : Nat) (items : List (A × Option (List Nat))),
    (unb h i items).map (fun p => (p.1, u p.2)) = unb (fun x => u (h x)) i items
  | _, [] => rfl
  | i, (x, none) :: l => by simp only [unb, List.map_cons, unb_map h u (i + 1) l]
  | i, (x, some axs) :: l => by simp only [unb, unb_map h u (i + 1) l]

theorem fits_int_tree (arg : Tree D (Arr α)) (a : Int) (axs : List Nat) :
    List.Forall₂ (fun (p : Arr α × Int) o => AxisIs p.1.shape.length p.2 o)
      (arg.leaves.zip (List.replicate arg.leaves.length a)) axs ↔
    List.Forall₂ (fun (x : Arr α) o => AxisIs x.shape.length a o) arg.leaves axs := by
  generalize arg.leaves = l
  induction l generalizing axs with
  | nil => simp
  | cons x l ih =>
    rw [List.length_cons, List.replicate_succ, List.zip_cons_cons]
    constructor
    · intro h; cases h; rename_i h1 h2; exact .cons h1 ((ih _).1 h2)
    · intro h; cases h; rename_i h1 h2; exact .cons h1 ((ih _).2 h2)

/-- When the preparation of the arguments succeeds, and its result. -/
theorem collect_ok_iff [DecidableEq D] (b : Nat) : ∀ (zs : List (Tree D (Arr α) × AxArg D)) (_ : TreesOk zs) (i : Nat)
    (r : List (Nat × Tree D (Arr α)) × List (Tree D (Arr α)) × List (Tree D (Arr α))),
    collect b i zs = .ok r ↔ ∃ res : List (Option (List Nat)), List.Forall₂ (fun p o => Fits p.1 p.2 o) zs res ∧
      (b = 0 → ∀ o ∈ res, o = none) ∧
      r = (unb id i ((zs.map Prod.fst).zip res), mapped (loopTree b) ((zs.map Prod.fst).zip res),
        mapped (tailTree b) ((zs.map Prod.fst).zip res))
  | [], _, i, r => by
    simp only [collect, Except.ok.injEq, List.forall₂_nil_left_iff]
    constructor
    · rintro rfl; exact ⟨[], rfl, by simp, rfl⟩
    · rintro ⟨_, rfl, _, rfl⟩; rfl
  | (arg, ax) :: rest, hz, i, r => by
    have hz' : TreesOk rest := fun p hp => hz p (List.mem_cons_of_mem _ hp)
    have ih := collect_ok_iff b rest hz' (i + 1)
    have common : ∀ (t : Tree D Int), (t.treedef = arg.treedef → t.leaves.length = arg.leaves.length) →
        (∀ axs, Fits arg ax axs ↔ ∃ axs', axs = some axs' ∧ arg.leaves ≠ [] ∧ t.treedef = arg.treedef ∧
          List.Forall₂ (fun (p : Arr α × Int) o => AxisIs p.1.shape.length p.2 o) (arg.leaves.zip t.leaves) axs') →
        ((match preprocessTree b arg t with
          | .error e => Except.error e
          | .ok p => (collect b (i + 1) rest).map
              (fun (r : List (Nat × Tree D (Arr α)) × List (Tree D (Arr α)) × List (Tree D (Arr α))) => (r.1, p.1 :: r.2.1, p.2 :: r.2.2))) = .ok r ↔
        ∃ res : List (Option (List Nat)), List.Forall₂ (fun p o => Fits p.1 p.2 o) ((arg, ax) :: rest) res ∧
          (b = 0 → ∀ o ∈ res, o = none) ∧
          r = (unb id i ((((arg, ax) :: rest).map Prod.fst).zip res), mapped (loopTree b) ((((arg, ax) :: rest).map Prod.fst).zip res),
            mapped (tailTree b) ((((arg, ax) :: rest).map Prod.fst).zip res))) := by
      intro t ht hfit
      have hp := preprocessTree_ok_iff b arg t ht
      constructor
      · intro h
        cases hpt : preprocessTree b arg t with
        | error e => rw [hpt] at h; cases h
        | ok p =>
          rw [hpt] at h
          obtain ⟨hb, hne, htd, axs, ha, rfl⟩ := (hp p).1 hpt
          cases hc : collect b (i + 1) rest with
          | error e => rw [hc] at h; cases h
          | ok r' =>
            rw [hc] at h
            obtain ⟨res, h1, h2, rfl⟩ := (ih r').1 hc
            cases h
            refine ⟨some axs :: res, .cons ((hfit _).2 ⟨axs, rfl, hne, htd, ha⟩) h1, fun h0 => absurd h0 hb, rfl⟩
      · rintro ⟨res, h1, h2, rfl⟩
        cases h1
        rename_i o res h3 h4
        obtain ⟨axs, rfl, hne, htd, ha⟩ := (hfit _).1 h3
        have hb : b ≠ 0 := by
          intro h0
          have := h2 h0 (some axs) (List.mem_cons_self ..)
          cases this
        rw [(hp _).2 ⟨hb, hne, htd, axs, ha, rfl⟩,
          (ih _).2 ⟨res, h4, fun h0 => absurd h0 hb, rfl⟩]
        rfl
    cases ax with
    | none =>
      rw [collect]
      constructor
      · intro h
        cases hc : collect b (i + 1) rest with
        | error e => rw [hc] at h; cases h
        | ok r' =>
          rw [hc] at h
          obtain ⟨res, h1, h2, rfl⟩ := (ih r').1 hc
          cases h
          refine ⟨none :: res, .cons .none h1, ?_, rfl⟩
          intro h0 o ho
          rcases List.mem_cons.1 ho with rfl | ho
          · rfl
          · exact h2 h0 o ho
      · rintro ⟨res, h1, h2, rfl⟩
        cases h1
        rename_i o res h3 h4
        cases h3
        rw [(ih _).2 ⟨res, h4, fun h0 o ho => h2 h0 o (List.mem_cons_of_mem _ ho), rfl⟩]
        rfl
    | int a =>
      rw [collect]
      refine common ⟨arg.treedef, List.replicate arg.leaves.length a⟩ (fun _ => by simp) ?_
      intro axs
      constructor
      · intro h
        cases h
        rename_i axs h1 h2
        exact ⟨axs, rfl, h1, rfl, (fits_int_tree arg a axs).2 h2⟩
      · rintro ⟨axs, rfl, h1, _, h2⟩
        exact .int a axs h1 ((fits_int_tree arg a axs).1 h2)
    | tree t =>
      rw [collect]
      have hlt := hz _ (List.mem_cons_self ..) t rfl
      refine common t hlt ?_
      intro axs
      constructor
      · intro h
        cases h
        rename_i axs h1 h2 h3 h4
        exact ⟨axs, rfl, h1, h2, h4⟩
      · rintro ⟨axs, rfl, h1, h2, h3⟩
        exact .tree t axs h1 h2 (hlt h2) h3

end Verif.BatchVmap

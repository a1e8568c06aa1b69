import Verif.Lemmas.BatchVmapRun

/-!
# Property C92: `batch_vmap` on arrays and pytrees is `vmap`

The specification (`Verif.Lemmas.BatchVmap`): `AxisIs rank a o` says that the integer `a` stands for axis `o`; `Fits` that an entry of
`in_axes` fits its argument; `Common n` that the mapped axes all have size `n`; `slice k` is the part of an argument at place `k`.
-/

namespace Verif.Props

open Verif.BatchVmap

variable {D α : Type} [DecidableEq D]

theorem insertIdx_getD {A : Type} (l : List A) (o : Nat) (x d : A) (h : o ≤ l.length) : (l.insertIdx o x).getD o d = x := by
  rw [List.getD_eq_getElem _ _ (by rw [List.length_insertIdx_of_le_length h]; omega)]
  simp

/-- C92, partial: with an entry of `in_axes` for every argument that fits it, at least one mapped argument, and equal batch
dimensions, `batch_vmap` returns, for every batch size of at least 1 and whatever the batch dimension (also 0, or not divisible),
what `vmap` does: results of the structure of the function's results, with the batch dimension inserted at the requested axis, and
with the results for the parts of the arguments at place `k` as the parts at place `k`. -/
theorem C92_vmap_partial (f : JaxFn D α) (ia : InAxes D) (oa : OutAxes D) (b : Nat) (args : List (Tree D (Arr α)))
    (hb : 0 < b) (hlen : (ia.tuple args.length).length = args.length) (res : List (Option (List Nat)))
    (hfit : List.Forall₂ (fun p o => Fits p.1 p.2 o) (args.zip (ia.tuple args.length)) res) (hsome : ∃ o ∈ res, o ≠ none)
    (n : Nat) (hn : Common n (args.zip res))
    (S : Tree D (List Nat)) (hS : f.shape ((args.zip res).map (fun p => shapes (slice 0 p))) = .ok S)
    (outs : List Nat) (ho : OutFits S oa outs) :
    ∃ R, batchVmap f ia oa b args = .ok R ∧ R.treedef = S.treedef ∧ R.leaves.length = S.leaves.length ∧
      ∀ ℓ s o A, S.leaves[ℓ]? = some s → outs[ℓ]? = some o → R.leaves[ℓ]? = some A →
        A.shape = s.insertIdx o n ∧ ∀ k < n, ∀ idx, idx.length = s.length →
          A.get (idx.insertIdx o k) = f.val ((args.zip res).map (slice k)) ℓ idx := by
  have hfst : (args.zip (ia.tuple args.length)).map Prod.fst = args := List.map_fst_zip (by omega)
  have hrun := batchVmap_of f ia oa b args (by omega) res n S outs hfit hsome (by rwa [hfst]) (by rwa [hfst]) ho
  rw [hfst] at hrun
  have holen : outs.length = S.leaves.length := by
    cases ho with
    | int a outs h => exact h.length_eq.symm
    | tree t outs _ h1 h2 =>
      have := h2.length_eq
      rw [List.length_zip, h1, Nat.min_self] at this
      exact this.symm
  have hor : ∀ (ℓ : Nat) (s : List Nat) (o : Nat), S.leaves[ℓ]? = some s → outs[ℓ]? = some o → o ≤ s.length := by
    intro ℓ s o h1 h2
    obtain ⟨g1, rfl⟩ := List.getElem?_eq_some_iff.1 h1
    obtain ⟨g2, rfl⟩ := List.getElem?_eq_some_iff.1 h2
    cases ho with
    | int a outs h => exact Nat.le_of_lt_succ (h.get g1 g2).1
    | tree t outs _ h1 h2 =>
      have := h2.get (i := ℓ) (by rw [List.length_zip, h1, Nat.min_self]; exact g1) g2
      simp only [List.get_eq_getElem, List.getElem_zip] at this
      exact Nat.le_of_lt_succ this.1
  refine ⟨_, hrun, rfl, ?_, ?_⟩
  · simp [holen]
  · intro ℓ s o A h1 h2 h3
    have ho' := hor ℓ s o h1 h2
    rw [List.getElem?_zipWith, List.getElem?_zipIdx, h1, h2] at h3
    simp only [Option.map_some, Nat.zero_add, Option.some.injEq] at h3
    subst h3
    refine ⟨rfl, ?_⟩
    intro k _ idx hidx
    simp only [moveFromFront, stacked, List.headD_cons, List.tail_cons]
    rw [insertIdx_getD _ _ _ _ (by omega), List.eraseIdx_insertIdx_self]

/-- C92: it succeeds only if each argument that has an entry fits it, one is mapped, the batch dimensions are equal, the function
accepts the parts of the arguments, and `out_axes` fits the results. -/
theorem C92_accepts (f : JaxFn D α) (ia : InAxes D) (oa : OutAxes D) (b : Nat) (args : List (Tree D (Arr α)))
    (hz : TreesOk (args.zip (ia.tuple args.length))) (hoa : ∀ ss S, f.shape ss = .ok S → OutOk S oa)
    (hlen : (ia.tuple args.length).length = args.length) (R : Tree D (Arr α)) (hR : batchVmap f ia oa b args = .ok R) :
    0 < b ∧ ∃ res n S outs, List.Forall₂ (fun p o => Fits p.1 p.2 o) (args.zip (ia.tuple args.length)) res ∧
      (∃ o ∈ res, o ≠ none) ∧ Common n (args.zip res) ∧
      f.shape ((args.zip res).map (fun p => shapes (slice 0 p))) = .ok S ∧ OutFits S oa outs := by
  have hfst : (args.zip (ia.tuple args.length)).map Prod.fst = args := List.map_fst_zip (by omega)
  obtain ⟨hb, res, n, S, outs, h1, h2, h3, h4, h5, _⟩ := (batchVmap_iff f ia oa b args hz hoa R).1 hR
  rw [hfst] at h3 h4
  exact ⟨by omega, res, n, S, outs, h1, h2, h3, h4, h5⟩

/-- C92: the batch size makes no difference. -/
theorem C92_any_batch_size (f : JaxFn D α) (ia : InAxes D) (oa : OutAxes D) (b b' : Nat) (hb : 0 < b) (hb' : 0 < b')
    (args : List (Tree D (Arr α))) (hz : TreesOk (args.zip (ia.tuple args.length)))
    (hoa : ∀ ss S, f.shape ss = .ok S → OutOk S oa) (R : Tree D (Arr α)) :
    batchVmap f ia oa b args = .ok R ↔ batchVmap f ia oa b' args = .ok R := by
  rw [batchVmap_iff f ia oa b args hz hoa, batchVmap_iff f ia oa b' args hz hoa]
  constructor
  · rintro ⟨_, h⟩; exact ⟨by omega, h⟩
  · rintro ⟨_, h⟩; exact ⟨by omega, h⟩

/-- C92: an argument without leaves (such as `None` or `()`) and an entry other than `None` is refused, as is one whose entry is a
pytree of another structure (such as a prefix of its own). `vmap` takes both. -/
theorem C92_refuses (f : JaxFn D α) (ia : InAxes D) (oa : OutAxes D) (b : Nat) (args : List (Tree D (Arr α)))
    (hz : TreesOk (args.zip (ia.tuple args.length))) (hoa : ∀ ss S, f.shape ss = .ok S → OutOk S oa)
    (p : Tree D (Arr α) × AxArg D) (hp : p ∈ args.zip (ia.tuple args.length))
    (h : (p.1.leaves = [] ∧ p.2 ≠ .none) ∨ ∃ t, p.2 = .tree t ∧ t.treedef ≠ p.1.treedef) :
    ∃ e, batchVmap f ia oa b args = .error e := by
  cases hR : batchVmap f ia oa b args with
  | error e => exact ⟨e, rfl⟩
  | ok R =>
    exfalso
    obtain ⟨_, res, _, _, _, hfit, hrest⟩ := (batchVmap_iff f ia oa b args hz hoa R).1 hR
    clear hrest
    have : ∃ o, Fits p.1 p.2 o := by
      clear hz hR
      generalize args.zip (ia.tuple args.length) = zs at hp hfit
      induction hfit with
      | nil => simp at hp
      | @cons z o _ _ h1 _ ih =>
        rcases List.mem_cons.1 hp with rfl | hp
        · exact ⟨o, h1⟩
        · exact ih hp
    obtain ⟨o, ho⟩ := this
    obtain ⟨x, ax⟩ := p
    change Fits x ax o at ho
    rcases h with ⟨h1, h2⟩ | ⟨t, h1, h2⟩
    · cases ho with
      | none => exact h2 rfl
      | int a axs h3 _ => exact h3 h1
      | tree t axs h3 _ _ _ => exact h3 h1
    · cases ho with
      | none => cases h1
      | int a axs _ _ => cases h1
      | tree t axs _ h3 _ _ => cases h1; exact h2 h3

/-- C92: arguments beyond the entries of `in_axes` are not passed to the function, and entries beyond the arguments are ignored,
where `vmap` raises a `ValueError`. -/
theorem C92_wrong_length (f : JaxFn D α) (l l' : List (AxArg D)) (oa : OutAxes D) (b : Nat)
    (args args' : List (Tree D (Arr α))) (hlen : l.length = args.length) :
    batchVmap f (.seq l) oa b (args ++ args') = batchVmap f (.seq l) oa b args ∧
      batchVmap f (.seq (l ++ l')) oa b args = batchVmap f (.seq l) oa b args := by
  have h1 : (args ++ args').zip l = args.zip l := by
    have := List.zip_append (l₁ := args) (r₁ := args') (l₂ := l) (r₂ := []) hlen.symm
    simpa using this
  have h2 : args.zip (l ++ l') = args.zip l := by
    have := List.zip_append (l₁ := args) (r₁ := []) (l₂ := l) (r₂ := l') hlen.symm
    simpa using this
  constructor
  · simp only [batchVmap, InAxes.tuple, h1]
  · simp only [batchVmap, InAxes.tuple, h2]

/-- The sum of any number of vectors of two entries. -/
def sumFn : JaxFn Unit Int where
  shape args := if args.all (fun t => t.leaves == [[2]]) then .ok ⟨(), [[2]]⟩ else .error "TypeError"
  val args _ idx := (args.map (fun t => (t.leaves.map (fun x => x.get idx)).sum)).sum

/-- A matrix with two rows and three columns. -/
def mat : Tree Unit (Arr Int) := ⟨(), [⟨[2, 3], fun l => 10 * l.getD 0 0 + l.getD 1 0⟩]⟩

/-- A vector. -/
def vec : Tree Unit (Arr Int) := ⟨(), [⟨[2], fun l => 100 * (l.getD 0 0 + 1)⟩]⟩

/-- Without an axis, every argument is collected as unbatched. -/
theorem collect_none (b : Nat) : ∀ (i : Nat) (args : List (Tree D (Arr α))), ∃ u,
    collect b i (args.zip (List.replicate args.length AxArg.none)) = .ok (u, [], [])
  | _, [] => ⟨[], rfl⟩
  | i, x :: xs => by
    obtain ⟨u, hu⟩ := collect_none b (i + 1) xs
    refine ⟨(i, x) :: u, ?_⟩
    show collect b i ((x, AxArg.none) :: xs.zip (List.replicate xs.length AxArg.none)) = _
    unfold collect
    rw [hu]
    rfl

/-- C92: one `int` for `in_axes` means that axis of every argument. -/
theorem C92_common_axis (f : JaxFn D α) (a : Int) (oa : OutAxes D) (b : Nat) (args : List (Tree D (Arr α))) :
    batchVmap f (.all (some a)) oa b args = batchVmap f (.seq (args.map fun _ => .int a)) oa b args := by
  have h : (args.map fun _ => (AxArg.int a : AxArg D)) = List.replicate args.length (.int a) := List.map_const' ..
  rw [h]
  rfl

/-- C92: `None` for `in_axes` leaves nothing to map over, and is refused (as by `vmap`). -/
theorem C92_no_axis (f : JaxFn D α) (oa : OutAxes D) (b : Nat) (args : List (Tree D (Arr α))) :
    ∃ e, batchVmap f (.all none) oa b args = .error e := by
  obtain ⟨u, hu⟩ := collect_none b 0 args
  refine ⟨"ValueError", ?_⟩
  unfold batchVmap InAxes.tuple
  rw [hu]
  rfl

/-- The columns of two matrices, by a common axis and by a list of axes; without an axis they are refused. -/
example : (match batchVmap sumFn (.all (some (-1))) (.int 1) 2 [mat, mat] with
      | .ok R => R.leaves.map fun A => (A.shape, A.get [1, 2]) | .error _ => []) = [([2, 3], 24)] ∧
    (match batchVmap sumFn (.all none) (.int 1) 2 [mat, mat] with
      | .ok _ => true | .error _ => false) = false := by decide +kernel

/-- C92: it is false that `in_axes` and the arguments must have the same length: the second argument is left out without an
exception. -/
theorem C92_length_negation : ¬ ∀ (f : JaxFn Unit Int) (ia : InAxes Unit) (oa : OutAxes Unit) (b : Nat)
    (args : List (Tree Unit (Arr Int))) (R : Tree Unit (Arr Int)),
    batchVmap f ia oa b args = .ok R → (ia.tuple args.length).length = args.length := by
  intro h
  have hok : (match batchVmap sumFn (.seq [.int (-1)]) (.int 1) 2 [mat, vec] with
    | .ok _ => true
    | .error _ => false) = true := by decide +kernel
  cases hR : batchVmap sumFn (.seq [.int (-1)]) (.int 1) 2 [mat, vec] with
  | error e => rw [hR] at hok; cases hok
  | ok R =>
    have := h _ _ _ _ _ R hR
    simp [InAxes.tuple] at this

/-- The hypotheses of `C92_vmap_partial` hold for the columns of a matrix (axis -1) and a vector passed whole, with batch size 2 for 3
columns and the results as columns. -/
example : ∃ R, batchVmap sumFn (.seq [.int (-1), .none]) (.int 1) 2 [mat, vec] = .ok R ∧ R.leaves.length = 1 ∧
    ∀ A, R.leaves[0]? = some A → A.shape = [2, 3] ∧ A.get [1, 2] = 212 := by
  obtain ⟨R, h1, _, h3, h4⟩ := C92_vmap_partial sumFn (.seq [.int (-1), .none]) (.int 1) 2 [mat, vec] (by decide) rfl
    [some [1], none]
    (.cons (.int _ _ (by simp [mat]) (.cons ⟨by decide, by decide⟩ .nil)) (.cons .none .nil)) ⟨_, List.mem_cons_self .., by simp⟩ 3
    (by
      intro p hp axs h
      simp only [List.zip_cons_cons, List.zip_nil_right, List.mem_cons, List.not_mem_nil, or_false] at hp
      rcases hp with rfl | rfl
      · cases h; exact .cons (by decide) .nil
      · cases h)
    ⟨(), [[2]]⟩ (by rfl) [1] (.int _ _ (.cons ⟨by decide, by decide⟩ .nil))
  refine ⟨R, h1, h3, ?_⟩
  intro A hA
  obtain ⟨h5, h6⟩ := h4 0 [2] 1 A rfl rfl hA
  refine ⟨h5, ?_⟩
  have := h6 2 (by decide) [1] rfl
  have e : sumFn.val (([mat, vec].zip [some [1], none]).map (slice 2)) 0 [1] = 212 := by decide +kernel
  rw [e] at this
  exact this

/-- `TreesOk`, `OutOk` and the length hypothesis of `C92_accepts`, `C92_any_batch_size` and `C92_refuses` hold in this case; an argument
without leaves is refused. -/
example : ∃ e, batchVmap sumFn (.seq [.int 0]) (.int 0) 2 [(⟨(), []⟩ : Tree Unit (Arr Int))] = .error e := by
  refine C92_refuses sumFn _ _ 2 _ ?_ (fun ss S _ t ht => by cases ht) (⟨(), []⟩, .int 0) (List.mem_cons_self ..)
    (Or.inl ⟨rfl, by simp⟩)
  intro p hp t ht
  simp only [InAxes.tuple, List.zip_cons_cons, List.zip_nil_right, List.mem_cons, List.not_mem_nil, or_false] at hp
  subst hp
  cases ht

example (R : Tree Unit (Arr Int)) : batchVmap sumFn (.all (some 1)) (.int 1) 2 [mat] = .ok R ↔
    batchVmap sumFn (.all (some 1)) (.int 1) 5 [mat] = .ok R := by
  refine C92_any_batch_size sumFn _ _ 2 5 (by decide) (by decide) _ ?_ (fun ss S _ t ht => by cases ht) R
  intro p hp t ht
  simp only [InAxes.tuple, List.length_singleton, List.replicate_one, List.zip_cons_cons, List.zip_nil_right, List.mem_cons,
    List.not_mem_nil, or_false] at hp
  subst hp
  cases ht

/-- `C92_accepts` applies to a call that succeeds. -/
example : ∃ R, batchVmap sumFn (.all (some 1)) (.int 1) 2 [mat] = .ok R := by
  have hok : (match batchVmap sumFn (.all (some 1)) (.int 1) 2 [mat] with
    | .ok _ => true
    | .error _ => false) = true := by decide +kernel
  cases hR : batchVmap sumFn (.all (some 1)) (.int 1) 2 [mat] with
  | error e => rw [hR] at hok; cases hok
  | ok R => exact ⟨R, rfl⟩

/-- `C92_wrong_length`: the vector is left out. -/
example : batchVmap sumFn (.seq [.int 1]) (.int 0) 2 [mat, vec] = batchVmap sumFn (.seq [.int 1]) (.int 0) 2 [mat] :=
  (C92_wrong_length sumFn [.int 1] [] (.int 0) 2 [mat] [vec] rfl).1

end Verif.Props

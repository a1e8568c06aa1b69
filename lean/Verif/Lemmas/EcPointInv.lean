import Verif.Lemmas.EcPointRun

/-!
# The invariant under all statements, and independence of results
-/

namespace Verif.EcPoint

open Verif.EcCurve

variable {ι F : Type} [Field F] [DecidableEq F]

/-- The heap is well formed and the variables refer to points. -/
structure StOk (S : ι → Sys F) (s : St ι F) : Prop where
  wf : WF S s.heap
  env : ∀ j ∈ s.env, j < s.heap.points.length

/-- What every statement preserves. -/
def Kept (S : ι → Sys F) (h h' : Heap ι F) : Prop := WF S h' ∧ h.points <+: h'.points

/-- What every statement ensures. -/
def Post (S : ι → Sys F) (h : Heap ι F) (r : Except String (Option Nat) × Heap ι F) : Prop :=
  Kept S h r.2 ∧ ∀ k, r.1 = .ok (some k) → k < r.2.points.length

theorem Good.post {S : ι → Sys F} {h : Heap ι F} {r : Except String Nat × Heap ι F} {v : Except String (PVal ι F)}
    (g : Good S h r v) : Post S h (assigned r) := by
  obtain ⟨r1, h'⟩ := r
  obtain ⟨g1, g2, g3⟩ := g
  cases r1 with
  | error e => exact ⟨⟨g2, g1.points⟩, by simp [assigned]⟩
  | ok k =>
    refine ⟨⟨g2, g1.points⟩, ?_⟩
    intro k' hk
    simp only [assigned, Except.ok.injEq, Option.some.injEq] at hk
    subst hk
    cases v with
    | error e => exact g3.elim
    | ok v =>
      obtain ⟨p, hp, _⟩ := g3
      exact (List.getElem?_eq_some_iff.1 hp).1

theorem Post.error {S : ι → Sys F} {h h' : Heap ι F} (k : Kept S h h') (e : String) : Post S h (.error e, h') :=
  ⟨k, by simp⟩

theorem Kept.refl {S : ι → Sys F} {h : Heap ι F} (w : WF S h) : Kept S h h := ⟨w, List.prefix_rfl⟩

theorem Post.none {S : ι → Sys F} {h h' : Heap ι F} (k : Kept S h h') : Post S h (.ok none, h') := ⟨k, by simp⟩

theorem WF.setList {S : ι → Sys F} {h : Heap ι F} (w : WF S h) (l : Nat) {rs : List Nat}
    (hr : ∀ r ∈ rs, r < h.elems.length) : WF S (h.setList l rs) := by
  refine ⟨w.sys, ?_, ?_, w.none, w.sep⟩
  · intro m hm r hrm
    rcases List.mem_or_eq_of_mem_set hm with hm | rfl
    · exact w.lists m hm r hrm
    · exact hr r hrm
  · intro p hp m hm
    simpa [Heap.setList] using w.points p hp m hm

theorem WF.setElem {S : ι → Sys F} {h : Heap ι F} (w : WF S h) (r : Nat) (v : F) : WF S (h.setElem r v) := by
  refine ⟨?_, ?_, w.points, w.none, w.sep⟩
  · simpa [Heap.setElem] using w.sys
  · simpa [Heap.setElem] using w.lists

theorem affineVals_nil (k : Ctx F) : ∃ e, affineVals k (some []) = .error e := by
  unfold affineVals
  cases k.kind
  · exact ⟨_, rfl⟩
  · exact ⟨"IndexError", rfl⟩
  · exact ⟨"IndexError", rfl⟩
  · exact ⟨"ValueError", rfl⟩

/-- The conversion of a flagged point with coordinates: it raises, and the list of the operand is empty afterwards. -/
theorem convert_zero {S : ι → Sys F} {h : Heap ι F} (w : WF S h) (i : ι) {j : Nat} {p : PObj ι} {l : Nat}
    (hp : h.points[j]? = some p) (hz : p.zero = true) (hl : p.coords = some l) (ones : Nat) (ty : Option Ty) :
    ∃ e, convertWith S h i j ones ty = (.error e, (h.newObj p).2.setList l []) := by
  have hlt := w.points p (mem_of_getElem? hp) l hl
  have e1 : (h.newObj p).2.points[(h.newObj p).1]? = some p := by simp [Heap.newObj]
  have e2 : ((h.newObj p).2.setList l []).vals p = some [] := by
    simp [Heap.vals, hl, Heap.list, Heap.setList, Heap.newObj, List.getD, hlt]
  obtain ⟨e, he⟩ := affineVals_nil (ctx S ((h.newObj p).2.setList l []) i)
  refine ⟨e, ?_⟩
  unfold convertWith
  simp only [hp, copy_zero hp hz, e1, hl, e2, he]

theorem convert_post {S : ι → Sys F} {h : Heap ι F} (w : WF S h) (i : ι) {j : Nat} {p : PObj ι}
    (hp : h.points[j]? = some p) (ones : Nat) (ty : Option Ty) : Post S h (assigned (convertWith S h i j ones ty)) := by
  by_cases hs : p.zero = true ∧ p.coords.isSome = true
  · obtain ⟨hz, hl⟩ := hs
    obtain ⟨l, hl⟩ := Option.isSome_iff_exists.1 hl
    obtain ⟨e, he⟩ := convert_zero (S := S) w i hp hz hl ones ty
    rw [he]
    refine Post.error ⟨?_, ?_⟩ e
    · exact (newObj_copy_good w hp hz).2.1.setList l (by simp)
    · exact List.prefix_append _ _
  · exact (convert_good w i hp hs ones ty).post

theorem toAffine_post {S : ι → Sys F} {h : Heap ι F} (w : WF S h) {j : Nat} {p : PObj ι}
    (hp : h.points[j]? = some p) : Post S h (assigned (toAffine S h p.sys j)) := by
  by_cases hs : p.zero = true ∧ p.coords.isSome = true
  · obtain ⟨hz, hl⟩ := hs
    obtain ⟨l, hl⟩ := Option.isSome_iff_exists.1 hl
    have hc := fun ones ty => convert_post w p.sys hp ones ty
    unfold toAffine
    simp only [hp]
    cases hk : (S p.sys).kind with
    | affine =>
      refine ⟨Kept.refl w, ?_⟩
      intro k hk
      simp only [assigned, Except.ok.injEq, Option.some.injEq] at hk
      subst hk
      exact (List.getElem?_eq_some_iff.1 hp).1
    | projective =>
      dsimp only
      split
      · exact hc _ _
      · exact Post.error (Kept.refl w) _
    | xyzz =>
      dsimp only
      split
      · exact hc _ _
      · exact Post.error (Kept.refl w) _
    | twisted =>
      dsimp only [toEdAffine]
      obtain ⟨e, he⟩ := convert_zero (S := S) w p.sys hp hz hl 2 none
      have := hc 2 none
      rw [he] at this ⊢
      exact this
  · exact (toAffine_good w hp hs).post

theorem fromAffine_post {S : ι → Sys F} {h : Heap ι F} (w : WF S h) (i : ι) {j : Nat} {p : PObj ι}
    (hp : h.points[j]? = some p) : Post S h (assigned (fromAffine S h i j)) := by
  by_cases hs : p.zero = true ∧ p.coords.isSome = true
  · have hmem := mem_of_getElem? hp
    have hc := fun ones ty => convert_post w i hp ones ty
    unfold fromAffine
    simp only [hp]
    cases hk : (S i).kind with
    | affine => exact Post.error (Kept.refl w) _
    | projective =>
      dsimp only
      split
      · exact hc _ _
      · exact Post.error (Kept.refl w) _
    | xyzz =>
      dsimp only
      have ht : ¬ (S p.sys).kind.ty = .affine := by
        have : (S p.sys).kind = .twisted := by
          by_contra hne
          have := (w.none p hmem).2 ⟨hs.1, hne⟩
          rw [this] at hs
          simp at hs
        simp [this, Kind.ty]
      rw [if_neg ht]
      exact Post.error (Kept.refl w) _
    | twisted => exact Post.error (Kept.refl w) _
  · exact (fromAffine_good w i hp hs).post

theorem StOk.obj {S : ι → Sys F} {s : St ι F} (ok : StOk S s) {v j : Nat} (hj : s.env[v]? = some j) :
    ∃ p, s.heap.points[j]? = some p := by
  have := ok.env j (mem_of_getElem? hj)
  exact ⟨_, List.getElem?_eq_getElem this⟩

theorem StOk.elemRef {S : ι → Sys F} {s : St ι F} (ok : StOk S s) {v i r : Nat} (h : s.elemRef v i = .ok r) :
    r < s.heap.elems.length := by
  unfold St.elemRef St.obj at h
  cases h1 : s.env[v]? with
  | none => simp [h1, bind, Except.bind] at h
  | some j =>
    obtain ⟨p, hp⟩ := ok.obj h1
    cases hc : p.coords with
    | none => simp [h1, hp, hc, bind, Except.bind] at h
    | some l =>
      cases hi : (s.heap.list l)[i]? with
      | none => simp [h1, hp, hc, hi, bind, Except.bind] at h
      | some t =>
        simp only [h1, hp, hc, hi, bind, Except.bind, Except.ok.injEq] at h
        subst h
        exact ok.wf.list_lt l (mem_of_getElem? hi)

theorem StOk.item {S : ι → Sys F} {s : St ι F} (ok : StOk S s) {a : Arg F} {u : Item F} (h : s.item a = .ok u) :
    ItemOk s.heap u := by
  cases a with
  | int x =>
    simp only [St.item, Except.ok.injEq] at h
    subst h
    trivial
  | coord v i =>
    unfold St.item at h
    cases hr : s.elemRef v i with
    | error e => simp [hr, bind, Except.bind] at h
    | ok r =>
      simp only [hr, bind, Except.bind, Except.ok.injEq] at h
      subst h
      exact ok.elemRef hr

theorem StOk.items {S : ι → Sys F} {s : St ι F} (ok : StOk S s) {args : List (Arg F)} {u : List (Item F)}
    (h : s.items args = .ok u) : ∀ a ∈ u, ItemOk s.heap a := by
  induction args generalizing u with
  | nil =>
    simp only [St.items, Except.ok.injEq] at h
    subst h
    simp
  | cons a t ih =>
    unfold St.items at h
    cases h1 : s.item a with
    | error e => simp [h1, bind, Except.bind] at h
    | ok x =>
      cases h2 : s.items t with
      | error e => simp [h1, h2, bind, Except.bind] at h
      | ok y =>
        simp only [h1, h2, bind, Except.bind, Except.ok.injEq] at h
        subst h
        intro b hb
        rcases List.mem_cons.1 hb with rfl | hb
        · exact ok.item h1
        · exact ih h2 b hb

theorem StOk.elemArg {S : ι → Sys F} {s : St ι F} (ok : StOk S s) {a : Arg F} {r : Nat} {h' : Heap ι F}
    (h : s.elemArg a = .ok (r, h')) : Grown s.heap h' ∧ r < h'.elems.length := by
  cases a with
  | int x =>
    simp only [St.elemArg, Except.ok.injEq] at h
    obtain ⟨rfl, rfl⟩ := Prod.mk.inj h
    exact ⟨newElem_grown _ _, by simp [Heap.newElem]⟩
  | coord v i =>
    unfold St.elemArg at h
    cases hr : s.elemRef v i with
    | error e => simp [hr, bind, Except.bind] at h
    | ok t =>
      simp only [hr, bind, Except.bind, Except.ok.injEq] at h
      obtain ⟨rfl, rfl⟩ := Prod.mk.inj h
      exact ⟨Grown.refl _, ok.elemRef hr⟩

theorem Grown.kept {S : ι → Sys F} {h h' : Heap ι F} (g : Grown h h') (w : WF S h) : Kept S h h' :=
  ⟨g.wf w, g.ext.points⟩

theorem eval_post {S : ι → Sys F} {s : St ι F} (ok : StOk S s) (c : Cmd ι F) : Post S s.heap (eval S s c) := by
  have w := ok.wf
  have app : ∀ (a : Nat) (f : Nat → Except String Nat × Heap ι F),
      (∀ j p, s.heap.points[j]? = some p → Post S s.heap (assigned (f j))) → Post S s.heap (s.app a f) := by
    intro a f hf
    unfold St.app
    cases h1 : s.env[a]? with
    | none => exact Post.error (Kept.refl w) _
    | some j =>
      obtain ⟨p, hp⟩ := ok.obj h1
      exact hf j p hp
  cases c with
  | gen i c zero tw =>
    cases c with
    | none => exact (gen_good w i none zero tw (by simp)).post
    | some args =>
      unfold eval
      dsimp only
      cases h1 : s.items args with
      | error e => exact Post.error (Kept.refl w) _
      | ok u =>
        refine (gen_good w i (some u) zero tw ?_).post
        intro items hi
        simp only [Option.some.injEq] at hi
        subst hi
        exact ok.items h1
  | add a b =>
    refine app a _ fun j p hp => ?_
    cases h1 : s.env[b]? with
    | none => exact Post.error (Kept.refl w) _
    | some k =>
      obtain ⟨q, hq⟩ := ok.obj h1
      exact (add_good w hp hq).post
  | shift a n => exact app a _ fun j p hp => (shift_good w hp n).post
  | copy a => exact app a _ fun j p hp => (copy_good w hp).post
  | toAffine a =>
    refine app a _ fun j p hp => ?_
    simp only [hp]
    exact toAffine_post w hp
  | toEdAffine a =>
    refine app a _ fun j p hp => ?_
    simp only [hp]
    split
    · exact convert_post w _ hp _ _
    · exact Post.error (Kept.refl w) _
  | fromAffine i a => exact app a _ fun j p hp => fromAffine_post w i hp
  | same a =>
    refine app a _ fun j p hp => ⟨Kept.refl w, ?_⟩
    intro k hk
    simp only [assigned, Except.ok.injEq, Option.some.injEq] at hk
    subst hk
    exact (List.getElem?_eq_some_iff.1 hp).1
  | setItem a i e =>
    unfold eval
    dsimp only
    cases h1 : s.elemArg e with
    | error x => exact Post.error (Kept.refl w) _
    | ok y =>
      obtain ⟨r, h'⟩ := y
      obtain ⟨g, hr⟩ := ok.elemArg h1
      dsimp only
      cases h2 : s.obj a with
      | error x => exact Post.error (g.kept w) _
      | ok p =>
        dsimp only
        cases h3 : p.coords with
        | none => exact Post.error (g.kept w) _
        | some l =>
          dsimp only
          split
          · refine Post.none ⟨(g.wf w).setList l ?_, g.ext.points⟩
            intro t ht
            rcases List.mem_or_eq_of_mem_set ht with ht | rfl
            · exact (g.wf w).list_lt l ht
            · exact hr
          · exact Post.error (g.kept w) _
  | append a e =>
    unfold eval
    dsimp only
    cases h2 : s.obj a with
    | error x => exact Post.error (Kept.refl w) _
    | ok p =>
      dsimp only
      cases h1 : s.elemArg e with
      | error x => exact Post.error (Kept.refl w) _
      | ok y =>
        obtain ⟨r, h'⟩ := y
        obtain ⟨g, hr⟩ := ok.elemArg h1
        dsimp only
        cases h3 : p.coords with
        | none => exact Post.error (g.kept w) _
        | some l =>
          refine Post.none ⟨(g.wf w).setList l ?_, g.ext.points⟩
          intro t ht
          rcases List.mem_append.1 ht with ht | ht
          · exact (g.wf w).list_lt l ht
          · have : t = r := by simpa using ht
            rw [this]
            exact hr
  | setValue a i x =>
    unfold eval
    dsimp only
    cases h1 : s.elemRef a i with
    | error e => exact Post.error (Kept.refl w) _
    | ok r => exact Post.none ⟨w.setElem r x, List.prefix_rfl⟩

theorem StOk.step {S : ι → Sys F} {s : St ι F} (ok : StOk S s) (c : Cmd ι F) :
    StOk S (step S s c) ∧ s.heap.points <+: (step S s c).heap.points := by
  have g := eval_post ok c
  unfold EcPoint.step
  generalize eval S s c = ev at g
  obtain ⟨e, h'⟩ := ev
  obtain ⟨⟨g1, g2⟩, g3⟩ := g
  have hle := g2.length_le
  match e with
  | .error x => exact ⟨⟨g1, fun j hj => (ok.env j hj).trans_le hle⟩, g2⟩
  | .ok none => exact ⟨⟨g1, fun j hj => (ok.env j hj).trans_le hle⟩, g2⟩
  | .ok (some k) =>
    refine ⟨⟨g1, fun j hj => ?_⟩, g2⟩
    rcases List.mem_append.1 hj with hj | hj
    · exact (ok.env j hj).trans_le hle
    · have : j = k := by simpa using hj
      rw [this]
      exact g3 k rfl

theorem StOk.run {S : ι → Sys F} (prog : List (Cmd ι F)) {s : St ι F} (ok : StOk S s) : StOk S (run S s prog) := by
  induction prog generalizing s with
  | nil => exact ok
  | cons c t ih => exact ih (ok.step c).1

/-! ## In-place changes -/

theorem setList_vals_ne (h : Heap ι F) (l : Nat) (rs : List Nat) (q : PObj ι) (hq : q.coords ≠ some l) :
    (h.setList l rs).vals q = h.vals q := by
  unfold Heap.vals
  cases hc : q.coords with
  | none => rfl
  | some m =>
    have hne : l ≠ m := fun e => hq (by rw [hc, e])
    simp only [Option.map_some]
    have : (h.setList l rs).list m = h.list m := by simp [Heap.list, Heap.setList, List.getD, hne]
    rw [this]
    rfl

theorem setElem_vals (h : Heap ι F) (r : Nat) (x : F) (q : PObj ι) (hq : ∀ l, q.coords = some l → r ∉ h.list l) :
    (h.setElem r x).vals q = h.vals q := by
  unfold Heap.vals
  cases hc : q.coords with
  | none => rfl
  | some m =>
    simp only [Option.map_some]
    congr 1
    refine List.map_congr_left fun t ht => ?_
    have hne : r ≠ t := fun e => hq m hc (by rw [e]; exact ht)
    simp [Heap.elem, Heap.setElem, List.getD, hne]

/-- The new list of `a[i] = e` and `a.append(e)`: other points are untouched. -/
theorem inplace_value {S : ι → Sys F} {s : St ι F} (ok : StOk S s) {a b ja l : Nat} {p : PObj ι} {h' : Heap ι F}
    (hja : s.env[a]? = some ja) (hp : s.heap.points[ja]? = some p) (hl : p.coords = some l) (hz : p.zero = false)
    (hne : s.env[b]? ≠ s.env[a]?) (g : Grown s.heap h') (rs : List Nat) (lg : List (Option String)) :
    St.value ⟨h'.setList l rs, s.env, lg⟩ b = s.value b := by
  unfold St.value
  cases hjb : s.env[b]? with
  | none => rfl
  | some jb =>
    obtain ⟨q, hq⟩ := ok.obj hjb
    have hjj : ja ≠ jb := by
      intro e
      rw [hja, hjb, e] at hne
      exact hne rfl
    have hpts : (h'.setList l rs).points = s.heap.points := by
      obtain ⟨e, rfl⟩ := g
      rfl
    simp only [hpts, hq, Option.map_some]
    have hcq : q.coords ≠ some l := by
      intro e
      have := ok.wf.sep ja jb p q hp hq hjj (by simp [hl]) (by rw [hl, e])
      rw [hz] at this
      cases this.1
    have e1 : (h'.setList l rs).vals q = s.heap.vals q :=
      (setList_vals_ne h' l rs q hcq).trans (g.ext.vals ok.wf (mem_of_getElem? hq))
    unfold Heap.val
    rw [e1]

/-! ## Results are new objects -/

/-- The result is not one of the points that existed. -/
def NewRes (h : Heap ι F) (r : Except String Nat × Heap ι F) : Prop :=
  ∀ k, r.1 = .ok k → h.points.length ≤ k

theorem newPoint_new (S : ι → Sys F) (h : Heap ι F) (i : ι) (c : Option (List (Item F))) (zero : Bool) :
    NewRes h (newPoint S h i c zero) := by
  intro k hk
  have g := formal_grown S h i c zero
  unfold newPoint at hk
  generalize formal S h i c zero = fr at g hk
  match fr with
  | (.error e, h') => simp at hk
  | (.ok none, h') =>
    obtain ⟨e, he⟩ := g
    dsimp only at he
    subst he
    simp only [Heap.newObj, Except.ok.injEq] at hk
    omega
  | (.ok (some rs), h') =>
    obtain ⟨e, he⟩ := g
    dsimp only at he
    subst he
    simp only [Heap.newObj, Heap.newList, Except.ok.injEq] at hk
    omega

theorem NewRes.grown {h h' : Heap ι F} (g : Ext h h') {r : Except String Nat × Heap ι F} (n : NewRes h' r) : NewRes h r :=
  fun k hk => g.points.length_le.trans (n k hk)

theorem newPointVals_new (S : ι → Sys F) (h : Heap ι F) (i : ι) (r : Except String (List F)) :
    NewRes h (newPointVals S h i r) := by
  cases r with
  | error e => intro k hk; simp [newPointVals] at hk
  | ok vs => exact (newPoint_new S _ i _ false).grown (newElems_grown h vs).ext

theorem copy_new (S : ι → Sys F) (h : Heap ι F) (j : Nat) : NewRes h (copyPoint S h j) := by
  intro k hk
  unfold copyPoint at hk
  cases hp : h.points[j]? with
  | none => simp [hp] at hk
  | some p =>
    simp only [hp] at hk
    by_cases hz : p.zero = true
    · simp only [hz, if_true, Heap.newObj, Except.ok.injEq] at hk
      omega
    · rw [if_neg hz] at hk
      have g := formal_grown S h p.sys (p.coords.map fun l => (h.list l).map .ref) false
      generalize formal S h p.sys (p.coords.map fun l => (h.list l).map .ref) false = fr at g hk
      match fr with
      | (.error e, h') => simp at hk
      | (.ok none, h') =>
        obtain ⟨e, he⟩ := g
        dsimp only at he
        subst he
        simp only [Heap.newObj, Except.ok.injEq] at hk
        omega
      | (.ok (some rs), h') =>
        obtain ⟨e, he⟩ := g
        dsimp only at he
        subst he
        simp only [Heap.newObj, Heap.newList, Except.ok.injEq] at hk
        omega

theorem NewRes.error (h h' : Heap ι F) (e : String) : NewRes h (.error e, h') := by
  intro k hk
  cases hk

theorem add_new (S : ι → Sys F) (h : Heap ι F) (j k : Nat) : NewRes h (addPoint S h j k) := by
  unfold addPoint
  split
  · split
    · exact copy_new S h j
    · split
      · exact copy_new S h k
      · exact newPointVals_new S h _ _
  · exact NewRes.error _ _ _

theorem convert_new (S : ι → Sys F) (h : Heap ι F) (i : ι) (j ones : Nat) (ty : Option Ty) :
    NewRes h (convertWith S h i j ones ty) := by
  have hc := copy_new S h j
  unfold convertWith
  split
  · exact NewRes.error _ _ _
  · generalize copyPoint S h j = cp at hc
    match cp with
    | (.error e, h') => exact NewRes.error _ _ _
    | (.ok k, h') =>
      have hk : NewRes h (.ok k, h') := hc
      intro k' h'
      dsimp only at h'
      split at h'
      · cases h'
      · split at h'
        · exact hk k' h'
        · split at h'
          · cases h'
          · exact hk k' h'

theorem untwist_new (S : ι → Sys F) (h : Heap ι F) (i : ι) (k k' : Nat) (hk : (untwistPoint S h i k).1 = .ok k') :
    k' = k := by
  unfold untwistPoint at hk
  split at hk
  · cases hk
  · split at hk
    · cases hk
    · split at hk
      · simpa using hk.symm
      · cases hk

theorem toAffine_new (S : ι → Sys F) (h : Heap ι F) (i : ι) (j : Nat) (hk : (S i).kind ≠ .affine) :
    NewRes h (toAffine S h i j) := by
  unfold toAffine
  split
  · exact NewRes.error _ _ _
  · cases hk' : (S i).kind with
    | affine => exact absurd hk' hk
    | projective =>
      dsimp only
      split
      · exact convert_new _ _ _ _ _ _
      · exact NewRes.error _ _ _
    | xyzz =>
      dsimp only
      split
      · exact convert_new _ _ _ _ _ _
      · exact NewRes.error _ _ _
    | twisted =>
      have hc := convert_new S h i j 2 none
      dsimp only [toEdAffine]
      generalize convertWith S h i j 2 none = cv at hc
      match cv with
      | (.error e, h') => exact NewRes.error _ _ _
      | (.ok k, h') =>
        intro k' hk'
        rw [untwist_new S h' i k k' hk']
        exact hc k rfl

theorem fromAffine_new (S : ι → Sys F) (h : Heap ι F) (i : ι) (j : Nat) : NewRes h (fromAffine S h i j) := by
  unfold fromAffine
  split
  · exact NewRes.error _ _ _
  · cases hk' : (S i).kind with
    | affine => exact NewRes.error _ _ _
    | projective =>
      dsimp only
      split
      · exact convert_new _ _ _ _ _ _
      · exact NewRes.error _ _ _
    | twisted => exact NewRes.error _ _ _
    | xyzz =>
      dsimp only
      split
      · have hc := copy_new S h j
        generalize copyPoint S h j = cp at hc
        match cp with
        | (.error e, h') => exact NewRes.error _ _ _
        | (.ok k, h') =>
          have hk : NewRes h (.ok k, h') := hc
          intro k' h'
          dsimp only at h'
          split at h'
          · cases h'
          · split at h'
            · cases h'
            · exact hk k' h'
      · exact NewRes.error _ _ _

theorem gen_new (S : ι → Sys F) (h : Heap ι F) (i : ι) (c : Option (List (Item F))) (zero tw : Bool) :
    NewRes h (genPoint S h i c zero tw) := by
  unfold genPoint
  split
  · split
    · exact NewRes.error _ _ _
    · rename_i items
      have g := toElems_grown (h.elem (S i).zeroRef) items h
      dsimp only
      split
      · split
        · exact (newPoint_new _ _ _ _ _).grown g.ext
        · exact (newPoint_new _ _ _ _ _).grown (g.trans (newElems_grown _ _)).ext
      · exact NewRes.error _ _ _
  · exact newPoint_new _ _ _ _ _

/-! ## Elements of results of arithmetic are new -/

/-- The elements of the point `k` are not among those that existed. -/
def FreshRes (h : Heap ι F) (r : Except String Nat × Heap ι F) : Prop :=
  ∀ k p l, r.1 = .ok k → r.2.points[k]? = some p → p.coords = some l → ∀ t ∈ r.2.list l, h.elems.length ≤ t

theorem formal_fresh (S : ι → Sys F) (h : Heap ι F) (i : ι) (rs0 : List Nat) (n : Nat) (hn : n ≤ h.elems.length)
    (hr : ∀ r ∈ rs0, n ≤ r) {rs : List Nat} {h' : Heap ι F}
    (e : formal S h i (some (rs0.map .ref)) false = (.ok (some rs), h')) : ∀ r ∈ rs, n ≤ r := by
  have key : ∀ (ws : List F) (h1 : Heap ι F), n ≤ h1.elems.length → ∀ r ∈ rs0 ++ (h1.newElems ws).1, n ≤ r := by
    intro ws h1 h1n r hm
    rcases List.mem_append.1 hm with hm | hm
    · exact hr r hm
    · exact h1n.trans (newElems_lt h1 ws hm).1
  unfold formal at e
  simp only [Bool.false_eq_true, false_and, if_false, toElems_refs] at e
  cases hk : (S i).kind <;> simp only [hk] at e
  · split at e
    · split at e
      · simp at e
      · simp only [Prod.mk.injEq, Except.ok.injEq, Option.some.injEq] at e
        rw [← e.1]
        exact hr
    · simp at e
  · simp only [Prod.mk.injEq, Except.ok.injEq, Option.some.injEq] at e
    rw [← e.1]
    exact hr
  · split at e
    · split at e
      · simp only [Prod.mk.injEq, Except.ok.injEq, Option.some.injEq] at e
        rw [← e.1]
        exact key _ _ hn
      · simp only [Prod.mk.injEq, Except.ok.injEq, Option.some.injEq] at e
        rw [← e.1]
        exact hr
    · simp at e
  · split at e
    · split at e
      · simp only [Prod.mk.injEq, Except.ok.injEq, Option.some.injEq] at e
        rw [← e.1]
        exact key _ _ hn
      · simp only [Prod.mk.injEq, Except.ok.injEq, Option.some.injEq] at e
        rw [← e.1]
        exact hr
    · simp at e

theorem newPointVals_fresh (S : ι → Sys F) (h : Heap ι F) (i : ι) (r : Except String (List F)) :
    FreshRes h (newPointVals S h i r) := by
  intro k p l hk hp hl t ht
  cases r with
  | error e => simp [newPointVals] at hk
  | ok vs =>
    unfold newPointVals newPoint at hk hp ht
    dsimp only at hk hp ht
    have ff := fun rs h' => formal_fresh S (h.newElems vs).2 i (h.newElems vs).1 h.elems.length
      (newElems_grown h vs).ext.le (fun r hr => (newElems_lt h vs hr).1) (rs := rs) (h' := h')
    generalize formal S (h.newElems vs).2 i (some ((h.newElems vs).1.map .ref)) false = fr at hk hp ht ff
    match fr with
    | (.error e, h') => simp at hk
    | (.ok none, h') =>
      simp only [Except.ok.injEq] at hk
      subst hk
      simp only [Heap.newObj, List.getElem?_concat_length, Option.some.injEq] at hp
      subst hp
      cases hl
    | (.ok (some rs), h') =>
      simp only [Except.ok.injEq] at hk
      subst hk
      simp only [Heap.newObj, Heap.newList, List.getElem?_concat_length, Option.some.injEq] at hp
      subst hp
      simp only [Option.some.injEq] at hl
      subst hl
      refine ff rs h' rfl t ?_
      simpa [Heap.list, Heap.newObj, Heap.newList, List.getD] using ht

theorem FreshRes.grown {h h' : Heap ι F} (g : Ext h h') {r : Except String Nat × Heap ι F} (n : FreshRes h' r) :
    FreshRes h r :=
  fun k p l h1 h2 h3 t ht => g.le.trans (n k p l h1 h2 h3 t ht)

/-! ## Statements without in-place change leave everything as it is -/

/-- The statement does not convert a flagged point that has coordinates. -/
def St.safe (s : St ι F) : Cmd ι F → Prop
  | .toAffine a | .toEdAffine a | .fromAffine _ a => ∀ p, s.value a = some p → ¬ (p.zero = true ∧ p.coords.isSome = true)
  | _ => True

theorem Good.ext {S : ι → Sys F} {h : Heap ι F} {r : Except String Nat × Heap ι F} {v : Except String (PVal ι F)}
    (g : Good S h r v) : Ext h (assigned r).2 := by
  obtain ⟨r1, h'⟩ := r
  cases r1 <;> exact g.1

omit [DecidableEq F] in
theorem value_some {s : St ι F} {a j : Nat} {p : PObj ι} (h1 : s.env[a]? = some j) (h2 : s.heap.points[j]? = some p) :
    s.value a = some (s.heap.val p) := by
  simp [St.value, h1, h2]

theorem obj_eq {s : St ι F} {a : Nat} {p : PObj ι} (h : s.obj a = .ok p) :
    ∃ j, s.env[a]? = some j ∧ s.heap.points[j]? = some p := by
  unfold St.obj at h
  cases h1 : s.env[a]? with
  | none => simp [h1] at h
  | some j =>
    cases h2 : s.heap.points[j]? with
    | none => simp [h1, h2] at h
    | some q =>
      simp only [h1, h2, Except.ok.injEq] at h
      exact ⟨j, rfl, h ▸ h2⟩

theorem eval_ext {S : ι → Sys F} {s : St ι F} (ok : StOk S s) (c : Cmd ι F) (hc : c.pure = true) (hs : s.safe c) :
    Ext s.heap (eval S s c).2 := by
  have w := ok.wf
  have app : ∀ (a : Nat) (f : Nat → Except String Nat × Heap ι F),
      (∀ j p, s.env[a]? = some j → s.heap.points[j]? = some p → Ext s.heap (assigned (f j)).2) →
        Ext s.heap (s.app a f).2 := by
    intro a f hf
    unfold St.app
    cases h1 : s.env[a]? with
    | none => exact Ext.refl _
    | some j =>
      obtain ⟨p, hp⟩ := ok.obj h1
      exact hf j p h1 hp
  have conv : ∀ {a j : Nat} {p : PObj ι}, s.env[a]? = some j → s.heap.points[j]? = some p →
      (∀ p, s.value a = some p → ¬ (p.zero = true ∧ p.coords.isSome = true)) →
        ¬ (p.zero = true ∧ p.coords.isSome = true) := by
    intro a j p h1 h2 h ⟨z1, z2⟩
    refine h _ (value_some h1 h2) ⟨z1, ?_⟩
    simpa [Heap.val, Heap.vals] using z2
  cases c with
  | gen i c zero tw =>
    cases c with
    | none => exact (gen_good w i none zero tw (by simp)).ext
    | some args =>
      unfold eval
      dsimp only
      cases h1 : s.items args with
      | error e => exact Ext.refl _
      | ok u =>
        refine (gen_good w i (some u) zero tw ?_).ext
        intro items hi
        simp only [Option.some.injEq] at hi
        subst hi
        exact ok.items h1
  | add a b =>
    refine app a _ fun j p _ hp => ?_
    cases h1 : s.env[b]? with
    | none => exact Ext.refl _
    | some k =>
      obtain ⟨q, hq⟩ := ok.obj h1
      exact (add_good w hp hq).ext
  | shift a n => exact app a _ fun j p _ hp => (shift_good w hp n).ext
  | copy a => exact app a _ fun j p _ hp => (copy_good w hp).ext
  | toAffine a =>
    refine app a _ fun j p hj hp => ?_
    simp only [hp]
    exact (toAffine_good w hp (conv hj hp hs)).ext
  | toEdAffine a =>
    refine app a _ fun j p hj hp => ?_
    simp only [hp]
    split
    · exact (convert_good w _ hp (conv hj hp hs) _ _).ext
    · exact Ext.refl _
  | fromAffine i a => exact app a _ fun j p hj hp => (fromAffine_good w i hp (conv hj hp hs)).ext
  | same a => exact app a _ fun j p _ hp => Ext.refl _
  | setItem a i e => cases hc
  | append a e => cases hc
  | setValue a i x => cases hc

theorem step_heap (S : ι → Sys F) (s : St ι F) (c : Cmd ι F) : (step S s c).heap = (eval S s c).2 := by
  unfold step
  generalize eval S s c = ev
  match ev with
  | (.error x, h') => rfl
  | (.ok none, h') => rfl
  | (.ok (some k), h') => rfl

theorem step_env (S : ι → Sys F) (s : St ι F) (c : Cmd ι F) :
    (∃ k, (eval S s c).1 = .ok (some k) ∧ (step S s c).env = s.env ++ [k]) ∨
      ((∀ k, (eval S s c).1 ≠ .ok (some k)) ∧ (step S s c).env = s.env) := by
  unfold step
  generalize eval S s c = ev
  match ev with
  | (.error x, h') => exact Or.inr ⟨by simp, rfl⟩
  | (.ok none, h') => exact Or.inr ⟨by simp, rfl⟩
  | (.ok (some k), h') => exact Or.inl ⟨k, rfl, rfl⟩

theorem step_env_lt (S : ι → Sys F) (s : St ι F) (c : Cmd ι F) {v : Nat} (hv : v < s.env.length) :
    (step S s c).env[v]? = s.env[v]? := by
  rcases step_env S s c with ⟨k, _, h⟩ | ⟨_, h⟩
  · rw [h, List.getElem?_append_left hv]
  · rw [h]

theorem value_ext {S : ι → Sys F} {s t : St ι F} (ok : StOk S s) (x : Ext s.heap t.heap) {v : Nat}
    (he : t.env[v]? = s.env[v]?) : t.value v = s.value v := by
  unfold St.value
  rw [he]
  cases h1 : s.env[v]? with
  | none => rfl
  | some j =>
    obtain ⟨p, hp⟩ := ok.obj h1
    simp only [hp, x.point hp, Option.map_some, x.val ok.wf (mem_of_getElem? hp)]

/-- The statements whose result is a new object. -/
def St.makesNew (S : ι → Sys F) (s : St ι F) : Cmd ι F → Prop
  | .shift a n => 0 < n ∨ ∀ p, s.value a = some p → p.zero = true
  | .toAffine a => ∀ p, s.value a = some p → (S p.sys).kind ≠ .affine
  | .same _ => False
  | _ => True

theorem shiftLoop_new {S : ι → Sys F} (i : ι) (n : Nat) {h : Heap ι F} (w : WF S h) {j : Nat} {p : PObj ι}
    (hp : h.points[j]? = some p) (hn : 0 < n) : NewRes h (shiftLoop S i n h j) := by
  induction n generalizing h j p with
  | zero => omega
  | succ n ih =>
    have g := double_good w i hp
    have hnew : NewRes h (doublePoint S h i j) := by
      unfold doublePoint
      simp only [hp]
      exact newPointVals_new S h i _
    unfold shiftLoop
    generalize doublePoint S h i j = d at g hnew
    generalize vVals (ctx S h) i (doubleVals (ctx S h i) (h.val p).coords) = v at g
    match d with
    | (.error e, h') => exact NewRes.error _ _ _
    | (.ok k, h') =>
      match v with
      | .error y => exact absurd g.2.2 (by simp)
      | .ok y =>
        obtain ⟨g1, g2, q, g3, _⟩ := g
        dsimp only at g1 g2 g3 ⊢
        cases n with
        | zero => exact hnew
        | succ n => exact (ih g2 g3 (by omega)).grown g1

theorem eval_new {S : ι → Sys F} {s : St ι F} (ok : StOk S s) (c : Cmd ι F) (hc : s.makesNew S c) (k : Nat)
    (hk : (eval S s c).1 = .ok (some k)) : s.heap.points.length ≤ k := by
  have app : ∀ (a : Nat) (f : Nat → Except String Nat × Heap ι F),
      (∀ j p, s.env[a]? = some j → s.heap.points[j]? = some p → NewRes s.heap (f j)) →
        (s.app a f).1 = .ok (some k) → s.heap.points.length ≤ k := by
    intro a f hf hk
    unfold St.app at hk
    cases h1 : s.env[a]? with
    | none => simp [h1] at hk
    | some j =>
      obtain ⟨p, hp⟩ := ok.obj h1
      have := hf j p h1 hp
      simp only [h1] at hk
      generalize f j = r at this hk
      match r with
      | (.error e, h') => simp [assigned] at hk
      | (.ok k', h') =>
        simp only [assigned, Except.ok.injEq, Option.some.injEq] at hk
        subst hk
        exact this k' rfl
  have gen : ∀ {r : Except String Nat × Heap ι F}, NewRes s.heap r → (assigned r).1 = .ok (some k) →
      s.heap.points.length ≤ k := by
    intro r hr hk
    match r with
    | (.error e, h') => simp [assigned] at hk
    | (.ok k', h') =>
      simp only [assigned, Except.ok.injEq, Option.some.injEq] at hk
      subst hk
      exact hr k' rfl
  cases c with
  | gen i c zero tw =>
    cases c with
    | none => exact gen (gen_new S s.heap i none zero tw) hk
    | some args =>
      unfold eval at hk
      dsimp only at hk
      cases h1 : s.items args with
      | error e => simp [h1] at hk
      | ok u =>
        simp only [h1] at hk
        exact gen (gen_new S s.heap i (some u) zero tw) hk
  | add a b =>
    refine app a _ (fun j p _ hp => ?_) hk
    cases h1 : s.env[b]? with
    | none => exact NewRes.error _ _ _
    | some k => exact add_new S s.heap j k
  | shift a n =>
    refine app a _ (fun j p hj hp => ?_) hk
    unfold shiftPoint
    simp only [hp]
    split
    · exact copy_new S s.heap j
    · rename_i hz
      rcases hc with hc | hc
      · exact shiftLoop_new p.sys n.toNat ok.wf hp (by omega)
      · exact absurd (hc _ (value_some hj hp)) hz
  | copy a => exact app a _ (fun j p _ hp => copy_new S s.heap j) hk
  | toAffine a =>
    refine app a _ (fun j p hj hp => ?_) hk
    simp only [hp]
    exact toAffine_new S s.heap p.sys j (hc _ (value_some hj hp))
  | toEdAffine a =>
    refine app a _ (fun j p hj hp => ?_) hk
    simp only [hp]
    split
    · exact convert_new _ _ _ _ _ _
    · exact NewRes.error _ _ _
  | fromAffine i a => exact app a _ (fun j p hj hp => fromAffine_new S s.heap i j) hk
  | same a => exact absurd hc (by simp [St.makesNew])
  | setItem a i e =>
    unfold eval at hk
    dsimp only at hk
    split at hk
    · simp at hk
    · split at hk
      · simp at hk
      · split at hk
        · simp at hk
        · split at hk <;> simp at hk
  | append a e =>
    unfold eval at hk
    dsimp only at hk
    split at hk
    · simp at hk
    · split at hk
      · simp at hk
      · split at hk <;> simp at hk
  | setValue a i x =>
    unfold eval at hk
    dsimp only at hk
    split at hk <;> simp at hk

/-! ## Results with new elements -/

theorem shiftLoop_fresh {S : ι → Sys F} (i : ι) (n : Nat) {h : Heap ι F} (w : WF S h) {j : Nat} {p : PObj ι}
    (hp : h.points[j]? = some p) (hn : 0 < n) : FreshRes h (shiftLoop S i n h j) := by
  induction n generalizing h j p with
  | zero => omega
  | succ n ih =>
    have g := double_good w i hp
    have hnew : FreshRes h (doublePoint S h i j) := by
      unfold doublePoint
      simp only [hp]
      exact newPointVals_fresh S h i _
    unfold shiftLoop
    generalize doublePoint S h i j = d at g hnew
    generalize vVals (ctx S h) i (doubleVals (ctx S h i) (h.val p).coords) = v at g
    match d with
    | (.error e, h') =>
      intro k q l hk
      simp at hk
    | (.ok k, h') =>
      match v with
      | .error y => exact absurd g.2.2 (by simp)
      | .ok y =>
        obtain ⟨g1, g2, q, g3, _⟩ := g
        dsimp only at g1 g2 g3 ⊢
        cases n with
        | zero => exact hnew
        | succ n => exact (ih g2 g3 (by omega)).grown g1

/-- The statements whose result consists of new elements. -/
def St.makesElems (S : ι → Sys F) (s : St ι F) : Cmd ι F → Prop
  | .add a b => ∀ p q, s.value a = some p → s.value b = some q →
      (S p.sys).kind = .twisted ∨ (p.zero = false ∧ q.zero = false)
  | .shift a n => 0 < n ∧ ∀ p, s.value a = some p → p.zero = false
  | _ => False

theorem eval_fresh {S : ι → Sys F} {s : St ι F} (ok : StOk S s) (c : Cmd ι F) (hc : s.makesElems S c) {k l : Nat}
    {p : PObj ι} (hk : (eval S s c).1 = .ok (some k)) (hp : (eval S s c).2.points[k]? = some p)
    (hl : p.coords = some l) : ∀ t ∈ (eval S s c).2.list l, s.heap.elems.length ≤ t := by
  have app : ∀ (a : Nat) (f : Nat → Except String Nat × Heap ι F),
      (∀ j p, s.env[a]? = some j → s.heap.points[j]? = some p → FreshRes s.heap (f j)) →
        (s.app a f).1 = .ok (some k) → (s.app a f).2.points[k]? = some p →
          ∀ t ∈ (s.app a f).2.list l, s.heap.elems.length ≤ t := by
    intro a f hf hk hp
    unfold St.app at hk hp ⊢
    cases h1 : s.env[a]? with
    | none => simp [h1] at hk
    | some j =>
      obtain ⟨p', hp'⟩ := ok.obj h1
      have := hf j p' h1 hp'
      simp only [h1] at hk hp ⊢
      generalize f j = r at this hk hp
      match r with
      | (.error e, h') => simp [assigned] at hk
      | (.ok k', h') =>
        simp only [assigned, Except.ok.injEq, Option.some.injEq] at hk hp ⊢
        subst hk
        exact this k' p l rfl hp hl
  cases c with
  | add a b =>
    refine app a _ (fun j p hj hp => ?_) hk hp
    cases h1 : s.env[b]? with
    | none =>
      intro k q l hk
      simp at hk
    | some k =>
      obtain ⟨q, hq⟩ := ok.obj h1
      dsimp only
      unfold addPoint
      simp only [hp, hq]
      have hh := hc _ _ (value_some hj hp) (value_some h1 hq)
      have hh' : (S p.sys).kind = .twisted ∨ (p.zero = false ∧ q.zero = false) := hh
      rw [if_neg (by rintro ⟨e1, e2⟩; rcases hh' with h | h; exacts [e1 h, by simp [h.2] at e2]),
        if_neg (by rintro ⟨e1, e2⟩; rcases hh' with h | h; exacts [e1 h, by simp [h.1] at e2])]
      exact newPointVals_fresh S s.heap _ _
  | shift a n =>
    refine app a _ (fun j p hj hp => ?_) hk hp
    have hz : p.zero = false := hc.2 _ (value_some hj hp)
    unfold shiftPoint
    simp only [hp, hz]
    exact shiftLoop_fresh p.sys n.toNat ok.wf hp (by have := hc.1; omega)
  | _ => exact hc.elim

end Verif.EcPoint

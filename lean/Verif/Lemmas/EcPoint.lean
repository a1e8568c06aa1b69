import Verif.Model.EcPointSpec

/-!
# Lemmas on the heap of point objects
-/

namespace Verif.EcPoint

open Verif.EcCurve

variable {ι F : Type} [Field F] [DecidableEq F]

/-- The heap `h'` extends `h`: everything that exists in `h` is unchanged. -/
structure Ext (h h' : Heap ι F) : Prop where
  elems : h.elems <+: h'.elems
  lists : h.lists <+: h'.lists
  points : h.points <+: h'.points

/-- References are in range, exactly the flagged points of the Weierstrass classes have no coordinates, and two point
objects have a list in common only if both are flagged zero. -/
structure WF (S : ι → Sys F) (h : Heap ι F) : Prop where
  sys : ∀ i, (S i).zeroRef < h.elems.length ∧ (S i).oneRef < h.elems.length
  lists : ∀ l ∈ h.lists, ∀ r ∈ l, r < h.elems.length
  points : ∀ p ∈ h.points, ∀ l, p.coords = some l → l < h.lists.length
  none : ∀ p ∈ h.points, p.coords = none ↔ p.zero = true ∧ (S p.sys).kind ≠ .twisted
  sep : ∀ (i j : Nat) (p q : PObj ι), h.points[i]? = some p → h.points[j]? = some q → i ≠ j → p.coords.isSome →
    p.coords = q.coords → p.zero = true ∧ q.zero = true

theorem Ext.refl (h : Heap ι F) : Ext h h := ⟨List.prefix_rfl, List.prefix_rfl, List.prefix_rfl⟩

theorem Ext.trans {h1 h2 h3 : Heap ι F} (a : Ext h1 h2) (b : Ext h2 h3) : Ext h1 h3 :=
  ⟨a.elems.trans b.elems, a.lists.trans b.lists, a.points.trans b.points⟩

theorem getD_prefix {α : Type} {l l' : List α} (h : l <+: l') {i : Nat} (hi : i < l.length) (d : α) :
    l'.getD i d = l.getD i d := by
  obtain ⟨t, rfl⟩ := h
  simp [List.getD, List.getElem?_append_left hi]

theorem Ext.elem {h h' : Heap ι F} (e : Ext h h') {r : Nat} (hr : r < h.elems.length) : h'.elem r = h.elem r :=
  getD_prefix e.elems hr 0

theorem Ext.list {h h' : Heap ι F} (e : Ext h h') {r : Nat} (hr : r < h.lists.length) : h'.list r = h.list r :=
  getD_prefix e.lists hr []

theorem Ext.point {h h' : Heap ι F} (e : Ext h h') {j : Nat} {p : PObj ι} (hp : h.points[j]? = some p) :
    h'.points[j]? = some p := by
  obtain ⟨t, ht⟩ := e.points
  have := (List.getElem?_eq_some_iff.1 hp).1
  rw [← ht, List.getElem?_append_left this, hp]

theorem WF.list_lt {S : ι → Sys F} {h : Heap ι F} (w : WF S h) (l : Nat) {r : Nat} (hr : r ∈ h.list l) :
    r < h.elems.length := by
  unfold Heap.list at hr
  by_cases hl : l < h.lists.length
  · have e : h.lists.getD l [] = h.lists[l] := by simp [List.getD, hl]
    rw [e] at hr
    exact w.lists _ (List.getElem_mem hl) r hr
  · have e : h.lists.getD l [] = [] := by simp [List.getD, hl]
    rw [e] at hr
    cases hr

theorem Ext.vals {S : ι → Sys F} {h h' : Heap ι F} (w : WF S h) (e : Ext h h') {p : PObj ι} (hp : p ∈ h.points) :
    h'.vals p = h.vals p := by
  unfold Heap.vals
  cases hc : p.coords with
  | none => rfl
  | some l =>
    have hl := w.points p hp l hc
    simp only [Option.map_some, e.list hl]
    congr 1
    exact List.map_congr_left fun r hr => e.elem (w.list_lt l hr)

theorem mem_of_getElem? {α : Type} {l : List α} {i : Nat} {a : α} (h : l[i]? = some a) : a ∈ l :=
  List.mem_of_getElem? h

theorem Ext.val {S : ι → Sys F} {h h' : Heap ι F} (w : WF S h) (e : Ext h h') {p : PObj ι} (hp : p ∈ h.points) :
    h'.val p = h.val p := by
  unfold Heap.val
  rw [e.vals w hp]

theorem Ext.ctx {S : ι → Sys F} {h h' : Heap ι F} (w : WF S h) (e : Ext h h') : ctx S h' = ctx S h := by
  funext i
  unfold EcPoint.ctx
  rw [e.elem (w.sys i).1, e.elem (w.sys i).2]

/-! ## Elements -/

/-- The value of an item. -/
def itemVal (z : F) (h : Heap ι F) : Item F → F
  | .ref r => h.elem r
  | .int v => if v = 0 then z else v

/-- The references of an item are in range. -/
def ItemOk (h : Heap ι F) : Item F → Prop
  | .ref r => r < h.elems.length
  | .int _ => True

/-- Only elements are added. -/
def Grown (h h' : Heap ι F) : Prop := ∃ e, h' = { h with elems := h.elems ++ e }

theorem Grown.refl (h : Heap ι F) : Grown h h := ⟨[], by simp⟩

theorem Grown.trans {h1 h2 h3 : Heap ι F} (a : Grown h1 h2) (b : Grown h2 h3) : Grown h1 h3 := by
  obtain ⟨e, rfl⟩ := a
  obtain ⟨f, rfl⟩ := b
  exact ⟨e ++ f, by simp⟩

theorem Grown.ext {h h' : Heap ι F} (g : Grown h h') : Ext h h' := by
  obtain ⟨e, rfl⟩ := g
  exact ⟨List.prefix_append _ _, List.prefix_rfl, List.prefix_rfl⟩

theorem Ext.le {h h' : Heap ι F} (g : Ext h h') : h.elems.length ≤ h'.elems.length := g.elems.length_le

theorem Grown.wf {S : ι → Sys F} {h h' : Heap ι F} (g : Grown h h') (w : WF S h) : WF S h' := by
  have hle := g.ext.le
  obtain ⟨e, rfl⟩ := g
  exact ⟨fun i => ⟨(w.sys i).1.trans_le hle, (w.sys i).2.trans_le hle⟩,
    fun l hl r hr => (w.lists l hl r hr).trans_le hle, w.points, w.none, w.sep⟩

theorem newElem_grown (h : Heap ι F) (v : F) : Grown h (h.newElem v).2 := ⟨[v], rfl⟩

theorem newElems_grown (h : Heap ι F) (v : List F) : Grown h (h.newElems v).2 := ⟨v, rfl⟩

theorem newElem_elem (h : Heap ι F) (v : F) : (h.newElem v).2.elem (h.newElem v).1 = v := by
  simp [Heap.newElem, Heap.elem, List.getD]

theorem newElems_map (h : Heap ι F) (v : List F) : (h.newElems v).1.map (h.newElems v).2.elem = v := by
  unfold Heap.newElems Heap.elem
  apply List.ext_getElem
  · simp
  · intro i h1 h2
    simp [List.getD, List.getElem?_append_right, h2]

theorem newElems_lt (h : Heap ι F) (v : List F) {r : Nat} (hr : r ∈ (h.newElems v).1) :
    h.elems.length ≤ r ∧ r < (h.newElems v).2.elems.length := by
  simp only [Heap.newElems, List.mem_range'_1] at hr
  simp only [Heap.newElems, List.length_append]
  omega

theorem newElems_length (h : Heap ι F) (v : List F) : (h.newElems v).1.length = v.length := by
  simp [Heap.newElems]

theorem toElems_length (z : F) (items : List (Item F)) (h : Heap ι F) : (toElems z h items).1.length = items.length := by
  induction items generalizing h with
  | nil => rfl
  | cons a t ih => cases a <;> simp [toElems, ih]

theorem toElems_grown (z : F) (items : List (Item F)) (h : Heap ι F) : Grown h (toElems z h items).2 := by
  induction items generalizing h with
  | nil => exact Grown.refl h
  | cons a t ih =>
    cases a with
    | ref r => exact ih h
    | int v => exact (newElem_grown h _).trans (ih _)

theorem ItemOk.mono {h h' : Heap ι F} (g : Ext h h') {a : Item F} (ha : ItemOk h a) : ItemOk h' a := by
  cases a with
  | ref r => exact lt_of_lt_of_le ha g.le
  | int v => trivial

theorem itemVal_ext {z : F} {h h' : Heap ι F} (g : Ext h h') {a : Item F} (ha : ItemOk h a) :
    itemVal z h' a = itemVal z h a := by
  cases a with
  | ref r => exact g.elem ha
  | int v => rfl

theorem toElems_spec (z : F) (items : List (Item F)) (h : Heap ι F) (hok : ∀ a ∈ items, ItemOk h a) :
    (toElems z h items).1.map (toElems z h items).2.elem = items.map (itemVal z h) ∧
      ∀ r ∈ (toElems z h items).1, r < (toElems z h items).2.elems.length := by
  induction items generalizing h with
  | nil => simp [toElems]
  | cons a t ih =>
    cases a with
    | ref r =>
      have hr : r < h.elems.length := hok _ (List.mem_cons_self ..)
      obtain ⟨i1, i2⟩ := ih h fun a ha => hok a (List.mem_cons_of_mem _ ha)
      have g := (toElems_grown z t h).ext
      refine ⟨?_, ?_⟩
      · simp only [toElems, List.map_cons, i1, itemVal, g.elem hr]
      · intro s hs
        simp only [toElems, List.mem_cons] at hs ⊢
        rcases hs with rfl | hs
        · exact hr.trans_le g.le
        · exact i2 s hs
    | int v =>
      have g1 := (newElem_grown h (if v = 0 then z else v)).ext
      obtain ⟨i1, i2⟩ := ih (h.newElem (if v = 0 then z else v)).2 fun a ha =>
        (hok a (List.mem_cons_of_mem _ ha)).mono g1
      have g2 := (toElems_grown z t (h.newElem (if v = 0 then z else v)).2).ext
      have hl : (h.newElem (if v = 0 then z else v)).1 < (h.newElem (if v = 0 then z else v)).2.elems.length := by
        simp [Heap.newElem]
      refine ⟨?_, ?_⟩
      · simp only [toElems, List.map_cons, i1, itemVal, g2.elem hl, newElem_elem]
        congr 1
        exact List.map_congr_left fun a ha => itemVal_ext g1 (hok a (List.mem_cons_of_mem _ ha))
      · intro s hs
        simp only [toElems, List.mem_cons] at hs ⊢
        rcases hs with rfl | hs
        · exact hl.trans_le g2.le
        · exact i2 s hs

theorem toElems_refs (z : F) (rs : List Nat) (h : Heap ι F) : toElems z h (rs.map .ref) = (rs, h) := by
  induction rs with
  | nil => rfl
  | cons a t ih => simp [toElems, ih]

/-! ## Formal coordinates -/

/-- The outcome `r` with heap `h'` has the value `v`. -/
def FormalRel (h' : Heap ι F) (r : Except String (Option (List Nat))) (v : Except String (Option (List F))) : Prop :=
  match r, v with
  | .ok none, .ok none => True
  | .ok (some rs), .ok (some vs) => rs.map h'.elem = vs ∧ ∀ r ∈ rs, r < h'.elems.length
  | .error x, .error y => x = y
  | _, _ => False

theorem formal_grown (S : ι → Sys F) (h : Heap ι F) (i : ι) (c : Option (List (Item F))) (zero : Bool) :
    Grown h (formal S h i c zero).2 := by
  unfold formal
  dsimp only
  split
  · exact Grown.refl h
  · split
    · exact Grown.refl h
    · rename_i items _
      cases (S i).kind <;> dsimp only
      · split
        · split <;> exact toElems_grown _ _ _
        · exact Grown.refl h
      · exact toElems_grown _ _ _
      · split
        · split
          · exact (toElems_grown _ _ _).trans (newElems_grown _ _)
          · exact toElems_grown _ _ _
        · exact Grown.refl h
      · split
        · split
          · exact (toElems_grown _ _ _).trans (newElems_grown _ _)
          · exact toElems_grown _ _ _
        · exact Grown.refl h

theorem append_newElems {h : Heap ι F} {rs : List Nat} {vs : List F} (h1 : rs.map h.elem = vs)
    (h2 : ∀ r ∈ rs, r < h.elems.length) (ws : List F) :
    (rs ++ (h.newElems ws).1).map (h.newElems ws).2.elem = vs ++ ws ∧
      ∀ r ∈ rs ++ (h.newElems ws).1, r < (h.newElems ws).2.elems.length := by
  have g := (newElems_grown h ws).ext
  refine ⟨?_, ?_⟩
  · rw [List.map_append, newElems_map, ← h1]
    congr 1
    exact List.map_congr_left fun r hr => g.elem (h2 r hr)
  · intro r hr
    rcases List.mem_append.1 hr with hr | hr
    · exact (h2 r hr).trans_le g.le
    · exact (newElems_lt h ws hr).2

theorem formal_rel (S : ι → Sys F) {h : Heap ι F} (w : WF S h) (i : ι) (c : Option (List (Item F))) (zero : Bool)
    (hok : ∀ items, c = some items → ∀ a ∈ items, ItemOk h a) :
    FormalRel (formal S h i c zero).2 (formal S h i c zero).1
      (vFormal (ctx S h i) (c.map fun t => t.map (itemVal (h.elem (S i).zeroRef) h)) zero) := by
  unfold formal vFormal
  have hk : (ctx S h i).kind = (S i).kind := rfl
  dsimp only
  rw [hk]
  split
  · simp [FormalRel]
  · rename_i hz
    -- the coordinates that are used
    obtain ⟨c', e1, e2, hok'⟩ : ∃ c' : Option (List (Item F)),
        (if zero = true then some [Item.ref (S i).zeroRef, .ref (S i).oneRef, .ref (S i).oneRef, .ref (S i).zeroRef]
          else c) = c' ∧
        (if zero = true then some [(ctx S h i).zero, (ctx S h i).one, (ctx S h i).one, (ctx S h i).zero]
          else c.map fun t => t.map (itemVal (h.elem (S i).zeroRef) h)) =
            c'.map (fun t => t.map (itemVal (h.elem (S i).zeroRef) h)) ∧
        ∀ items, c' = some items → ∀ a ∈ items, ItemOk h a := by
      cases zero with
      | false => exact ⟨c, rfl, rfl, hok⟩
      | true =>
        refine ⟨_, rfl, rfl, ?_⟩
        intro items hi a ha
        simp only [if_true, Option.some.injEq] at hi
        subst hi
        simp only [List.mem_cons, List.not_mem_nil, or_false] at ha
        rcases ha with rfl | rfl | rfl | rfl
        · exact (w.sys i).1
        · exact (w.sys i).2
        · exact (w.sys i).2
        · exact (w.sys i).1
    rw [e1, e2]
    cases c' with
    | none => simp [FormalRel]
    | some items =>
      obtain ⟨t1, t2⟩ := toElems_spec (h.elem (S i).zeroRef) items h (hok' items rfl)
      have g := (toElems_grown (h.elem (S i).zeroRef) items h).ext
      have hlen := toElems_length (h.elem (S i).zeroRef) items h
      simp only [Option.map_some, List.length_map]
      cases (S i).kind <;> dsimp only
      · by_cases h2 : items.length = 2
        · simp [h2, FormalRel]
        · by_cases h3 : items.length = 3
          · simp only [h3, FormalRel, or_true, if_true]
            simpa using And.intro t1 t2
          · simp [h2, h3, FormalRel]
      · exact ⟨t1, t2⟩
      · by_cases h2 : items.length = 2
        · simp only [h2, true_or, if_true]
          exact append_newElems t1 t2 _
        · by_cases h3 : items.length = 4
          · simp only [h3, FormalRel, or_true, if_true]
            simpa using And.intro t1 t2
          · simp [h2, h3, FormalRel]
      · by_cases h2 : items.length = 2
        · simp only [h2, true_or, if_true]
          refine (append_newElems t1 t2 _).imp (fun e => e.trans ?_) id
          congr 1
          have e0 : ∀ n, n < 2 → (toElems (h.elem (S i).zeroRef) h items).2.elem
              ((toElems (h.elem (S i).zeroRef) h items).1.getD n 0) =
                (items.map (itemVal (h.elem (S i).zeroRef) h)).getD n 0 := by
            intro n hn
            rw [← t1]
            simp [List.getD, hlen, h2, hn]
          rw [e0 0 (by omega), e0 1 (by omega)]
          rfl
        · by_cases h3 : items.length = 4
          · simp only [h3, FormalRel, or_true, if_true]
            simpa using And.intro t1 t2
          · simp [h2, h3, FormalRel]

/-! ## New points -/

/-- A new point `k` with a new list; nothing else is changed. -/
def Made (h h' : Heap ι F) (k : Nat) (p : PObj ι) (vs : List F) : Prop :=
  ∃ e rs, h' = ⟨h.elems ++ e, h.lists ++ [rs], h.points ++ [{ p with coords := some h.lists.length }]⟩ ∧
    k = h.points.length ∧ rs.map h'.elem = vs ∧ ∀ r ∈ rs, r < h'.elems.length

theorem Made.ext {h h' : Heap ι F} {k : Nat} {p : PObj ι} {vs : List F} (m : Made h h' k p vs) : Ext h h' := by
  obtain ⟨e, rs, rfl, _⟩ := m
  exact ⟨List.prefix_append _ _, List.prefix_append _ _, List.prefix_append _ _⟩

theorem Made.point {h h' : Heap ι F} {k : Nat} {p : PObj ι} {vs : List F} (m : Made h h' k p vs) :
    h'.points[k]? = some { p with coords := some h.lists.length } := by
  obtain ⟨e, rs, rfl, rfl, _⟩ := m
  simp

theorem Made.vals {h h' : Heap ι F} {k : Nat} {p : PObj ι} {vs : List F} (m : Made h h' k p vs) :
    h'.vals { p with coords := some h.lists.length } = some vs := by
  obtain ⟨e, rs, rfl, rfl, h1, _⟩ := m
  rw [← h1]
  simp [Heap.vals, Heap.list, List.getD]

theorem Made.val {h h' : Heap ι F} {k : Nat} {p : PObj ι} {vs : List F} (m : Made h h' k p vs) :
    h'.val { p with coords := some h.lists.length } = ⟨some vs, p.zero, p.sys, p.ty⟩ := by
  unfold Heap.val
  rw [m.vals]

theorem Made.wf {S : ι → Sys F} {h h' : Heap ι F} {k : Nat} {p : PObj ι} {vs : List F} (m : Made h h' k p vs)
    (w : WF S h) (hp : ¬ (p.zero = true ∧ (S p.sys).kind ≠ .twisted)) : WF S h' := by
  have hle := m.ext.le
  obtain ⟨e, rs, rfl, rfl, h1, h2⟩ := m
  refine ⟨fun i => ⟨(w.sys i).1.trans_le hle, (w.sys i).2.trans_le hle⟩, ?_, ?_, ?_, ?_⟩
  · intro l hl r hr
    rcases List.mem_append.1 hl with hl | hl
    · exact (w.lists l hl r hr).trans_le hle
    · simp only [List.mem_singleton] at hl
      subst hl
      exact h2 r hr
  · intro q hq l hl
    simp only [List.length_append, List.length_singleton]
    rcases List.mem_append.1 hq with hq | hq
    · exact Nat.lt_succ_of_lt (w.points q hq l hl)
    · simp only [List.mem_singleton] at hq
      subst hq
      simp only [Option.some.injEq] at hl
      omega
  · intro q hq
    rcases List.mem_append.1 hq with hq | hq
    · exact w.none q hq
    · simp only [List.mem_singleton] at hq
      subst hq
      simpa using fun a b => hp ⟨a, b⟩
  · intro i j q r hq hr hij hs heq
    have key : ∀ {n : Nat} {q : PObj ι}, (h.points ++ [{ p with coords := some h.lists.length }])[n]? = some q →
        (h.points[n]? = some q ∧ q.coords ≠ some h.lists.length) ∨
          (n = h.points.length ∧ q = { p with coords := some h.lists.length }) := by
      intro n q hn
      by_cases hlt : n < h.points.length
      · rw [List.getElem?_append_left hlt] at hn
        refine Or.inl ⟨hn, fun e => ?_⟩
        exact absurd (w.points q (mem_of_getElem? hn) _ e) (lt_irrefl _)
      · rw [List.getElem?_append_right (by omega)] at hn
        have hn' := (List.getElem?_eq_some_iff.1 hn).1
        simp only [List.length_singleton] at hn'
        have e0 : n - h.points.length = 0 := by omega
        rw [e0] at hn
        simp only [List.getElem?_cons_zero, Option.some.injEq] at hn
        exact Or.inr ⟨by omega, hn.symm⟩
    rcases key hq with ⟨a1, a2⟩ | ⟨a1, a2⟩ <;> rcases key hr with ⟨b1, b2⟩ | ⟨b1, b2⟩
    · exact w.sep i j q r a1 b1 hij hs heq
    · subst b2
      exact absurd heq a2
    · subst a2
      exact absurd heq.symm b2
    · omega

/-- The operation returned a point with the value `v`, or raised the exception of `v`; everything that existed is
unchanged. -/
def Good (S : ι → Sys F) (h : Heap ι F) (r : Except String Nat × Heap ι F) (v : Except String (PVal ι F)) : Prop :=
  Ext h r.2 ∧ WF S r.2 ∧
    match r.1, v with
    | .ok j, .ok v => ∃ p, r.2.points[j]? = some p ∧ r.2.val p = v
    | .error x, .error y => x = y
    | _, _ => False

theorem Made.good {S : ι → Sys F} {h h' : Heap ι F} {k : Nat} {p : PObj ι} {vs : List F} (m : Made h h' k p vs)
    (w : WF S h) (hp : ¬ (p.zero = true ∧ (S p.sys).kind ≠ .twisted)) :
    Good S h (.ok k, h') (.ok ⟨some vs, p.zero, p.sys, p.ty⟩) :=
  ⟨m.ext, m.wf w hp, _, m.point, m.val⟩

theorem Made.grown {h0 h h' : Heap ι F} {k : Nat} {p : PObj ι} {vs : List F} (g : Grown h0 h) (m : Made h h' k p vs) :
    Made h0 h' k p vs := by
  obtain ⟨f, rfl⟩ := g
  obtain ⟨e, rs, rfl, h1, h2, h3⟩ := m
  exact ⟨f ++ e, rs, by simp, h1, h2, h3⟩

theorem made_new {h : Heap ι F} {rs : List Nat} {vs : List F} (h1 : rs.map h.elem = vs)
    (h2 : ∀ r ∈ rs, r < h.elems.length) (p : PObj ι) :
    Made h ((h.newList rs).2.newObj { p with coords := some (h.newList rs).1 }).2
      ((h.newList rs).2.newObj { p with coords := some (h.newList rs).1 }).1 p vs :=
  ⟨[], rs, by simp [Heap.newList, Heap.newObj], rfl, h1, h2⟩

/-- A new point object without a list of its own. -/
theorem newObj_good {S : ι → Sys F} {h : Heap ι F} (w : WF S h) (p : PObj ι)
    (hl : ∀ l, p.coords = some l → l < h.lists.length)
    (hn : p.coords = none ↔ p.zero = true ∧ (S p.sys).kind ≠ .twisted)
    (hs : ∀ q ∈ h.points, p.coords.isSome → p.coords = q.coords → p.zero = true ∧ q.zero = true) :
    Good S h (.ok (h.newObj p).1, (h.newObj p).2) (.ok (h.val p)) := by
  refine ⟨⟨List.prefix_rfl, List.prefix_rfl, List.prefix_append _ _⟩, ⟨w.sys, w.lists, ?_, ?_, ?_⟩, p, ?_, rfl⟩
  · intro q hq
    rcases List.mem_append.1 hq with hq | hq
    · exact w.points q hq
    · simp only [List.mem_singleton] at hq
      subst hq
      exact hl
  · intro q hq
    rcases List.mem_append.1 hq with hq | hq
    · exact w.none q hq
    · simp only [List.mem_singleton] at hq
      subst hq
      exact hn
  · intro i j q r hq hr hij hsm heq
    have key : ∀ {n : Nat} {q : PObj ι}, (h.points ++ [p])[n]? = some q →
        h.points[n]? = some q ∨ (n = h.points.length ∧ q = p) := by
      intro n q hn
      by_cases hlt : n < h.points.length
      · rw [List.getElem?_append_left hlt] at hn
        exact Or.inl hn
      · rw [List.getElem?_append_right (by omega)] at hn
        have hn' := (List.getElem?_eq_some_iff.1 hn).1
        simp only [List.length_singleton] at hn'
        have e0 : n - h.points.length = 0 := by omega
        rw [e0] at hn
        simp only [List.getElem?_cons_zero, Option.some.injEq] at hn
        exact Or.inr ⟨by omega, hn.symm⟩
    rcases key hq with a1 | ⟨a1, a2⟩ <;> rcases key hr with b1 | ⟨b1, b2⟩
    · exact w.sep i j q r a1 b1 hij hsm heq
    · subst b2
      exact (hs q (mem_of_getElem? a1) (heq ▸ hsm) heq.symm).symm
    · subst a2
      exact hs r (mem_of_getElem? b1) hsm heq
    · omega
  · simp [Heap.newObj]

theorem Good.error {S : ι → Sys F} {h h' : Heap ι F} (w : WF S h) (g : Grown h h') (e : String) :
    Good S h (.error e, h') (.error e) := ⟨g.ext, g.wf w, rfl⟩

theorem Good.grown {S : ι → Sys F} {h h' : Heap ι F} {r : Except String Nat × Heap ι F} {v : Except String (PVal ι F)}
    (e : Ext h h') (g : Good S h' r v) : Good S h r v := ⟨e.trans g.1, g.2⟩

theorem ctx_kind (S : ι → Sys F) (h : Heap ι F) (i : ι) : (ctx S h i).kind = (S i).kind := rfl

theorem vFormal_none {k : Ctx F} {c : Option (List F)} {zero : Bool} (h : vFormal k c zero = .ok none) :
    zero = true ∧ k.kind ≠ .twisted := by
  unfold vFormal at h
  split at h
  · assumption
  · exfalso
    split at h
    · cases h
    · cases hk : k.kind <;> simp only [hk] at h
      · split at h <;> simp at h
      · simp at h
      · split at h
        · simp at h
        · split at h <;> simp at h
      · split at h
        · simp at h
        · split at h <;> simp at h

theorem vFormal_some {k : Ctx F} {c : Option (List F)} {zero : Bool} {vs : List F}
    (h : vFormal k c zero = .ok (some vs)) : ¬ (zero = true ∧ k.kind ≠ .twisted) := by
  intro hz
  unfold vFormal at h
  rw [if_pos hz] at h
  cases h

theorem newPoint_good {S : ι → Sys F} {h : Heap ι F} (w : WF S h) (i : ι) (c : Option (List (Item F))) (zero : Bool)
    (hok : ∀ items, c = some items → ∀ a ∈ items, ItemOk h a) :
    Good S h (newPoint S h i c zero)
      (vNew (ctx S h) i (c.map fun t => t.map (itemVal (h.elem (S i).zeroRef) h)) zero) := by
  have g := formal_grown S h i c zero
  have r := formal_rel S w i c zero hok
  unfold newPoint vNew
  generalize formal S h i c zero = fr at g r ⊢
  generalize hv : vFormal (ctx S h i) (c.map fun t => t.map (itemVal (h.elem (S i).zeroRef) h)) zero = v at r ⊢
  match fr, v with
  | (.error e, h'), v =>
    dsimp only at g r ⊢
    match v with
    | .error y =>
      obtain rfl : e = y := r
      exact Good.error w g e
  | (.ok none, h'), v =>
    dsimp only at g r ⊢
    match v with
    | .ok none =>
      refine Good.grown g.ext ?_
      have hz := vFormal_none hv
      exact newObj_good (g.wf w) ⟨none, zero, i, (S i).kind.ty⟩ (by simp)
        (by simpa [ctx_kind] using hz) (by simp)
  | (.ok (some rs), h'), v =>
    dsimp only at g r ⊢
    match v with
    | .ok (some vs) =>
      have hz := vFormal_some hv
      exact ((made_new r.1 r.2 (⟨none, zero, i, (S i).kind.ty⟩ : PObj ι)).grown g).good w hz

theorem newPointVals_good {S : ι → Sys F} {h : Heap ι F} (w : WF S h) (i : ι) (r : Except String (List F)) :
    Good S h (newPointVals S h i r) (vVals (ctx S h) i r) := by
  cases r with
  | error e => exact Good.error w (Grown.refl h) e
  | ok vs =>
    have g := newElems_grown h vs
    refine Good.grown g.ext ?_
    have := newPoint_good (g.wf w) i (some ((h.newElems vs).1.map .ref)) false (by
      intro items hi a ha
      simp only [Option.some.injEq] at hi
      subst hi
      obtain ⟨r, hr, rfl⟩ := List.mem_map.1 ha
      exact (newElems_lt h vs hr).2)
    rw [g.ext.ctx w] at this
    simp only [Option.map_some, List.map_map] at this
    have e : List.map (itemVal ((h.newElems vs).2.elem (S i).zeroRef) (h.newElems vs).2 ∘ Item.ref) (h.newElems vs).1 =
        vs := newElems_map h vs
    rw [e] at this
    exact this

/-! ## Copies -/

theorem copy_made {S : ι → Sys F} {h : Heap ι F} (w : WF S h) {j : Nat} {p : PObj ι} (hp : h.points[j]? = some p)
    (hz : p.zero = false) :
    (∃ e h', copyPoint S h j = (.error e, h') ∧ Grown h h' ∧ vCopy (ctx S h) (h.val p) = .error e) ∨
      ∃ k h' vs, copyPoint S h j = (.ok k, h') ∧ Made h h' k p vs ∧
        vCopy (ctx S h) (h.val p) = .ok ⟨some vs, p.zero, p.sys, p.ty⟩ := by
  have hmem := mem_of_getElem? hp
  have g := formal_grown S h p.sys (p.coords.map fun l => (h.list l).map .ref) false
  have r := formal_rel S w p.sys (p.coords.map fun l => (h.list l).map .ref) false (by
    intro items hi a ha
    obtain ⟨l, hl, rfl⟩ := Option.map_eq_some_iff.1 hi
    obtain ⟨r, hr, rfl⟩ := List.mem_map.1 ha
    exact w.list_lt l hr)
  have ev : (p.coords.map fun l => (h.list l).map Item.ref).map
      (fun t => t.map (itemVal (h.elem (S p.sys).zeroRef) h)) = h.vals p := by
    unfold Heap.vals
    rw [Option.map_map]
    congr 1
    funext l
    simp [itemVal, Function.comp_def]
  rw [ev] at r
  unfold copyPoint vCopy
  have hz' : ¬ p.zero = true := by simp [hz]
  rw [if_neg (show ¬ (h.val p).zero = true from hz')]
  simp only [hp, if_neg hz']
  dsimp only [Heap.val]
  generalize formal S h p.sys (p.coords.map fun l => (h.list l).map .ref) false = fr at g r ⊢
  generalize hv : vFormal (ctx S h p.sys) (h.vals p) false = v at r ⊢
  match fr, v with
  | (.error e, h'), v =>
    dsimp only at g r ⊢
    match v with
    | .error y =>
      obtain rfl : e = y := r
      exact Or.inl ⟨e, h', rfl, g, rfl⟩
  | (.ok none, h'), v =>
    match v with
    | .ok none => exact absurd (vFormal_none hv).1 (by simp)
  | (.ok (some rs), h'), v =>
    dsimp only at g r ⊢
    match v with
    | .ok (some vs) => exact Or.inr ⟨_, _, vs, rfl, (made_new r.1 r.2 p).grown g, rfl⟩

theorem copy_zero {S : ι → Sys F} {h : Heap ι F} {j : Nat} {p : PObj ι} (hp : h.points[j]? = some p)
    (hz : p.zero = true) : copyPoint S h j = (.ok (h.newObj p).1, (h.newObj p).2) := by
  unfold copyPoint
  simp [hp, hz]

theorem newObj_copy_good {S : ι → Sys F} {h : Heap ι F} (w : WF S h) {j : Nat} {p : PObj ι}
    (hp : h.points[j]? = some p) (hz : p.zero = true) :
    Good S h (.ok (h.newObj p).1, (h.newObj p).2) (.ok (h.val p)) := by
  have hmem := mem_of_getElem? hp
  refine newObj_good w p (w.points p hmem) (w.none p hmem) fun q hq hs heq => ?_
  obtain ⟨n, hn⟩ := List.mem_iff_getElem?.1 hq
  by_cases hnj : j = n
  · subst hnj
    obtain rfl : p = q := Option.some.inj (hp.symm.trans hn)
    exact ⟨hz, hz⟩
  · exact w.sep j n p q hp hn hnj hs heq

theorem copy_good {S : ι → Sys F} {h : Heap ι F} (w : WF S h) {j : Nat} {p : PObj ι} (hp : h.points[j]? = some p) :
    Good S h (copyPoint S h j) (vCopy (ctx S h) (h.val p)) := by
  cases hz : p.zero with
  | true =>
    rw [copy_zero hp hz]
    have : vCopy (ctx S h) (h.val p) = .ok (h.val p) := by simp [vCopy, Heap.val, hz]
    rw [this]
    exact newObj_copy_good w hp hz
  | false =>
    rcases copy_made w hp hz with ⟨e, h', h1, h2, h3⟩ | ⟨k, h', vs, h1, h2, h3⟩
    · rw [h1, h3]
      exact Good.error w h2 e
    · rw [h1, h3]
      exact h2.good w (by simp [hz])

/-! ## Arithmetic -/

theorem add_good {S : ι → Sys F} {h : Heap ι F} (w : WF S h) {j k : Nat} {p q : PObj ι} (hp : h.points[j]? = some p)
    (hq : h.points[k]? = some q) : Good S h (addPoint S h j k) (vAdd (ctx S h) (h.val p) (h.val q)) := by
  unfold addPoint vAdd
  simp only [hp, hq]
  by_cases h1 : (S p.sys).kind ≠ .twisted ∧ q.zero = true
  · rw [if_pos h1, if_pos (show (ctx S h (h.val p).sys).kind ≠ .twisted ∧ (h.val q).zero = true from h1)]
    exact copy_good w hp
  · rw [if_neg h1, if_neg (show ¬ ((ctx S h (h.val p).sys).kind ≠ .twisted ∧ (h.val q).zero = true) from h1)]
    by_cases h2 : (S p.sys).kind ≠ .twisted ∧ p.zero = true
    · rw [if_pos h2, if_pos (show (ctx S h (h.val p).sys).kind ≠ .twisted ∧ (h.val p).zero = true from h2)]
      exact copy_good w hq
    · rw [if_neg h2, if_neg (show ¬ ((ctx S h (h.val p).sys).kind ≠ .twisted ∧ (h.val p).zero = true) from h2)]
      exact newPointVals_good w _ _

theorem double_good {S : ι → Sys F} {h : Heap ι F} (w : WF S h) (i : ι) {j : Nat} {p : PObj ι}
    (hp : h.points[j]? = some p) :
    Good S h (doublePoint S h i j) (vVals (ctx S h) i (doubleVals (ctx S h i) (h.val p).coords)) := by
  unfold doublePoint
  simp only [hp]
  exact newPointVals_good w _ _

theorem shiftLoop_good {S : ι → Sys F} (i : ι) (n : Nat) {h : Heap ι F} (w : WF S h) {j : Nat} {p : PObj ι}
    (hp : h.points[j]? = some p) : Good S h (shiftLoop S i n h j) (vDoubles (ctx S h) i n (h.val p)) := by
  induction n generalizing h j p with
  | zero => exact ⟨Ext.refl h, w, p, hp, rfl⟩
  | succ n ih =>
    have g := double_good w i hp
    unfold shiftLoop vDoubles
    match hd : doublePoint S h i j, hv : vVals (ctx S h) i (doubleVals (ctx S h i) (h.val p).coords) with
    | (.error e, h'), v =>
      rw [hd, hv] at g
      match v with
      | .error y => exact g
      | .ok y => exact absurd g.2.2 (by simp)
    | (.ok k, h'), v =>
      rw [hd, hv] at g
      match v with
      | .error y => exact absurd g.2.2 (by simp)
      | .ok y =>
        obtain ⟨g1, g2, q, g3, g4⟩ := g
        have := ih g2 g3
        dsimp only at g1 g4
        rw [g1.ctx w, g4] at this
        exact Good.grown g1 this

theorem shift_good {S : ι → Sys F} {h : Heap ι F} (w : WF S h) {j : Nat} {p : PObj ι} (hp : h.points[j]? = some p)
    (n : Int) : Good S h (shiftPoint S h j n) (vShift (ctx S h) (h.val p) n) := by
  unfold shiftPoint vShift
  simp only [hp]
  by_cases hz : p.zero = true
  · rw [if_pos hz, if_pos (show (h.val p).zero = true from hz)]
    exact copy_good w hp
  · rw [if_neg hz, if_neg (show ¬ (h.val p).zero = true from hz)]
    exact shiftLoop_good p.sys n.toNat w hp

/-! ## Conversions -/

theorem Made.setList {h h' : Heap ι F} {k : Nat} {p : PObj ι} {vs : List F} (m : Made h h' k p vs) (rs : List Nat)
    (hr : ∀ r ∈ rs, r < h'.elems.length) : Made h (h'.setList h.lists.length rs) k p (rs.map h'.elem) := by
  obtain ⟨e, rs', rfl, rfl, h1, h2⟩ := m
  exact ⟨e, rs, by simp [Heap.setList], rfl, rfl, hr⟩

theorem Made.grow {h h' h'' : Heap ι F} {k : Nat} {p : PObj ι} {vs : List F} (m : Made h h' k p vs)
    (g : Grown h' h'') : Made h h'' k p vs := by
  have hx := g.ext
  obtain ⟨f, rfl⟩ := g
  obtain ⟨e, rs, rfl, rfl, h1, h2⟩ := m
  refine ⟨e ++ f, rs, by simp, rfl, ?_, fun r hr => (h2 r hr).trans_le hx.le⟩
  rw [← h1]
  exact List.map_congr_left fun r hr => hx.elem (h2 r hr)

theorem Made.setObj {h h' : Heap ι F} {k : Nat} {p : PObj ι} {vs : List F} (m : Made h h' k p vs) (p' : PObj ι)
    (hc : p'.coords = some h.lists.length) : Made h (h'.setObj k p') k p' vs := by
  obtain ⟨e, rs, rfl, rfl, h1, h2⟩ := m
  refine ⟨e, rs, ?_, rfl, h1, h2⟩
  obtain ⟨c, z, s, t⟩ := p'
  obtain rfl : c = some h.lists.length := hc
  simp [Heap.setObj]

theorem Made.list {h h' : Heap ι F} {k : Nat} {p : PObj ι} {vs : List F} (m : Made h h' k p vs) :
    (h'.list h.lists.length).map h'.elem = vs ∧ ∀ r ∈ h'.list h.lists.length, r < h'.elems.length := by
  obtain ⟨e, rs, rfl, rfl, h1, h2⟩ := m
  simpa [Heap.list, List.getD] using And.intro h1 h2

/-- A conversion of a point that is not flagged: the result is a new point. -/
theorem convert_made {S : ι → Sys F} {h : Heap ι F} (w : WF S h) (i : ι) {j : Nat} {p : PObj ι}
    (hp : h.points[j]? = some p) (hz : p.zero = false) (ones : Nat) (ty : Option Ty) :
    (∃ e h', convertWith S h i j ones ty = (.error e, h') ∧ Ext h h' ∧ WF S h' ∧
        vConvert (ctx S h) i (h.val p) ones ty = .error e) ∨
      ∃ k h' vs, convertWith S h i j ones ty = (.ok k, h') ∧ Made h h' k { p with ty := ty.getD p.ty } vs ∧
        vConvert (ctx S h) i (h.val p) ones ty = .ok ⟨some vs, p.zero, p.sys, ty.getD p.ty⟩ := by
  have hmem := mem_of_getElem? hp
  have hz' : ¬ (p.zero = true ∧ (S p.sys).kind ≠ .twisted) := by simp [hz]
  unfold convertWith vConvert
  rcases copy_made w hp hz with ⟨e, h', h1, h2, h3⟩ | ⟨k, h', vs, h1, h2, h3⟩
  · simp only [hp, h1, h3]
    exact Or.inl ⟨e, h', rfl, h2.ext, h2.wf w, rfl⟩
  · have m1 := h2.setList [] (by simp)
    have x1 := m1.ext
    have hv : (h'.setList h.lists.length []).vals p = h.vals p := x1.vals w hmem
    have hzv : (h.val p).zero = false := hz
    have hcv : (h.val p).coords = h.vals p := rfl
    simp only [hp, h1, h3, h2.point, x1.ctx w, hv, hzv, hcv, Bool.false_eq_true, if_false, reduceCtorEq]
    generalize affineVals (ctx S h i) (h.vals p) = av
    match av with
    | .error e => exact Or.inl ⟨e, _, rfl, x1, m1.wf w hz', rfl⟩
    | .ok (x, y) =>
      have g := newElems_grown (h'.setList h.lists.length []) [x, y]
      have m2 := m1.grow g
      have x2 := m2.ext
      have m3 := m2.setList (((h'.setList h.lists.length []).newElems [x, y]).1 ++ List.replicate ones (S i).oneRef) (by
        intro r hr
        rcases List.mem_append.1 hr with hr | hr
        · exact (newElems_lt _ _ hr).2
        · rw [List.eq_of_mem_replicate hr]
          exact (w.sys i).2.trans_le x2.le)
      have m4 := m3.setObj { p with coords := some h.lists.length, ty := ty.getD p.ty } rfl
      refine Or.inr ⟨k, _, _, rfl, m4, ?_⟩
      rw [List.map_append, newElems_map, List.map_replicate, x2.elem (w.sys i).2]
      rfl

theorem convert_good {S : ι → Sys F} {h : Heap ι F} (w : WF S h) (i : ι) {j : Nat} {p : PObj ι}
    (hp : h.points[j]? = some p) (hs : ¬ (p.zero = true ∧ p.coords.isSome = true)) (ones : Nat) (ty : Option Ty) :
    Good S h (convertWith S h i j ones ty) (vConvert (ctx S h) i (h.val p) ones ty) := by
  cases hz : p.zero with
  | true =>
    have hc : p.coords = none := by
      cases hc : p.coords with
      | none => rfl
      | some l => exact absurd ⟨hz, by simp [hc]⟩ hs
    have hv : (h.val p).coords = none := by simp [Heap.val, Heap.vals, hc]
    have e1 : vConvert (ctx S h) i (h.val p) ones ty = .ok (h.val p) := by
      unfold vConvert vCopy
      rw [if_pos (show (h.val p).zero = true from hz)]
      simp [hv]
    have e2 : convertWith S h i j ones ty = (.ok (h.newObj p).1, (h.newObj p).2) := by
      unfold convertWith
      have : (h.newObj p).2.points[(h.newObj p).1]? = some p := by simp [Heap.newObj]
      simp only [hp, copy_zero hp hz, this, hc]
    rw [e1, e2]
    exact newObj_copy_good w hp hz
  | false =>
    rcases convert_made w i hp hz ones ty with ⟨e, h', h1, h2, h3, h4⟩ | ⟨k, h', vs, h1, h2, h3⟩
    · rw [h1, h4]
      exact ⟨h2, h3, rfl⟩
    · rw [h1, h3]
      exact h2.good w (by simp [hz])

theorem untwist_good {S : ι → Sys F} {h h' : Heap ι F} (w : WF S h) (i : ι) {k : Nat} {p : PObj ι} {vs : List F}
    (m : Made h h' k p vs) (hp : ¬ (p.zero = true ∧ (S p.sys).kind ≠ .twisted)) :
    Good S h (untwistPoint S h' i k) (vUntwist (ctx S h) i ⟨some vs, p.zero, p.sys, p.ty⟩) := by
  unfold untwistPoint vUntwist
  obtain ⟨l1, l2⟩ := m.list
  simp only [m.point]
  match hl : h'.list h.lists.length, vs with
  | [], vs =>
    rw [hl] at l1
    obtain rfl : vs = [] := l1.symm
    exact ⟨m.ext, m.wf w hp, rfl⟩
  | [a], vs =>
    rw [hl] at l1
    obtain rfl : vs = [h'.elem a] := l1.symm
    exact ⟨m.ext, m.wf w hp, rfl⟩
  | a :: b :: t, vs =>
    rw [hl] at l1 l2
    obtain rfl : vs = h'.elem a :: h'.elem b :: t.map h'.elem := l1.symm
    simp only [List.take_succ_cons, List.take_zero, List.drop_succ_cons, List.drop_zero, m.ext.ctx w]
    generalize untwistC (ctx S h i) (h'.elem a, h'.elem b) = r
    have g := newElems_grown h' [r.1, r.2]
    have m2 := m.grow g
    have m3 := m2.setList ((h'.newElems [r.1, r.2]).1 ++ t) (by
      intro s hs
      rcases List.mem_append.1 hs with hs | hs
      · exact (newElems_lt _ _ hs).2
      · exact (l2 s (by simp [hs])).trans_le g.ext.le)
    have e : ((h'.newElems [r.1, r.2]).1 ++ t).map (h'.newElems [r.1, r.2]).2.elem = r.1 :: r.2 :: t.map h'.elem := by
      rw [List.map_append, newElems_map]
      simp only [List.cons_append, List.nil_append]
      congr 2
      exact List.map_congr_left fun s hs => g.ext.elem (l2 s (by simp [hs]))
    rw [e] at m3
    exact m3.good w hp

theorem toAffine_good {S : ι → Sys F} {h : Heap ι F} (w : WF S h) {j : Nat} {p : PObj ι}
    (hp : h.points[j]? = some p) (hs : ¬ (p.zero = true ∧ p.coords.isSome = true)) :
    Good S h (toAffine S h p.sys j) (vToAffine (ctx S h) (h.val p).sys (h.val p)) := by
  unfold toAffine vToAffine
  simp only [hp]
  have hty : (h.val p).ty = p.ty := rfl
  have hsy : (h.val p).sys = p.sys := rfl
  rw [hty, hsy, ctx_kind]
  cases hk : (S p.sys).kind with
  | affine => exact ⟨Ext.refl h, w, p, hp, rfl⟩
  | projective =>
    dsimp only
    by_cases ht : p.ty = .projective
    · rw [if_pos ht, if_pos ht]
      exact convert_good w _ hp hs _ _
    · rw [if_neg ht, if_neg ht]
      exact Good.error w (Grown.refl h) _
  | xyzz =>
    dsimp only
    by_cases ht : p.ty = .xyzz
    · rw [if_pos ht, if_pos ht]
      exact convert_good w _ hp hs _ _
    · rw [if_neg ht, if_neg ht]
      exact Good.error w (Grown.refl h) _
  | twisted =>
    dsimp only [toEdAffine]
    have hmem := mem_of_getElem? hp
    have hz : p.zero = false := by
      cases hz : p.zero with
      | false => rfl
      | true =>
        refine absurd ⟨hz, ?_⟩ hs
        cases hc : p.coords with
        | some l => rfl
        | none => exact absurd hk ((w.none p hmem).1 hc).2
    rcases convert_made w p.sys hp hz 2 none with ⟨e, h', h1, h2, h3, h4⟩ | ⟨k, h', vs, h1, h2, h3⟩
    · rw [h1, h4]
      exact ⟨h2, h3, rfl⟩
    · rw [h1, h3]
      exact untwist_good w p.sys h2 (by simp [hz])

theorem fromAffine_good {S : ι → Sys F} {h : Heap ι F} (w : WF S h) (i : ι) {j : Nat} {p : PObj ι}
    (hp : h.points[j]? = some p) (hs : ¬ (p.zero = true ∧ p.coords.isSome = true)) :
    Good S h (fromAffine S h i j) (vFromAffine (ctx S h) i (h.val p)) := by
  unfold fromAffine vFromAffine
  simp only [hp]
  have hty : (h.val p).ty = p.ty := rfl
  have hsy : (h.val p).sys = p.sys := rfl
  rw [hty, hsy, ctx_kind, ctx_kind]
  cases hk : (S i).kind with
  | affine => exact Good.error w (Grown.refl h) _
  | projective =>
    dsimp only
    by_cases ht : p.ty = .projective
    · rw [if_pos ht, if_pos ht]
      exact convert_good w _ hp hs _ _
    · rw [if_neg ht, if_neg ht]
      exact Good.error w (Grown.refl h) _
  | twisted => exact Good.error w (Grown.refl h) _
  | xyzz =>
    dsimp only
    by_cases ht : (S p.sys).kind.ty = .affine
    · rw [if_pos ht, if_pos ht]
      cases hz : p.zero with
      | true =>
        have hc : p.coords = none := by
          cases hc : p.coords with
          | none => rfl
          | some l => exact absurd ⟨hz, by simp [hc]⟩ hs
        have e1 : vCopy (ctx S h) (h.val p) = .ok (h.val p) := by
          unfold vCopy
          rw [if_pos (show (h.val p).zero = true from hz)]
        have hv : (h.val p).coords = none := by simp [Heap.val, Heap.vals, hc]
        have : (h.newObj p).2.points[(h.newObj p).1]? = some p := by simp [Heap.newObj]
        simp only [copy_zero hp hz, e1, hv, this, hc]
        have g := newObj_copy_good w hp hz
        exact ⟨g.1, g.2.1, rfl⟩
      | false =>
        rcases copy_made w hp hz with ⟨e, h', h1, h2, h3⟩ | ⟨k, h', vs, h1, h2, h3⟩
        · rw [h1, h3]
          exact Good.error w h2 e
        · simp only [h1, h3, h2.point]
          obtain ⟨l1, l2⟩ := h2.list
          have m2 := h2.setList (h'.list h.lists.length ++ [(S i).oneRef, (S i).oneRef]) (by
            intro r hr
            rcases List.mem_append.1 hr with hr | hr
            · exact l2 r hr
            · have : r = (S i).oneRef := by simpa using hr
              rw [this]
              exact (w.sys i).2.trans_le h2.ext.le)
          rw [List.map_append, l1] at m2
          simp only [List.map_cons, List.map_nil, h2.ext.elem (w.sys i).2] at m2
          have m3 := m2.setObj { p with coords := some h.lists.length, sys := i, ty := .xyzz } rfl
          exact m3.good w (by simp [hz])
    · rw [if_neg ht, if_neg ht]
      exact Good.error w (Grown.refl h) _

theorem gen_good {S : ι → Sys F} {h : Heap ι F} (w : WF S h) (i : ι) (c : Option (List (Item F))) (zero tw : Bool)
    (hok : ∀ items, c = some items → ∀ a ∈ items, ItemOk h a) :
    Good S h (genPoint S h i c zero tw)
      (vGen (ctx S h) i (c.map fun t => t.map (itemVal (h.elem (S i).zeroRef) h)) zero tw) := by
  unfold genPoint vGen
  rw [ctx_kind]
  by_cases ht : (S i).kind = .twisted ∧ tw = true
  · rw [if_pos ht, if_pos ht]
    cases c with
    | none => exact Good.error w (Grown.refl h) _
    | some items =>
      obtain ⟨t1, t2⟩ := toElems_spec (h.elem (S i).zeroRef) items h (hok items rfl)
      have g := toElems_grown (h.elem (S i).zeroRef) items h
      simp only [Option.map_some]
      rw [← t1, g.ext.ctx w]
      generalize toElems (h.elem (S i).zeroRef) h items = u at t1 t2 g
      obtain ⟨rs, h'⟩ := u
      dsimp only at t1 t2 g ⊢
      match rs with
      | [] => exact Good.error w g _
      | [a] => exact Good.error w g _
      | a :: b :: d :: t => exact Good.error w g _
      | [a, b] =>
        change Good S h _ (vNew (ctx S h) i ((twistC (ctx S h i) (h'.elem a, h'.elem b)).map fun r => [r.1, r.2]) zero)
        dsimp only
        generalize twistC (ctx S h i) (h'.elem a, h'.elem b) = tv
        match tv with
        | none =>
          have := newPoint_good (g.wf w) i none zero (by simp)
          rw [g.ext.ctx w] at this
          exact Good.grown g.ext this
        | some r =>
          have g2 := newElems_grown h' [r.1, r.2]
          have := newPoint_good (g2.wf (g.wf w)) i (some ((h'.newElems [r.1, r.2]).1.map .ref)) zero (by
            intro items hi a ha
            simp only [Option.some.injEq] at hi
            subst hi
            obtain ⟨r, hr, rfl⟩ := List.mem_map.1 ha
            exact (newElems_lt _ _ hr).2)
          rw [(g.trans g2).ext.ctx w] at this
          simp only [Option.map_some, List.map_map] at this
          have e : List.map (itemVal ((h'.newElems [r.1, r.2]).2.elem (S i).zeroRef) (h'.newElems [r.1, r.2]).2 ∘ Item.ref)
              (h'.newElems [r.1, r.2]).1 = [r.1, r.2] := newElems_map h' _
          rw [e] at this
          exact Good.grown (g.trans g2).ext this
  · rw [if_neg ht, if_neg ht]
    exact newPoint_good w i c zero hok

end Verif.EcPoint

import Verif.Model.Lut
import Mathlib.Data.Nat.Bits
import Mathlib.Tactic.Ring
import Mathlib.Tactic.Linarith

namespace Verif.Lut

theorem product_length (n : Nat) : (product n).length = 2 ^ n := by
  induction n with
  | zero => rfl
  | succ n ih => simp [product, ih, pow_succ]; ring

theorem product_getElem? (n x : Nat) (h : x < 2 ^ n) :
    (product n)[x]? = some ((List.range n).map fun i => x.testBit (n - 1 - i)) := by
  induction n generalizing x with
  | zero =>
    have : x = 0 := by simpa using h
    subst this; rfl
  | succ n ih =>
    have key : ∀ b y, y < 2 ^ n → x = (if b then 2 ^ n else 0) + y →
        some (b :: (List.range n).map (fun i => y.testBit (n - 1 - i))) =
        some ((List.range (n + 1)).map fun i => x.testBit (n + 1 - 1 - i)) := by
      intro b y hy hx
      rw [List.range_succ_eq_map]
      simp only [List.map_cons, List.map_map, Option.some.injEq, List.cons.injEq]
      constructor
      · cases b with
        | false =>
          simp at hx; subst hx
          simpa using (Nat.testBit_lt_two_pow hy).symm
        | true =>
          simp at hx; subst hx
          simp [Nat.testBit_two_pow_add_eq, Nat.testBit_lt_two_pow hy]
      · apply List.map_congr_left
        intro i hi
        have hi' : i < n := by simpa using hi
        have e : n + 1 - 1 - (i + 1) = n - 1 - i := by omega
        simp only [Function.comp, Nat.succ_eq_add_one, e]
        cases b with
        | false => simp at hx; rw [hx]
        | true =>
          simp at hx; rw [hx, Nat.testBit_two_pow_add_gt (by omega)]
    simp only [product, List.flatMap_cons, List.flatMap_nil, List.append_nil]
    by_cases hx : x < 2 ^ n
    · rw [List.getElem?_append_left (by simpa [product_length] using hx), List.getElem?_map, ih x hx]
      simp only [Option.map_some]
      exact key false x hx (by simp)
    · have hp : 2 ^ (n + 1) = 2 ^ n + 2 ^ n := by ring
      rw [List.getElem?_append_right (by simpa [product_length] using hx), List.getElem?_map]
      simp only [List.length_map, product_length]
      rw [ih (x - 2 ^ n) (by omega)]
      simp only [Option.map_some]
      exact key true (x - 2 ^ n) (by omega) (by simp; omega)

theorem fold_callable (fn : List Bool → Bool) (l : List (List Bool)) (a b : Nat) (ha : a < 2 ^ b) :
    let st := l.foldl (fun (st : Nat × Nat) inputBits =>
      (st.1 ||| ((if fn inputBits then 1 else 0) <<< st.2), st.2 + 1)) (a, b)
    st.2 = b + l.length ∧ st.1 < 2 ^ st.2 ∧
      ∀ j, st.1.testBit j = if j < b then a.testBit j else
        ((l[j - b]?).map fn).getD false := by
  induction l generalizing a b with
  | nil =>
    simp only [List.foldl_nil, List.length_nil, Nat.add_zero, List.getElem?_nil]
    refine ⟨trivial, ha, fun j => ?_⟩
    split
    · rfl
    · rename_i h
      simpa using Nat.testBit_lt_two_pow (lt_of_lt_of_le ha (Nat.pow_le_pow_right (by decide) (by omega)))
  | cons t ts ih =>
    have hlt : (a ||| ((if fn t then 1 else 0) <<< b)) < 2 ^ (b + 1) := by
      apply Nat.or_lt_two_pow
      · exact lt_of_lt_of_le ha (Nat.pow_le_pow_right (by decide) (by omega))
      · rw [Nat.shiftLeft_eq, pow_succ]
        have : 0 < 2 ^ b := by positivity
        split <;> omega
    obtain ⟨h1, h2, h3⟩ := ih (a ||| ((if fn t then 1 else 0) <<< b)) (b + 1) hlt
    refine ⟨?_, h2, ?_⟩
    · simp only [List.foldl_cons] at h1 ⊢
      rw [h1, List.length_cons]; omega
    · intro j
      simp only [List.foldl_cons]
      rw [h3 j]
      by_cases hj : j < b
      · have : j < b + 1 := by omega
        have h' : ¬ b ≤ j := by omega
        simp [hj, this, Nat.testBit_or, Nat.testBit_shiftLeft, h']
      · by_cases hb : j = b
        · subst hb
          simp only [lt_add_iff_pos_right, zero_lt_one, if_true, lt_irrefl, if_false, Nat.sub_self,
            List.getElem?_cons_zero, Option.map_some, Option.getD_some, Nat.testBit_or,
            Nat.testBit_shiftLeft, Nat.testBit_lt_two_pow ha]
          cases fn t <;> simp
        · have h' : ¬ j < b + 1 := by omega
          have e : j - b = (j - (b + 1)) + 1 := by omega
          simp only [hj, h', if_false, e, List.getElem?_cons_succ]

theorem fromCallable_testBit (n : Nat) (fn : List Bool → Bool) (x : Nat) (h : x < 2 ^ n) :
    (fromCallable n fn).truthTable.testBit x =
      fn ((List.range n).map fun i => x.testBit (n - 1 - i)) := by
  have := (fold_callable fn (product n) 0 0 (by simp)).2.2 x
  simp only [Nat.not_lt_zero, if_false, Nat.sub_zero, product_getElem? n x h] at this
  simpa [fromCallable] using this

theorem fromCallable_lt (n : Nat) (fn : List Bool → Bool) :
    (fromCallable n fn).truthTable < 2 ^ (2 ^ n) := by
  have h := fold_callable fn (product n) 0 0 (by simp)
  simp only [product_length, Nat.zero_add] at h
  have := h.2.1
  rw [h.1] at this
  exact this

theorem value_eq (t i : Nat) : (t &&& (1 <<< i)) >>> i = if t.testBit i then 1 else 0 := by
  apply Nat.eq_of_testBit_eq
  intro j
  rw [Nat.testBit_shiftRight, Nat.testBit_and, Nat.testBit_shiftLeft]
  by_cases h : j = 0
  · subst h
    simp; split <;> simp_all
  · have : ¬ i + j ≤ i := by omega
    have e : i + j - i = j := by omega
    cases j with
    | zero => simp at h
    | succ j =>
      split <;> simp [Nat.testBit_succ]

theorem asCleartextList_eq (l : LookUpTable) :
    l.asCleartextList = (List.range (2 ^ l.numInputs)).map
      fun i => if l.truthTable.testBit i then 1 else 0 := by
  unfold LookUpTable.asCleartextList LookUpTable.values
  rw [List.map_map]
  apply List.map_congr_left
  intro i _
  simp only [Function.comp, value_eq, cleartextTrue, cleartextFalse]
  cases l.truthTable.testBit i <;> simp

/-! ### cache invariant -/

variable {π poly : Type} [DecidableEq π]

/-- Everything the caches hold is right. `heap` is a ghost map from object numbers to contents. -/
structure Inv (gen : LookUpTable → π → Except String poly) (st : CacheState π poly)
    (heap : Nat → Option LookUpTable) : Prop where
  fresh : ∀ o, st.nextOid ≤ o → heap o = none
  lutOk : ∀ e ∈ st.lutLru, heap e.2.oid = some e.2.lut ∧ e.2.lut = ⟨e.1.2.1, e.1.2.2⟩
  polyOk : ∀ e ∈ st.polyLru, ∃ l, heap e.1.1 = some l ∧ gen l e.1.2 = .ok e.2

theorem lutCall_spec (gen : LookUpTable → π → Except String poly) (st : CacheState π poly)
    (heap : Nat → Option LookUpTable) (inv : Inv gen st heap) (i n t : Nat) :
    ∃ o heap', (lutCall i n t st).1 = .ok o ∧ o.lut = ⟨n, t⟩ ∧ heap' o.oid = some o.lut ∧
      Inv gen (lutCall i n t st).2 heap' := by
  unfold lutCall lruCall
  cases hf : st.lutLru.find? (fun e => e.1 = (i, n, t)) with
  | some e =>
    have hmem := List.mem_of_find?_eq_some hf
    have hk : e.1 = (i, n, t) := by simpa using List.find?_some hf
    have h := inv.lutOk e hmem
    refine ⟨e.2, heap, rfl, ?_, h.1, ?_, ?_, ?_⟩
    · rw [h.2, hk]
    · exact inv.fresh
    · intro x hx
      simp only [List.mem_cons] at hx
      rcases hx with rfl | hx
      · exact h
      · exact inv.lutOk x (List.mem_of_mem_eraseP hx)
    · exact inv.polyOk
  | none =>
    simp only [lutBody, and_self, if_true]
    refine ⟨⟨st.nextOid, ⟨n, t⟩⟩, fun o => if o = st.nextOid then some ⟨n, t⟩ else heap o, rfl, rfl,
      by simp, ?_, ?_, ?_⟩
    · intro o ho
      have : o ≠ st.nextOid := by simp at ho; omega
      have h2 : st.nextOid ≤ o := by simp at ho; omega
      simp [this, inv.fresh o h2]
    · intro x hx
      have hx := List.mem_of_mem_take hx
      simp only [List.mem_cons] at hx
      rcases hx with rfl | hx
      · simp
      · have h := inv.lutOk x hx
        have : x.2.oid ≠ st.nextOid := by
          intro hc
          have := inv.fresh x.2.oid (by omega)
          rw [this] at h; simp at h
        simp only [this, if_false]
        exact h
    · intro x hx
      obtain ⟨l, hl, hg⟩ := inv.polyOk x hx
      have : x.1.1 ≠ st.nextOid := by
        intro hc
        have := inv.fresh x.1.1 (by omega)
        rw [this] at hl; simp at hl
      exact ⟨l, by simp only [this, if_false]; exact hl, hg⟩

theorem polyCall_spec (gen : LookUpTable → π → Except String poly) (st : CacheState π poly)
    (heap : Nat → Option LookUpTable) (inv : Inv gen st heap) (o : LutObj)
    (ho : heap o.oid = some o.lut) (p : π) :
    (polyCall gen o p st).1 = gen o.lut p ∧ Inv gen (polyCall gen o p st).2 heap := by
  unfold polyCall lruCall
  cases hf : st.polyLru.find? (fun e => e.1 = (o.oid, p)) with
  | some e =>
    have hmem := List.mem_of_find?_eq_some hf
    have hk : e.1 = (o.oid, p) := by simpa using List.find?_some hf
    obtain ⟨l, hl, hg⟩ := inv.polyOk e hmem
    rw [hk] at hl hg
    have : l = o.lut := by rw [ho] at hl; simpa using hl.symm
    subst this
    refine ⟨hg.symm, inv.fresh, inv.lutOk, ?_⟩
    intro x hx
    simp only [List.mem_cons] at hx
    rcases hx with rfl | hx
    · exact inv.polyOk _ hmem
    · exact inv.polyOk x (List.mem_of_mem_eraseP hx)
  | none =>
    cases hg : gen o.lut p with
    | error m => exact ⟨rfl, inv.fresh, inv.lutOk, inv.polyOk⟩
    | ok v =>
      refine ⟨rfl, inv.fresh, inv.lutOk, ?_⟩
      intro x hx
      have hx := List.mem_of_mem_take hx
      simp only [List.mem_cons] at hx
      rcases hx with rfl | hx
      · exact ⟨o.lut, ho, hg⟩
      · exact inv.polyOk x hx

end Verif.Lut

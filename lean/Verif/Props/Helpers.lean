import Verif.Model.Helpers
import Mathlib.Tactic.Ring
import Mathlib.Tactic.Linarith
import Mathlib.Data.List.Basic
import Mathlib.Data.List.GetD

/-!
# Properties C26 and C27: `batch_vmap` and the random-source helpers
-/

namespace Verif.Props
open Verif.Helpers

/-- Specification: the arguments of call number `i`. -/
def callArgs {α : Type} (args : List (Arg α)) (i : Nat) : List α :=
  args.filterMap (fun
    | .batched r => r[i]?
    | .unbatched v => some v)

theorem reinsert {α : Type} (args : List (Arg α)) (i : Nat) (pre : List α)
    (hi : ∀ r ∈ batchedArgs args, i < r.length) :
    (unbatchedArgs pre.length args).foldl (fun l p => pyInsert l p.1 p.2)
      (pre ++ (batchedArgs args).filterMap (fun r => r[i]?)) = pre ++ callArgs args i := by
  induction args generalizing pre with
  | nil => simp [unbatchedArgs, batchedArgs, callArgs]
  | cons a t ih =>
    cases a with
    | unbatched v =>
      simp only [unbatchedArgs, batchedArgs, List.foldl_cons]
      have e : pyInsert (pre ++ (batchedArgs t).filterMap (fun r => r[i]?)) pre.length v =
          (pre ++ [v]) ++ (batchedArgs t).filterMap (fun r => r[i]?) := by
        unfold pyInsert; simp
      rw [e]
      have := ih (pre ++ [v]) (by simpa [batchedArgs] using hi)
      rw [List.length_append, List.length_singleton] at this
      rw [this]
      simp [callArgs]
    | batched r =>
      simp only [unbatchedArgs, batchedArgs]
      have hr : i < r.length := hi r (by simp [batchedArgs])
      have e : (r :: batchedArgs t).filterMap (fun r => r[i]?) =
          r[i] :: (batchedArgs t).filterMap (fun r => r[i]?) := by
        rw [List.filterMap_cons, List.getElem?_eq_getElem hr]
      rw [e]
      have := ih (pre ++ [r[i]]) (fun r' h => hi r' (by simp [batchedArgs, h]))
      rw [List.length_append, List.length_singleton, List.append_assoc, List.singleton_append] at this
      rw [this]
      simp [callArgs, hr]

theorem mapM_except_ok {α β : Type} (f : α → Except String β) (g : α → β) (l : List α)
    (h : ∀ c ∈ l, f c = .ok (g c)) : l.mapM f = .ok (l.map g) := by
  induction l with
  | nil => rfl
  | cons a t ih =>
    rw [List.mapM_cons, h a (by simp), ih (fun c hc => h c (by simp [hc]))]
    rfl

/-- `vmap` on arguments of equal size. -/
theorem vmap_ok {α β : Type} (g : List α → β) (args : List (List α)) (n : Nat) (hne : args ≠ [])
    (hl : ∀ r ∈ args, r.length = n) :
    vmap g args = .ok ((List.range n).map (fun i => g (args.filterMap (fun r => r[i]?)))) := by
  cases args with
  | nil => exact absurd rfl hne
  | cons a rest =>
    simp only [vmap]
    rw [if_pos]
    · rw [hl a (by simp)]
    · rw [List.all_eq_true]
      intro r hr
      rw [hl a (by simp), hl r (by simp [hr])]
      simp

/-- C26: for every function, every batch size at least 1 and every mix of mapped (all of size `n`, at least
one) and unmapped arguments, `batch_vmap` succeeds and its `i`-th output is `f` of row `i` of the mapped
arguments and of the unmapped ones, in their original positions. -/
theorem C26_batch_vmap {α β : Type} (f : List α → β) (batchSize : Nat) (hb : 0 < batchSize)
    (args : List (Arg α)) (n : Nat) (hne : batchedArgs args ≠ []) (hl : ∀ r ∈ batchedArgs args, r.length = n) :
    batchVmap f batchSize args = .ok ((List.range n).map (fun i => f (callArgs args i))) := by
  obtain ⟨f2, hf2⟩ : ∃ f2 : List α → β, f2 = fun a =>
    f ((unbatchedArgs 0 args).foldl (fun l p => pyInsert l p.1 p.2) a) := ⟨_, rfl⟩
  have hcall : ∀ i, i < n → f2 ((batchedArgs args).filterMap (fun r => r[i]?)) = f (callArgs args i) := by
    intro i hi
    rw [hf2]
    have := reinsert args i [] (fun r hr => by rw [hl r hr]; exact hi)
    simp only [List.length_nil, List.nil_append] at this
    simp only [this]
  unfold batchVmap
  rw [if_neg (by omega)]
  simp only [← hf2, List.map_map, bind, Except.bind, pure, Except.pure]
  set B := n / batchSize with hB
  have hBn : B * batchSize ≤ n := Nat.div_mul_le_self _ _
  -- the loop
  have hloop : laxMap (fun a => vmap f2 a) ((batchedArgs args).map (Prod.fst ∘ preprocess batchSize)) =
      .ok ((List.range B).map (fun b => (List.range batchSize).map (fun j => f (callArgs args (b * batchSize + j))))) := by
    have hlen : ∀ r ∈ (batchedArgs args).map (Prod.fst ∘ preprocess batchSize), r.length = B := by
      intro r hr
      rw [List.mem_map] at hr
      obtain ⟨r', h1, rfl⟩ := hr
      simp [preprocess, hl r' h1, hB]
    have : laxMap (fun a => vmap f2 a) ((batchedArgs args).map (Prod.fst ∘ preprocess batchSize)) =
        (List.range B).mapM (fun i => vmap f2
          (((batchedArgs args).map (Prod.fst ∘ preprocess batchSize)).filterMap (fun r => r[i]?))) := by
      cases hA : (batchedArgs args).map (Prod.fst ∘ preprocess batchSize) with
      | nil => simp at hA; exact absurd hA hne
      | cons a rest =>
        simp only [laxMap]
        rw [hA] at hlen
        rw [if_pos, hlen a (by simp)]
        rw [List.all_eq_true]
        intro r hr
        rw [hlen a (by simp), hlen r (by simp [hr])]
        simp
    rw [this]
    apply mapM_except_ok
    intro b hbm
    have hbB := List.mem_range.1 hbm
    have hend : (b + 1) * batchSize ≤ B * batchSize := Nat.mul_le_mul_right _ hbB
    have hend' : b * batchSize + batchSize ≤ n := by
      have : (b + 1) * batchSize = b * batchSize + batchSize := by ring
      omega
    have hrows : ((batchedArgs args).map (Prod.fst ∘ preprocess batchSize)).filterMap (fun r => r[b]?) =
        (batchedArgs args).map (fun r => ((r.take (B * batchSize)).drop (b * batchSize)).take batchSize) := by
      rw [List.filterMap_map, ← List.filterMap_eq_map]
      apply List.filterMap_congr
      intro r hr
      have hrl := hl r hr
      simp only [Function.comp, preprocess, hrl, ← hB]
      rw [List.getElem?_map, List.getElem?_range hbB]
      rfl
    rw [hrows, vmap_ok f2 _ batchSize (by simpa using hne)]
    · congr 1
      apply List.map_congr_left
      intro j hj
      have hj' := List.mem_range.1 hj
      rw [← hcall (b * batchSize + j) (by omega)]
      congr 1
      rw [List.filterMap_map]
      apply List.filterMap_congr
      intro r hr
      simp only [Function.comp]
      rw [List.getElem?_take, if_pos hj', List.getElem?_drop, List.getElem?_take, if_pos (by
        have : (b + 1) * batchSize = b * batchSize + batchSize := by ring
        omega)]
    · intro r hr
      rw [List.mem_map] at hr
      obtain ⟨r', h1, rfl⟩ := hr
      have := hl r' h1
      have e : (b + 1) * batchSize = b * batchSize + batchSize := by ring
      simp only [List.length_take, List.length_drop]
      omega
  have htail : vmap f2 ((batchedArgs args).map (Prod.snd ∘ preprocess batchSize)) =
      .ok ((List.range (n - B * batchSize)).map (fun j => f (callArgs args (B * batchSize + j)))) := by
    rw [vmap_ok f2 _ (n - B * batchSize) (by simpa using hne)]
    · congr 1
      apply List.map_congr_left
      intro j hj
      have hj' := List.mem_range.1 hj
      rw [← hcall (B * batchSize + j) (by omega)]
      congr 1
      rw [List.filterMap_map]
      apply List.filterMap_congr
      intro r hr
      simp only [Function.comp, preprocess, hl r hr, ← hB]
      rw [List.getElem?_drop]
    · intro r hr
      rw [List.mem_map] at hr
      obtain ⟨r', h1, rfl⟩ := hr
      simp [preprocess, hl r' h1, hB]
  rw [hloop]
  simp only
  rw [htail]
  simp only [postprocess]
  congr 1
  -- reassemble
  have hflat : ∀ m, ((List.range m).map (fun b => (List.range batchSize).map
      (fun j => f (callArgs args (b * batchSize + j))))).flatten =
      (List.range (m * batchSize)).map (fun i => f (callArgs args i)) := by
    intro m
    induction m with
    | zero => simp
    | succ m ih =>
      rw [List.range_succ, List.map_append, List.flatten_append, ih, Nat.succ_mul, List.range_add,
        List.map_append, List.map_map]
      simp [Function.comp_def]
  rw [hflat B]
  have hn : n = B * batchSize + (n - B * batchSize) := by omega
  conv_rhs => rw [hn, List.range_add, List.map_append, List.map_map]
  rfl

example := C26_batch_vmap (fun l : List Nat => l) 2 (by norm_num)
  [.batched [1, 2, 3, 4, 5], .unbatched 9, .batched [10, 20, 30, 40, 50]] 5 (by simp [batchedArgs]) (by simp [batchedArgs])

/-- C26: mapped arguments of different sizes, no mapped argument, or batch size 0 are rejected. -/
theorem C26_rejects {α β : Type} (f : List α → β) (batchSize : Nat) (args : List (Arg α)) :
    (batchedArgs args = [] → ∃ m, batchVmap f batchSize args = .error m) ∧
    (batchSize = 0 → ∃ m, batchVmap f batchSize args = .error m) ∧
    (∀ r ∈ batchedArgs args, ∀ r' ∈ batchedArgs args, r.length ≠ r'.length →
      ∃ m, batchVmap f batchSize args = .error m) := by
  have hnil : batchedArgs args = [] → ∃ m, batchVmap f batchSize args = .error m := by
    intro h
    unfold batchVmap
    rw [if_neg (by simp [h])]
    simp only [h, List.map_nil, laxMap, bind, Except.bind]
    exact ⟨_, rfl⟩
  have hzero : batchSize = 0 → ∃ m, batchVmap f batchSize args = .error m := by
    intro h
    by_cases hb : batchedArgs args = []
    · exact hnil hb
    · unfold batchVmap
      rw [if_pos ⟨h, by simpa using hb⟩]
      exact ⟨_, rfl⟩
  refine ⟨hnil, hzero, ?_⟩
  intro r hr r' hr' hne
  by_cases hb : batchSize = 0
  · exact hzero hb
  unfold batchVmap
  rw [if_neg (by omega)]
  simp only [List.map_map, bind, Except.bind, pure, Except.pure]
  cases hA : batchedArgs args with
  | nil => rw [hA] at hr; simp at hr
  | cons a rest =>
    -- if both the loop and the tail sizes agree with the first argument's then all lengths agree
    by_cases hall : ∀ q ∈ a :: rest, q.length / batchSize = a.length / batchSize ∧
        q.length - q.length / batchSize * batchSize = a.length - a.length / batchSize * batchSize
    · exfalso
      rw [hA] at hr hr'
      have h1 := hall r hr
      have h2 := hall r' hr'
      have l1 := Nat.div_mul_le_self r.length batchSize
      have l2 := Nat.div_mul_le_self r'.length batchSize
      have e1 : r.length / batchSize = r'.length / batchSize := h1.1.trans h2.1.symm
      have e2 := h1.2.trans h2.2.symm
      rw [e1] at l1 e2
      omega
    · by_cases hloop : ∀ q ∈ rest, q.length / batchSize = a.length / batchSize
      · -- the tails differ
        cases laxMap (fun x => vmap (fun a => f (List.foldl (fun l p => pyInsert l p.1 p.2) a
            (unbatchedArgs 0 args))) x) (List.map (Prod.fst ∘ preprocess batchSize) (a :: rest)) with
        | error m => exact ⟨m, rfl⟩
        | ok o =>
          simp only [List.map_cons, vmap]
          rw [if_neg]
          · exact ⟨_, rfl⟩
          · intro hc
            apply hall
            rw [List.all_eq_true] at hc
            intro q hq
            rcases List.mem_cons.1 hq with rfl | hq
            · exact ⟨rfl, rfl⟩
            · have := hc _ (List.mem_map_of_mem hq)
              simp only [Function.comp, preprocess, List.length_drop, beq_iff_eq] at this
              exact ⟨hloop q hq, this⟩
      · refine ⟨"ValueError", ?_⟩
        have : laxMap (fun x => vmap (fun a => f (List.foldl (fun l p => pyInsert l p.1 p.2) a
            (unbatchedArgs 0 args))) x) (List.map (Prod.fst ∘ preprocess batchSize) (a :: rest)) =
            .error "ValueError" := by
          simp only [List.map_cons, laxMap]
          rw [if_neg]
          intro hc
          apply hloop
          rw [List.all_eq_true] at hc
          intro q hq
          have := hc _ (List.mem_map_of_mem hq)
          simpa [Function.comp, preprocess] using this
        rw [this]

/-- A run with a tail and an unmapped argument in the middle. -/
example : batchVmap (fun l : List Nat => l) 2
    [.batched [1, 2, 3, 4, 5], .unbatched 9, .batched [10, 20, 30, 40, 50]] =
    .ok [[1, 9, 10], [2, 9, 20], [3, 9, 30], [4, 9, 40], [5, 9, 50]] := by decide

/-! ## C27 -/

theorem draw_length {σ : Type} (gen : σ → Int × σ) (n : Nat) (s : σ) : (draw gen n s).1.length = n := by
  induction n generalizing s with
  | zero => rfl
  | succ n ih => simp [draw, ih]

/-- Specification: the state after `t` calls. -/
def stateAfter {σ : Type} (gen : σ → Int × σ) : Nat → σ → σ
  | 0, s => s
  | t + 1, s => stateAfter gen t (gen s).2

theorem draw_getElem? {σ : Type} (gen : σ → Int × σ) (n : Nat) (s : σ) (t : Nat) (ht : t < n) :
    (draw gen n s).1[t]? = some (gen (stateAfter gen t s)).1 := by
  induction n generalizing s t with
  | zero => omega
  | succ n ih =>
    cases t with
    | zero => simp [draw, stateAfter]
    | succ t => simp only [draw, List.getElem?_cons_succ]; exact ih _ t (by omega)

theorem draw_state {σ : Type} (gen : σ → Int × σ) (n : Nat) (s : σ) :
    (draw gen n s).2 = stateAfter gen n s := by
  induction n generalizing s with
  | zero => rfl
  | succ n ih => simp only [draw, stateAfter]; exact ih _

theorem foldl_mul_eq (l : List Nat) (a : Nat) :
    l.foldl (fun a b => a * b) a = a * l.foldl (fun a b => a * b) 1 := by
  induction l generalizing a with
  | nil => simp
  | cons x t ih => simp only [List.foldl_cons]; rw [ih (a * x), ih (1 * x)]; ring

theorem flatIndex_lt (shape idx : List Nat) (hl : idx.length = shape.length)
    (h : ∀ i, (hi : i < idx.length) → idx[i] < shape[i]'(by omega)) :
    flatIndex shape idx < shape.foldl (fun a b => a * b) 1 := by
  induction shape generalizing idx with
  | nil => simp [flatIndex]
  | cons d ds ih =>
    cases idx with
    | nil => simp at hl
    | cons i is =>
      simp only [flatIndex, List.foldl_cons]
      rw [foldl_mul_eq ds (1 * d)]
      have h0 := h 0 (by simp)
      simp only [List.getElem_cons_zero] at h0
      have hrec := ih is (by simpa using hl) (fun j hj => by
        have := h (j + 1) (by simpa using hj)
        simpa using this)
      set P := ds.foldl (fun a b => a * b) 1
      calc i * P + flatIndex ds is < i * P + P := by omega
        _ = (i + 1) * P := by ring
        _ ≤ d * P := Nat.mul_le_mul_right _ h0
        _ = 1 * d * P := by ring

/-- C27: negative dimensions are rejected; otherwise the result has exactly the requested shape and the
entry at a multi-index is the normalised value of the call whose number is the row-major position; exactly
`prod(shape)` calls are made. -/
theorem C27_shape_generator {σ : Type} (gen : σ → Int × σ) (shape : List Int) (dtype : DType) (s : σ) :
    ((∃ d ∈ shape, d < 0) → shapeGenerator gen shape dtype s = .error "ValueError") ∧
    ((∀ d ∈ shape, 0 ≤ d) → ∃ arr s', shapeGenerator gen shape dtype s = .ok (arr, s') ∧
      arr.shape = shape.map Int.toNat ∧ arr.data.length = (shape.map Int.toNat).foldl (fun a b => a * b) 1 ∧
      s' = stateAfter gen ((shape.map Int.toNat).foldl (fun a b => a * b) 1) s ∧
      ∀ idx : List Nat, (hl : idx.length = arr.shape.length) →
        (∀ i, (hi : i < idx.length) → idx[i] < arr.shape[i]'(by omega)) →
        arr.data[flatIndex arr.shape idx]? =
          some (normalizeValue (gen (stateAfter gen (flatIndex arr.shape idx) s)).1 dtype)) := by
  constructor
  · rintro ⟨d, hd, hneg⟩
    unfold shapeGenerator
    rw [if_pos]
    rw [List.any_eq_true]
    exact ⟨d, hd, by simpa using hneg⟩
  · intro hpos
    have hnum : (shape.foldl (fun a b => a * b) 1).toNat = (shape.map Int.toNat).foldl (fun a b => a * b) 1 := by
      have : ∀ (l : List Int) (a : Nat), (∀ d ∈ l, 0 ≤ d) →
          l.foldl (fun a b => a * b) (a : Int) = (((l.map Int.toNat).foldl (fun a b => a * b) a : Nat) : Int) := by
        intro l
        induction l with
        | nil => intro a _; rfl
        | cons x t ih =>
          intro a h
          simp only [List.foldl_cons, List.map_cons]
          have hx : x = (x.toNat : Int) := by
            have := h x (by simp); omega
          rw [← ih (a * x.toNat) (fun d hd => h d (by simp [hd]))]
          congr 1
          push_cast
          rw [← hx]
      have := this shape 1 hpos
      simp only [Nat.cast_one] at this
      rw [this]; rfl
    unfold shapeGenerator
    rw [if_neg]
    · simp only
      rw [if_pos (by rw [List.length_map, draw_length, hnum])]
      refine ⟨_, _, rfl, rfl, ?_, ?_, ?_⟩
      · simp only [List.length_map, draw_length, hnum]
      · rw [draw_state, hnum]
      · intro idx hl hidx
        have := flatIndex_lt (shape.map Int.toNat) idx hl hidx
        rw [List.getElem?_map, draw_getElem? _ _ _ _ (by rw [hnum]; exact this)]
        rfl
    · rw [List.any_eq_true]
      rintro ⟨d, hd, h⟩
      have := hpos d hd
      simp at h
      omega

/-- C27: unsigned values are normalised into `[0, 2^w)`, congruent to the drawn value. -/
theorem C27_normalize (v : Int) (w : Nat) :
    0 ≤ normalizeValue v (.unsigned w) ∧ normalizeValue v (.unsigned w) < 2 ^ w ∧
    (2 ^ w : Int) ∣ normalizeValue v (.unsigned w) - v ∧ normalizeValue v (.signed w) = v := by
  have hp : (0 : Int) < 2 ^ w := by positivity
  unfold normalizeValue
  simp only [sub_add_cancel]
  refine ⟨Int.emod_nonneg _ hp.ne', Int.emod_lt_of_pos _ hp, ?_, trivial⟩
  exact ⟨-(v / 2 ^ w), by have := Int.emod_add_mul_ediv v (2 ^ w); linarith⟩

theorem binDigits_go (x : Nat) (acc : List Int) (h : ∀ d ∈ acc, d = 0 ∨ d = 1) :
    ∀ d ∈ binDigits.go x acc, d = 0 ∨ d = 1 := by
  induction x, acc using binDigits.go.induct with
  | case1 acc => unfold binDigits.go; simpa using h
  | case2 x acc hx ih =>
    unfold binDigits.go
    rw [dif_neg hx]
    apply ih
    intro d hd
    rcases List.mem_cons.1 hd with rfl | hd
    · have : x % 2 = 0 ∨ x % 2 = 1 := by omega
      rcases this with h | h <;> rw [h] <;> simp
    · exact h d hd

theorem stateAfter_cycle (data : List Int) (t s : Nat) : stateAfter (cycleNext data) t s = s + t := by
  induction t generalizing s with
  | zero => rfl
  | succ t ih => simp only [stateAfter, cycleNext]; rw [ih]; omega

theorem binDigits_go_value (x : Nat) (acc : List Int) :
    (binDigits.go x acc).foldl (fun a d => 2 * a + d) 0 = acc.foldl (fun a d => 2 * a + d) (x : Int) := by
  induction x, acc using binDigits.go.induct with
  | case1 acc => unfold binDigits.go; simp
  | case2 x acc hx ih =>
    unfold binDigits.go
    rw [dif_neg hx, ih, List.foldl_cons]
    congr 1
    omega

theorem binDigits_go_head (x : Nat) (acc : List Int) (hx : 0 < x) : (binDigits.go x acc).head? = some 1 := by
  induction x, acc using binDigits.go.induct with
  | case1 acc => omega
  | case2 x acc h ih =>
    unfold binDigits.go
    rw [dif_neg h]
    by_cases h2 : x / 2 = 0
    · have : x = 1 := by omega
      subst this
      unfold binDigits.go
      simp
    · exact ih (by omega)

/-- C27: the digits through which `CycleRng` cycles are the binary digits of its value, the leading one first. -/
theorem C27_digits (x : Nat) :
    (binDigits x).foldl (fun a d => 2 * a + d) 0 = (x : Int) ∧ (∀ d ∈ binDigits x, d = 0 ∨ d = 1) ∧
      (0 < x → (binDigits x).head? = some 1) ∧ (x = 0 → binDigits x = [0]) := by
  unfold binDigits
  refine ⟨?_, ?_, fun h => ?_, fun h => by rw [if_pos h]⟩
  · split
    · subst x; rfl
    · rw [binDigits_go_value]; simp
  · split
    · simp
    · exact binDigits_go x [] (by simp)
  · rw [if_neg (by omega)]
    exact binDigits_go_head x [] h

example : binDigits 26 = [1, 1, 0, 1, 0] := by decide +kernel

/-- C27: `CycleRng.uniform` returns the next values of the cycle: entry number `t` of a call made after `s`
values were consumed is digit `(s + t) mod length`; hence it is binary. -/
theorem C27_cycle (x : Nat) (shape : List Int) (hpos : ∀ d ∈ shape, 0 ≤ d) (w s : Nat) (hw : 1 ≤ w) :
    ∃ arr, cycleUniform (binDigits x) shape (.unsigned w) s =
        .ok (arr, s + (shape.map Int.toNat).foldl (fun a b => a * b) 1) ∧
      (∀ t, t < arr.data.length →
        arr.data[t]? = some ((binDigits x).getD ((s + t) % (binDigits x).length) 0)) ∧
      ∀ d ∈ arr.data, d = 0 ∨ d = 1 := by
  have hbin : ∀ i, (binDigits x).getD i 0 = 0 ∨ (binDigits x).getD i 0 = 1 := by
    intro i
    by_cases hi : i < (binDigits x).length
    · rw [List.getD_eq_getElem _ _ hi]
      have hm : (binDigits x)[i] ∈ binDigits x := List.getElem_mem hi
      have hall : ∀ d ∈ binDigits x, d = 0 ∨ d = 1 := by
        unfold binDigits
        split
        · simp
        · exact binDigits_go x [] (by simp)
      exact hall _ hm
    · left; exact List.getD_eq_default _ _ (by omega)
  have hsmall : ∀ v : Int, v = 0 ∨ v = 1 → normalizeValue v (.unsigned w) = v := by
    intro v hv
    have h2 : (2 : Int) ≤ 2 ^ w := by
      calc (2 : Int) = 2 ^ 1 := by norm_num
        _ ≤ 2 ^ w := by exact_mod_cast Nat.pow_le_pow_right (by norm_num : 1 ≤ 2) hw
    simp only [normalizeValue, sub_add_cancel]
    exact Int.emod_eq_of_lt (by omega) (by omega)
  obtain ⟨arr, s', h1, h2, h3, h4, -⟩ := (C27_shape_generator (cycleNext (binDigits x)) shape (.unsigned w) s).2 hpos
  have hdata : ∀ t, t < arr.data.length →
      arr.data[t]? = some ((binDigits x).getD ((s + t) % (binDigits x).length) 0) := by
    intro t ht
    unfold shapeGenerator at h1
    split at h1
    · cases h1
    · simp only at h1
      split at h1
      · simp only [Except.ok.injEq, Prod.mk.injEq] at h1
        rw [← h1.1] at ht ⊢
        simp only [List.length_map, draw_length] at ht
        rw [List.getElem?_map, draw_getElem? _ _ _ _ ht, stateAfter_cycle]
        simp only [Option.map_some, cycleNext]
        rw [hsmall _ (hbin _)]
      · cases h1
  refine ⟨arr, ?_, hdata, ?_⟩
  · rw [← stateAfter_cycle (binDigits x), ← h4]; exact h1
  · intro d hd
    obtain ⟨t, ht, rfl⟩ := List.mem_iff_getElem.1 hd
    have := hdata t ht
    rw [List.getElem?_eq_getElem ht] at this
    rw [Option.some.inj this]
    exact hbin _

/-- C27: the noise of `CycleRng` is the configured number in every place. -/
theorem C27_cycle_noise (noise : Int) (shape : List Int) (hpos : ∀ d ∈ shape, 0 ≤ d) (dtype : DType) :
    ∃ arr, cycleNormal noise shape dtype = .ok (arr, ()) ∧ arr.shape = shape.map Int.toNat ∧
      arr.data = List.replicate ((shape.map Int.toNat).foldl (fun a b => a * b) 1) (normalizeValue noise dtype) := by
  obtain ⟨arr, s', h1, h2, h3, -, -⟩ := (C27_shape_generator (fun _ : Unit => (noise, ())) shape dtype ()).2 hpos
  refine ⟨arr, h1, h2, ?_⟩
  rw [List.eq_replicate_iff]
  refine ⟨h3, fun d hd => ?_⟩
  obtain ⟨t, ht, rfl⟩ := List.mem_iff_getElem.1 hd
  unfold shapeGenerator at h1
  split at h1
  · cases h1
  · simp only at h1
    split at h1
    · simp only [Except.ok.injEq, Prod.mk.injEq] at h1
      have e := congrArg (fun a => a.data[t]?) h1.1
      have ht' := ht
      rw [← h1.1] at ht'
      simp only [List.length_map, draw_length] at ht'
      simp only [List.getElem?_map, draw_getElem? _ _ _ _ ht', Option.map_some, List.getElem?_eq_getElem ht,
        Option.some.injEq] at e
      exact e.symm
    · cases h1

example := C27_cycle_noise (-3) [2, 3] (by decide) (.unsigned 32)

example : cycleUniform (binDigits 6) [2, 2] (.unsigned 32) 0 = .ok (⟨[2, 2], [1, 1, 0, 1]⟩, 4) := by
  have h : binDigits 6 = [1, 1, 0] := by simp [binDigits, binDigits.go]
  rw [h]; rfl

example : shapeGenerator (fun n : Nat => (-(n : Int), n + 1)) [3, 2] (.unsigned 8) 0 =
    .ok (⟨[3, 2], [0, 255, 254, 253, 252, 251]⟩, 6) := rfl

end Verif.Props

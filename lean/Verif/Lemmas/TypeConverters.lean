import Verif.Model.TypeConverters
import Mathlib.Algebra.BigOperators.Intervals
import Mathlib.Tactic.Ring
import Mathlib.Tactic.LinearCombination
import Mathlib.Tactic.Positivity
import Mathlib.Algebra.Order.Ring.Int

namespace Verif.TypeConverters

theorem foldl_set_getElem? (f : Nat → Bool) (l : List Bool) (k j : Nat) :
    ((List.range k).foldl (fun r i => r.set i (f i)) l)[j]? =
      if j < k ∧ j < l.length then some (f j) else l[j]? := by
  induction k with
  | zero => simp
  | succ k ih =>
    have hlen : ∀ (k : Nat), ((List.range k).foldl (fun r i => r.set i (f i)) l).length = l.length := by
      intro k
      induction k with
      | zero => simp
      | succ k ih => simp [List.range_succ, ih]
    rw [List.range_succ, List.foldl_append]
    simp only [List.foldl_cons, List.foldl_nil, List.getElem?_set, hlen, ih]
    by_cases hkj : k = j
    · subst hkj
      by_cases hl : k < l.length
      · simp [hl]
      · simp [hl]
    · simp only [hkj, if_false]
      have : (j < k + 1 ∧ j < l.length) ↔ (j < k ∧ j < l.length) := by omega
      simp only [this]

theorem uintToBitSlice_int (v : Int) (n : Nat) :
    uintToBitSlice v n = (List.range n).map (fun i => (v >>> i) % 2 != 0) := by
  apply List.ext_getElem?
  intro j
  unfold uintToBitSlice
  rw [foldl_set_getElem? (fun i => (v >>> i) % 2 != 0)]
  simp only [List.length_replicate, and_self]
  by_cases h : j < n
  · simp only [h, if_true, List.getElem?_map]
    rw [List.getElem?_range h]
    simp
  · simp only [h, if_false]
    rw [List.getElem?_eq_none (by simpa using h), List.getElem?_eq_none (by simpa using h)]

theorem uintToBitSlice_eq (v n : Nat) :
    uintToBitSlice v n = (List.range n).map (fun i => v.testBit i) := by
  rw [uintToBitSlice_int]
  refine List.map_congr_left fun i _ => ?_
  rw [Int.shiftRight_eq_div_pow, Nat.testBit_eq_decide_div_mod_eq]
  have : (v : Int) / ((2 ^ i : Nat) : Int) % 2 = ((v / 2 ^ i % 2 : Nat) : Int) := by push_cast; rfl
  rw [this]
  have h2 : v / 2 ^ i % 2 = 0 ∨ v / 2 ^ i % 2 = 1 := by omega
  rcases h2 with h | h <;> simp [h]

/-- Only the lowest bits are written. -/
theorem uintToBitSlice_emod (v : Int) (n : Nat) : uintToBitSlice v n = uintToBitSlice (v % 2 ^ n) n := by
  rw [uintToBitSlice_int, uintToBitSlice_int]
  refine List.map_congr_left fun i hi => ?_
  have hi : i < n := List.mem_range.1 hi
  have key : (v >>> i) % 2 = ((v % 2 ^ n) >>> i) % 2 := by
    rw [Int.shiftRight_eq_div_pow, Int.shiftRight_eq_div_pow]
    push_cast
    obtain ⟨k, rfl⟩ : ∃ k, n = i + 1 + k := ⟨n - i - 1, by omega⟩
    have e : v = v % 2 ^ (i + 1 + k) + 2 ^ i * (2 * (2 ^ k * (v / 2 ^ (i + 1 + k)))) := by
      have := Int.emod_add_mul_ediv v (2 ^ (i + 1 + k))
      rw [pow_add, pow_add] at this ⊢
      linear_combination -this
    conv_lhs => rw [e]
    rw [Int.add_mul_ediv_left _ _ (by positivity), Int.add_mul_emod_self_left]
  rw [key]

theorem testBit_boolToInt (b : Bool) (i : Nat) :
    (boolToInt b).testBit i = (b && decide (i = 0)) := by
  cases b
  · simp [boolToInt]
  · cases i <;> simp [boolToInt, Nat.testBit_succ]

theorem readFold_testBit (bits : List Bool) (k j : Nat) :
    ((List.range k).foldl
      (fun result i => result ||| (boolToInt (bits.getD i false) <<< i)) 0).testBit j =
      (decide (j < k) && bits.getD j false) := by
  induction k with
  | zero => simp
  | succ k ih =>
    rw [List.range_succ, List.foldl_append]
    simp only [List.foldl_cons, List.foldl_nil, Nat.testBit_or, ih, Nat.testBit_shiftLeft,
      testBit_boolToInt]
    by_cases h : j = k
    · subst h; simp
    · by_cases h2 : j < k
      · have : j < k + 1 := by omega
        have h3 : ¬ k ≤ j := by omega
        simp [h2, this, h3]
      · have : ¬ j < k + 1 := by omega
        have h3 : ¬ (j - k = 0) := by omega
        simp [h2, this, h3]

theorem readFold_lt (bits : List Bool) (k : Nat) :
    ((List.range k).foldl
      (fun result i => result ||| (boolToInt (bits.getD i false) <<< i)) 0) < 2 ^ k := by
  apply Nat.lt_pow_two_of_testBit
  intro i hi
  rw [readFold_testBit]
  simp; omega

theorem readFold_sum (bits : List Bool) (k : Nat) :
    ((List.range k).foldl
      (fun result i => result ||| (boolToInt (bits.getD i false) <<< i)) 0) =
      ∑ i ∈ Finset.range k, if bits.getD i false then 2 ^ i else 0 := by
  induction k with
  | zero => simp
  | succ k ih =>
    have hlt := readFold_lt bits k
    rw [Finset.sum_range_succ, ← ih, List.range_succ, List.foldl_append]
    simp only [List.foldl_cons, List.foldl_nil]
    rw [Nat.or_comm, ← Nat.shiftLeft_add_eq_or_of_lt hlt, Nat.add_comm, Nat.shiftLeft_eq]
    cases bits.getD k false <;> simp [boolToInt]

theorem read_ok {bits : List Bool} {n : Nat} (h : bits.length = n) :
    bitSliceToUint bits n = .ok ((List.range n).foldl
      (fun result i => result ||| (boolToInt (bits.getD i false) <<< i)) 0) := by
  simp [bitSliceToUint, h]

theorem write_read (v n : Nat) (h : v < 2 ^ n) :
    bitSliceToUint (uintToBitSlice v n) n = .ok v := by
  rw [read_ok (by simp [uintToBitSlice_eq])]
  congr 1
  apply Nat.eq_of_testBit_eq
  intro j
  rw [readFold_testBit, uintToBitSlice_eq]
  by_cases hj : j < n
  · simp [hj, List.getD_eq_getElem?_getD]
  · have : v.testBit j = false := Nat.testBit_lt_two_pow
      (lt_of_lt_of_le h (Nat.pow_le_pow_right (by norm_num) (by omega)))
    simp [hj, this]

theorem read_write {bits : List Bool} {n v : Nat} (h : bitSliceToUint bits n = .ok v) :
    uintToBitSlice v n = bits := by
  by_cases hl : bits.length = n
  · rw [read_ok hl] at h
    injection h with h
    apply List.ext_getElem?
    intro j
    rw [uintToBitSlice_eq, ← h]
    by_cases hj : j < n
    · rw [List.getElem?_map, List.getElem?_range hj]
      simp only [Option.map_some]
      rw [readFold_testBit]
      simp [hj, List.getD_eq_getElem?_getD, hl]
    · rw [List.getElem?_eq_none (by simpa using hj), List.getElem?_eq_none (by omega)]
  · simp [bitSliceToUint, hl] at h

/-- Eight bits, read as a number. -/
def byteVal (b0 b1 b2 b3 b4 b5 b6 b7 : Bool) : Nat :=
  boolToInt b0 + 2 * boolToInt b1 + 4 * boolToInt b2 + 8 * boolToInt b3 + 16 * boolToInt b4 +
    32 * boolToInt b5 + 64 * boolToInt b6 + 128 * boolToInt b7

theorem bitSliceToU8_eq (b0 b1 b2 b3 b4 b5 b6 b7 : Bool) :
    bitSliceToU8 [b0, b1, b2, b3, b4, b5, b6, b7] = .ok (byteVal b0 b1 b2 b3 b4 b5 b6 b7) := by
  revert b0 b1 b2 b3 b4 b5 b6 b7; decide +kernel

/-- Processing one full group of eight bits. The byte appended uses the *old* content of slot 7. -/
theorem bytesLoop_eight (a0 a1 a2 a3 a4 a5 a6 a7 b0 b1 b2 b3 b4 b5 b6 b7 : Bool) (rest : List Bool)
    (k : Nat) (res : List Nat) :
    bytesLoop (b0 :: b1 :: b2 :: b3 :: b4 :: b5 :: b6 :: b7 :: rest) (8 * k)
      [a0, a1, a2, a3, a4, a5, a6, a7] res =
    bytesLoop rest (8 * (k + 1)) [b0, b1, b2, b3, b4, b5, b6, b7]
      (res ++ [byteVal b0 b1 b2 b3 b4 b5 b6 a7]) := by
  have e0 : (8 * k) % 8 = 0 := by omega
  have e1 : (8 * k + 1) % 8 = 1 := by omega
  have e2 : (8 * k + 1 + 1) % 8 = 2 := by omega
  have e3 : (8 * k + 1 + 1 + 1) % 8 = 3 := by omega
  have e4 : (8 * k + 1 + 1 + 1 + 1) % 8 = 4 := by omega
  have e5 : (8 * k + 1 + 1 + 1 + 1 + 1) % 8 = 5 := by omega
  have e6 : (8 * k + 1 + 1 + 1 + 1 + 1 + 1) % 8 = 6 := by omega
  have e7 : (8 * k + 1 + 1 + 1 + 1 + 1 + 1 + 1) % 8 = 7 := by omega
  have e8 : (8 * k + 1 + 1 + 1 + 1 + 1 + 1 + 1 + 1) % 8 = 0 := by omega
  simp only [bytesLoop, e0, e1, e2, e3, e4, e5, e6, e7, e8]
  simp [bitSliceToU8_eq, bind, Except.bind, pure, Except.pure, Nat.mul_add]

theorem u8ListLoop_ok (l : List Int) (h : ∀ x ∈ l, 0 ≤ x ∧ x ≤ 255) (acc : List Bool) :
    u8ListLoop l acc = .ok (acc ++ (l.map fun x => uintToBitSlice x 8).flatten) := by
  induction l generalizing acc with
  | nil => simp [u8ListLoop]
  | cons x xs ih =>
    have hx := h x (by simp)
    have : ¬ (x < 0 ∨ x > 255) := by omega
    simp only [u8ListLoop, u8ToBitSlice, this, if_false, bind, Except.bind]
    rw [ih (fun y hy => h y (by simp [hy]))]
    simp

theorem u8_bits_explicit (x : Nat) :
    uintToBitSlice x 8 = [x.testBit 0, x.testBit 1, x.testBit 2, x.testBit 3, x.testBit 4,
      x.testBit 5, x.testBit 6, x.testBit 7] := by
  rw [uintToBitSlice_eq]; rfl

/-- What `bytesLoop` really computes on well-formed input: bit 7 of each byte is taken from the
previous byte. -/
def shiftTop : Bool → List Nat → List Nat
  | _, [] => []
  | t, x :: xs => (x % 128 + 128 * boolToInt t) :: shiftTop (x.testBit 7) xs

theorem byteVal_replace_top (x : Nat) (h : x < 256) (t : Bool) :
    byteVal (x.testBit 0) (x.testBit 1) (x.testBit 2) (x.testBit 3) (x.testBit 4)
      (x.testBit 5) (x.testBit 6) t = x % 128 + 128 * boolToInt t := by
  cases t
  · revert x; decide +kernel
  · revert x; decide +kernel

theorem bytesLoop_bytes (l : List Nat) (h : ∀ x ∈ l, x < 256) (k : Nat)
    (a0 a1 a2 a3 a4 a5 a6 a7 : Bool) (res : List Nat) :
    bytesLoop ((l.map fun x : Nat => uintToBitSlice x 8).flatten) (8 * k)
      [a0, a1, a2, a3, a4, a5, a6, a7] res = .ok (res ++ shiftTop a7 l) := by
  induction l generalizing k a0 a1 a2 a3 a4 a5 a6 a7 res with
  | nil => simp [bytesLoop, shiftTop]
  | cons x xs ih =>
    have hx := h x (by simp)
    simp only [List.map_cons, List.flatten_cons, u8_bits_explicit x, List.cons_append,
      List.nil_append]
    rw [bytesLoop_eight, ih (fun y hy => h y (by simp [hy])), byteVal_replace_top x hx, shiftTop]
    simp

theorem shiftTop_ascii (l : List Nat) (h : ∀ x ∈ l, x < 128) : shiftTop false l = l := by
  induction l with
  | nil => rfl
  | cons x xs ih =>
    have hx := h x (by simp)
    have h7 : x.testBit 7 = false := Nat.testBit_lt_two_pow (by simpa using hx)
    simp only [shiftTop, h7, boolToInt]
    rw [ih (fun y hy => h y (by simp [hy])), Nat.mod_eq_of_lt hx]
    simp

theorem u8List_bytes (l : List Nat) (hne : l ≠ []) (h : ∀ x ∈ l, x < 256) :
    (do let bits ← u8ListToBitSlice (l.map Int.ofNat); bitSliceToBytes bits) =
      .ok (shiftTop false l) := by
  have hb : ∀ x ∈ l.map Int.ofNat, (0 : Int) ≤ x ∧ x ≤ 255 := by
    intro x hx
    obtain ⟨y, hy, rfl⟩ := List.mem_map.mp hx
    have := h y hy
    constructor
    · exact Int.natCast_nonneg y
    · have : (y : Int) < 256 := by exact_mod_cast this
      change (y : Int) ≤ 255
      omega
  have e1 : u8ListToBitSlice (l.map Int.ofNat) =
      .ok ((l.map fun x : Nat => uintToBitSlice x 8).flatten) := by
    unfold u8ListToBitSlice
    have : (l.map Int.ofNat).isEmpty = false := by cases l <;> simp_all
    rw [this]
    simp only [Bool.false_eq_true, if_false]
    rw [u8ListLoop_ok _ hb]
    simp [List.map_map, Function.comp_def]
  rw [e1]
  simp only [bind, Except.bind]
  unfold bitSliceToBytes
  have hne2 : ((l.map fun x : Nat => uintToBitSlice x 8).flatten).isEmpty = false := by
    cases l with
    | nil => simp at hne
    | cons x xs => simp [u8_bits_explicit]
  rw [hne2]
  simp only [Bool.false_eq_true, if_false]
  have := bytesLoop_bytes l h 0 false false false false false false false false []
  simpa using this

end Verif.TypeConverters

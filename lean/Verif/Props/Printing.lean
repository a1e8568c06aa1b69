import Verif.Model.Printing
import Verif.Props.Lut
import Mathlib.Data.List.GetD
import Mathlib.Data.List.Basic

/-!
# C104: printed forms show the object
-/

namespace Verif.Props
open Verif.Lut Verif.Printing

/-! ## Separators -/

theorem append_cons_inj (c : Char) : ∀ (a b s t : List Char), c ∉ a → c ∉ b → a ++ c :: s = b ++ c :: t → a = b ∧ s = t
  | [], [], _, _, _, _, h => ⟨rfl, (List.cons.inj h).2⟩
  | [], y :: b, _, _, _, hb, h => absurd (List.cons.inj h).1 (fun e => hb (e ▸ List.mem_cons_self))
  | x :: a, [], _, _, ha, _, h => absurd (List.cons.inj h).1 (fun e => ha (e ▸ List.mem_cons_self))
  | x :: a, y :: b, s, t, ha, hb, h => by
    obtain ⟨h1, h2⟩ := List.cons.inj h
    obtain ⟨h3, h4⟩ := append_cons_inj c a b s t (fun hm => ha (List.mem_cons_of_mem _ hm))
      (fun hm => hb (List.mem_cons_of_mem _ hm)) h2
    exact ⟨by rw [h1, h3], h4⟩

theorem join_inj (c : Char) (u v : List Char) (hu : c ∉ u) :
    ∀ l m : List (List Char), l ≠ [] → m ≠ [] → (∀ x ∈ l, c ∉ x) → (∀ x ∈ m, c ∉ x) →
      join (u ++ c :: v) l = join (u ++ c :: v) m → l = m
  | [], _, h, _, _, _, _ => absurd rfl h
  | _ :: _, [], _, h, _, _, _ => absurd rfl h
  | [x], [y], _, _, _, _, h => by simpa only [join] using congrArg (fun z => [z]) h
  | [x], y :: z :: t, _, _, hl, _, h => by
    exfalso
    refine hl x (by simp) ?_
    simp only [join] at h
    rw [h]
    simp
  | x :: z :: t, [y], _, _, _, hm, h => by
    exfalso
    refine hm y (by simp) ?_
    simp only [join] at h
    rw [← h]
    simp
  | x :: x' :: l, y :: y' :: m, _, _, hl, hm, h => by
    simp only [join] at h
    have h' : (x ++ u) ++ c :: (v ++ join (u ++ c :: v) (x' :: l)) = (y ++ u) ++ c :: (v ++ join (u ++ c :: v) (y' :: m)) := by
      simpa using h
    have hx : c ∉ x ++ u := by
      rw [List.mem_append]; rintro (h1 | h1)
      · exact hl x (by simp) h1
      · exact hu h1
    have hy : c ∉ y ++ u := by
      rw [List.mem_append]; rintro (h1 | h1)
      · exact hm y (by simp) h1
      · exact hu h1
    obtain ⟨h1, h2⟩ := append_cons_inj c _ _ _ _ hx hy h'
    have h3 := join_inj c u v hu (x' :: l) (y' :: m) (by simp) (by simp)
      (fun z hz => hl z (List.mem_cons_of_mem _ hz)) (fun z hz => hm z (List.mem_cons_of_mem _ hz))
      (List.append_cancel_left h2)
    rw [List.append_cancel_right h1, h3]

theorem mem_join (sep : List Char) (c : Char) : ∀ l : List (List Char), c ∈ join sep l → c ∈ sep ∨ ∃ x ∈ l, c ∈ x
  | [], h => by simp [join] at h
  | [x], h => .inr ⟨x, by simp, h⟩
  | x :: y :: t, h => by
    simp only [join, List.mem_append] at h
    rcases h with (h | h) | h
    · exact .inr ⟨x, by simp, h⟩
    · exact .inl h
    · rcases mem_join sep c (y :: t) h with h | ⟨z, hz, hc⟩
      · exact .inl h
      · exact .inr ⟨z, List.mem_cons_of_mem _ hz, hc⟩

/-! ## Numbers -/

/-- The value of a string of decimal (or binary) digits. -/
def readDigits (b : Nat) (l : List Char) : Nat := l.foldl (fun v c => v * b + (c.toNat - 48)) 0

theorem digitChar_toNat : ∀ d, d < 10 → (Nat.digitChar d).toNat - 48 = d := by decide

theorem digitChar_mem : ∀ d, d < 10 → Nat.digitChar d ∈ ['0', '1', '2', '3', '4', '5', '6', '7', '8', '9'] := by decide

theorem readDigits_digits (b : Nat) (hb : 2 ≤ b) (hb' : b ≤ 10) (n : Nat) : readDigits b (digits b n) = n := by
  induction n using Nat.strong_induction_on with
  | _ n ih =>
    rw [digits]
    split
    · next h =>
      simp only [readDigits, List.foldl_cons, List.foldl_nil, zero_mul, zero_add]
      exact digitChar_toNat n (by omega)
    · next h =>
      have hlt : n / b < n := Nat.div_lt_self (by omega) (by omega)
      have := ih (n / b) hlt
      unfold readDigits at this ⊢
      rw [List.foldl_append, this]
      simp only [List.foldl_cons, List.foldl_nil]
      rw [digitChar_toNat _ (lt_of_lt_of_le (Nat.mod_lt _ (by omega)) hb')]
      have := Nat.div_add_mod n b
      rw [Nat.mul_comm] at this
      exact this

theorem digits_mem (b : Nat) (hb : 2 ≤ b) (hb' : b ≤ 10) (n : Nat) :
    ∀ c ∈ digits b n, c ∈ ['0', '1', '2', '3', '4', '5', '6', '7', '8', '9'] := by
  induction n using Nat.strong_induction_on with
  | _ n ih =>
    rw [digits]
    split
    · next h =>
      intro c hc
      rw [List.mem_singleton] at hc
      rw [hc]
      exact digitChar_mem n (by omega)
    · next h =>
      have hlt : n / b < n := Nat.div_lt_self (by omega) (by omega)
      intro c hc
      rcases List.mem_append.1 hc with hc | hc
      · exact ih _ hlt c hc
      · rw [List.mem_singleton] at hc
        rw [hc]
        exact digitChar_mem _ (lt_of_lt_of_le (Nat.mod_lt _ (by omega)) hb')

theorem digits_ne_nil (b n : Nat) : digits b n ≠ [] := by
  rw [digits]; split <;> simp

theorem digits_inj (m n : Nat) (h : digits 10 m = digits 10 n) : m = n := by
  have := congrArg (readDigits 10) h
  rwa [readDigits_digits 10 (by omega) le_rfl, readDigits_digits 10 (by omega) le_rfl] at this

theorem digits_not_mem (n : Nat) (c : Char) (hc : c ∉ ['0', '1', '2', '3', '4', '5', '6', '7', '8', '9']) :
    c ∉ digits 10 n := fun h => hc (digits_mem 10 (by omega) le_rfl n c h)

/-! ## Polynomials -/

/-- The terms of a polynomial: the nonzero coefficients with their powers. -/
def nonzeroTerms (message : List Nat) : List (Nat × Nat) := message.zipIdx.filter fun t => t.1 ≠ 0

def termStr (t : Nat × Nat) : List Char := digits 10 t.1 ++ [' ', 'x', '^'] ++ digits 10 t.2

theorem termStr_inj (s t : Nat × Nat) (h : termStr s = termStr t) : s = t := by
  unfold termStr at h
  have h' : digits 10 s.1 ++ ' ' :: (['x', '^'] ++ digits 10 s.2) = digits 10 t.1 ++ ' ' :: (['x', '^'] ++ digits 10 t.2) := by
    simpa using h
  obtain ⟨h1, h2⟩ := append_cons_inj ' ' _ _ _ _ (digits_not_mem _ _ (by decide)) (digits_not_mem _ _ (by decide)) h'
  exact Prod.ext (digits_inj _ _ h1) (digits_inj _ _ (List.append_cancel_left h2))

theorem termStr_mem (t : Nat × Nat) (c : Char) (h : c ∈ termStr t) :
    c ∈ ['0', '1', '2', '3', '4', '5', '6', '7', '8', '9', ' ', 'x', '^'] := by
  unfold termStr at h
  simp only [List.mem_append] at h
  rcases h with (h | h) | h
  · have := digits_mem 10 (by omega) le_rfl _ c h
    simp only [List.mem_cons, List.not_mem_nil, or_false] at this ⊢
    tauto
  · simp only [List.mem_cons, List.not_mem_nil, or_false] at h ⊢
    tauto
  · have := digits_mem 10 (by omega) le_rfl _ c h
    simp only [List.mem_cons, List.not_mem_nil, or_false] at this ⊢
    tauto

theorem terms_eq (message : List Nat) :
    (message.zipIdx.filterMap fun (coeff, power) =>
      if coeff ≠ 0 then some (digits 10 coeff ++ [' ', 'x', '^'] ++ digits 10 power) else none) =
      (nonzeroTerms message).map termStr := by
  unfold nonzeroTerms
  induction message.zipIdx with
  | nil => rfl
  | cons t l ih =>
    obtain ⟨c, p⟩ := t
    by_cases h : c = 0
    · subst h
      simpa using ih
    · rw [List.filterMap_cons, List.filter_cons]
      simp only [h, ne_eq, not_false_eq_true, if_true, decide_true, List.map_cons]
      rw [ih]
      rfl

theorem polyStr_eq (message : List Nat) : polyStr message =
    if nonzeroTerms message = [] then ['0'] else join [' ', '+', ' '] ((nonzeroTerms message).map termStr) := by
  unfold polyStr
  rw [terms_eq]
  simp only
  cases hL : nonzeroTerms message with
  | nil => simp [join]
  | cons t l =>
    have hne : join [' ', '+', ' '] ((t :: l).map termStr) ≠ [] := by
      cases l with
      | nil => simp [join, termStr]
      | cons t' l => simp [join]
    rw [if_neg (by simpa only [List.isEmpty_iff] using hne), if_neg (by simp)]

theorem polyStr_mem (message : List Nat) (c : Char) (h : c ∈ polyStr message) :
    c ∈ ['0', '1', '2', '3', '4', '5', '6', '7', '8', '9', ' ', 'x', '^', '+'] := by
  rw [polyStr_eq] at h
  split at h
  · simp only [List.mem_cons, List.not_mem_nil, or_false] at h ⊢
    tauto
  · rcases mem_join _ _ _ h with h | ⟨x, hx, hc⟩
    · simp only [List.mem_cons, List.not_mem_nil, or_false] at h ⊢
      tauto
    · obtain ⟨t, -, rfl⟩ := List.mem_map.1 hx
      have := termStr_mem t c hc
      simp only [List.mem_cons, List.not_mem_nil, or_false] at this ⊢
      tauto

theorem polyStr_ne_nil (message : List Nat) : polyStr message ≠ [] := by
  unfold polyStr
  simp only
  split
  · simp
  · next h => simpa [List.isEmpty_iff] using h

theorem zero_ne_join (t : Nat × Nat) (l : List (Nat × Nat)) : ['0'] ≠ join [' ', '+', ' '] ((t :: l).map termStr) := by
  intro h
  have hx : 'x' ∈ join [' ', '+', ' '] ((t :: l).map termStr) := by
    cases l with
    | nil => simp [join, termStr]
    | cons t' l => simp [join, termStr]
  rw [← h] at hx
  simp at hx

theorem polyStr_terms (p q : List Nat) (h : polyStr p = polyStr q) : nonzeroTerms p = nonzeroTerms q := by
  rw [polyStr_eq, polyStr_eq] at h
  cases hp : nonzeroTerms p with
  | nil =>
    cases hq : nonzeroTerms q with
    | nil => rfl
    | cons t l =>
      rw [hp, hq, if_pos rfl, if_neg (by simp)] at h
      exact absurd h (zero_ne_join t l)
  | cons s k =>
    cases hq : nonzeroTerms q with
    | nil =>
      rw [hp, hq, if_pos rfl, if_neg (by simp)] at h
      exact absurd h.symm (zero_ne_join s k)
    | cons t l =>
      rw [hp, hq, if_neg (by simp), if_neg (by simp)] at h
      have hmem : ∀ L : List (Nat × Nat), ∀ x ∈ L.map termStr, '+' ∉ x := by
        intro L x hx hc
        obtain ⟨t, -, rfl⟩ := List.mem_map.1 hx
        have := termStr_mem t _ hc
        revert this; decide
      have := join_inj '+' [' '] [' '] (by decide) _ _ (by simp) (by simp) (hmem _) (hmem _) h
      exact (List.map_injective_iff.2 (fun a b => termStr_inj a b)) this

theorem mem_nonzeroTerms (p : List Nat) (c i : Nat) : (c, i) ∈ nonzeroTerms p ↔ c ≠ 0 ∧ p[i]? = some c := by
  unfold nonzeroTerms
  rw [List.mem_filter, List.mem_zipIdx_iff_getElem?]
  simp [and_comm]

/-- C104: two polynomials print the same only if all their coefficients are the same. -/
theorem C104_polynomial (p q : List Nat) (h : polyStr p = polyStr q) (i : Nat) : p.getD i 0 = q.getD i 0 := by
  have hT := polyStr_terms p q h
  have key : ∀ p q : List Nat, nonzeroTerms p = nonzeroTerms q → p.getD i 0 ≠ 0 → q.getD i 0 = p.getD i 0 := by
    intro p q hT hne
    have hi : p[i]? = some (p.getD i 0) := by
      rw [List.getD_eq_getElem?_getD] at hne ⊢
      cases hpi : p[i]? with
      | none => rw [hpi] at hne; exact absurd rfl hne
      | some c => rfl
    have := (mem_nonzeroTerms p _ i).2 ⟨hne, hi⟩
    rw [hT, mem_nonzeroTerms] at this
    rw [List.getD_eq_getElem?_getD, this.2, Option.getD_some]
  by_cases hp : p.getD i 0 = 0
  · by_cases hq : q.getD i 0 = 0
    · rw [hp, hq]
    · exact key q p hT.symm hq
  · exact (key p q hT hp).symm

/-- C104: and then they do (a longer list of coefficients with zeros at the end prints the same). -/
theorem C104_polynomial_same (p q : List Nat) (h : ∀ i, p.getD i 0 = q.getD i 0) : polyStr p = polyStr q := by
  rw [polyStr_eq, polyStr_eq]
  have hzero : ∀ (q : List Nat) (k : Nat), (∀ i, q.getD i 0 = 0) → (q.zipIdx k).filter (fun t => t.1 ≠ 0) = [] := by
    intro q
    induction q with
    | nil => intro k _; rfl
    | cons x q ih =>
      intro k h
      have h0 : x = 0 := h 0
      rw [List.zipIdx_cons, List.filter_cons, if_neg (by simp [h0])]
      exact ih _ (fun i => h (i + 1))
  have key : ∀ (p q : List Nat) (k : Nat), (∀ i, p.getD i 0 = q.getD i 0) →
      (p.zipIdx k).filter (fun t => t.1 ≠ 0) = (q.zipIdx k).filter (fun t => t.1 ≠ 0) := by
    intro p
    induction p with
    | nil => intro q k h; exact (hzero q k (fun i => (h i).symm)).symm
    | cons x p ih =>
      intro q k h
      cases q with
      | nil => exact hzero (x :: p) k h
      | cons y q =>
        have h0 : x = y := h 0
        rw [List.zipIdx_cons, List.zipIdx_cons, List.filter_cons, List.filter_cons, h0,
          ih q (k + 1) (fun i => h (i + 1))]
  have : nonzeroTerms p = nonzeroTerms q := key p q 0 h
  rw [this]

/-- C104: two ciphertexts print the same only if they have the same number of polynomials and these are the same. -/
theorem C104_ciphertext (a b : List (List Nat)) (ha : a ≠ []) (hb : b ≠ [])
    (h : ciphertextStr a = ciphertextStr b) :
    a.length = b.length ∧ ∀ r i, (a.getD r []).getD i 0 = (b.getD r []).getD i 0 := by
  unfold ciphertextStr at h
  have h1 := List.append_cancel_right h
  have h2 := List.append_cancel_left h1
  have hmem : ∀ L : List (List Nat), ∀ x ∈ L.map polyStr, '\n' ∉ x := by
    intro L x hx hc
    obtain ⟨t, -, rfl⟩ := List.mem_map.1 hx
    have := polyStr_mem t _ hc
    revert this; decide
  have h3 := join_inj '\n' [] [' '] (by decide) _ _ (by simpa using ha) (by simpa using hb) (hmem a) (hmem b) h2
  have hlen : a.length = b.length := by simpa using congrArg List.length h3
  refine ⟨hlen, fun r i => ?_⟩
  apply C104_polynomial
  by_cases hr : r < a.length
  · have h4 := congrArg (fun l : List (List Char) => l[r]?) h3
    simp only [List.getElem?_map, List.getElem?_eq_getElem hr, List.getElem?_eq_getElem (hlen ▸ hr), Option.map_some] at h4
    rw [List.getD_eq_getElem _ _ hr, List.getD_eq_getElem _ _ (hlen ▸ hr)]
    exact Option.some.inj h4
  · rw [List.getD_eq_default _ _ (by omega), List.getD_eq_default _ _ (by omega)]

/-! ## RGSW ciphertexts -/

/-- C104: two RGSW ciphertexts with the same number of columns print the same only if they have the same number of rows and
their polynomials are the same. -/
theorem C104_rgsw (columns : Nat) (hcol : 0 < columns) (a b : List (List (List Nat))) (ha : a ≠ []) (hb : b ≠ [])
    (hca : ∀ row ∈ a, row.length = columns) (hcb : ∀ row ∈ b, row.length = columns)
    (h : rgswStr columns a = rgswStr columns b) :
    a.length = b.length ∧ ∀ r j i, ((a.getD r []).getD j []).getD i 0 = ((b.getD r []).getD j []).getD i 0 := by
  unfold rgswStr at h
  simp only at h
  have h1 := List.append_cancel_right h
  have h2 := List.append_cancel_left h1
  clear h h1
  -- the width of the columns does not matter
  generalize (List.range columns).map (fun j =>
    ((a.map fun row => row.map fun e => polyStr e ++ [',']).map fun row => (row.getD j []).length).foldl max 0) = la at h2
  generalize (List.range columns).map (fun j =>
    ((b.map fun row => row.map fun e => polyStr e ++ [',']).map fun row => (row.getD j []).length).foldl max 0) = lb at h2
  have hcell : ∀ (row : List (List Nat)) (l : List Nat), row.length = columns → ∀ j, j < columns →
      ljust ((row.map fun e => polyStr e ++ [',']).getD j []) (l.getD j 0) =
        polyStr (row.getD j []) ++ ',' :: List.replicate (l.getD j 0 - ((polyStr (row.getD j [])).length + 1)) ' ' := by
    intro row l hrow j hj
    rw [List.getD_eq_getElem _ _ (by simpa [hrow] using hj), List.getElem_map, List.getD_eq_getElem row _ (by omega)]
    simp [ljust]
  have hmemc : ∀ (row : List (List Nat)) (l : List Nat), row.length = columns → ∀ j, j < columns → ∀ c,
      c ∈ ljust ((row.map fun e => polyStr e ++ [',']).getD j []) (l.getD j 0) → c ≠ '\t' ∧ c ≠ '\n' := by
    intro row l hrow j hj c hc
    rw [hcell row l hrow j hj] at hc
    rcases List.mem_append.1 hc with hc | hc
    · have := polyStr_mem _ c hc
      constructor <;> (rintro rfl; revert this; decide)
    · rcases List.mem_cons.1 hc with rfl | hc
      · decide
      · rw [List.eq_of_mem_replicate hc]; decide
  have hrows : ∀ (M : List (List (List Nat))) (l : List Nat), (∀ row ∈ M, row.length = columns) →
      ∀ x ∈ (M.map fun row => row.map fun e => polyStr e ++ [',']).map (fun row => join ['\t']
        ((List.range columns).map fun j => ljust (row.getD j []) (l.getD j 0))), '\n' ∉ x := by
    intro M l hM x hx hc
    rw [List.map_map] at hx
    obtain ⟨row, hrow, rfl⟩ := List.mem_map.1 hx
    rcases mem_join _ _ _ hc with hc | ⟨y, hy, hc⟩
    · revert hc; decide
    · obtain ⟨j, hj, rfl⟩ := List.mem_map.1 hy
      exact (hmemc row l (hM row hrow) j (List.mem_range.1 hj) _ hc).2 rfl
  have h3 := join_inj '\n' [] [' ', ' '] (by decide) _ _ (by simpa using ha) (by simpa using hb) (hrows a la hca)
    (hrows b lb hcb) h2
  have hlen : a.length = b.length := by simpa using congrArg List.length h3
  refine ⟨hlen, fun r j i => ?_⟩
  by_cases hr : r < a.length
  · have h4 := congrArg (fun l : List (List Char) => l[r]?) h3
    simp only [List.getElem?_map, List.getElem?_eq_getElem hr, List.getElem?_eq_getElem (hlen ▸ hr), Option.map_some] at h4
    have hra := hca _ (List.getElem_mem hr)
    have hrb := hcb _ (List.getElem_mem (hlen ▸ hr))
    rw [List.getD_eq_getElem a _ hr, List.getD_eq_getElem b _ (hlen ▸ hr)]
    by_cases hj : j < columns
    · have hmem : ∀ (row : List (List Nat)) (l : List Nat), row.length = columns → ∀ x ∈ (List.range columns).map (fun j =>
          ljust ((row.map fun e => polyStr e ++ [',']).getD j []) (l.getD j 0)), '\t' ∉ x := by
        intro row l hrow x hx hc
        obtain ⟨j, hj, rfl⟩ := List.mem_map.1 hx
        exact (hmemc row l hrow j (List.mem_range.1 hj) _ hc).1 rfl
      have h5 := join_inj '\t' [] [] (by decide) _ _ (by simp; omega) (by simp; omega) (hmem _ la hra) (hmem _ lb hrb)
        (Option.some.inj h4)
      have h6 := congrArg (fun l : List (List Char) => l[j]?) h5
      simp only [List.getElem?_map, List.getElem?_range hj, Option.map_some] at h6
      have h7 := Option.some.inj h6
      rw [hcell _ la hra j hj, hcell _ lb hrb j hj] at h7
      have hcomma : ∀ p, ',' ∉ polyStr p := by
        intro p hc
        have := polyStr_mem p _ hc
        revert this; decide
      exact C104_polynomial _ _ (append_cons_inj ',' _ _ _ _ (hcomma _) (hcomma _) h7).1 i
    · rw [List.getD_eq_default a[r] _ (by omega), List.getD_eq_default (b[r]'(hlen ▸ hr)) _ (by omega)]
  · rw [List.getD_eq_default _ _ (by omega : a.length ≤ r), List.getD_eq_default _ _ (by omega : b.length ≤ r)]

/-! ## Look-up tables -/

/-- A Boolean as printed. -/
def bitChar (b : Bool) : Char := if b then '1' else '0'

theorem values_eq (l : LookUpTable) :
    l.values = (List.range (2 ^ l.numInputs)).map fun i => if l.truthTable.testBit i then 1 else 0 := by
  unfold LookUpTable.values
  apply List.map_congr_left
  intro i _
  apply Nat.eq_of_testBit_eq
  intro j
  rw [Nat.testBit_shiftRight, Nat.testBit_and, Nat.one_shiftLeft, Nat.testBit_two_pow]
  cases j with
  | zero => by_cases h : l.truthTable.testBit i <;> simp [h]
  | succ j => by_cases h : l.truthTable.testBit i <;> simp [h, Nat.testBit_succ]

theorem rjust_digits (n i : Nat) (hn : 1 ≤ n) (hi : i < 2 ^ n) :
    rjust (digits 2 i) n '0' = (msbBits n i).map bitChar := by
  induction n, hn using Nat.le_induction generalizing i with
  | base =>
    have : i = 0 ∨ i = 1 := by omega
    rcases this with rfl | rfl <;> decide +kernel
  | succ n hn ih =>
    have hlast : ∀ i, msbBits (n + 1) i = msbBits n (i / 2) ++ [i.testBit 0] := by
      intro i
      unfold msbBits
      rw [List.range_succ, List.map_append]
      congr 1
      · apply List.map_congr_left
        intro j hj
        have := List.mem_range.1 hj
        rw [show n + 1 - 1 - j = (n - 1 - j) + 1 by omega, Nat.testBit_succ]
      · simp
    have hstep : rjust (digits 2 i) (n + 1) '0' = rjust (digits 2 (i / 2)) n '0' ++ [Nat.digitChar (i % 2)] := by
      rw [digits]
      split
      · next h =>
        have h2 : i < 2 := by omega
        rw [show i / 2 = 0 by omega, show i % 2 = i by omega, show digits 2 0 = ['0'] by rw [digits]; rfl]
        unfold rjust
        simp only [List.length_singleton, Nat.add_sub_cancel]
        congr 1
        rw [show (['0'] : List Char) = List.replicate 1 '0' from rfl, List.replicate_append_replicate]
        congr 1; omega
      · unfold rjust
        simp only [List.length_append, List.length_singleton, Nat.add_sub_add_right, List.append_assoc]
    have hbit : Nat.digitChar (i % 2) = bitChar (i.testBit 0) := by
      rw [Nat.testBit_zero]
      rcases Nat.mod_two_eq_zero_or_one i with h | h <;> rw [h] <;> rfl
    rw [hstep, ih (i / 2) (by rw [pow_succ] at hi; omega), hlast, List.map_append, hbit]
    rfl

theorem zipIdx_map_range {α : Type} (f : Nat → α) (n : Nat) :
    ((List.range n).map f).zipIdx = (List.range n).map fun i => (f i, i) := by
  apply List.ext_getElem?
  intro i
  rw [List.getElem?_zipIdx, List.getElem?_map, List.getElem?_map]
  by_cases h : i < n
  · rw [List.getElem?_range h]; simp
  · rw [List.getElem?_eq_none (by simpa using h)]; rfl

/-- C104: the printed table of a Boolean function has one line for each assignment, in counting order, with the
arguments in the order of the call, and the value. -/
theorem C104_table (n : Nat) (hn : 1 ≤ n) (f : List Bool → Bool) :
    lutStr (fromCallable n f) = join ['\n'] ((List.range (2 ^ n)).map fun x =>
      (msbBits n x).map bitChar ++ " -> ".toList ++ [bitChar (f (msbBits n x))]) := by
  unfold lutStr
  rw [values_eq, zipIdx_map_range, List.map_map]
  congr 1
  apply List.map_congr_left
  intro x hx
  have hx' : x < 2 ^ n := List.mem_range.1 hx
  have hn' : (fromCallable n f).numInputs = n := rfl
  simp only [Function.comp_apply, hn', rjust_digits n x hn hx', fromCallable_testBit n f x hx', msbBits]
  congr 1
  cases f ((List.range n).map fun i => x.testBit (n - 1 - i)) <;> simp [digits, bitChar] <;> rfl

/-- C104: tables print the same only if they have the same number of inputs and the same values. -/
theorem C104_table_injective (l m : LookUpTable) (h : lutStr l = lutStr m) :
    l.numInputs = m.numInputs ∧ l.values = m.values := by
  unfold lutStr at h
  rw [values_eq, values_eq, zipIdx_map_range, zipIdx_map_range, List.map_map, List.map_map] at h
  have hmem : ∀ (l : LookUpTable), ∀ x ∈ (List.range (2 ^ l.numInputs)).map ((fun (bit, input) =>
      rjust (digits 2 input) l.numInputs '0' ++ [' ', '-', '>', ' '] ++ digits 10 bit) ∘
        fun i => ((if l.truthTable.testBit i then 1 else 0), i)), '\n' ∉ x := by
    intro l x hx hc
    obtain ⟨i, -, rfl⟩ := List.mem_map.1 hx
    simp only [Function.comp_apply, rjust, List.mem_append] at hc
    rcases hc with ((hc | hc) | hc) | hc
    · have := List.eq_of_mem_replicate hc
      revert this; decide
    · have := digits_mem 2 (by omega) (by omega) _ _ hc
      revert this; decide
    · revert hc; decide
    · have := digits_mem 10 (by omega) (by omega) _ _ hc
      revert this; decide
  have hne : ∀ n : Nat, 2 ^ n ≠ 0 := fun n => by positivity
  have h1 := join_inj '\n' [] [] (by decide) _ _ (by simp) (by simp) (hmem l) (hmem m) h
  have hlen : 2 ^ l.numInputs = 2 ^ m.numInputs := by simpa using congrArg List.length h1
  have hn := Nat.pow_right_injective (by omega : 2 ≤ 2) hlen
  refine ⟨hn, ?_⟩
  rw [values_eq, values_eq, hn]
  apply List.map_congr_left
  intro i hi
  have hi' := List.mem_range.1 hi
  have h2 := congrArg (fun l : List (List Char) => l[i]?) h1
  simp only [List.getElem?_map, List.getElem?_range hi', List.getElem?_range (by rw [hlen]; exact hi' : i < 2 ^ l.numInputs),
    Option.map_some, Function.comp_apply, hn] at h2
  exact digits_inj _ _ (List.append_cancel_left (Option.some.inj h2))

/-- C104: `repr` shows both attributes. -/
theorem C104_repr (l m : LookUpTable) (h : lutRepr l = lutRepr m) : l = m := by
  unfold lutRepr at h
  rw [show ", ".toList = ',' :: [' '] from rfl] at h
  simp only [List.append_assoc, List.cons_append, List.nil_append] at h
  have h1 := List.append_cancel_left (List.append_cancel_left h)
  obtain ⟨h2, h3⟩ := append_cons_inj ',' _ _ _ _ (digits_not_mem _ _ (by decide)) (digits_not_mem _ _ (by decide)) h1
  have h4 := List.append_cancel_left (List.cons.inj h3).2
  obtain ⟨h5, -⟩ := append_cons_inj ',' _ _ _ _ (digits_not_mem _ _ (by decide)) (digits_not_mem _ _ (by decide)) h4
  cases l; cases m
  simp only [LookUpTable.mk.injEq]
  exact ⟨digits_inj _ _ h2, digits_inj _ _ h5⟩

/-! ## Instances -/

example : polyStr [3, 0, 12] = "3 x^0 + 12 x^2".toList ∧ polyStr [0, 0] = ['0'] := by decide +kernel

example : ciphertextStr [[1, 2], [0, 0]] = "[\n 1 x^0 + 2 x^1\n 0\n]".toList := by decide +kernel

example : rgswStr 2 [[[1], [0, 2]], [[0], [7]]] = "\n[\n  1 x^0,\t2 x^1,\n  0,    \t7 x^0,\n]\n".toList := by decide +kernel

example : lutStr ⟨2, 8⟩ = "00 -> 0\n01 -> 0\n10 -> 0\n11 -> 1".toList ∧
    lutRepr ⟨2, 8⟩ = "LookUpTable(num_inputs=2, truth_table=8, )".toList := by decide +kernel

example := C104_table 3 (by omega) (fun l => l.all id)

example : polyStr [5, 0] = polyStr [5] := C104_polynomial_same _ _ (fun i => by
  match i with
  | 0 => rfl
  | 1 => rfl
  | i + 2 => rfl)

example : ciphertextStr [[5, 0], [1]] = ciphertextStr [[5], [1, 0]] := by decide +kernel

example : rgswStr 1 [[[5, 0]], [[1]]] = rgswStr 1 [[[5]], [[1, 0]]] := by decide +kernel

example : lutStr ⟨1, 2⟩ = lutStr ⟨1, 6⟩ ∧ lutRepr ⟨1, 2⟩ ≠ lutRepr ⟨1, 6⟩ := by decide +kernel

end Verif.Props

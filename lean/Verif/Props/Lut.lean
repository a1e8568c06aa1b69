import Verif.Lemmas.Lut

/-!
# Properties C03 and C04: look-up tables and their cache
-/

namespace Verif.Props
open Verif.Lut

/-- Specification: the `n` binary digits of `x`, most significant first. -/
def msbBits (n x : Nat) : List Bool := (List.range n).map fun i => x.testBit (n - 1 - i)

example : msbBits 3 6 = [true, true, false] := by decide

/-- C03: the table of `f` has `2^n` entries and position `x` holds `f` of the bits of `x`. -/
theorem C03_from_callable (n : Nat) (f : List Bool → Bool) :
    (fromCallable n f).asCleartextList.length = 2 ^ n ∧
    ∀ x, x < 2 ^ n → (fromCallable n f).asCleartextList[x]? =
      some (if f (msbBits n x) then 1 else 0) := by
  rw [asCleartextList_eq]
  have hn : (fromCallable n f).numInputs = n := rfl
  refine ⟨by simp [hn], fun x hx => ?_⟩
  rw [List.getElem?_map, hn, List.getElem?_range hx]
  simp only [Option.map_some, fromCallable_testBit n f x hx, msbBits]
  rfl

example : (5 : Nat) < 2 ^ 3 := by decide

/-- C03: distinct Boolean functions get distinct tables, equal ones equal tables. -/
theorem C03_from_callable_injective (n : Nat) (f g : List Bool → Bool) :
    fromCallable n f = fromCallable n g ↔ ∀ x, x < 2 ^ n → f (msbBits n x) = g (msbBits n x) := by
  constructor
  · intro h x hx
    have hf := fromCallable_testBit n f x hx
    have hg := fromCallable_testBit n g x hx
    rw [h] at hf
    exact hf.symm.trans hg
  · intro h
    have : (fromCallable n f).truthTable = (fromCallable n g).truthTable := by
      apply Nat.eq_of_testBit_eq
      intro j
      by_cases hj : j < 2 ^ n
      · rw [fromCallable_testBit n f j hj, fromCallable_testBit n g j hj]
        exact h j hj
      · have big : ∀ f, (fromCallable n f).truthTable.testBit j = false := fun f =>
          Nat.testBit_lt_two_pow (lt_of_lt_of_le (fromCallable_lt n f)
            (Nat.pow_le_pow_right (by decide) (by omega)))
        rw [big, big]
    have hn : ∀ f, (fromCallable n f).numInputs = n := fun _ => rfl
    cases hf : fromCallable n f with
    | mk a b => cases hg : fromCallable n g with
      | mk c d =>
        have h1 := hn f; have h2 := hn g
        rw [hf] at h1; rw [hg] at h2
        rw [hf, hg] at this
        simp_all

example := C03_from_callable_injective 2 (fun l => l.all id) (fun l => l.any id)

/-- C03: a table built from an integer lists the integer's bits, least significant first. -/
theorem C03_truth_table_bits (n t : Nat) :
    (LookUpTable.mk n t).asCleartextList =
      (List.range (2 ^ n)).map fun i => t / 2 ^ i % 2 := by
  rw [asCleartextList_eq]
  apply List.map_congr_left
  intro i _
  rw [Nat.testBit_eq_decide_div_mod_eq]
  have := Nat.mod_two_eq_zero_or_one (t / 2 ^ i)
  rcases this with h | h <;> simp [h]

/-- Specification: the Boolean function each documented two-input gate name stands for. The first
argument is the left operand. -/
def gateFunction : List (String × (Bool → Bool → Bool)) :=
  [("and", fun x y => x && y), ("or", fun x y => x || y), ("xor", fun x y => xor x y),
   ("nand", fun x y => !(x && y)), ("nor", fun x y => !(x || y)), ("xnor", fun x y => !(xor x y)),
   ("andny", fun x y => !x && y), ("andyn", fun x y => x && !y),
   ("orny", fun x y => !x || y), ("oryn", fun x y => x || !y)]

/-- C03: each named two-input table holds at `2*lhs + rhs` the gate's value. -/
theorem C03_named_gates (name : String) (f : Bool → Bool → Bool) (h : (name, f) ∈ gateFunction) :
    ∃ l, funcNameToLut2 name = some l ∧ l.numInputs = 2 ∧
      ∀ x y : Bool, l.asCleartextList[2 * x.toNat + y.toNat]? = some (f x y).toNat := by
  simp only [gateFunction, List.mem_cons, Prod.mk.injEq, List.not_mem_nil, or_false] at h
  rcases h with ⟨rfl, rfl⟩ | ⟨rfl, rfl⟩ | ⟨rfl, rfl⟩ | ⟨rfl, rfl⟩ | ⟨rfl, rfl⟩ | ⟨rfl, rfl⟩ |
    ⟨rfl, rfl⟩ | ⟨rfl, rfl⟩ | ⟨rfl, rfl⟩ | ⟨rfl, rfl⟩ <;>
  exact ⟨_, rfl, rfl, by decide⟩

example : ("nand", fun x y => !(x && y)) ∈ gateFunction := by simp [gateFunction]

/-- C03: the three-input `cmux` table is if-then-else at `4*v1 + 2*v0 + ctrl`. -/
theorem C03_cmux_table : ∃ l, funcNameToLut2 "cmux" = some l ∧ l.numInputs = 3 ∧
    ∀ v1 v0 c : Bool, l.asCleartextList[4 * v1.toNat + 2 * v0.toNat + c.toNat]? =
      some (if c then v1 else v0).toNat := ⟨_, rfl, rfl, by decide⟩

/-- C03: the only names accepted are the ten gates and `cmux`. -/
theorem C03_unknown_name (name : String) :
    funcNameToLut2 name = none ↔ name ≠ "cmux" ∧ ∀ f, (name, f) ∉ gateFunction := by
  constructor
  · intro h
    constructor
    · rintro rfl; exact absurd h (by decide)
    · intro f hf
      obtain ⟨l, hl, _⟩ := C03_named_gates name f hf
      rw [hl] at h; cases h
  · rintro ⟨h1, h2⟩
    have hn : ∀ s f, (s, f) ∈ gateFunction → name ≠ s := by
      rintro s f hs rfl; exact h2 f hs
    unfold funcNameToLut2
    split
    case h_12 => rfl
    case h_11 => exact absurd rfl h1
    all_goals
      exfalso
      first
        | exact hn "and" _ (by simp [gateFunction]; try rfl) rfl
        | exact hn "andny" _ (by simp [gateFunction]; try rfl) rfl
        | exact hn "andyn" _ (by simp [gateFunction]; try rfl) rfl
        | exact hn "nand" _ (by simp [gateFunction]; try rfl) rfl
        | exact hn "nor" _ (by simp [gateFunction]; try rfl) rfl
        | exact hn "or" _ (by simp [gateFunction]; try rfl) rfl
        | exact hn "orny" _ (by simp [gateFunction]; try rfl) rfl
        | exact hn "oryn" _ (by simp [gateFunction]; try rfl) rfl
        | exact hn "xnor" _ (by simp [gateFunction]; try rfl) rfl
        | exact hn "xor" _ (by simp [gateFunction]; try rfl) rfl

/-- C03: the coefficient list handed to the test-polynomial generator has `2^3` entries: the table,
then the marker `2` in the unused slots; tables with more than three inputs are rejected. -/
theorem C03_padded (l : LookUpTable) :
    (3 < l.numInputs ↔ ∃ m, l.paddedCoefficients = .error m) ∧
    (l.numInputs ≤ 3 → ∃ c, l.paddedCoefficients = .ok c ∧ c.length = 8 ∧
      ∀ i, i < 8 → c[i]? = some (if i < 2 ^ l.numInputs then l.truthTable / 2 ^ i % 2 else 2)) := by
  have hlen : l.asCleartextList.length = 2 ^ l.numInputs := by rw [asCleartextList_eq]; simp
  have hle : ∀ k, k ≤ 3 → 2 ^ k ≤ 8 := fun k hk => by
    calc 2 ^ k ≤ 2 ^ 3 := Nat.pow_le_pow_right (by decide) hk
      _ = 8 := by decide
  have hgt : ∀ k, 3 < k → 16 ≤ 2 ^ k := fun k hk => by
    calc 16 = 2 ^ 4 := by decide
      _ ≤ 2 ^ k := Nat.pow_le_pow_right (by decide) hk
  have okcase : l.numInputs ≤ 3 → l.paddedCoefficients =
      .ok (l.asCleartextList ++ List.replicate (8 - 2 ^ l.numInputs) 2) := by
    intro h
    have := hle _ h
    have h8 : (2 ^ messageBits : Int) = 8 := by decide
    unfold LookUpTable.paddedCoefficients
    simp only [h8, hlen]
    have c : ¬ ((8 : Int) - ((2 ^ l.numInputs : Nat) : Int) < 0) := by omega
    rw [if_neg c]
    have e : ((8 : Int) - ((2 ^ l.numInputs : Nat) : Int)).toNat = 8 - 2 ^ l.numInputs := by omega
    rw [e]; rfl
  refine ⟨⟨fun h => ?_, fun ⟨m, hm⟩ => ?_⟩, fun h => ⟨_, okcase h, ?_, ?_⟩⟩
  · have := hgt _ h
    have h8 : (2 ^ messageBits : Int) = 8 := by decide
    refine ⟨"ValueError", ?_⟩
    unfold LookUpTable.paddedCoefficients
    simp only [h8, hlen]
    rw [if_pos (by omega)]
  · by_contra hc
    rw [okcase (by omega)] at hm; cases hm
  · have := hle _ h
    simp [hlen]; omega
  · intro i hi
    by_cases hx : i < 2 ^ l.numInputs
    · rw [List.getElem?_append_left (by rw [hlen]; exact hx)]
      cases l with
      | mk n t =>
        rw [C03_truth_table_bits, List.getElem?_map, List.getElem?_range hx]
        simp only [Option.map_some] 
        rw [if_pos hx]
    · rw [List.getElem?_append_right (by rw [hlen]; omega), hlen, List.getElem?_replicate]
      have : i - 2 ^ l.numInputs < 8 - 2 ^ l.numInputs := by omega
      simp [hx, this]

example : (LookUpTable.mk 2 6).paddedCoefficients = .ok [0, 1, 1, 0, 2, 2, 2, 2] := by decide

/-- Specification of one cache query, without any cache: the table of exactly the requested arity and
truth table, or its polynomial. `lut_by_name` is documented for two-input gates and asks for two
inputs. -/
def expectedAnswer {π poly : Type} (gen : LookUpTable → π → Except String poly) (paramsOf : Nat → π) :
    Query → Answer poly
  | .lut _ n t => .table (.ok ⟨n, t⟩)
  | .lutByName _ s => .table (match funcNameToLut2 s with
      | some l => .ok ⟨2, l.truthTable⟩
      | none => .error "ValueError")
  | .lutPoly i n t => .poly (gen ⟨n, t⟩ (paramsOf i))
  | .lutPolyByName i s => .poly (match funcNameToLut2 s with
      | some l => gen ⟨2, l.truthTable⟩ (paramsOf i)
      | none => .error "ValueError")

theorem runQuery_spec {π poly : Type} [DecidableEq π] (gen : LookUpTable → π → Except String poly)
    (paramsOf : Nat → π) (q : Query) (st : CacheState π poly) (heap : Nat → Option LookUpTable)
    (inv : Inv gen st heap) :
    (runQuery gen paramsOf q st).1 = expectedAnswer gen paramsOf q ∧
      ∃ heap', Inv gen (runQuery gen paramsOf q st).2 heap' := by
  have poly_case : ∀ i n t, (match lutCall i n t st with
      | (.ok o, st') => polyCall gen o (paramsOf i) st'
      | (.error m, st') => (.error m, st')).1 = gen ⟨n, t⟩ (paramsOf i) ∧
      ∃ heap', Inv gen (match lutCall i n t st with
      | (.ok o, st') => polyCall gen o (paramsOf i) st'
      | (.error m, st') => (.error m, st')).2 heap' := by
    intro i n t
    obtain ⟨o, h', e, hl, ho, hi⟩ := lutCall_spec gen st heap inv i n t
    cases hc : lutCall i n t st with
    | mk r st' =>
      rw [hc] at e hi
      simp only at e hi
      subst e
      obtain ⟨hp, hi'⟩ := polyCall_spec gen st' h' hi o ho (paramsOf i)
      rw [hl] at hp
      exact ⟨hp, h', hi'⟩
  cases q with
  | lut i n t =>
    obtain ⟨o, h', e, hl, ho, hi⟩ := lutCall_spec gen st heap inv i n t
    refine ⟨?_, h', hi⟩
    simp only [runQuery, expectedAnswer, e, Except.map, hl]
  | lutByName i s =>
    simp only [runQuery, expectedAnswer, lutByName]
    cases hs : funcNameToLut2 s with
    | none => exact ⟨rfl, heap, inv⟩
    | some l =>
      obtain ⟨o, h', e, hl, ho, hi⟩ := lutCall_spec gen st heap inv i 2 l.truthTable
      refine ⟨?_, h', hi⟩
      simp only [e, Except.map, hl]
  | lutPoly i n t =>
    obtain ⟨a, b⟩ := poly_case i n t
    exact ⟨congrArg Answer.poly a, b⟩
  | lutPolyByName i s =>
    simp only [runQuery, expectedAnswer, lutPolyByName, lutByName]
    cases hs : funcNameToLut2 s with
    | none => exact ⟨rfl, heap, inv⟩
    | some l =>
      obtain ⟨a, b⟩ := poly_case i 2 l.truthTable
      exact ⟨congrArg Answer.poly a, b⟩

/-- C04: in every history of queries, on any number of cache instances sharing the process-wide
caches and with any evictions, every answer is the one computed without a cache. -/
theorem C04_cache_transparent {π poly : Type} [DecidableEq π]
    (gen : LookUpTable → π → Except String poly) (paramsOf : Nat → π) (qs : List Query) :
    runHistory gen paramsOf qs initState = qs.map (expectedAnswer gen paramsOf) := by
  have key : ∀ (qs : List Query) (st : CacheState π poly) (heap : Nat → Option LookUpTable),
      Inv gen st heap → runHistory gen paramsOf qs st = qs.map (expectedAnswer gen paramsOf) := by
    intro qs
    induction qs with
    | nil => intros; rfl
    | cons q qs ih =>
      intro st heap inv
      obtain ⟨h1, h', h2⟩ := runQuery_spec gen paramsOf q st heap inv
      simp only [runHistory, List.map_cons, h1, ih _ _ h2]
  refine key qs initState (fun _ => none) ⟨by simp, ?_, ?_⟩ <;> simp [initState]

/-- C03/C04: asking for `cmux` by name yields a table that is not the cmux table: it has only four
entries (the cache always asks for two inputs), so a polynomial obtained by that name is wrong. -/
theorem C03_cmux_by_name_truncated {π poly : Type} [DecidableEq π]
    (st : CacheState π poly) (h : st.lutLru = []) :
    ∃ o st', lutByName 0 "cmux" st = (.ok o, st') ∧ o.lut ≠ ⟨3, 0xE4⟩ ∧
      o.lut.asCleartextList ≠ (fromCallable 3 (fn3 fun v1 v0 c => if c then v1 else v0)).asCleartextList := by
  have hs : funcNameToLut2 "cmux" = some ⟨3, 0xE4⟩ := by decide
  simp only [lutByName, hs, lutCall, lruCall, h, List.find?_nil, lutBody, and_self, if_true]
  refine ⟨_, _, rfl, by simp, ?_⟩
  intro hc
  have := congrArg List.length hc
  rw [asCleartextList_eq, asCleartextList_eq] at this
  simp [fromCallable] at this

end Verif.Props

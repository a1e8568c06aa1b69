import Verif.Lemmas.TypeConverters

/-!
# Properties C01 and C02: conversions between integers, bytes, text and bits
-/

namespace Verif.Props
open Verif.TypeConverters

/-- Specification: the number written by a little-endian list of bits. -/
def bitsValue (bits : List Bool) : Nat :=
  ∑ i ∈ Finset.range bits.length, if bits.getD i false then 2 ^ i else 0

/-- C01: reading a slice of the declared width returns its little-endian value, which fits. -/
theorem C01_read_value (bits : List Bool) (n : Nat) (h : bits.length = n) :
    bitSliceToUint bits n = .ok (bitsValue bits) ∧ bitsValue bits < 2 ^ n := by
  have e := read_ok h
  rw [readFold_sum] at e
  have hlt := readFold_lt bits n
  rw [readFold_sum] at hlt
  subst h
  exact ⟨e, hlt⟩

example : bitSliceToUint [true, false, true, true] 4 = .ok 13 := by decide

/-- C01: reading is an error exactly when the length differs from the declared width. -/
theorem C01_read_error_iff (bits : List Bool) (n : Nat) :
    (∃ msg, bitSliceToUint bits n = .error msg) ↔ bits.length ≠ n := by
  constructor
  · rintro ⟨m, hm⟩ hl
    rw [read_ok hl] at hm
    cases hm
  · intro h
    exact ⟨"ValueError", by simp [bitSliceToUint, h]⟩

example : [true].length ≠ 2 := by decide

/-- C01: writing an integer and reading it back is the identity on `[0, 2^n)`. -/
theorem C01_write_read (v n : Nat) (h : v < 2 ^ n) :
    bitSliceToUint (uintToBitSlice v n) n = .ok v := write_read v n h

example : (200 : Nat) < 2 ^ 8 ∧ uintToBitSlice 200 8 =
    [false, false, false, true, false, false, true, true] := by decide

/-- C01: the written slice has the declared width and holds the binary digits. -/
theorem C01_write_digits (v n : Nat) :
    (uintToBitSlice v n).length = n ∧
      ∀ i, i < n → (uintToBitSlice v n)[i]? = some (decide (v / 2 ^ i % 2 = 1)) := by
  rw [uintToBitSlice_eq]
  refine ⟨by simp, fun i hi => ?_⟩
  rw [List.getElem?_map, List.getElem?_range hi]
  simp [Nat.testBit_eq_decide_div_mod_eq]

/-- C01: reading and writing again is the identity on bit slices. -/
theorem C01_read_write (bits : List Bool) (n v : Nat) (h : bitSliceToUint bits n = .ok v) :
    uintToBitSlice v n = bits := read_write h

example : bitSliceToUint [false, true, true] 3 = .ok 6 := by decide

/-- C01: what happens to any other integer: `uint_to_bit_slice` raises nothing, and reading returns the integer modulo `2^n`; so
reading returns the integer exactly when it is in the documented range. -/
theorem C01_write_wraps (v : Int) (n : Nat) :
    ∃ u : Nat, bitSliceToUint (uintToBitSlice v n) n = .ok u ∧ (u : Int) = v % 2 ^ n ∧ ((u : Int) = v ↔ 0 ≤ v ∧ v < 2 ^ n) := by
  have hpos : (0 : Int) < 2 ^ n := by positivity
  have h0 := Int.emod_nonneg v hpos.ne'
  have h1 := Int.emod_lt_of_pos v hpos
  obtain ⟨u, hu⟩ := Int.eq_ofNat_of_zero_le h0
  refine ⟨u, ?_, hu.symm, ?_⟩
  · rw [uintToBitSlice_emod, hu]
    exact write_read u n (by rw [hu] at h1; exact_mod_cast h1)
  · rw [← hu]
    refine ⟨fun e => by rw [e] at h0 h1; exact ⟨h0, h1⟩, fun e => Int.emod_eq_of_lt e.1 e.2⟩

/-- A negative number and one that is too long. -/
example : bitSliceToUint (uintToBitSlice (-3) 4) 4 = .ok 13 ∧ bitSliceToUint (uintToBitSlice 200 4) 4 = .ok 8 := by decide

/-- C01: the 8-bit variants: writing rejects exactly the integers outside `0..255`, and otherwise
reading the written bits returns the integer. -/
theorem C01_u8 (v : Int) :
    ((∃ msg, u8ToBitSlice v = .error msg) ↔ (v < 0 ∨ 255 < v)) ∧
    (0 ≤ v → v ≤ 255 →
      (do let bits ← u8ToBitSlice v; bitSliceToU8 bits) = Except.ok v.toNat) := by
  constructor
  · constructor
    · rintro ⟨m, hm⟩
      by_contra hc
      have : ¬ (v < 0 ∨ v > 255) := hc
      simp only [u8ToBitSlice, this, if_false] at hm
      cases hm
    · intro h
      have : (v < 0 ∨ v > 255) := h
      exact ⟨"ValueError", by simp [u8ToBitSlice, this]⟩
  · intro h0 h1
    obtain ⟨v, rfl⟩ := Int.eq_ofNat_of_zero_le h0
    have : ¬ ((v : Int) < 0 ∨ (v : Int) > 255) := by omega
    simp only [u8ToBitSlice, this, if_false, bind, Except.bind]
    have hl : (uintToBitSlice v 8).length = 8 := (C01_write_digits _ _).1
    simp only [bitSliceToU8, hl, ne_eq, not_true_eq_false, if_false]
    exact write_read v 8 (by norm_num; omega)

example : (0 : Int) ≤ 77 ∧ (77 : Int) ≤ 255 := by decide

/-- C01: reading 8 bits rejects slices of any other length. -/
theorem C01_read_u8_error_iff (bits : List Bool) :
    (∃ msg, bitSliceToU8 bits = .error msg) ↔ bits.length ≠ 8 := by
  by_cases h : bits.length = 8
  · simp only [bitSliceToU8, h, ne_eq, not_true_eq_false, if_false, iff_false]
    rintro ⟨m, hm⟩
    rw [read_ok h] at hm; cases hm
  · simp [bitSliceToU8, h]

/-- C02 fails for bytes of 128 and above: the byte `200` comes back as `72`. The full claim would be
`∀ l, l ≠ [] → (∀ x ∈ l, x < 256) → roundTrip l = .ok l`. -/
theorem C02_bytes_counterexample :
    (do let bits ← u8ListToBitSlice [200]; bitSliceToBytes bits) = Except.ok [72] := by decide

/-- C02, the full claim is false. -/
theorem C02_bytes_negation :
    ¬ ∀ l : List Nat, l ≠ [] → (∀ x ∈ l, x < 256) →
      (do let bits ← u8ListToBitSlice (l.map Int.ofNat); bitSliceToBytes bits) = Except.ok l := by
  intro h
  have := h [200] (by simp) (by simp)
  revert this
  decide

/-- C02 (partial: bytes below 128 only; the full claim has `x < 256` and is false, see
`C02_bytes_negation`). Bytes to bits to bytes is the identity. -/
theorem C02_bytes_roundtrip_partial (l : List Nat) (hne : l ≠ []) (h : ∀ x ∈ l, x < 128) :
    (do let bits ← u8ListToBitSlice (l.map Int.ofNat); bitSliceToBytes bits) = Except.ok l := by
  rw [u8List_bytes l hne (fun x hx => lt_trans (h x hx) (by decide)), shiftTop_ascii l h]

example : [72, 105] ≠ [] ∧ ∀ x ∈ [72, 105], x < 128 := by decide

/-- C02: what the code returns on *every* byte list: the top bit of each byte is replaced by the top
bit of its predecessor (0 for the first byte). -/
theorem C02_bytes_actual (l : List Nat) (hne : l ≠ []) (h : ∀ x ∈ l, x < 256) :
    ∃ out, (do let bits ← u8ListToBitSlice (l.map Int.ofNat); bitSliceToBytes bits) = Except.ok out ∧
      out.length = l.length ∧
      ∀ i, i < l.length → out.getD i 0 =
        l.getD i 0 % 128 + (if i = 0 then 0 else l.getD (i - 1) 0 / 128 * 128) := by
  refine ⟨_, u8List_bytes l hne h, ?_, ?_⟩
  · have : ∀ (l : List Nat) t, (shiftTop t l).length = l.length := by
      intro l; induction l with
      | nil => intro t; rfl
      | cons x xs ih => intro t; simp [shiftTop, ih]
    exact this l false
  · have key : ∀ (l : List Nat) (t : Bool), (∀ x ∈ l, x < 256) → ∀ i, i < l.length →
        (shiftTop t l).getD i 0 = l.getD i 0 % 128 +
          (if i = 0 then 128 * boolToInt t else l.getD (i - 1) 0 / 128 * 128) := by
      intro l
      induction l with
      | nil => intro t _ i hi; simp at hi
      | cons x xs ih =>
        intro t hx i hi
        cases i with
        | zero => simp [shiftTop]
        | succ i =>
          have hx0 : x < 256 := hx x (by simp)
          have := ih (x.testBit 7) (fun y hy => hx y (by simp [hy])) i (by simpa using hi)
          simp only [shiftTop, List.getD_cons_succ, this]
          cases i with
          | zero =>
            have hb : ∀ x, x < 256 → 128 * boolToInt (x.testBit 7) = x / 128 * 128 := by
              decide +kernel
            simp [hb x hx0]
          | succ i => simp
    intro i hi
    rw [key l false h i hi]
    simp [boolToInt]

example : (do let bits ← u8ListToBitSlice [200, 3]; bitSliceToBytes bits) = Except.ok [72, 131] := by
  decide

/-- C02 (partial: the padding must be ASCII too; other padding bytes hit the defect above).
Text to bits to text returns the text, padded to the requested length with copies of the padding
bytes, never truncated. -/
theorem C02_text_roundtrip_partial (text pad : List Nat) (staticLen : Option Nat)
    (hne : text ≠ []) (ht : ∀ x ∈ text, x < 128) (hp : ∀ x ∈ pad, x < 128) :
    (do let bits ← strToCleartext text staticLen pad; cleartextToStr bits) =
      Except.ok (text ++ (List.replicate (staticLen.getD 0 - text.length) pad).flatten) := by
  have hall : text.all (· < 128) = true := by simpa using ht
  have padded : ∀ n : Nat, listMul pad ((n : Int) - (text.length : Int)) =
      (List.replicate (n - text.length) pad).flatten := by
    intro n; unfold listMul; congr 2; omega
  set full := text ++ (List.replicate (staticLen.getD 0 - text.length) pad).flatten with hfull
  have hfne : full ≠ [] := by simp [hfull, hne]
  have hf : ∀ x ∈ full, x < 128 := by
    intro x hx
    rw [hfull, List.mem_append] at hx
    rcases hx with hx | hx
    · exact ht x hx
    · obtain ⟨l, hl, hxl⟩ := List.mem_flatten.mp hx
      rw [List.mem_replicate] at hl
      exact hp x (hl.2 ▸ hxl)
  have e : strToCleartext text staticLen pad = u8ListToBitSlice (full.map Int.ofNat) := by
    unfold strToCleartext asciiEncode
    rw [if_pos hall]
    simp only [bind, Except.bind]
    congr 2
    cases staticLen with
    | none => simp [hfull]
    | some n =>
      cases n with
      | zero => simp [hfull]
      | succ n => simp only [hfull, Option.getD_some]; rw [← padded]
  rw [e]
  have hb := u8List_bytes full hfne (fun x hx => lt_trans (hf x hx) (by decide))
  rw [shiftTop_ascii full hf] at hb
  unfold cleartextToStr
  rw [← bind_assoc, hb]
  have : full.all (· < 128) = true := by simpa using hf
  simp [bind, Except.bind, asciiDecode, this]

example : (do let bits ← strToCleartext [104, 105] (some 4) [32]; cleartextToStr bits) =
    Except.ok [104, 105, 32, 32] := by decide

/-- C02: text with a non-ASCII code point, and the empty text without padding, are rejected. -/
theorem C02_text_rejected (text pad : List Nat) (staticLen : Option Nat) :
    ((∃ x ∈ text, 128 ≤ x) → ∃ msg, strToCleartext text staticLen pad = .error msg) ∧
    (text = [] → staticLen.getD 0 = 0 → ∃ msg, strToCleartext text staticLen pad = .error msg) := by
  constructor
  · rintro ⟨x, hx, h128⟩
    have : ¬ (text.all (· < 128) = true) := by
      simp only [List.all_eq_true, decide_eq_true_eq, not_forall]
      exact ⟨x, hx, by omega⟩
    exact ⟨"UnicodeEncodeError", by simp [strToCleartext, asciiEncode, this, bind, Except.bind]⟩
  · rintro rfl h0
    refine ⟨"ValueError", ?_⟩
    cases staticLen with
    | none => rfl
    | some n =>
      simp at h0; subst h0; rfl

example : ∃ x ∈ [104, 233], 128 ≤ x := by decide

end Verif.Props

/-!
# Model of `jaxite/jaxite_bool/type_converters.py`

Python `int` is `Nat` (or `Int` where a negative value is possible), `List[bool]` is `List Bool`,
`bytes` is a list of numbers, and a raised exception is `Except.error`.
-/

namespace Verif.TypeConverters

/-- `int(b)` for a Python bool. -/
def boolToInt (b : Bool) : Nat := if b then 1 else 0

/-- `bit_slice_to_uint`, type_converters.py L6-13: `result |= int(bit_slice[i]) << i`.
`getD` is only reached for indices in range (the length was just checked). -/
def bitSliceToUint (bitSlice : List Bool) (numBits : Nat) : Except String Nat :=
  if bitSlice.length ≠ numBits then .error "ValueError"
  else .ok ((List.range numBits).foldl
    (fun result i => result ||| (boolToInt (bitSlice.getD i false) <<< i)) 0)

/-- `uint_to_bit_slice`, type_converters.py L15-20: writes `((input_int >> i) & 1) != 0` into
slot `i` of a list of `num_bits` copies of `False`. Python integers are two's complement of unlimited width. -/
def uintToBitSlice (inputInt : Int) (numBits : Nat) : List Bool :=
  (List.range numBits).foldl
    (fun result i => result.set i ((inputInt >>> i) % 2 != 0)) (List.replicate numBits false)

/-- `bit_slice_to_u8`, type_converters.py L23-27. -/
def bitSliceToU8 (bitSlice : List Bool) : Except String Nat :=
  if bitSlice.length ≠ 8 then .error "ValueError" else bitSliceToUint bitSlice 8

/-- `u8_to_bit_slice`, type_converters.py L30-34. -/
def u8ToBitSlice (inputInt : Int) : Except String (List Bool) :=
  if inputInt < 0 ∨ inputInt > 255 then .error "ValueError"
  else .ok (uintToBitSlice inputInt 8)

/-- The loop of `u8_list_to_bit_slice`, type_converters.py L41-43. -/
def u8ListLoop : List Int → List Bool → Except String (List Bool)
  | [], result => .ok result
  | i :: rest, result => do
    let bits ← u8ToBitSlice i
    u8ListLoop rest (result ++ bits)

/-- `u8_list_to_bit_slice`, type_converters.py L37-44. -/
def u8ListToBitSlice (inputList : List Int) : Except String (List Bool) :=
  if inputList.isEmpty then .error "ValueError" else u8ListLoop inputList []

/-- The loop of `bit_slice_to_bytes`, type_converters.py L54-57: `i` is the loop index,
`buf` is `char_bit_slice`, `result` the bytes collected so far. -/
def bytesLoop : List Bool → Nat → List Bool → List Nat → Except String (List Nat)
  | [], _, _, result => .ok result
  | entry :: rest, i, buf, result => do
    let result ← if (i + 1) % 8 = 0 then do
        let c ← bitSliceToU8 buf
        pure (result ++ [c])
      else pure result
    bytesLoop rest (i + 1) (buf.set (i % 8) entry) result

/-- `bit_slice_to_bytes`, type_converters.py L47-59. -/
def bitSliceToBytes (bitSlice : List Bool) : Except String (List Nat) :=
  if bitSlice.isEmpty then .error "ValueError"
  else bytesLoop bitSlice 0 (List.replicate 8 false) []

/-- `bytes(text, 'ascii')`: rejects code points above 127 (UnicodeEncodeError). A Python `str` is its
list of code points. -/
def asciiEncode (text : List Nat) : Except String (List Nat) :=
  if text.all (· < 128) then .ok text else .error "UnicodeEncodeError"

/-- `list * k` in Python; non-positive `k` gives the empty list. -/
def listMul (l : List Nat) (k : Int) : List Nat := (List.replicate k.toNat l).flatten

/-- `str_to_cleartext`, type_converters.py L62-70. `static_len = None` and `0` are both falsy. -/
def strToCleartext (text : List Nat) (staticLen : Option Nat) (paddingByte : List Nat) :
    Except String (List Bool) := do
  let cleartext ← asciiEncode text
  let cleartext := match staticLen with
    | none => cleartext
    | some 0 => cleartext
    | some n => cleartext ++ listMul paddingByte ((n : Int) - (text.length : Int))
  u8ListToBitSlice (cleartext.map Int.ofNat)

/-- `bytes.decode('ascii')`: rejects bytes above 127. -/
def asciiDecode (b : List Nat) : Except String (List Nat) :=
  if b.all (· < 128) then .ok b else .error "UnicodeDecodeError"

/-- `cleartext_to_str`, type_converters.py L73-74. -/
def cleartextToStr (cleartext : List Bool) : Except String (List Nat) := do
  let b ← bitSliceToBytes cleartext
  asciiDecode b

end Verif.TypeConverters

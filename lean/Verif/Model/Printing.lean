import Verif.Model.Lut

/-!
# Model of the printed forms

`__str__` and `__repr__` of `LookUpTable` (`jaxite/jaxite_bool/lut.py`), `RlwePlaintext` and `RlweCiphertext`
(`jaxite/jaxite_cggi/rlwe.py`) and `RgswCiphertext` (`jaxite/jaxite_cggi/rgsw.py`). Strings are lists of characters,
arrays of `uint32` are lists of natural numbers.
-/

namespace Verif.Printing
open Verif.Lut

/-- The digits of a number in base `b` as characters, most significant first: `str(x)` for `b = 10` and `bin(x)[2:]`
for `b = 2`. -/
def digits (b n : Nat) : List Char :=
  if h : n < b ∨ b < 2 then [Nat.digitChar n] else digits b (n / b) ++ [Nat.digitChar (n % b)]
termination_by n
decreasing_by exact Nat.div_lt_self (by omega) (by omega)

/-- `sep.join(pieces)`. -/
def join (sep : List Char) : List (List Char) → List Char
  | [] => []
  | [x] => x
  | x :: y :: t => x ++ sep ++ join sep (y :: t)

/-- `s.rjust(width, c)`. -/
def rjust (s : List Char) (width : Nat) (c : Char) : List Char := List.replicate (width - s.length) c ++ s

/-- `'{:width}'.format(s)` for a string: filled with spaces on the right. -/
def ljust (s : List Char) (width : Nat) : List Char := s ++ List.replicate (width - s.length) ' '

/-- `RlwePlaintext.__str__`, rlwe.py L33-40, and `RgswCiphertext.pretty_print_polynomial`, rgsw.py L62-67. -/
def polyStr (message : List Nat) : List Char :=
  let terms := message.zipIdx.filterMap fun (coeff, power) =>
    if coeff ≠ 0 then some (digits 10 coeff ++ [' ', 'x', '^'] ++ digits 10 power) else none
  let s := join [' ', '+', ' '] terms
  if s.isEmpty then ['0'] else s

/-- `RlweCiphertext.__str__`, rlwe.py L75-78, with `_single_row_str`, L66-73 (and `__repr__`, L80-81). -/
def ciphertextStr (message : List (List Nat)) : List Char :=
  ['[', '\n', ' '] ++ join ['\n', ' '] (message.map polyStr) ++ ['\n', ']']

/-- `RgswCiphertext.__str__`, rgsw.py L69-77 (and `__repr__`, L79-80), for a message of `columns` columns. -/
def rgswStr (columns : Nat) (message : List (List (List Nat))) : List Char :=
  let s := message.map fun row => row.map fun e => polyStr e ++ [',']
  let lens := (List.range columns).map fun j => (s.map fun row => (row.getD j []).length).foldl max 0
  let table := s.map fun row => join ['\t'] ((List.range columns).map fun j => ljust (row.getD j []) (lens.getD j 0))
  ['\n', '[', '\n', ' ', ' '] ++ join ['\n', ' ', ' '] table ++ ['\n', ']', '\n']

/-- `LookUpTable.__str__`, lut.py L68-75. -/
def lutStr (l : LookUpTable) : List Char :=
  join ['\n'] (l.values.zipIdx.map fun (bit, input) =>
    rjust (digits 2 input) l.numInputs '0' ++ [' ', '-', '>', ' '] ++ digits 10 bit)

/-- `LookUpTable.__repr__`, lut.py L77-83. -/
def lutRepr (l : LookUpTable) : List Char :=
  "LookUpTable(".toList ++ ("num_inputs=".toList ++ digits 10 l.numInputs ++ ", ".toList) ++
    ("truth_table=".toList ++ digits 10 l.truthTable ++ ", ".toList) ++ ")".toList

end Verif.Printing

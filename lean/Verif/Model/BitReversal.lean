import Mathlib.Data.Nat.Size

/-!
# Model of the bit-reversal helpers: `jaxite/jaxite_ckks/rns_utils.py` L16-37 and
`jaxite/jaxite_ckks/math.py` L93-106
-/

namespace Verif.BitReversal

/-- `num_bits`, rns_utils.py L16-18: `x.bit_length() - 1` (`Nat.size` is `bit_length`; for `x = 0` Python
returns `-1`, which is then only used as an empty loop bound). -/
def numBits (x : Nat) : Nat := x.size - 1

/-- The loop of `bit_reversal`, rns_utils.py L24-27: `k` more iterations from `(result, x)`. -/
def bitReversalLoop : Nat → Nat → Nat → Nat
  | 0, result, _ => result
  | k + 1, result, x => bitReversalLoop k ((result <<< 1) ||| (x &&& 1)) (x >>> 1)

/-- `bit_reversal`, rns_utils.py L21-28. -/
def bitReversal (x numBits : Nat) : Nat := bitReversalLoop numBits 0 x

/-- `xs[i], xs[j] = xs[j], xs[i]`. -/
def swap {α : Type} (xs : List α) (i j : Nat) : List α :=
  match xs[i]?, xs[j]? with
  | some a, some b => (xs.set i b).set j a
  | _, _ => xs

/-- `bit_reversal_array`, rns_utils.py L31-37: iterations `0, ..., m-1` of the loop. -/
def bitReversalArrayLoop {α : Type} (n : Nat) (xs : List α) (m : Nat) : List α :=
  (List.range m).foldl (fun xs i =>
    let j := bitReversal i n
    if i < j then swap xs i j else xs) xs

/-- `bit_reversal_array`, rns_utils.py L31-37. -/
def bitReversalArray {α : Type} (xs : List α) : List α :=
  bitReversalArrayLoop (numBits xs.length) xs xs.length

/-- The inner loop of `get_bit_reverse_perm`, math.py L100-104. -/
def permLoop (bits i : Nat) : Nat :=
  ((List.range bits).foldl (fun (s : Nat × Nat) _ =>
    ((s.1 <<< 1) ||| (s.2 &&& 1), s.2 >>> 1)) (0, i)).1

/-- `get_bit_reverse_perm`, math.py L93-106. -/
def getBitReversePerm (n : Nat) : List Nat :=
  if n ≤ 0 then [] else
    let bits := n.size - 1
    (List.range n).map (fun i => permLoop bits i)

end Verif.BitReversal

import Verif.Model.BitReversal
import Verif.Model.CkksMath

/-!
# Model of `jaxite/jaxite_ckks/ntt_cpu.py`

Arrays have dtype `object` (Python integers). A vector of length `n` is a function `Nat → Int` of which the
entries below `n` matter. Remainders are Python's (`Int.emod`, the modulus being positive).
-/

namespace Verif.NttCpu
open Verif.CkksMath Verif.BitReversal

/-- `_get_bit_reversal_perm(n)[i]`, ntt_cpu.py L16-26 (for the cache see `Model/NttCpuCache.lean`; the `uint32` arithmetic does
not wrap for `n ≤ 2^32`). -/
def perm (n i : Nat) : Nat := permLoop (n.size - 1) i

/-- `reshape(-1, length)` raises unless `length` divides `n`: in the loops below, `length` runs through the powers
of two up to `n`, so this is the condition that `n` is a power of two. -/
def checkLength (n : Nat) : Except String Unit := if 2 ^ (n.size - 1) = n then .ok () else .error "ValueError"

/-- One iteration of the loop of `ntt_cyclic_bit_reverse`, ntt_cpu.py L69-80, for `length = 2 * half`. -/
def ditStep (n : Nat) (q omega : Int) (half : Nat) (a : Nat → Int) : Nat → Int :=
  let length := 2 * half
  let ws := powersAt (powMod omega (n / length) q) q
  fun i =>
    let j := i % length
    if j < half then (a i + (a (i + half) * ws j) % q) % q
    else (a (i - half) - (a i * ws (j - half)) % q) % q

/-- The loop of `ntt_cyclic_bit_reverse`, ntt_cpu.py L67-82: `s` iterations, `length = 2, 4, ...`. -/
def ditLoop (n : Nat) (q omega : Int) : Nat → (Nat → Int) → (Nat → Int)
  | 0, a => a
  | s + 1, a => ditStep n q omega (2 ^ s) (ditLoop n q omega s a)

/-- `ntt_cyclic_bit_reverse`, ntt_cpu.py L58-83. -/
def nttCyclic (n : Nat) (q omega : Int) (a : Nat → Int) : Except String (Nat → Int) := do
  checkLength n
  pure (ditLoop n q omega (n.size - 1) (fun i => a (perm n i)))

/-- One iteration of the loop of `intt_cyclic_bit_reverse`, ntt_cpu.py L94-105. -/
def difStep (n : Nat) (q invRoot : Int) (half : Nat) (a : Nat → Int) : Nat → Int :=
  let length := 2 * half
  let ws := powersAt (powMod invRoot (n / length) q) q
  fun i =>
    let j := i % length
    if j < half then (a i + a (i + half)) % q
    else ((a (i - half) - a i) * ws (j - half)) % q

/-- The loop of `intt_cyclic_bit_reverse`, ntt_cpu.py L92-107: `length = 2^s, 2^(s-1), ..., 2`. -/
def difLoop (n : Nat) (q invRoot : Int) : Nat → (Nat → Int) → (Nat → Int)
  | 0, a => a
  | s + 1, a => difLoop n q invRoot s (difStep n q invRoot (2 ^ s) a)

/-- `intt_cyclic_bit_reverse`, ntt_cpu.py L86-115. -/
def inttCyclic (n : Nat) (q omega : Int) (a : Nat → Int) : Except String (Nat → Int) := do
  let invRoot ← invMod omega q
  checkLength n
  let a := difLoop n q invRoot (n.size - 1) a
  let a := fun i => a (perm n i)
  let invN ← invMod n q
  pure (fun i => a i * invN % q)

/-- `ntt_negacyclic_bit_reverse`, ntt_cpu.py L39-45. -/
def nttNegacyclic (n : Nat) (q psi : Int) (a : Nat → Int) : Except String (Nat → Int) :=
  let aTwisted := fun i => a i * powersAt psi q i % q
  nttCyclic n q (powMod psi 2 q) aTwisted

/-- `intt_negacyclic_bit_reverse`, ntt_cpu.py L48-55. -/
def inttNegacyclic (n : Nat) (q psi : Int) (a : Nat → Int) : Except String (Nat → Int) := do
  let omega := powMod psi 2 q
  let aInv ← inttCyclic n q omega a
  let psiInv ← invMod psi q
  pure (fun i => aInv i * powersAt psiInv q i % q)

/-- `ntt_negacyclic_poly` on one residue column, ntt_cpu.py L124-128. -/
def nttPoly (degree q : Nat) (coeffs : Nat → Int) : Except String (Nat → Int) := do
  let psi ← rootOfUnity (2 * degree) q
  let r ← nttNegacyclic degree q psi coeffs
  pure (fun i => r (perm degree i) % q)

/-- `intt_negacyclic_poly` on one residue column, ntt_cpu.py L138-143. -/
def inttPoly (degree q : Nat) (coeffs : Nat → Int) : Except String (Nat → Int) := do
  let psi ← rootOfUnity (2 * degree) q
  inttNegacyclic degree q psi (fun i => coeffs (perm degree i))

end Verif.NttCpu

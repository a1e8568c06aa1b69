import Mathlib.Data.Int.GCD

/-!
# Model of `jaxite/jaxite_ckks/math.py`, of `inverse_mod` (rns_utils.py L6-8) and of `_mod_exp`,
`_primitive_root` (rns.py L14-45)

Python integers are `Int`, or `Nat` where the code can only meet natural numbers.
-/

namespace Verif.CkksMath

/-- Python's `pow(b, e, q)` for `e ≥ 0`. -/
def powMod (b : Int) (e : Nat) (q : Int) : Int := b ^ e % q

/-- Python's `pow(x, -1, q)`: raises unless `x` is invertible modulo `q`; `inverse_mod`, rns_utils.py L6-8. -/
def invMod (x q : Int) : Except String Int :=
  if Int.gcd x q = 1 then .ok (Int.gcdA x q % q) else .error "ValueError"

/-- `while n % p == 0: n //= p` for `n ≥ 1`, `p ≥ 2` (math.py L10-12 and L15-17). -/
def strip (p n : Nat) : Nat :=
  if h : 2 ≤ p ∧ 1 ≤ n ∧ n % p = 0 then strip p (n / p) else n
termination_by n
decreasing_by exact Nat.div_lt_self (by omega) (by omega)

theorem strip_le (p n : Nat) : strip p n ≤ n := by
  induction n using Nat.strong_induction_on with
  | _ n ih =>
    unfold strip
    split
    · rename_i h
      have hlt : n / p < n := Nat.div_lt_self (by omega) (by omega)
      exact (ih _ hlt).trans hlt.le
    · exact le_refl _

/-- The loop over odd candidates and the final test of `prime_factors`, math.py L13-20. -/
def factorLoop (n p : Nat) (acc : List Nat) : List Nat :=
  if h : 1 ≤ p ∧ p * p ≤ n then
    factorLoop (strip p n) (p + 2) (if n % p = 0 then p :: acc else acc)
  else if 1 < n then n :: acc else acc
termination_by n + 1 - p
decreasing_by
  have h1 := strip_le p n
  have h2 : p ≤ p * p := Nat.le_mul_self p
  omega

/-- `prime_factors`, math.py L7-21, for `n ≥ 0`. For `n = 0` the first loop never ends. -/
def primeFactors (n : Nat) : Except String (List Nat) :=
  if n = 0 then .error "does not terminate"
  else .ok (factorLoop (strip 2 n) 3 (if n % 2 = 0 then [2] else []))

/-- `find_generator`, math.py L24-33, for `q ≥ 1`. -/
def findGenerator (q : Nat) : Except String Nat :=
  if q = 2 then .ok 1
  else
    let phi := q - 1
    match primeFactors phi with
    | .error e => .error e
    | .ok factors =>
      match (List.range' 2 (q - 2)).find? (fun g : Nat =>
          factors.all (fun p => powMod (g : Int) (phi / p) q != 1)) with
      | some g => .ok g
      | none => .error "ValueError"

/-- The power-of-two loop of `root_of_unity`, math.py L46-50: `t` more candidates from `curr`. -/
def oddPowers (q r2 : Int) : Nat → Int → List Int
  | 0, _ => []
  | t + 1, curr => curr :: oddPowers q r2 t (curr * r2 % q)

/-- `root_of_unity`, math.py L36-60, for `q ≥ 1`. `range(1, m, 2)` has `m / 2` elements. -/
def rootOfUnity (m q : Nat) : Except String Int :=
  if m = 0 then .error "ZeroDivisionError"
  else if (q - 1) % m ≠ 0 then .error "ValueError"
  else
    match findGenerator q with
    | .error e => .error e
    | .ok g =>
      let r := powMod g ((q - 1) / m) q
      let candidates :=
        if m &&& (m - 1) = 0 then oddPowers q (r * r % q) (m / 2) r
        else ((List.range' 1 (m - 1)).filter (fun k => Nat.gcd k m = 1)).map (fun k => powMod r k q)
      match candidates with
      | [] => .error "ValueError"
      | c :: cs => .ok (cs.foldl min c)

/-- `_mod_exp`, rns.py L14-22: the loop from `(result, x, n)`. -/
def modExpLoop (result x : Int) (n : Nat) (q : Int) : Int :=
  if h : n > 0 then
    modExpLoop (if n &&& 1 ≠ 0 then result * x % q else result) (x * x % q) (n >>> 1) q
  else result
termination_by n
decreasing_by rw [Nat.shiftRight_one]; omega

/-- `_mod_exp`, rns.py L14-22. -/
def modExp (x : Int) (n : Nat) (q : Int) : Int := modExpLoop 1 x n q

/-- `is_power_of_two`, rns_utils.py L11-13. -/
def isPowerOfTwo (x : Nat) : Bool := decide (x > 0) && (x &&& (x - 1) == 0)

/-- `_primitive_root`, rns.py L25-45, for `q ≥ 1`. -/
def primitiveRoot (m q : Nat) : Except String Int :=
  if !isPowerOfTwo m then .error "ValueError"
  else if (q - 1) % m ≠ 0 then .error "ValueError"
  else
    let n := m >>> 1
    let k := (q - 1) / m
    match (List.range' 2 (q - 2)).find? (fun (t : Nat) => modExp (modExp t k q) n q != 1) with
    | some t => .ok (modExp t k q)
    | none => .error "ValueError"

/-- The table of powers of `gen_twiddle_matrix`, math.py L70-75 (also `_get_powers`, ntt_cpu.py L29-36). -/
def powersAt (base q : Int) : Nat → Int
  | 0 => 1
  | i + 1 => powersAt base q i * base % q

/-- `gen_twiddle_matrix`, math.py L63-82: entry `(r, c)`. The table has `(rows-1)*(cols-1)+1` entries, which
covers every exponent `r * c`. The numpy `uint64` storage is exact for `q < 2^64`. -/
def genTwiddleMatrix (q omega : Int) (r c : Nat) : Int := powersAt omega q (r * c)

/-- `gen_twiddle_matrix_inv`, math.py L85-90. -/
def genTwiddleMatrixInv (q omega : Int) : Except String (Nat → Nat → Int) :=
  match invMod omega q with
  | .error e => .error e
  | .ok i => .ok (genTwiddleMatrix q i)

end Verif.CkksMath

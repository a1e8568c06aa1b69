import Verif.Model.PolymulKernel
import Mathlib.Data.Nat.Size

/-!
# The floating-point dot product of the TPU kernels

`lax.dot(lhs.astype(bfloat16), rhs.astype(bfloat16), preferred_element_type=float32).astype(int32)`,
polymul_kernel.py L53-57 and L119-123. All operands are integers, so that every intermediate value of a
`float32` accumulation is an integer: floating point is modelled here by integers rounded to a number of
significant bits, to nearest, ties to even. The order in which the products are added is not documented by XLA and
differs between devices, so it is an argument.

Simplifications: no overflow (the values stay far below the largest `float32`), and a device that adds with fewer
bits than `float32` is not covered.
-/

namespace Verif.FloatDot
open Verif.PolymulKernel

/-- An integer rounded to `p` significant bits, to nearest, ties to even: conversion of an integer to a floating
format with `p` bits (8 for `bfloat16`, 24 for `float32`), and the rounding of an operation in that format. -/
def roundBits (p : Nat) (x : Int) : Int :=
  let unit : Int := 2 ^ (x.natAbs.size - p)
  let q := x / unit
  let r := x % unit
  if 2 * r < unit then q * unit
  else if unit < 2 * r then (q + 1) * unit
  else if q % 2 = 0 then q * unit else (q + 1) * unit

/-- `astype(jnp.bfloat16)` of an `int32`. -/
def bf16 (x : Int) : Int := roundBits 8 x

/-- The result of a `float32` operation with exact value `x`. -/
def f32 (x : Int) : Int := roundBits 24 x

/-- An order of accumulation over `n` products: a tree of additions; `zero` is an empty accumulator or padding. -/
inductive Order (n : Nat) where
  | zero : Order n
  | leaf : Fin n → Order n
  | add : Order n → Order n → Order n

/-- The products that an order adds. -/
def Order.leaves {n : Nat} : Order n → List (Fin n)
  | .zero => []
  | .leaf i => [i]
  | .add l r => l.leaves ++ r.leaves

/-- Every product is added exactly once. -/
def Order.Complete {n : Nat} (t : Order n) : Prop := t.leaves.Perm (List.finRange n)

/-- The `float32` value computed along an order of accumulation. -/
def Order.eval {n : Nat} (u v : Fin n → Int) : Order n → Int
  | .zero => 0
  | .leaf i => f32 (bf16 (u i) * bf16 (v i))
  | .add l r => f32 (l.eval u v + r.eval u v)

/-- `lax.dot` as in the header, with one order of accumulation for each length; the conversion to `int32` does not
change an integer in range. -/
def floatDot (order : (n : Nat) → Order n) : FloatDot := fun n u v => (order n).eval u v

/-- Accumulation from left to right, starting from an empty accumulator. -/
def leftToRight (n : Nat) : Order n := (List.finRange n).foldl (fun t i => .add t (.leaf i)) .zero

end Verif.FloatDot

import Verif.Lemmas.EcRoll
import Mathlib.Data.Nat.Size

/-!
# Chunked field arithmetic of jaxite_ec/finite_field.py (Barrett and lazy reduction)
-/

namespace Verif.EcChunks

/-! ## Constants (jaxite_ec/util.py L26-53) -/

/-- `MODULUS_377_INT` (util.py L26). -/
def P : Nat := 0x01AE3A4617C510EAC63B05C06CA1493B1A22D9F300F5138F1EF3622FBA094800170B5D44300000008508C00000000001
/-- `MU_377_INT` (util.py L27). -/
def MU : Nat := 0x98542343310183A5DB0F28160BBD3DCEEEB43799DDAC681ABCB52236169B40B43B5A1DE2710A9647E7F56317936BFF32
/-- `TWIST_D_INT` (util.py L28). -/
def TWIST_D : Nat :=
  122268283598675559488486339158635529096981886914877139579534153582033676785385790730042363341236035746924960903179

/-- A conversion of a constant; the code runs it when util.py is imported, so an assertion failure would
prevent the import (util.py L617-628). -/
def constArray (base n x : Nat) : List Nat :=
  match intToArray base (some n) x with
  | .ok l => l
  | .error _ => []

/-- `MODULUS_377_INT_CHUNK` (util.py L617-619). -/
def P_CHUNK : List Nat := constArray 16 24 P
/-- `MU_377_INT_CHUNK` (util.py L620-622). -/
def MU_CHUNK : List Nat := constArray 16 24 MU
/-- `MODULUS_377_S16_INT_CHUNK` (util.py L626-628), `MODULUS_377_INT << 16`. -/
def P_S16_CHUNK : List Nat := constArray 16 25 (P <<< 16)
/-- `TWIST_D_INT_CHUNK` (util.py L623-625). -/
def TWIST_D_CHUNK : List Nat := constArray 16 25 TWIST_D

/-! ## The while loop -/

/-- `jax.lax.while_loop(check_any_chunk_with_carry, carry_propagation, value_c)` on one row.  The shift is 16
or 32 in every call; a shift of zero would never end and is excluded. -/
def carryLoop (s : Nat) (l : List Nat) : List Nat :=
  if h : 0 < s ∧ anyCarry s l = true then carryLoop s (carryStep s l) else l
termination_by l.sum
decreasing_by exact carryStep_sum_lt s h.1 l h.2

/-- Total of a batch, the measure of `carryLoopBatch`. -/
def batchSum (rows : List (List Nat)) : Nat := (rows.map List.sum).sum

theorem carryStep_sum_le (s : Nat) (hs : 0 < s) (l : List Nat) : (carryStep s l).sum ≤ l.sum := by
  by_cases h : anyCarry s l = true
  · exact le_of_lt (carryStep_sum_lt s hs l h)
  · unfold carryStep
    refine (sum_zipWith_le _ (fun x y => Nat.mod_le _ _) _ _).trans ?_
    refine (Nat.add_le_add_left ((sum_map_le _ (fun x => Nat.mod_le _ _) _).trans (rollMul_sum_le _)) _).trans ?_
    have : ∀ m : List Nat, (∀ v ∈ m, v >>> s = 0) → (m.map fun v => v &&& (2 ^ s - 1)).sum
        + (m.map fun v => (v >>> s) % 2 ^ 16).sum ≤ m.sum := by
      intro m hm
      induction m with
      | nil => simp
      | cons v m ih =>
        have h1 := ih (fun w hw => hm w (List.mem_cons_of_mem _ hw))
        have h2 := hm v List.mem_cons_self
        have h3 : v &&& (2 ^ s - 1) ≤ v := Nat.and_le_left
        simp only [List.map_cons, List.sum_cons, h2]
        omega
    apply this
    intro v hv
    by_contra hc
    exact h (List.any_eq_true.2 ⟨v, hv, by simpa using hc⟩)

theorem batch_lt (s : Nat) (hs : 0 < s) (rows : List (List Nat)) (h : rows.any (anyCarry s) = true) :
    batchSum (rows.map (carryStep s)) < batchSum rows := by
  have hle : ∀ rs : List (List Nat), batchSum (rs.map (carryStep s)) ≤ batchSum rs := by
    intro rs
    induction rs with
    | nil => simp [batchSum]
    | cons r rs ih =>
      have := carryStep_sum_le s hs r
      simp only [batchSum, List.map_cons, List.sum_cons] at *
      omega
  induction rows with
  | nil => simp at h
  | cons r rs ih =>
    simp only [List.any_cons, Bool.or_eq_true] at h
    by_cases hr : anyCarry s r = true
    · have h1 := carryStep_sum_lt s hs r hr
      have h2 := hle rs
      simp only [batchSum, List.map_cons, List.sum_cons] at *
      omega
    · have h1 := carryStep_sum_le s hs r
      have h2 := ih (h.resolve_left hr)
      simp only [batchSum, List.map_cons, List.sum_cons] at *
      omega

/-- `carry_propagation` (finite_field.py L103-137) on a batch: the roll matrix acts on the last axis. -/
def carryStepBatch (s : Nat) (rows : List (List Nat)) : List (List Nat) := rows.map (carryStep s)

/-- The same loop on a batch: the test looks at all chunks of all rows, so rows without carries go through
further rounds until the last row is done. -/
def carryLoopBatch (s : Nat) (rows : List (List Nat)) : List (List Nat) :=
  if h : 0 < s ∧ rows.any (anyCarry s) = true then carryLoopBatch s (carryStepBatch s rows) else rows
termination_by batchSum rows
decreasing_by exact batch_lt s h.1 rows h.2

/-! ## Compare, add, subtract -/

/-- `compare_u16` (finite_field.py L197-220): `sum(sign(a_i - b_i) * 2**i)`.  The weights are int32, so the table
exists for at most 31 chunks (24 in every call) and then no product or sum overflows. -/
def compare (a b : List Nat) : Int :=
  ((List.zipWith (fun x y : Nat => ((x : Int) - y).sign) a b).zipIdx.map fun t => t.1 * 2 ^ t.2).sum

/-- `add_2u16` (finite_field.py L223-238). -/
def add2 (a b : List Nat) : List Nat :=
  (carryLoop 16 (List.zipWith (fun x y => (x + y) % 2 ^ 32) a b)).map (· % 2 ^ 16)

/-- `add_3u16` (finite_field.py L243-254). -/
def add3 (a b d : List Nat) : List Nat :=
  (carryLoop 16 (List.zipWith (fun x y => (x + y) % 2 ^ 32)
    (List.zipWith (fun x y => (x + y) % 2 ^ 32) a b) d)).map (· % 2 ^ 16)

/-- Subtraction in a uint32 lane. -/
def sub32 (x y : Nat) : Nat := (x + 2 ^ 32 - y) % 2 ^ 32

/-- `sub_2u16` (finite_field.py L259-297) with `mask = 0xFFFF` and `chunk_num_u16 = n`; the first operand may
already be a uint32 row (as in `cond_sub_2u16`). -/
def sub2 (n : Nat) (a b : List Nat) : List Nat :=
  let borrowHigh := [0] ++ List.replicate (n - 2) 1 ++ [0]
  let borrowLow := List.replicate (n - 1) (2 ^ 16) ++ [0]
  let va := List.zipWith (fun x y => (x + y) % 2 ^ 32) a borrowLow
  let vc := List.zipWith sub32 (List.zipWith sub32 va b) borrowHigh
  let vc := carryLoop 16 vc
  (vc.modify (n - 1) fun v => sub32 v 1).map (· % 2 ^ 16)

/-- `cond_sub_mod_u16` (finite_field.py L300-329). -/
def condSubMod (n : Nat) (m a : List Nat) : List Nat :=
  if compare a m ≥ 0 then sub2 n a m else a

/-- `cond_sub_2u16` (finite_field.py L332-368). -/
def condSub (n : Nat) (m a b : List Nat) : List Nat :=
  let ap := List.zipWith (fun x y => (x + y) % 2 ^ 32) a m
  sub2 n (if compare a b ≥ 0 then a else ap) b

/-! ## Multiplication -/

/-- `jax.lax.bitcast_convert_type` to a type `k` times narrower with `b` values (little endian). -/
def split (b k : Nat) (l : List Nat) : List Nat :=
  (l.map fun v => (List.range k).map fun i => v / b ^ i % b).flatten

/-- `bitcast_convert_type` of pairs of bytes to uint16 (finite_field.py L486-488). -/
def joinPairs : List Nat → List Nat
  | x :: y :: l => (x + 256 * y) :: joinPairs l
  | _ => []

/-- `jnp.convolve(..., preferred_element_type=uint32)` (finite_field.py L152-156), with the trailing zero that
every caller pads (L410, L471): entry `k` is the sum over `i` of `a_i * b_(k-i)`, modulo `2^32`. -/
def conv (a b : List Nat) : List Nat :=
  (List.range (a.length + b.length)).map fun k =>
    ((List.range (k + 1)).map fun i => a.getD i 0 * b.getD (k - i) 0).sum % 2 ^ 32

/-- One halving step of `rechunkify` (finite_field.py L186-191): rows of two, shifted left by `[0, sh]` in a lane
of `w` bits and summed in 64 bits. -/
def mergePairs (w sh : Nat) : List Nat → List Nat
  | x :: y :: l => (x + (y <<< sh) % 2 ^ w) % 2 ^ 64 :: mergePairs w sh l
  | _ => []

/-- `rechunkify` (finite_field.py L160-192). -/
def rechunkify (l : List Nat) : List Nat := mergePairs 64 16 (mergePairs 32 8 l)

/-- The common part of `mul_2u16` (finite_field.py L408-423) and `mul_shift_2u16x2x1` (L469-481): byte convolution,
rechunking, carries in 32-bit chunks, cast to uint32. -/
def mulCore (a b : List Nat) : List Nat :=
  (carryLoop 32 (rechunkify (conv (split 256 2 a) (split 256 2 b)))).map (· % 2 ^ 32)

/-- `mul_2u16` (finite_field.py L382-428) with uint16 output. -/
def mul2 (n : Nat) (a b : List Nat) : List Nat := (split (2 ^ 16) 2 (mulCore a b)).take (2 * n)

/-- `mul_2u16` with uint8 output. -/
def mul2u8 (n : Nat) (a b : List Nat) : List Nat := (split 256 4 (mulCore a b)).take (4 * n)

/-- `mul_shift_2u16x2x1` (finite_field.py L441-489). -/
def mulShift (shift n : Nat) (a b : List Nat) : List Nat :=
  (joinPairs ((split 256 4 (mulCore a b)).drop shift ++ [0])).take n

/-- `barrett_reduction_u16x2` (finite_field.py L541-581) for the default constants. -/
def barrettReduction (x : List Nat) : List Nat :=
  let d := mulShift 95 24 x MU_CHUNK
  let e := mul2 24 d P_CHUNK
  let t := sub2 48 x e
  condSubMod 24 P_CHUNK (t.take 24)

/-- `mod_mul_barrett_2u16` (finite_field.py L492-538) for the default constants. -/
def modMulBarrett (a b : List Nat) : List Nat :=
  let x := mul2 24 a b
  let d := mulShift 95 24 x MU_CHUNK
  let e := mul2 24 d P_CHUNK
  let t := sub2 48 x e
  condSubMod 24 P_CHUNK (t.take 24)

/-! ## Lazy reduction -/

/-- `construct_lazy_matrix` (util.py L413-432) with 8-bit chunks: row `i` holds the bytes of
`256^(c + i) mod p`. -/
def lazyMatrix (p c : Nat) : List (List Nat) :=
  (List.range (c + 4)).map fun i => constArray 8 c (256 ^ (c + i) % p)

/-- `jnp.matmul(high, lazy_mat, preferred_element_type=uint32)` (finite_field.py L628-632). -/
def matVec (c : Nat) (h : List Nat) (m : List (List Nat)) : List Nat :=
  (List.range c).map fun j => ((List.range h.length).map fun i => h.getD i 0 * (m.getD i []).getD j 0).sum % 2 ^ 32

/-- `mod_mul_lazy_2u16` (finite_field.py L594-654); `c = chunk_num_u8`, `n = U16_EXT_CHUNK_NUM`. -/
def modMulLazyWith (n c : Nat) (mat : List (List Nat)) (a b : List Nat) : List Nat :=
  let v := mul2u8 n a b
  let reduced := matVec c (v.drop c) mat
  let r := List.zipWith (fun x y => (x + y) % 2 ^ 32) (v.take c) reduced
  let carried := carryLoop 32 (rechunkify r ++ [0])
  (split (2 ^ 16) 2 (carried.map (· % 2 ^ 32))).take n

/-- `MODULUS_377_LAZY_MAT` (util.py L435). -/
def LAZY_MAT : List (List Nat) := lazyMatrix P 48

@[inherit_doc modMulLazyWith]
def modMulLazy (a b : List Nat) : List Nat := modMulLazyWith 25 48 LAZY_MAT a b

/-! ## The host-side reference (jaxite_ec/algorithm/lazy_reduction.py) -/

/-- `byte_len` (algorithm/lazy_reduction.py L10-11). -/
def byteLen (x : Nat) : Nat := (x.size + 7) / 8

/-- `chunk_decomposition` (algorithm/lazy_reduction.py L14-17). -/
def chunkDecomposition (x len : Nat) : List Nat := (List.range len).map fun i => (x >>> (8 * i)) &&& 255

/-- The recombination loop (algorithm/lazy_reduction.py L57-62). -/
def recombine (l : List Nat) : Nat := l.reverse.foldl (fun v r => v * 256 + r) 0

/-- `lazy_reduction_via_matrix` (algorithm/lazy_reduction.py L24-68) on one pair. -/
def lazyReduction (p a b : Nat) : Nat :=
  let t := byteLen p
  let mat := (List.range (t + 4)).map fun i => chunkDecomposition (256 ^ (t + i) % p) t
  let s := a * b
  let low := s &&& (256 ^ t - 1)
  let high := s >>> (8 * t)
  recombine (matVec t (chunkDecomposition high (t + 4)) mat) + low

end Verif.EcChunks

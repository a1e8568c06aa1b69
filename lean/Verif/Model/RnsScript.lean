import Verif.Model.EcRns
import Mathlib.Data.Nat.Size

/-!
# Model of `jaxite_ec/algorithm/rns_mod_reduce.py`

The functions and the script at the end of the file (L235-419). `find_moduli`, `hardware_friendly_mod_reduce` and
`math.ceil` of a quotient are in `Verif.Model.EcRns`. The rows of the batch are lists; a matrix product acts on every row
by itself.
-/

namespace Verif.RnsScript
open Verif.EcRns Verif.EcChunks

/-- One row of `jnp.hstack((rns[..., 0], seq[..., 0], rns[..., 1], seq[..., 1]))`, rns_mod_reduce.py L164-172: the low bytes
of all entries, then the high bytes. -/
def stackRow (rns : List Nat) (s : Nat) : List Nat :=
  rns.map (· % 256) ++ [s % 256] ++ (rns.map (fun v => v / 256 % 256) ++ [s / 256 % 256])

/-- `rns_coefficients_precompute`, rns_mod_reduce.py L104-173. NumPy raises `OverflowError` for a Python integer outside
`uint16`. -/
def coefficients (rd : ℚ → ℚ) (factors moduli : List Nat) (numBytes precision M q : Nat) :
    Except String (List (List Nat) × List Nat) :=
  let sh := byteShifted factors numBytes M
  let rns := sh.map fun c => moduli.map fun m => c % q % m
  let sq := sh.map fun c => sqe rd (1 <<< precision) M c
  let cor := moduli.map fun m => ((-(M : Int)) % (q : Int)).toNat % m
  if rns.all (fun r => r.all (· < 65536)) ∧ sq.all (fun s => 0 ≤ s ∧ s < 65536) ∧ cor.all (· < 65536) then
    .ok (List.zipWith (fun r s => stackRow r (Int.toNat s)) rns sq, cor)
  else .error "OverflowError"

/-- One row of `rns_mod_reduce` up to the reconstruction, rns_mod_reduce.py L201-226. -/
def reduceRow (ts : List Nat) (mat : List (List Nat) × List Nat) (precision : Nat) (a b : List Nat) : List Nat :=
  let n := ts.length
  let mul := List.zipWith (fun x y => x * y % 2 ^ 32) a b
  let tower := List.zipWith hardwareReduce ts mul
  let glb := matVec (2 * (n + 1)) (bytes tower) mat.1
  let lo := glb.take (n + 1)
  let hi := glb.drop (n + 1)
  let u32 := List.zipWith (fun l h => (l + (h <<< 8) % 2 ^ 32) % 2 ^ 32) lo hi
  let rns := u32.take n
  let qe := u32.getD n 0
  let corrected := List.zipWith (fun r w => (r + (qe >>> precision) * w % 2 ^ 32) % 2 ^ 32) rns mat.2
  List.zipWith hardwareReduce ts corrected

/-- One row of `rns_reconstruct`, rns_mod_reduce.py L84-91. -/
def reconstructRow (row : List Nat) (M : Nat) (factors : List Nat) : Nat :=
  (row.zipIdx.foldl (fun (big : Nat) (p : Nat × Nat) => big + p.1 * factors.getD p.2 0) 0) % M

/-- `rns_mod_reduce`, rns_mod_reduce.py L176-232. `moduli_precision` (L224) is a global variable that only the script
defines; `none` is the situation after an import. -/
def rnsModReduce (modulePrecision : Option Nat) (as bs : List (List Nat)) (ts : List Nat)
    (mat : List (List Nat) × List Nat) (factors : List Nat) (M : Nat) : Except String (List Nat) :=
  match modulePrecision with
  | none => .error "NameError"
  | some p => .ok (List.zipWith (fun a b => reconstructRow (reduceRow ts mat p a b) M factors) as bs)

/-- `rns_icrt_factors_compute`, rns_mod_reduce.py L94-101, with the product of the moduli as it is called at L320. -/
def icrtFactors (moduli : List Nat) : Except String (List Nat) :=
  (Crt.rnsPrecompute moduli).map (·.map Int.toNat)

/-- The literal list of moduli of the assertion, rns_mod_reduce.py L261-312. -/
def literalModuli : List Nat :=
  [65536, 65535, 65533, 65531, 65527, 65521, 65519, 65509, 65503, 65497, 65491, 65489, 65479, 65477, 65473, 65459, 65449, 65447,
   65437, 65431, 65423, 65419, 65413, 65411, 65407, 65393, 65383, 65381, 65371, 65369, 65363, 65357, 65353, 65347, 65339, 65327,
   65323, 65321, 65311, 65309, 65293, 65287, 32761, 32749, 32743, 32741, 32719, 32717, 32713, 32707]

/-- The literal correction row of the assertion, rns_mod_reduce.py L333-386. -/
def literalCor : List Nat :=
  [57491, 26379, 24673, 4733, 47122, 11996, 11119, 12151, 45048, 10179, 3397, 45514, 12274, 62018, 4316, 141, 20271, 17626, 20758,
   57875, 41612, 44321, 30081, 6090, 16501, 13984, 14909, 14581, 47918, 44932, 34016, 7605, 33574, 30236, 15843, 26521, 52723, 28347,
   32242, 11676, 31854, 34463, 30291, 29806, 1344, 25148, 23069, 4869, 6178, 32502]

/-- The modulus at rns_mod_reduce.py L239. -/
def Q : Nat := 0x01AE3A4617C510EAC63B05C06CA1493B1A22D9F300F5138F1EF3622FBA094800170B5D44300000008508C00000000001

/-- `assert`. -/
def check (b : Bool) : Except String Unit := if b then .ok () else .error "AssertionError"

/-- The script, rns_mod_reduce.py L235-419, for the random numbers `xs`; `rd` is the rounding of a division of two integers.
Returns `result_mod_q`. -/
def script (rd : ℚ → ℚ) (xs : List Nat) : Except String (List Nat) := do
  let precision := 16
  let numBytes := precision / 8
  let numResidues := (Nat.size Q + precision - 1) / precision + 1
  let bound := (Q * 256 * numBytes * numResidues) ^ 2 * 4 * 2
  check (bound == Q * Q * 256 * 256 * 50 * 50 * 4 * 2)
  let found := findModuli bound precision
  check (found.1 == literalModuli)
  let M := Crt.product found.1
  check (found.1.length == (Nat.size M + precision - 1) / precision)
  let factors ← icrtFactors found.1
  let mat ← coefficients rd factors found.1 numBytes precision M Q
  check (mat.2 == literalCor)
  let ref := xs.map fun x => x * x % Q
  let data := xs.map fun x => found.1.map fun m => x % m
  let result ← rnsModReduce (some precision) data data found.2 mat factors M
  let modQ := result.map (· % Q)
  check (ref == modQ)
  pure modQ

end Verif.RnsScript

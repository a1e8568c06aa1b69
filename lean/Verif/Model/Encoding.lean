/-!
# Model of `jaxite/jaxite_cggi/encoding.py`

`types.LwePlaintext` and `types.LweCleartext` are `uint32`, i.e. `BitVec 32`. Arrays are handled
entry by entry (all operations of this file are element-wise, and an array is rejected iff one entry is).
-/

namespace Verif.Encoding

/-- `EncodingParameters`, encoding.py L11-63 (only the fields that are stored). -/
structure EncodingParameters where
  totalBitLength : Nat
  messageBitLength : Nat
  paddingBitLength : Nat
  errorBitLength : Nat
  messageMin : Nat
  messageMax : Nat
deriving DecidableEq, Repr

/-- `EncodingParameters.__post_init__`, encoding.py L44-63, for arbitrary Python integers. -/
def mkParams (total message padding : Int) : Except String EncodingParameters :=
  if total < 1 then .error "ValueError"
  else if message < 1 then .error "ValueError"
  else if padding < 0 then .error "ValueError"
  else
    let occupied := message + padding
    let remaining := total - occupied
    if remaining < 0 then .error "ValueError"
    else .ok {
      totalBitLength := total.toNat
      messageBitLength := message.toNat
      paddingBitLength := padding.toNat
      errorBitLength := remaining.toNat
      messageMin := 0
      messageMax := (1 <<< message.toNat) - 1 }

/-- `encode`, encoding.py L66-108, on one entry. `astype(uint32)` of a negative integer wraps
(`BitVec.ofInt`). The bound comparison is made on the `uint32` value; in test-polynomial mode the
bound is the Python integer `2**(padding+message)`. The result `message << error_bit_length` is a
`uint32`. -/
def encode (message : Int) (p : EncodingParameters) (testPolynomialEncoding : Bool := false) :
    Except String (BitVec 32) :=
  let msgArr : BitVec 32 := BitVec.ofInt 32 message
  let messageMax : Nat :=
    if testPolynomialEncoding then 2 ^ (p.paddingBitLength + p.messageBitLength) else p.messageMax
  if msgArr.toNat > messageMax ∨ msgArr.toNat < p.messageMin then .error "ValueError"
  else .ok (msgArr <<< p.errorBitLength)

/-- `round_to_power_of_2`, encoding.py L163-175. With `log_pow_of_2 = 0` the Python code shifts by
`-1`; the model (natural subtraction) differs there and no theorem below covers that case. -/
def roundToPowerOf2 (arr : BitVec 32) (logPow : Nat) : BitVec 32 :=
  let roundUp := (arr >>> (logPow - 1)) &&& 1#32
  ((arr >>> logPow) + roundUp) <<< logPow

/-- `remove_noise`, encoding.py L156-160. -/
def removeNoise (inp : BitVec 32) (p : EncodingParameters) : BitVec 32 :=
  roundToPowerOf2 inp p.errorBitLength

/-- `decode_without_removing_padding`, encoding.py L111-127. -/
def decodeWithoutRemovingPadding (plaintext : BitVec 32) (p : EncodingParameters) : BitVec 32 :=
  let shifted := removeNoise plaintext p >>> p.errorBitLength
  shifted &&& (BitVec.ofNat 32 ((1 <<< (p.messageBitLength + p.paddingBitLength)) - 1))

/-- `decode`, encoding.py L130-153. -/
def decode (plaintext : BitVec 32) (p : EncodingParameters) : BitVec 32 :=
  let shifted := removeNoise plaintext p >>> p.errorBitLength
  shifted &&& (BitVec.ofNat 32 ((1 <<< p.messageBitLength) - 1))

/-- `extract_noise`, encoding.py L178-183: a difference of two `int32` reinterpretations taken in
Python integers. -/
def extractNoise (plaintext : BitVec 32) (p : EncodingParameters) : Int :=
  let rounded := removeNoise plaintext p
  plaintext.toInt - rounded.toInt

/-- `bool_encoding.ENCODING_PARAMS`, bool_encoding.py L5-11. -/
def boolParams : EncodingParameters := ⟨32, 3, 1, 28, 0, 7⟩

end Verif.Encoding

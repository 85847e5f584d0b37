/-!
Integer codes of the assembler: signed global indices (anifem++/inmost_interface/assembler.inl) and pairs of memory
numbers (anifem++/inmost_interface/assembler.h).

`long` is the range `-2^63 ≤ x < 2^63` of the integers; leaving it is undefined behaviour and modelled by `none`.
-/
namespace Verif.Codes

/-- The values of a 64-bit `long`. (assembler.inl:49) -/
def isLong (x : Int) : Bool := -2 ^ 63 ≤ x && x < 2 ^ 63

/-- A `long` result. (assembler.inl:49) -/
def long? (x : Int) : Option Int := if isLong x then some x else none

/-- The value of `char(-1)` respectively of a `char` assigned `-1`: `-1` where `char` is signed (`sc = true`), `255` where
it is not (the choice belongs to the platform). (assembler.inl:49) -/
def charNeg (sc : Bool) : Int := if sc then -1 else 255

/-- assembler.inl:49 `assemble_index_encode`: `sign*(index+1)`. -/
def encode (sign index : Int) : Option Int := do
  let k ← long? (index + 1)
  long? (sign * k)

/-- assembler.inl:54 `CODE_UNDEF`. -/
def undef : Int := 0

/-- assembler.inl:55 `assemble_index_decode`: `abs(code)-1` (of `long`) and the sign. -/
def decode (sc : Bool) (code : Int) : Option (Int × Int) := do
  let a ← long? (if code < 0 then -code else code)
  let i ← long? (a - 1)
  some (i, if code < 0 then charNeg sc else 1)

/-- assembler.h:178 `SystemFromMatRhsFWrap::encode_id` for non-negative numbers: `id1 + (id2 << 16)`. -/
def encodeId (a b : Nat) : Option Nat := do
  let h ← if b <<< 16 < 2 ^ 63 then some (b <<< 16) else none
  if a + h < 2 ^ 63 then some (a + h) else none

/-- assembler.h:179 `SystemFromMatRhsFWrap::decode_id` for non-negative codes. -/
def decodeId (c : Nat) : Nat × Nat := (c &&& 0xFFFF, c >>> 16)

end Verif.Codes

import Verif.Model.Text

/-!
# hex and base64 (`binascii`), used by `bytes.decode` and `string.encode` (engine.py 214-229, 306-323)
-/

namespace RE

/-- hexadecimal digit of a number below 16 (lower case) (engine.py 209-219, 312-325) -/
def hexDigit (n : Nat) : Char :=
  if n < 10 then Char.ofNat (0x30 + n) else Char.ofNat (0x61 + (n - 10))

/-- `binascii.b2a_hex(value).decode()` (engine.py 209-219) -/
def hexEncode : List UInt8 → List Char
  | [] => []
  | b :: bs => hexDigit (b.toNat / 16) :: hexDigit (b.toNat % 16) :: hexEncode bs

/-- `binascii.a2b_hex`: `none` (binascii.Error) for odd length or a character that is not a hex
digit (engine.py 312-325) -/
def hexDecode : List Char → Option (List UInt8)
  | [] => some []
  | [_] => none
  | a :: b :: rest =>
    match digitVal a, digitVal b, hexDecode rest with
    | some x, some y, some bs => some (UInt8.ofNat (x * 16 + y) :: bs)
    | _, _, _ => none

/-- character of a base64 digit (engine.py 209-219, 312-325) -/
def b64Char (n : Nat) : Char :=
  if n < 26 then Char.ofNat (0x41 + n)
  else if n < 52 then Char.ofNat (0x61 + (n - 26))
  else if n < 62 then Char.ofNat (0x30 + (n - 52))
  else if n = 62 then '+' else '/'

/-- value of a base64 character (engine.py 209-219, 312-325) -/
def b64Val (c : Char) : Option Nat :=
  let n := c.toNat
  if decide (0x41 ≤ n) && decide (n ≤ 0x5a) then some (n - 0x41)
  else if decide (0x61 ≤ n) && decide (n ≤ 0x7a) then some (n - 0x61 + 26)
  else if decide (0x30 ≤ n) && decide (n ≤ 0x39) then some (n - 0x30 + 52)
  else if c == '+' then some 62
  else if c == '/' then some 63
  else none

/-- `binascii.b2a_base64(value).decode().strip()`: no line breaks, padded with `=`
(engine.py 209-219) -/
def b64Encode : List UInt8 → List Char
  | [] => []
  | [a] =>
    [b64Char (a.toNat / 4), b64Char (a.toNat % 4 * 16), '=', '=']
  | [a, b] =>
    [b64Char (a.toNat / 4), b64Char (a.toNat % 4 * 16 + b.toNat / 16),
     b64Char (b.toNat % 16 * 4), '=']
  | a :: b :: c :: rest =>
    b64Char (a.toNat / 4) :: b64Char (a.toNat % 4 * 16 + b.toNat / 16) ::
    b64Char (b.toNat % 16 * 4 + c.toNat / 64) :: b64Char (c.toNat % 64) :: b64Encode rest

/-- The loop of `binascii.a2b_base64` (non-strict mode).  `q` is the position in the group of four,
`left` the bits carried over, `pads` the number of consecutive `=`.  Characters outside the
alphabet are skipped (engine.py 312-325). -/
def b64DecodeAux : List Char → Nat → Nat → Nat → Option (List UInt8)
  | [], q, _, _ => if q = 0 then some [] else none
  | c :: cs, q, left, pads =>
    if c == '=' then
      if 2 ≤ q then
        if 4 ≤ q + (pads + 1) then some [] else b64DecodeAux cs q left (pads + 1)
      else b64DecodeAux cs q left pads
    else
      match b64Val c with
      | none => b64DecodeAux cs q left pads
      | some v =>
        if q = 0 then b64DecodeAux cs 1 v 0
        else if q = 1 then
          (b64DecodeAux cs 2 (v % 16) 0).map (UInt8.ofNat (left * 4 + v / 16) :: ·)
        else if q = 2 then
          (b64DecodeAux cs 3 (v % 4) 0).map (UInt8.ofNat (left * 16 + v / 4) :: ·)
        else
          (b64DecodeAux cs 0 0 0).map (UInt8.ofNat (left * 64 + v) :: ·)

/-- `binascii.a2b_base64(value.encode())`, `none` for binascii.Error (engine.py 312-325) -/
def b64Decode (s : List Char) : Option (List UInt8) := b64DecodeAux s 0 0 0

end RE

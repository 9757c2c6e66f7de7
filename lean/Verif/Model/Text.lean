import Verif.Model.Types
import Verif.Model.Float64

/-!
# Text: whitespace, splitting, ASCII case, number and timedelta literals
-/

namespace RE

/-- `str.isspace` for one character (builtins.py 84). -/
def isPySpace (c : Char) : Bool :=
  let n := c.toNat
  (decide (0x9 ≤ n) && decide (n ≤ 0xd)) || (decide (0x1c ≤ n) && decide (n ≤ 0x20)) ||
  n == 0x85 || n == 0xa0 || n == 0x1680 || (decide (0x2000 ≤ n) && decide (n ≤ 0x200a)) ||
  n == 0x2028 || n == 0x2029 || n == 0x202f || n == 0x205f || n == 0x3000

/-- `str.strip()` (parser/utilities.py 71-87) -/
def pyStrip (s : List Char) : List Char :=
  ((s.dropWhile isPySpace).reverse.dropWhile isPySpace).reverse

/-- `s.split(sep, maxsplit)` for a non-empty separator.  `k` is the number of splits left (`none` for
no limit), `skip` counts characters of a separator still to be dropped, `cur` is the current part
in reverse (builtins.py 84). -/
def splitSepAux (sep : List Char) : List Char → Option Nat → Nat → List Char → List (List Char)
  | [], _, _, cur => [cur.reverse]
  | _ :: cs, k, skip + 1, cur => splitSepAux sep cs k skip cur
  | c :: cs, k, 0, cur =>
    if k != some 0 && sep.isPrefixOf (c :: cs) then
      cur.reverse :: splitSepAux sep cs (k.map (· - 1)) (sep.length - 1) []
    else splitSepAux sep cs k 0 (c :: cur)

/-- `s.split(sep, maxsplit)`, `sep` not empty (builtins.py 84) -/
def splitSep (sep s : List Char) (maxsplit : Option Nat) : List (List Char) :=
  splitSepAux sep s maxsplit 0 []

/-- `s.split(None, maxsplit)`: words separated by runs of whitespace; when the limit is reached the
rest is kept as it is, without its leading whitespace.  `cur = none`: between words
(builtins.py 84). -/
def splitWsAux : List Char → Option Nat → Option (List Char) → List (List Char)
  | [], _, none => []
  | [], _, some cur => [cur.reverse]
  | c :: cs, k, none =>
    if isPySpace c then splitWsAux cs k none
    else if k == some 0 then [c :: cs]
    else splitWsAux cs (k.map (· - 1)) (some [c])
  | c :: cs, k, some cur =>
    if isPySpace c then cur.reverse :: splitWsAux cs k none
    else splitWsAux cs k (some (c :: cur))

/-- `s.split(None, maxsplit)` (builtins.py 84) -/
def splitWs (s : List Char) (maxsplit : Option Nat) : List (List Char) := splitWsAux s maxsplit none

/-- ASCII lower case (engine.py 300-302) -/
def asciiLower (c : Char) : Char :=
  if decide (0x41 ≤ c.toNat) && decide (c.toNat ≤ 0x5a) then Char.ofNat (c.toNat + 32) else c

/-- ASCII upper case (engine.py 304-306) -/
def asciiUpper (c : Char) : Char :=
  if decide (0x61 ≤ c.toNat) && decide (c.toNat ≤ 0x7a) then Char.ofNat (c.toNat - 32) else c

/-- all characters are ASCII (engine.py 300-306) -/
def isAscii (s : List Char) : Bool := s.all (fun c => decide (c.toNat < 128))

/-- `[0-9]` -/
def isDigit (c : Char) : Bool := decide (0x30 ≤ c.toNat) && decide (c.toNat ≤ 0x39)

/-- value of a digit in bases up to 16 (parser/utilities.py 71-87) -/
def digitVal (c : Char) : Option Nat :=
  let n := c.toNat
  if decide (0x30 ≤ n) && decide (n ≤ 0x39) then some (n - 0x30)
  else if decide (0x61 ≤ n) && decide (n ≤ 0x66) then some (n - 0x61 + 10)
  else if decide (0x41 ≤ n) && decide (n ≤ 0x46) then some (n - 0x41 + 10)
  else none

/-- value of a digit string in a base, left to right; `none` if a character is not a digit of that
base (parser/utilities.py 71-87) -/
def readNat (base : Nat) : Nat → List Char → Option Nat
  | acc, [] => some acc
  | acc, c :: cs =>
    match digitVal c with
    | some d => if d < base then readNat base (acc * base + d) cs else none
    | none => none

/-- the longest prefix of digits, and the rest (parser/utilities.py 71-87) -/
def spanDigits : List Char → List Char × List Char
  | [] => ([], [])
  | c :: cs =>
    if isDigit c then
      let (a, b) := spanDigits cs
      (c :: a, b)
    else ([], c :: cs)

/-- an optional sign: is it a minus, and the rest (parser/utilities.py 71-87) -/
def takeSign : List Char → Bool × List Char
  | '-' :: r => (true, r)
  | '+' :: r => (false, r)
  | r => (false, r)

/-- an optional decimal point with the digits after it, and the rest (parser/utilities.py 71-87) -/
def takeFraction : List Char → List Char × List Char
  | '.' :: r => spanDigits r
  | r => ([], r)

/-- an optional `s` (signalling NaN), and the rest (parser/utilities.py 71-87) -/
def dropS : List Char → List Char
  | 's' :: r => r
  | r => r

/-- the exponent part `[eE][+-]?[0-9]+` at the end of a number, 0 if absent -/
def readExponent : List Char → Option Int
  | [] => some 0
  | c :: cs =>
    if c == 'e' || c == 'E' then
      let (neg, ds) := takeSign cs
      if ds.isEmpty then none
      else
        match readNat 10 0 ds with
        | some n => some (if neg then -(n : Int) else n)
        | none => none
    else none

/-- The numbers libmpdec can represent on a 64-bit machine: the exponent of the leading digit is at most
`MAX_EMAX = 999999999999999999`, the exponent of the last digit at least `MIN_ETINY = -1999999999999999997`.  For other
texts `decimal.Decimal` raises InvalidOperation (parser/utilities.py 71-87). -/
def decRepresentable (coeff : Nat) (exp : Int) : Bool :=
  decide (exp + (ndigits coeff : Int) - 1 ≤ 999999999999999999) && decide (-1999999999999999997 ≤ exp)

/-- The finite numbers of `decimal.Decimal(string)`: `sign? (digits ('.' digits?)? | '.' digits)
exponent?` (ASCII digits only) (parser/utilities.py 71-87). -/
def readFinite (s : List Char) : Option Dec :=
  let (neg, s) := takeSign s
  let (ip, rest) := spanDigits s
  let (fp, rest) := takeFraction rest
  if ip.isEmpty && fp.isEmpty then none
  else
    match readNat 10 0 (ip ++ fp), readExponent rest with
    | some n, some e =>
      if decRepresentable n (e - fp.length) then some (.fin neg n (e - fp.length)) else none
    | _, _ => none

/-- `decimal.Decimal(string)`; `none` for InvalidOperation.  Surrounding whitespace and underscores
are removed first.  Unicode digits are not modelled; signalling NaNs and NaN payloads become plain
NaN (parser/utilities.py 71-87). -/
def decimalOfString (s : List Char) : Option Dec :=
  let t := (pyStrip s).filter (· != '_')
  let (neg, u) := takeSign t
  let w := u.map asciiLower
  if w == "inf".toList || w == "infinity".toList then some (.inf neg)
  else
    let w' := dropS w
    if "nan".toList.isPrefixOf w' && (w'.drop 3).all isDigit then some .nan
    else readFinite t

/-- digits with single underscores between them, as in Python integer literals (after the prefix an
underscore may come first) (parser/utilities.py 82) -/
def dropUnderscores : List Char → Option (List Char)
  | [] => some []
  | '_' :: c :: cs => if c == '_' then none else (dropUnderscores cs).map (c :: ·)
  | ['_'] => none
  | c :: cs => (dropUnderscores cs).map (c :: ·)

/-- `ast.literal_eval` of a prefixed integer literal (parser/utilities.py 82).  Trailing blanks or comments
are not modelled. -/
def readPrefixed (base : Nat) (ds : List Char) : Option Nat :=
  match dropUnderscores ds with
  | some (d :: ds') => readNat base 0 (d :: ds')
  | _ => none

/-- `parse_float` (parser/utilities.py 71-87): FloatSyntaxError is the only error. -/
def parseFloat (s : List Char) : Except Err Dec :=
  let bad : Except Err Dec := .error (.eng .floatSyntax)
  let int (r : Option Nat) : Except Err Dec :=
    match r with
    | some n => .ok (.ofInt n)
    | none => bad
  match s with
  | '0' :: c :: rest =>
    if isDigit c then bad
    else if c == 'b' then int (readPrefixed 2 rest)
    else if c == 'o' then int (readPrefixed 8 rest)
    else if c == 'x' then int (readPrefixed 16 rest)
    else
      match decimalOfString s with
      | some d => .ok d
      | none => bad
  | _ =>
    match decimalOfString s with
    | some d => .ok d
    | none => bad

/-- one component `[0-9]+([,.][0-9]+)?X` of a duration: integer digits, fraction digits, and the
rest of the text; `none` if the text does not start with such a component. -/
def readComponent (letter : Char) (s : List Char) : Option (List Char × List Char × List Char) :=
  let (ip, rest) := spanDigits s
  if ip.isEmpty then none
  else
    match rest with
    | c :: r =>
      if c == letter then some (ip, [], r)
      else if c == '.' || c == ',' then
        let (fp, rest') := spanDigits r
        if fp.isEmpty then none
        else
          match rest' with
          | c' :: r' => if c' == letter then some (ip, fp, r') else none
          | [] => none
      else none
    | [] => none

/-- an optional component (parser/utilities.py 42-53) -/
def optComponent (letter : Char) (unit : Int) (s : List Char) :
    List (Int × List Char × List Char) × List Char :=
  match readComponent letter s with
  | some (ip, fp, rest) => ([(unit, ip, fp)], rest)
  | none => ([], s)

/-- The regular expression `timedelta_regex` anchored at both ends (parser/utilities.py 42-53, 99): the
components as (unit in microseconds, integer digits, fraction digits).  `$` also matches before a
final newline.  `P(?!\b)` excludes a bare `P`. -/
def timedeltaComponents (s : List Char) : Option (List (Int × List Char × List Char)) :=
  match s with
  | 'P' :: rest =>
    let rest := if rest.getLast? = some '\n' then rest.dropLast else rest
    if rest.isEmpty then none
    else
      let (w, r1) := optComponent 'W' (7 * dayUs) rest
      let (d, r2) := optComponent 'D' dayUs r1
      match r2 with
      | [] => some (w ++ d)
      | 'T' :: r3 =>
        let (h, r4) := optComponent 'H' 3600000000 r3
        let (m, r5) := optComponent 'M' 60000000 r4
        let (sec, r6) := optComponent 'S' 1000000 r5
        if r6.isEmpty then some (w ++ d ++ h ++ m ++ sec) else none
      | _ => none
  | _ => none

/-- `float(val[:-1].replace(',', '.'))` for the digits of a component (parser/utilities.py 105-107). -/
def componentFloat (ip fp : List Char) : ℚ :=
  fl64 (((readNat 10 0 ip).getD 0 : Nat) + ((readNat 10 0 fp).getD 0 : Nat) / ((10 ^ fp.length : Nat) : ℚ))

/-- `parse_timedelta` (parser/utilities.py 89-115).  The components that are absent are 0.0, which changes
nothing (`tdAccum`).  A total out of range is an OverflowError. -/
def parseTimedelta (s : List Char) : Except Err Int :=
  match timedeltaComponents s with
  | none => .error (.eng .timedeltaSyntax)
  | some cs =>
    let us := timedeltaOf (cs.map (fun c => (c.1, componentFloat c.2.1 c.2.2)))
    if timedeltaInRange us then .ok us else .error (.py .overflowError)

end RE

import Verif.Model.Parser

/-!
# String and bytes literals
-/

namespace RE

/-- A hexadecimal digit, as `codecs.encode(…, 'unicode-escape')` writes it (parser/__init__.py 458). -/
def hexDigitChar (d : Nat) : Char :=
  (['0', '1', '2', '3', '4', '5', '6', '7', '8', '9', 'a', 'b', 'c', 'd', 'e', 'f'][d]?).getD '0'

/-- `n` in `w` hexadecimal digits (parser/__init__.py 458) -/
def hexChars : Nat → Nat → List Char
  | 0, _ => []
  | w + 1, n => hexChars w (n / 16) ++ [hexDigitChar (n % 16)]

/-- `codecs.encode(value, 'unicode-escape')` of one character (parser/__init__.py 458). -/
def ueChar (c : Char) : List Char :=
  if c == '\\' then ['\\', '\\']
  else if c == '\t' then ['\\', 't']
  else if c == '\n' then ['\\', 'n']
  else if c == '\r' then ['\\', 'r']
  else if decide (32 ≤ c.toNat) && decide (c.toNat < 127) then [c]
  else if c.toNat < 0x100 then '\\' :: 'x' :: hexChars 2 c.toNat
  else if c.toNat < 0x10000 then '\\' :: 'u' :: hexChars 4 c.toNat
  else '\\' :: 'U' :: hexChars 8 c.toNat

/-- `codecs.encode(value, 'unicode-escape').decode()` (parser/__init__.py 458) -/
def ueEncode (t : List Char) : List Char := t.flatMap ueChar

/-- `value.replace('\\\\', '\\')` (parser/__init__.py 459) -/
def unDouble : List Char → List Char
  | '\\' :: '\\' :: r => '\\' :: unDouble r
  | c :: r => c :: unDouble r
  | [] => []

/-- What CPython's `unicode-escape` codec takes from the Unicode database: the character of a name
(parser/__init__.py 460).  Simplification: surrogates, which `\ud800` denotes in Python, are no
characters here; `surrogate` gives the ones that stand in for them. -/
structure UniData where
  name : List Char → Option Char
  surrogate : Nat → Char

/-- the escapes of one letter (parser/__init__.py 420, 460) -/
def simpleEscape (c : Char) : Option Char :=
  [('\\', '\\'), ('\'', '\''), ('"', '"'), ('a', Char.ofNat 7), ('b', Char.ofNat 8), ('f', Char.ofNat 12),
   ('n', '\n'), ('r', '\r'), ('t', '\t'), ('v', Char.ofNat 11)].lookup c

/-- at most `n` octal digits at the front (parser/__init__.py 420, 460) -/
def takeOctal : Nat → List Char → List Char × List Char
  | n + 1, c :: r => if isDigitOf 8 c then let (ds, rest) := takeOctal n r; (c :: ds, rest) else ([], c :: r)
  | _, r => ([], r)

/-- the character with a code (parser/__init__.py 460) -/
def UniData.char (u : UniData) (n : Nat) : Char := if n.isValidChar then Char.ofNat n else u.surrogate n

/-- `\xhh`, `\uhhhh`, `\Uhhhhhhhh`: exactly `w` hexadecimal digits (parser/__init__.py 460) -/
def hexEscape (u : UniData) (w : Nat) (r : List Char) : Option (List Char × List Char) :=
  if (r.take w).length = w then
    match readNat 16 0 (r.take w) with
    | some n => if n ≤ 0x10ffff then some ([u.char n], r.drop w) else none
    | none => none
  else none

/-- `\N{name}` (parser/__init__.py 460) -/
def nameEscape (u : UniData) : List Char → Option (List Char × List Char)
  | '{' :: r =>
    match r.dropWhile (· != '}') with
    | _ :: rest => (u.name (r.takeWhile (· != '}'))).map (fun c => ([c], rest))
    | [] => none
  | _ => none

/-- One escape sequence of the `unicode-escape` codec, after its backslash: what it denotes, and what
follows it (parser/__init__.py 460). -/
def ueEscape (u : UniData) : List Char → Option (List Char × List Char)
  | [] => none
  | c :: r =>
    if c == '\n' then some ([], r)
    else
      match simpleEscape c with
      | some v => some ([v], r)
      | none =>
        if isDigitOf 8 c then
          let (ds, rest) := takeOctal 2 r
          some ([u.char ((readNat 8 0 (c :: ds)).getD 0)], rest)
        else if c == 'x' then hexEscape u 2 r
        else if c == 'u' then hexEscape u 4 r
        else if c == 'U' then hexEscape u 8 r
        else if c == 'N' then nameEscape u r
        else some (['\\', c], r)

/-- `codecs.decode(value, 'unicode-escape')` (parser/__init__.py 460) with at most `n` units; `none` is a
UnicodeError. -/
def ueDecode (u : UniData) : Nat → List Char → Option (List Char)
  | 0, [] => some []
  | 0, _ :: _ => none
  | _ + 1, [] => some []
  | n + 1, c :: r =>
    if c == '\\' then
      match ueEscape u r with
      | some (v, rest) => (ueDecode u n rest).map (v ++ ·)
      | none => none
    else (ueDecode u n r).map (c :: ·)

/-- The value of the text between the quotes of a string (parser/__init__.py 456-462). -/
def stringLit (u : UniData) (t : List Char) : Option String :=
  let v := unDouble (ueEncode t)
  (ueDecode u v.length v).map String.ofList

/-- One escape sequence of a bytes literal of Python, after its backslash (parser/__init__.py 420).
Python's tokenizer turns a carriage return into a newline; a newline after a backslash is skipped. -/
def byteEscape : List Char → Option (List UInt8 × List Char)
  | [] => none
  | c :: r =>
    if c == '\n' || c == '\r' then some ([], r)
    else
      match simpleEscape c with
      | some v => some ([UInt8.ofNat v.toNat], r)
      | none =>
        if isDigitOf 8 c then
          let (ds, rest) := takeOctal 2 r
          some ([UInt8.ofNat ((readNat 8 0 (c :: ds)).getD 0)], rest)
        else if c == 'x' then
          if (r.take 2).length = 2 then
            match readNat 16 0 (r.take 2) with
            | some n => some ([UInt8.ofNat n], r.drop 2)
            | none => none
          else none
        else some (['\\'.toNat.toUInt8, UInt8.ofNat c.toNat], r)

/-- The bytes of the text between the quotes (parser/__init__.py 420), at most `n` units; `none` is an
error. -/
def bytesDecode : Nat → List Char → Option (List UInt8)
  | 0, [] => some []
  | 0, _ :: _ => none
  | _ + 1, [] => some []
  | n + 1, c :: r =>
    if c == '\\' then
      match byteEscape r with
      | some (v, rest) => (bytesDecode n rest).map (v ++ ·)
      | none => none
    else if c == '\r' || c == '\n' then none
    else (bytesDecode n r).map (UInt8.ofNat c.toNat :: ·)

/-- `literal_eval('b' + p[1])` (parser/__init__.py 417-423), of the text with its quotes: characters that
are not ASCII, and the null character, are errors. -/
def bytesLit (t : List Char) : Option (List UInt8) :=
  let v := t.tail.dropLast
  if v.all (fun c => decide (0 < c.toNat) && decide (c.toNat < 128)) then bytesDecode v.length v else none

/-- The decoding of literals (parser/__init__.py 417-423, 454-463). -/
def pyCodec (u : UniData) : LitCodec := ⟨stringLit u, bytesLit⟩

end RE

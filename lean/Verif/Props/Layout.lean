import Verif.Props.Parens

/-!
# Specification of how tokens are laid out in a text (C41)

Nothing here refers to the scanners of the lexer.
-/

namespace RE

/-- What may be between the quotes `q` of a literal: no newline, no unescaped `q`, and a backslash
goes with the next character. -/
def quotedBody (q : Char) : List Char → Bool
  | [] => true
  | '\\' :: c :: r => c != '\n' && quotedBody q r
  | '\\' :: [] => false
  | c :: r => c != q && c != '\n' && quotedBody q r

/-- a quote -/
def isQuote (c : Char) : Bool := c == '"' || c == '\''

/-- a text in quotes -/
def Quoted (t : List Char) : Prop :=
  ∃ q body, isQuote q = true ∧ quotedBody q body = true ∧ t = q :: (body ++ [q])

/-- A name: letters, digits and underscores, not starting with a digit, maybe after a `$`. -/
def isName (t : List Char) : Bool :=
  match dropDollar t with
  | c :: r => isNameStart c && r.all isNameChar
  | [] => false

/-- the words that are not names -/
def reservedWords : List (List Char) :=
  ["true", "false", "inf", "nan", "null", "and", "in", "or", "not", "for", "if", "elif", "else",
   "while"].map String.toList

/-- an optional fraction -/
def Fraction (t : List Char) : Prop := t = [] ∨ ∃ ds, ds.all isDigit = true ∧ t = '.' :: ds

/-- an optional exponent -/
def Exponent (t : List Char) : Prop :=
  t = [] ∨ ∃ e sg ds, (e = 'e' ∨ e = 'E') ∧ (sg = [] ∨ sg = ['+'] ∨ sg = ['-']) ∧ ds ≠ [] ∧
    ds.all isDigit = true ∧ t = e :: (sg ++ ds)

/-- a number -/
def Number (t : List Char) : Prop :=
  (∃ c base ds, prefixBase c = some base ∧ ds ≠ [] ∧ ds.all (isDigitOf base) = true ∧
    t = '0' :: c :: ds) ∨
  (∃ ip fp ep, ip ≠ [] ∧ ip.all isDigit = true ∧ Fraction fp ∧ Exponent ep ∧ t = ip ++ fp ++ ep) ∨
  (∃ fp ep, fp ≠ [] ∧ fp.all isDigit = true ∧ Exponent ep ∧ t = '.' :: fp ++ ep)

/-- the words that are operators or constants -/
def wordKinds : List Kind :=
  [.TRUE, .FALSE, .FLOAT_INF, .FLOAT_NAN, .NULL, .AND, .IN, .OR, .NOT, .FOR, .IF]

/-- `m` is a way to write the token `x`. -/
def Written (x : Lexeme) (m : List Char) : Prop :=
  match x.kind with
  | .STRING => Quoted x.text ∧ (m = x.text ∨ m = 's' :: x.text)
  | .BYTES => Quoted x.text ∧ m = 'b' :: x.text
  | .DATETIME => ∃ q, isQuote q = true ∧ quotedBody q x.text = true ∧ m = 'd' :: q :: (x.text ++ [q])
  | .TIMEDELTA => ∃ q, isQuote q = true ∧ quotedBody q x.text = true ∧ m = 't' :: q :: (x.text ++ [q])
  | .FLOAT => Number x.text ∧ m = x.text
  | .SYMBOL => isName x.text = true ∧ x.text ∉ reservedWords ∧ m = x.text
  | .COMMENT => (∃ c, '\n' ∉ c ∧ x.text = '#' :: c) ∧ m = x.text
  | .LBRACKET => (x.text = ['['] ∨ x.text = ['&', '[']) ∧ m = x.text
  | .END => False
  | k => x.text = spelling k ∧ m = spelling k

/-- the first character, if any, has the property -/
def headAll (p : Char → Bool) : List Char → Bool
  | c :: _ => p c
  | [] => true

/-- The `&` of a bitwise and is not the start of `&[` or `&.name`. -/
def notAccess : List Char → Bool
  | c :: r => !(c == '[') && !(c == '.' && nameAhead r)
  | [] => true

/-- What follows `m` does not make another token of it, for tokens other than numbers.  `b` is the
character before. -/
def ends (b : Option Char) (x : Lexeme) (m rest : List Char) : Bool :=
  match x.kind with
  | .MUL => headAll (fun c => c != '*') rest
  | .TDIV => headAll (fun c => c != '/') rest
  | .LT => headAll (fun c => c != '=' && c != '<') rest
  | .GT => headAll (fun c => c != '=' && c != '>') rest
  | .EQ_FZM | .NE_FZM => headAll (fun c => c != '~') rest
  | .BWAND => !behindNonSpace b || notAccess rest
  | .ATTR | .ATTR_SAFE => nameAhead rest
  | .COMMENT => rest.isEmpty || rest == ['\n']
  | k =>
    if k = .SYMBOL ∨ k ∈ wordKinds then
      headAll (fun c => !isNameChar c && !(m.length == 1 && m.any (fun c => c ∈ ['b', 'd', 't', 's'])
        && isQuote c)) rest
    else true

/-- `m` is all of the number at the front of `m ++ rest`. -/
def wholeNumber (m rest : List Char) : Prop :=
  ∀ p r, rest = p ++ r → Number (m ++ p) → p = []

/-- The token `x`, written `m`, ends before `rest`.  After white space this holds of every token but
the dots before an attribute and a comment. -/
def Ends (b : Option Char) (x : Lexeme) (m rest : List Char) : Prop :=
  ends b x m rest = true ∧ (x.kind = .FLOAT → wholeNumber m rest)

/-- The token must follow something that is not white space. -/
def attached (x : Lexeme) : Bool :=
  decide (x.kind = .ATTR) || decide (x.kind = .ATTR_SAFE) ||
    (decide (x.kind = .LBRACKET) && decide (x.text = ['&', '[']))

/-- blanks and newlines -/
def isGap (c : Char) : Bool := c == ' ' || c == '\t' || c == '\n'

/-- A piece of a text: a blank or newline, or a token and how it is written. -/
inductive Piece where
  | gap (c : Char)
  | tok (x : Lexeme) (m : List Char)

/-- how the piece is written -/
def Piece.text : Piece → List Char
  | .gap c => [c]
  | .tok _ m => m

/-- the text of the pieces -/
def textOf (ps : List Piece) : List Char := ps.flatMap Piece.text

/-- the tokens among the pieces -/
def toksOf (ps : List Piece) : List Lexeme :=
  ps.filterMap fun p => match p with
    | .gap _ => none
    | .tok x _ => some x

/-- The pieces form a text: each token is written as it should, and ends where the next piece starts.
`b` is the character before. -/
def Laid : Option Char → List Piece → Prop
  | _, [] => True
  | _, .gap c :: ps => isGap c = true ∧ Laid (some c) ps
  | b, .tok x m :: ps => Written x m ∧ Ends b x m (textOf ps) ∧
      (attached x = true → behindNonSpace b = true) ∧ Laid m.getLast? ps

end RE

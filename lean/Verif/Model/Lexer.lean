import Verif.Model.Suggest
import Verif.Model.Tables
import Verif.Model.Text

/-!
# The lexer

PLY joins the token regular expressions into one alternation: first the rules given as functions, in
source order, then the rules given as strings, longest regular expression first.  The first
alternative that matches at the position wins; a match of an alternative is the one Python's `re`
finds (greedy, or lazy for the strings).
-/

namespace RE

/-- A token as the parser sees it: the kind and the value (`t.type`, `t.value`)
(parser/__init__.py 108-250). -/
structure Lexeme where
  kind : Kind
  text : List Char
  deriving DecidableEq, Repr, Inhabited

/-- A token with its position (`t.lineno`, `t.lexpos`) (parser/__init__.py 108-250). -/
structure Tok where
  lex : Lexeme
  line : Nat
  pos : Nat
  deriving DecidableEq, Repr, Inhabited

/-- `[01]+`, `[0-7]+`, `[0-9a-fA-F]+`: a digit of the base -/
def isDigitOf (base : Nat) (c : Char) : Bool :=
  match digitVal c with
  | some d => decide (d < base)
  | none => false

/-- The rest of a quoted string after the opening quote `q`: `([^\\\n]|(\\.))*?(?P=quote)`
(parser/__init__.py 213-232).  Gives the matched text, closing quote included, and what follows. -/
def scanQuoted (q : Char) : List Char → Option (List Char × List Char)
  | [] => none
  | c :: r =>
    if c == q then some ([c], r)
    else if c == '\\' then
      match r with
      | [] => none
      | d :: r' =>
        if d == '\n' then none
        else (scanQuoted q r').map (fun p => (c :: d :: p.1, p.2))
    else if c == '\n' then none
    else (scanQuoted q r).map (fun p => (c :: p.1, p.2))

/-- a quoted string: the matched text, quotes included, and what follows
(parser/__init__.py 228-232) -/
def scanString : List Char → Option (List Char × List Char)
  | c :: r =>
    if c == '"' || c == '\'' then (scanQuoted c r).map (fun p => (c :: p.1, p.2)) else none
  | [] => none

/-- an optional exponent `([eE][+-]?[0-9]+)?`: the matched text and what follows -/
def scanExponent : List Char → List Char × List Char
  | c :: r =>
    if c == 'e' || c == 'E' then
      match r with
      | s :: r' =>
        if s == '+' || s == '-' then
          let (ds, rest) := r'.span isDigit
          if ds.isEmpty then ([], c :: r) else (c :: s :: ds, rest)
        else
          let (ds, rest) := r.span isDigit
          if ds.isEmpty then ([], c :: r) else (c :: ds, rest)
      | [] => ([], c :: r)
    else ([], c :: r)
  | [] => ([], [])

/-- `(\.[0-9]*)?` -/
def scanFraction : List Char → List Char × List Char
  | c :: r => if c == '.' then let (ds, rest) := r.span isDigit; (c :: ds, rest) else ([], c :: r)
  | [] => ([], [])

/-- The base of a number that starts with `0b`, `0o` or `0x` (parser/__init__.py 133). -/
def prefixBase (c : Char) : Option Nat :=
  if c == 'b' then some 2 else if c == 'o' then some 8 else if c == 'x' then some 16 else none

/-- `0(b[01]+|o[0-7]+|x[0-9a-fA-F]+)` -/
def scanPrefixed : List Char → Option (List Char × List Char)
  | z :: c :: r =>
    if z == '0' then
      match prefixBase c with
      | some b =>
        let (ds, rest) := r.span (isDigitOf b)
        if ds.isEmpty then none else some (z :: c :: ds, rest)
      | none => none
    else none
  | _ => none

/-- `[0-9]+(\.[0-9]*)?([eE][+-]?[0-9]+)?` -/
def scanDecimal (s : List Char) : Option (List Char × List Char) :=
  let (ip, r1) := s.span isDigit
  if ip.isEmpty then none
  else
    let (fp, r2) := scanFraction r1
    let (ep, r3) := scanExponent r2
    some (ip ++ fp ++ ep, r3)

/-- `\.[0-9]+([eE][+-]?[0-9]+)?` -/
def scanPointed : List Char → Option (List Char × List Char)
  | c :: r =>
    if c == '.' then
      let (fp, r2) := r.span isDigit
      if fp.isEmpty then none
      else
        let (ep, r3) := scanExponent r2
        some (c :: fp ++ ep, r3)
    else none
  | [] => none

/-- `t_FLOAT` (parser/__init__.py 133): the alternatives are tried in order. -/
def scanFloat (s : List Char) : Option (List Char × List Char) :=
  match scanPrefixed s with
  | some p => some p
  | none =>
    match scanDecimal s with
    | some p => some p
    | none => scanPointed s

/-- `(?<=\S)`: the character before the position exists and is not white space
(parser/__init__.py 129, 135-136). -/
def behindNonSpace : Option Char → Bool
  | some c => !isPySpace c
  | none => false

/-- `reserved_words` (parser/__init__.py 91-107) and the kind of any other name. -/
def wordKind (s : List Char) : Kind :=
  if s = "true".toList then .TRUE
  else if s = "false".toList then .FALSE
  else if s = "inf".toList then .FLOAT_INF
  else if s = "nan".toList then .FLOAT_NAN
  else if s = "null".toList then .NULL
  else if s = "and".toList then .AND
  else if s = "in".toList then .IN
  else if s = "or".toList then .OR
  else if s = "not".toList then .NOT
  else if s = "for".toList then .FOR
  else if s = "if".toList then .IF
  else .SYMBOL

/-- `t_SYMBOL` (parser/__init__.py 234-239): `\$?[a-zA-Z_][a-zA-Z0-9_]*`. -/
def scanSymbol : List Char → Option (List Char × List Char)
  | c :: r =>
    if c == '$' then
      match r with
      | d :: r' =>
        if isNameStart d then
          let (cs, rest) := r'.span isNameChar
          some (c :: d :: cs, rest)
        else none
      | [] => none
    else if isNameStart c then
      let (cs, rest) := r.span isNameChar
      some (c :: cs, rest)
    else none
  | [] => none

/-- the words `t_SYMBOL` rejects (parser/__init__.py 236) -/
def isKeyword (s : List Char) : Bool :=
  s = "elif".toList || s = "else".toList || s = "while".toList

/-- `t_COMMENT` (parser/__init__.py 241-243): `\#.*$`, where `$` is the end of the text or the place
before a newline that ends the text. -/
def scanComment : List Char → Option (List Char × List Char)
  | c :: r =>
    if c == '#' then
      let (cs, rest) := r.span (· != '\n')
      if rest.isEmpty || rest == ['\n'] then some (c :: cs, rest) else none
    else none
  | [] => none

/-- What a match of the master regular expression makes the lexer do
(parser/__init__.py 114-250). -/
inductive Hit where
  /-- return a token, `rest` follows the match -/
  | token (x : Lexeme) (matched rest : List Char)
  /-- `t_newline` (parser/__init__.py 245-247): skip newlines -/
  | newlines (matched rest : List Char)
  /-- `t_SYMBOL` raises RuleSyntaxError for a word reserved for future use -/
  | keyword
  deriving DecidableEq, Repr

/-- the first `n` characters as a token of kind `k` (parser/__init__.py 114-250) -/
def Hit.take (k : Kind) (n : Nat) (s : List Char) : Option Hit :=
  some (.token ⟨k, s.take n⟩ (s.take n) (s.drop n))

/-- a token with a computed value (parser/__init__.py 114-250) -/
def Hit.ofScan (k : Kind) (value : List Char → List Char) (before : List Char)
    (p : Option (List Char × List Char)) : Option Hit :=
  p.map (fun p => .token ⟨k, value (before ++ p.1)⟩ (before ++ p.1) p.2)

/-- the characters that are one or two character operators, by their first character: the function
rules `t_POW`, `t_FDIV`, `t_LT`, `t_GT`, `t_EQ_FZS`, `t_NE_FZS` (parser/__init__.py 179-211) -/
def hitOperator (s : List Char) : Option Hit :=
  match s with
  | c :: r =>
    if c == '*' then (if r.head? = some '*' then Hit.take .POW 2 s else Hit.take .MUL 1 s)
    else if c == '/' then (if r.head? = some '/' then Hit.take .FDIV 2 s else Hit.take .TDIV 1 s)
    else if c == '<' then
      (if r.head? = some '=' then Hit.take .LE 2 s
       else if r.head? = some '<' then Hit.take .BWLSH 2 s else Hit.take .LT 1 s)
    else if c == '>' then
      (if r.head? = some '=' then Hit.take .GE 2 s
       else if r.head? = some '>' then Hit.take .BWRSH 2 s else Hit.take .GT 1 s)
    else if c == '=' then
      (if r.head? = some '~' then
        (if r.tail.head? = some '~' then Hit.take .EQ_FZS 3 s else Hit.take .EQ_FZM 2 s)
       else none)
    else if c == '!' then
      (if r.head? = some '~' then
        (if r.tail.head? = some '~' then Hit.take .NE_FZS 3 s else Hit.take .NE_FZM 2 s)
       else none)
    else none
  | [] => none

/-- `t.value[2:-1]` (parser/__init__.py 221, 226) -/
def inner2 (s : List Char) : List Char := (s.drop 2).dropLast

/-- the rules `t_BYTES`, `t_DATETIME`, `t_TIMEDELTA`, `t_STRING` (parser/__init__.py 213-232) -/
def hitString (s : List Char) : Option Hit :=
  match s with
  | c :: r =>
    if c == 'b' then Hit.ofScan .BYTES List.tail [c] (scanString r)
    else if c == 'd' then Hit.ofScan .DATETIME inner2 [c] (scanString r)
    else if c == 't' then Hit.ofScan .TIMEDELTA inner2 [c] (scanString r)
    else if c == 's' then Hit.ofScan .STRING List.tail [c] (scanString r)
    else Hit.ofScan .STRING id [] (scanString s)
  | [] => none

/-- `t_SYMBOL` (parser/__init__.py 234-239) -/
def hitSymbol (s : List Char) : Option Hit :=
  match scanSymbol s with
  | some (m, rest) => if isKeyword m then some .keyword else some (.token ⟨wordKind m, m⟩ m rest)
  | none => none

/-- `t_newline` (parser/__init__.py 245-247): `\n+` -/
def hitNewline (s : List Char) : Option Hit :=
  let (m, rest) := s.span (· == '\n')
  if m.isEmpty then none else some (.newlines m rest)

/-- the next character can start an attribute name (the lookahead of `t_ATTR`, `t_ATTR_SAFE`,
parser/__init__.py 135-136) -/
def nameAhead : List Char → Bool
  | c :: _ => isNameStart c
  | [] => false

/-- `t_ATTR_SAFE`, `t_ATTR` and `t_LBRACKET` (parser/__init__.py 129, 135-136), in this order -/
def hitAccess (behind : Option Char) (s : List Char) : Option Hit :=
  match s with
  | c :: r =>
    if c == '&' then
      if behindNonSpace behind then
        (if r.head? = some '.' && nameAhead r.tail then Hit.take .ATTR_SAFE 2 s
         else if r.head? = some '[' then Hit.take .LBRACKET 2 s
         else none)
      else none
    else if c == '.' then
      (if behindNonSpace behind && nameAhead r then Hit.take .ATTR 1 s else none)
    else if c == '[' then Hit.take .LBRACKET 1 s
    else none
  | [] => none

/-- the kind of a one character token (parser/__init__.py 116-132) -/
def punctKind (c : Char) : Option Kind :=
  if c == '&' then some .BWAND
  else if c == '|' then some .BWOR
  else if c == '^' then some .BWXOR
  else if c == '(' then some .LPAREN
  else if c == ')' then some .RPAREN
  else if c == '?' then some .QMARK
  else if c == ':' then some .COLON
  else if c == '+' then some .ADD
  else if c == '-' then some .SUB
  else if c == '%' then some .MOD
  else if c == ',' then some .COMMA
  else if c == ']' then some .RBRACKET
  else if c == '{' then some .LBRACE
  else if c == '}' then some .RBRACE
  else none

/-- the rules of two characters: `t_EQ`, `t_NE` and the single characters (parser/__init__.py
116-132) -/
def hitPunct (s : List Char) : Option Hit :=
  match s with
  | c :: r =>
    if c == '=' then (if r.head? = some '=' then Hit.take .EQ 2 s else none)
    else if c == '!' then (if r.head? = some '=' then Hit.take .NE 2 s else none)
    else
      match punctKind c with
      | some k => Hit.take k 1 s
      | none => none
  | [] => none

/-- The master regular expression at a position: the rules in the order PLY tries them
(parser/__init__.py 114-250). -/
def lexHit (behind : Option Char) (s : List Char) : Option Hit :=
  (hitOperator s).orElse fun _ =>
  (hitString s).orElse fun _ =>
  (hitSymbol s).orElse fun _ =>
  (Hit.ofScan .COMMENT id [] (scanComment s)).orElse fun _ =>
  (hitNewline s).orElse fun _ =>
  (Hit.ofScan .FLOAT id [] (scanFloat s)).orElse fun _ =>
  (hitAccess behind s).orElse fun _ =>
  hitPunct s

/-- How the stream of tokens ends (parser/__init__.py 234-250). -/
inductive Stop where
  /-- the end of the text; the line number the lexer is left with -/
  | eof (line : Nat)
  /-- `t_error` (parser/__init__.py 249-250) on the character at a position -/
  | illegal (c : Char) (line pos : Nat)
  /-- a word reserved for future use (parser/__init__.py 236-237); no position is given -/
  | keyword (line : Nat)
  deriving DecidableEq, Repr, Inhabited

/-- `t_ignore` (parser/__init__.py 114) -/
def isBlank (c : Char) : Bool := c == ' ' || c == '\t'

/-- The lexer run over a text (PLY's `Lexer.token`, called repeatedly): all tokens up to the end of
the text or the first lexical error.  The lexer gets no feedback from the parser, so the tokens do
not depend on when they are asked for.  `fuel` bounds the number of matches; the length of the text
is enough (parser/__init__.py 114-250). -/
def lexFrom : Nat → Option Char → Nat → Nat → List Char → List Tok × Stop
  | 0, _, line, _, _ => ([], .eof line)
  | _ + 1, _, line, _, [] => ([], .eof line)
  | fuel + 1, behind, line, pos, c :: r =>
    if isBlank c then lexFrom fuel (some c) line (pos + 1) r
    else
      match lexHit behind (c :: r) with
      | none => ([], .illegal c line pos)
      | some .keyword => ([], .keyword line)
      | some (.newlines m rest) =>
        lexFrom fuel m.getLast? (line + m.length) (pos + m.length) rest
      | some (.token x m rest) =>
        let (ts, stop) := lexFrom fuel m.getLast? line (pos + m.length) rest
        (⟨x, line, pos⟩ :: ts, stop)

/-- The tokens of a text, when the lexer's line counter is `line` (`Lexer.input` resets the position
but not the line) (parser/base.py 60, 79). -/
def lexText (line : Nat) (s : List Char) : List Tok × Stop := lexFrom s.length none line 0 s

end RE

import Verif.Model.Lexer
import Verif.Model.Rule

/-!
# The parser: grammar actions and the LALR driver
-/

namespace RE

/-- The decoding of string and bytes literals, which uses Python's codecs: the text between the
quotes of a string (parser/__init__.py 456-462), the text of a bytes literal with its quotes
(parser/__init__.py 419-422).  `none` is a decoding error. -/
structure LitCodec where
  str : List Char → Option String
  bytes : List Char → Option (List UInt8)

/-- Why parsing failed (parser/__init__.py 236-254). -/
inductive PErr where
  /-- `p_error` on a token (parser/__init__.py 253-254, errors.py 156-170) -/
  | unexpected (t : Tok)
  /-- `p_error` at the end of the text -/
  | unexpectedEnd
  /-- `t_error` (parser/__init__.py 249-250) -/
  | illegal (c : Char) (line pos : Nat)
  /-- a word reserved for future use (parser/__init__.py 236-237) -/
  | keyword
  /-- StringSyntaxError (parser/__init__.py 462) -/
  | badString
  /-- BytesSyntaxError (parser/__init__.py 422) -/
  | badBytes
  /-- the tables and the actions do not fit together (shown not to happen) -/
  | stuck
  deriving DecidableEq, Repr, Inhabited

/-- Semantic values on the parser's stack (`sym.value`) (parser/__init__.py 256-564). -/
inductive Sem where
  | tok (x : Lexeme)
  | node (r : Raw)
  | nodes (rs : List Raw)
  | pair (k v : Raw)
  | pairs (kvs : List (Raw × Raw))
  | stmt (r : Raw) (comment : Option String)

/-- `op_names` (parser/__init__.py 71-90) -/
def opNames : List (List Char × Kind) :=
  [("+".toList, .ADD), ("-".toList, .SUB), ("**".toList, .POW), ("*".toList, .MUL),
   ("/".toList, .TDIV), ("//".toList, .FDIV), ("%".toList, .MOD), ("&".toList, .BWAND),
   ("|".toList, .BWOR), ("^".toList, .BWXOR), ("<<".toList, .BWLSH), (">>".toList, .BWRSH),
   ("==".toList, .EQ), ("=~".toList, .EQ_FZM), ("=~~".toList, .EQ_FZS), ("!=".toList, .NE),
   ("!~".toList, .NE_FZM), ("!~~".toList, .NE_FZS), (">".toList, .GT), (">=".toList, .GE),
   ("<".toList, .LT), ("<=".toList, .LE), ("and".toList, .AND), ("or".toList, .OR),
   ("not".toList, .NOT), ("for".toList, .FOR), ("if".toList, .IF), (".".toList, .ATTR),
   ("&.".toList, .ATTR_SAFE), ("in".toList, .IN)]

/-- `self.op_names.get(op)` (parser/__init__.py 71-90, 271) -/
def opName (op : List Char) : Option Kind := opNames.lookup op

/-- The method of the node class an operator name selects (ast.py 346-672). -/
def binOpOf : Kind → Option BinOp
  | .MOD => some (.arith .mod) | .MUL => some (.arith .mul) | .FDIV => some (.arith .fdiv)
  | .TDIV => some (.arith .tdiv) | .POW => some (.arith .pow)
  | .ADD => some .add | .SUB => some .sub
  | .BWAND => some (.bit .and) | .BWOR => some (.bit .or) | .BWXOR => some (.bit .xor)
  | .BWLSH => some (.shift .lsh) | .BWRSH => some (.shift .rsh)
  | .EQ => some .eq | .NE => some .ne
  | .GT => some (.cmp .gt) | .GE => some (.cmp .ge) | .LT => some (.cmp .lt)
  | .LE => some (.cmp .le)
  | .EQ_FZM => some (.fuzzy false false) | .EQ_FZS => some (.fuzzy true false)
  | .NE_FZM => some (.fuzzy false true) | .NE_FZS => some (.fuzzy true true)
  | .AND => some .and | .OR => some .or
  | _ => none

/-- `p_expression_arithmetic`, `p_expression_add`, … (parser/__init__.py 287-385): the operator class
of the production handles the operators `ks`. -/
def actBinary (ks : List Kind) : List Sem → Except PErr Sem
  | [.node l, .tok op, .node r] =>
    match opName op.text with
    | some k =>
      match binOpOf k with
      | some b => if k ∈ ks then .ok (.node (.bin b l r)) else .error .stuck
      | none => .error .stuck
    | none => .error .stuck
  | _ => .error .stuck

/-- `p_expression_getattr` (parser/__init__.py 266-272) -/
def actGetAttr : List Sem → Except PErr Sem
  | [.node o, .tok d, .tok n] =>
    .ok (.node (.getAttr o (String.ofList n.text) (decide (opName d.text = some .ATTR_SAFE))))
  | _ => .error .stuck

/-- `p_expression_symbol` (parser/__init__.py 395-402) -/
def actSymbol : List Sem → Except PErr Sem
  | [.tok n] =>
    match n.text with
    | c :: cs =>
      if c == '$' then .ok (.node (.sym (String.ofList cs) true))
      else .ok (.node (.sym (String.ofList (c :: cs)) false))
    | [] => .error .stuck
  | _ => .error .stuck

/-- `p_expression_bytes` (parser/__init__.py 417-423) -/
def actBytes (codec : LitCodec) : List Sem → Except PErr Sem
  | [.tok x] =>
    match codec.bytes x.text with
    | some b => .ok (.node (.lit (.bytes b)))
    | none => .error .badBytes
  | _ => .error .stuck

/-- `p_expression_string` (parser/__init__.py 454-463); `p[1][1:-1]` -/
def actString (codec : LitCodec) : List Sem → Except PErr Sem
  | [.tok x] =>
    match codec.str x.text.tail.dropLast with
    | some v => .ok (.node (.lit (.str v)))
    | none => .error .badString
  | _ => .error .stuck

/-- the literal that stands for an absent start of a slice (ast.py 954) -/
def rawZero : Raw := .lit (.dec (.fin false 0 0))

/-- the literal that stands for an absent stop of a slice (ast.py 955) -/
def rawNull : Raw := .lit .none

/-- `lbracket == '&['` (parser/__init__.py 528, 538) -/
def isSafeBracket (b : Lexeme) : Bool := decide (b.text = "&[".toList)

/-- The grammar actions (parser/__init__.py 255-564) by production number (parsetab.py 28-98). -/
def semAct (codec : LitCodec) (p : Nat) (args : List Sem) : Except PErr Sem :=
  match p with
  | 1 => match args with
    | [.node e] => .ok (.stmt e none)
    | _ => .error .stuck
  | 2 => match args with
    | [.node e, .tok c] => .ok (.stmt e (some (String.ofList (pyStrip c.text.tail))))
    | _ => .error .stuck
  | 3 | 4 => actGetAttr args
  | 5 => match args with
    | [.node e] => .ok (.node e)
    | _ => .error .stuck
  | 6 => match args with
    | [.node c, _, .node t, _, .node f] => .ok (.node (.tern c t f))
    | _ => .error .stuck
  | 7 | 8 | 9 | 10 | 11 => actBinary [.MOD, .MUL, .FDIV, .TDIV, .POW] args
  | 12 => actBinary [.ADD] args
  | 13 => actBinary [.SUB] args
  | 14 | 15 | 16 => actBinary [.BWAND, .BWOR, .BWXOR] args
  | 17 | 18 => actBinary [.BWLSH, .BWRSH] args
  | 19 => match args with
    | [.node m, _, .node c] => .ok (.node (.contains c m))
    | _ => .error .stuck
  | 20 => match args with
    | [.node m, _, _, .node c] => .ok (.node (.not (.contains c m)))
    | _ => .error .stuck
  | 21 | 22 => actBinary [.EQ, .NE] args
  | 23 | 24 | 25 | 26 => actBinary [.GT, .GE, .LT, .LE] args
  | 27 | 28 | 29 | 30 => actBinary [.EQ_FZM, .EQ_FZS, .NE_FZM, .NE_FZS] args
  | 31 | 32 => actBinary [.AND, .OR] args
  | 33 => match args with
    | [_, .node e, _] => .ok (.node e)
    | _ => .error .stuck
  | 34 => match args with
    | [_, .node e] => .ok (.node (.not e))
    | _ => .error .stuck
  | 35 => actSymbol args
  | 36 => match args with
    | [_, .node e] => .ok (.node (.neg e))
    | _ => .error .stuck
  | 37 | 38 => match args with
    | [.tok x] => .ok (.node (.lit (.bool (decide (x.text = "true".toList)))))
    | _ => .error .stuck
  | 39 => actBytes codec args
  | 40 => match args with
    | [.tok x] => .ok (.node (.datetimeLit (String.ofList x.text)))
    | _ => .error .stuck
  | 41 => match args with
    | [.tok x] => .ok (.node (.timedeltaLit (String.ofList x.text)))
    | _ => .error .stuck
  | 42 | 43 | 44 => match args with
    | [.tok x] => .ok (.node (.floatLit (String.ofList x.text)))
    | _ => .error .stuck
  | 45 => match args with
    | [_] => .ok (.node (.lit .none))
    | _ => .error .stuck
  | 46 => match args with
    | [_, .nodes xs, _] => .ok (.node (.set xs))
    | _ => .error .stuck
  | 47 => match args with
    | [_, .nodes xs, _, _] => .ok (.node (.set xs))
    | _ => .error .stuck
  | 48 => actString codec args
  | 49 => match args with
    | [_, _] => .ok (.node (.array []))
    | _ => .error .stuck
  | 50 => match args with
    | [_, .nodes xs, _] => .ok (.node (.array xs))
    | _ => .error .stuck
  | 51 => match args with
    | [_, .nodes xs, _, _] => .ok (.node (.array xs))
    | _ => .error .stuck
  | 52 => match args with
    | [_, .node r, _, .tok v, _, .node it, _] =>
      .ok (.node (.comp r (String.ofList v.text) it (.lit (.bool true))))
    | _ => .error .stuck
  | 53 => match args with
    | [_, .node r, _, .tok v, _, .node it, _, .node c, _] =>
      .ok (.node (.comp r (String.ofList v.text) it c))
    | _ => .error .stuck
  | 54 => match args with
    | [.node e] => .ok (.nodes [e])
    | _ => .error .stuck
  | 55 => match args with
    | [.nodes xs, _, .node e] => .ok (.nodes (xs ++ [e]))
    | _ => .error .stuck
  | 56 => match args with
    | [_, _] => .ok (.node (.mapping []))
    | _ => .error .stuck
  | 57 => match args with
    | [_, .pairs kvs, _] => .ok (.node (.mapping kvs))
    | _ => .error .stuck
  | 58 => match args with
    | [_, .pairs kvs, _, _] => .ok (.node (.mapping kvs))
    | _ => .error .stuck
  | 59 => match args with
    | [.node k, _, .node v] => .ok (.pair k v)
    | _ => .error .stuck
  | 60 => match args with
    | [.pair k v] => .ok (.pairs [(k, v)])
    | _ => .error .stuck
  | 61 => match args with
    | [.pairs kvs, _, .pair k v] => .ok (.pairs (kvs ++ [(k, v)]))
    | _ => .error .stuck
  | 62 => match args with
    | [.node c, .tok b, .node i, _] => .ok (.node (.getItem c i (isSafeBracket b)))
    | _ => .error .stuck
  | 63 => match args with
    | [.node c, .tok b, _, _] => .ok (.node (.getSlice c rawZero rawNull (isSafeBracket b)))
    | _ => .error .stuck
  | 64 => match args with
    | [.node c, .tok b, _, .node e, _] => .ok (.node (.getSlice c rawZero e (isSafeBracket b)))
    | _ => .error .stuck
  | 65 => match args with
    | [.node c, .tok b, .node s, _, _] => .ok (.node (.getSlice c s rawNull (isSafeBracket b)))
    | _ => .error .stuck
  | 66 => match args with
    | [.node c, .tok b, .node s, _, .node e, _] =>
      .ok (.node (.getSlice c s e (isSafeBracket b)))
    | _ => .error .stuck
  | 67 => match args with
    | [.node f, _, _] => .ok (.node (.call f []))
    | _ => .error .stuck
  | 68 => match args with
    | [.node f, _, .nodes xs, _] => .ok (.node (.call f xs))
    | _ => .error .stuck
  | _ => .error .stuck

/-- `self.action[state].get(ltype)` (parser/parsetab.py 11-18) -/
def action (q : Nat) (k : Kind) : Option LRAct := ((actionRows[q]?).getD []).lookup k

/-- `self.goto[state][pname]` (parser/parsetab.py 20-27) -/
def gotoState (q : Nat) (n : NonTerm) : Option Nat := ((gotoRows[q]?).getD []).lookup n

/-- PLY's `defaulted_states`: the states whose only action is a reduction reduce without looking at
the next token (parser/base.py 61, 79). -/
def defaulted (q : Nat) : Option Nat :=
  match actionRows[q]? with
  | some [(_, .reduce p)] => some p
  | _ => none

/-- The parser's configuration: the stack of states with their semantic values, top first (PLY's
`statestack` and `symstack`; the start state 0 below is not stored), and the tokens not yet shifted,
of which the first is the lookahead (parser/base.py 61, 79). -/
structure PConf where
  stack : List (Nat × Sem)
  toks : List Tok

/-- the current state (parser/base.py 61, 79) -/
def topState : List (Nat × Sem) → Nat
  | (q, _) :: _ => q
  | [] => 0

/-- The end of a parse: the deferred tree and the comment, or an error; and the value the lexer's line
counter is left with (parser/base.py 79). -/
structure PResult where
  out : Except PErr (Raw × Option String)
  line : Nat

/-- the line the lexer is at once the next token has been read (parser/__init__.py 245-247) -/
def aheadLine (toks : List Tok) (stop : Stop) : Nat :=
  match toks, stop with
  | t :: _, _ => t.line
  | [], .eof l => l
  | [], .illegal _ l _ => l
  | [], .keyword l => l

/-- Reduce by production `p`: pop its right side, run the action, push its left side
(parser/base.py 79). -/
def reduceBy (codec : LitCodec) (p : Nat) (stack : List (Nat × Sem)) :
    Except PErr (List (Nat × Sem)) :=
  match productions[p]? with
  | none => .error .stuck
  | some (lhs, n) =>
    if stack.length < n then .error .stuck
    else
      let below := stack.drop n
      match semAct codec p ((stack.take n).reverse.map (·.2)) with
      | .error e => .error e
      | .ok v =>
        match gotoState (topState below) lhs with
        | none => .error .stuck
        | some q => .ok ((q, v) :: below)

/-- One round of the loop of PLY's `parse` (yacc.py `parseopt_notrack`) with the tokens of a text and
the way they end.  `p_error` raises, so there is no error recovery. -/
def pstep (codec : LitCodec) (stop : Stop) (c : PConf) : PConf ⊕ PResult :=
  match defaulted (topState c.stack) with
  | some p =>
    match reduceBy codec p c.stack with
    | .ok st => .inl ⟨st, c.toks⟩
    | .error e => .inr ⟨.error e, aheadLine c.toks stop⟩
  | none =>
    match c.toks with
    | t :: ts =>
      match action (topState c.stack) t.lex.kind with
      | some (.shift q) => .inl ⟨(q, .tok t.lex) :: c.stack, ts⟩
      | some (.reduce p) =>
        match reduceBy codec p c.stack with
        | .ok st => .inl ⟨st, c.toks⟩
        | .error e => .inr ⟨.error e, t.line⟩
      | some .accept => .inr ⟨.error .stuck, t.line⟩
      | none => .inr ⟨.error (.unexpected t), t.line⟩
    | [] =>
      match stop with
      | .illegal ch l pos => .inr ⟨.error (.illegal ch l pos), l⟩
      | .keyword l => .inr ⟨.error .keyword, l⟩
      | .eof l =>
        match action (topState c.stack) .END with
        | some (.reduce p) =>
          match reduceBy codec p c.stack with
          | .ok st => .inl ⟨st, []⟩
          | .error e => .inr ⟨.error e, l⟩
        | some .accept =>
          match c.stack with
          | (_, .stmt r comment) :: _ => .inr ⟨.ok (r, comment), l⟩
          | _ => .inr ⟨.error .stuck, l⟩
        | some (.shift _) => .inr ⟨.error .stuck, l⟩
        | none => .inr ⟨.error .unexpectedEnd, l⟩

/-- The loop, at most `n` rounds; `none` when they do not suffice (parser/base.py 79). -/
def prun (codec : LitCodec) (stop : Stop) : Nat → PConf → Option PResult
  | 0, _ => none
  | n + 1, c =>
    match pstep codec stop c with
    | .inl c' => prun codec stop n c'
    | .inr r => some r

/-- rounds that always suffice for `n` tokens (proved in `Props/Parse`) (parser/base.py 79) -/
def parseFuel (n : Nat) : Nat := 16 * n + 32

/-- Phase one of `ParserBase.parse` (parser/base.py 75-80) when the shared lexer's line counter is
`line`. -/
def parseText (codec : LitCodec) (line : Nat) (text : String) : PResult :=
  let (toks, stop) := lexText line text.toList
  match prun codec stop (parseFuel toks.length) ⟨[], toks⟩ with
  | some r => r
  | none => ⟨.error .stuck, line⟩

/-- the exception class of a parse error: all are EngineErrors (errors.py 66-170) -/
def PErr.toErr : PErr → Err
  | .badString => .eng .stringSyntax
  | .badBytes => .eng .bytesSyntax
  | .stuck => .py .other
  | _ => .eng .ruleSyntax

/-- `ParserBase.parse` (parser/base.py 63-82), both phases: the tree is built after the parse. -/
def parseRule (codec : LitCodec) (env : Env) (dct : DecCtx) (line : Nat) (text : String) : M Expr :=
  match (parseText codec line text).out with
  | .ok (raw, _) => construct env dct raw
  | .error e => M.throw e.toErr

/-- `Rule.is_valid` (engine.py 616-633) on a text: False for an `EngineError`, any other exception
escapes. -/
def isValidText (codec : LitCodec) (env : Env) (dct : DecCtx) (line : Nat) (text : String) : M Bool :=
  fun s =>
  match parseRule codec env dct line text s with
  | (.ok _, s') => (.ok true, s')
  | (.error (.eng _), s') => (.ok false, s')
  | (.error (.py e), s') => (.error (.py e), s')

/-- What the process keeps between calls: the line counter of the shared lexer, and the storage of the
thread (parser/base.py 60, engine.py 479). -/
structure Proc where
  line : Nat
  st : St

/-- a new process (parser/base.py 60, engine.py 479) -/
def Proc.new : Proc := ⟨1, St.init⟩

/-- `Rule(text, context)` (engine.py 588-599, parser/base.py 63-82): what it returns or raises, and what
is left behind. -/
def Proc.rule (codec : LitCodec) (env : Env) (dct : DecCtx) (text : String) (p : Proc) :
    Except Err Expr × Proc :=
  let r := parseRule codec env dct p.line text p.st
  (r.1, ⟨(parseText codec p.line text).line, r.2⟩)

/-- `Rule.is_valid(text, context)` in a process (engine.py 616-633) -/
def Proc.isValid (codec : LitCodec) (env : Env) (dct : DecCtx) (text : String) (p : Proc) :
    Except Err Bool × Proc :=
  let r := isValidText codec env dct p.line text p.st
  (r.1, ⟨(parseText codec p.line text).line, r.2⟩)

/-- `rule.evaluate(thing)` in a process (engine.py 635-646) -/
def Proc.evaluate (env : Env) (e : Expr) (thing : Value) (p : Proc) : Except Err Value × Proc :=
  let r := ruleEval env e thing p.st
  (r.1, ⟨p.line, r.2⟩)

end RE

import Verif.Model.Parser

/-!
# Specification of the concrete syntax (C40)

Concrete syntax trees with explicit parentheses, the tokens they are written with, the tree the
engine should make of them, and what the documented precedence table demands of the places where no
parentheses are written.  Nothing here refers to the parser's tables.
-/

namespace RE

/-- A concrete syntax tree.  `comma` is an optional trailing comma, `amp` says that the opening
bracket of an array was written `&[` (the lexer accepts that after any character but white space). -/
inductive Syn where
  | bool (b : Bool)
  | num (text : List Char)
  | nan
  | inf
  | null
  | sym (name : List Char)
  | str (text : List Char)
  | bytes (text : List Char)
  | datetime (text : List Char)
  | timedelta (text : List Char)
  | paren (e : Syn)
  | array (amp : Bool) (xs : List Syn) (comma : Bool)
  | set (xs : List Syn) (comma : Bool)
  | mapping (kvs : List (Syn × Syn)) (comma : Bool)
  | comp (amp : Bool) (result : Syn) (var : List Char) (iterable : Syn)
  | compIf (amp : Bool) (result : Syn) (var : List Char) (iterable cond : Syn)
  | attr (obj : Syn) (name : List Char) (safe : Bool)
  | item (obj index : Syn) (safe : Bool)
  | slice (obj : Syn) (safe : Bool)
  | sliceTo (obj stop : Syn) (safe : Bool)
  | sliceFrom (obj start : Syn) (safe : Bool)
  | sliceBoth (obj start stop : Syn) (safe : Bool)
  | call (f : Syn) (args : List Syn)
  | bin (op : Kind) (l r : Syn)
  | isIn (l r : Syn)
  | notIn (l r : Syn)
  | tern (c t f : Syn)
  | not (e : Syn)
  | neg (e : Syn)
  deriving Repr, Inhabited

/-- how a token of fixed spelling is written -/
def spelling : Kind → List Char
  | .ADD => ['+'] | .SUB => ['-'] | .POW => ['*', '*'] | .MUL => ['*'] | .TDIV => ['/']
  | .FDIV => ['/', '/'] | .MOD => ['%'] | .BWAND => ['&'] | .BWOR => ['|'] | .BWXOR => ['^']
  | .BWLSH => ['<', '<'] | .BWRSH => ['>', '>'] | .EQ => ['=', '='] | .EQ_FZM => ['=', '~']
  | .EQ_FZS => ['=', '~', '~'] | .NE => ['!', '='] | .NE_FZM => ['!', '~']
  | .NE_FZS => ['!', '~', '~'] | .GT => ['>'] | .GE => ['>', '='] | .LT => ['<']
  | .LE => ['<', '=']
  | .AND => ['a', 'n', 'd'] | .OR => ['o', 'r'] | .NOT => ['n', 'o', 't'] | .FOR => ['f', 'o', 'r']
  | .IF => ['i', 'f'] | .IN => ['i', 'n'] | .ATTR => ['.'] | .ATTR_SAFE => ['&', '.']
  | .TRUE => ['t', 'r', 'u', 'e'] | .FALSE => ['f', 'a', 'l', 's', 'e']
  | .NULL => ['n', 'u', 'l', 'l'] | .FLOAT_NAN => ['n', 'a', 'n'] | .FLOAT_INF => ['i', 'n', 'f']
  | .LPAREN => ['('] | .RPAREN => [')'] | .QMARK => ['?'] | .COLON => [':'] | .COMMA => [',']
  | .LBRACKET => ['['] | .RBRACKET => [']'] | .LBRACE => ['{'] | .RBRACE => ['}']
  | _ => []

/-- a token of fixed spelling -/
def fixed (k : Kind) : Lexeme := ⟨k, spelling k⟩

/-- an opening bracket -/
def bracket (safe : Bool) : Lexeme := ⟨.LBRACKET, if safe then ['&', '['] else ['[']⟩

/-- the dot before an attribute -/
def dot (safe : Bool) : Lexeme := if safe then fixed .ATTR_SAFE else fixed .ATTR

/-- an optional trailing comma -/
def trailing (comma : Bool) : List Lexeme := if comma then [fixed .COMMA] else []

mutual
/-- The tokens of a concrete syntax tree. -/
def Syn.toks : Syn → List Lexeme
  | .bool true => [fixed .TRUE]
  | .bool false => [fixed .FALSE]
  | .num t => [⟨.FLOAT, t⟩]
  | .nan => [fixed .FLOAT_NAN]
  | .inf => [fixed .FLOAT_INF]
  | .null => [fixed .NULL]
  | .sym n => [⟨.SYMBOL, n⟩]
  | .str t => [⟨.STRING, t⟩]
  | .bytes t => [⟨.BYTES, t⟩]
  | .datetime t => [⟨.DATETIME, t⟩]
  | .timedelta t => [⟨.TIMEDELTA, t⟩]
  | .paren e => fixed .LPAREN :: (e.toks ++ [fixed .RPAREN])
  | .array amp xs comma => bracket amp :: (Syn.listToks xs ++ (trailing comma ++ [fixed .RBRACKET]))
  | .set xs comma => fixed .LBRACE :: (Syn.listToks xs ++ (trailing comma ++ [fixed .RBRACE]))
  | .mapping kvs comma => fixed .LBRACE :: (Syn.pairToks kvs ++ (trailing comma ++ [fixed .RBRACE]))
  | .comp amp r v it =>
    bracket amp :: (r.toks ++ (fixed .FOR :: ⟨.SYMBOL, v⟩ :: fixed .IN ::
      (it.toks ++ [fixed .RBRACKET])))
  | .compIf amp r v it c =>
    bracket amp :: (r.toks ++ (fixed .FOR :: ⟨.SYMBOL, v⟩ :: fixed .IN ::
      (it.toks ++ (fixed .IF :: (c.toks ++ [fixed .RBRACKET])))))
  | .attr o n safe => o.toks ++ [dot safe, ⟨.SYMBOL, n⟩]
  | .item o i safe => o.toks ++ (bracket safe :: (i.toks ++ [fixed .RBRACKET]))
  | .slice o safe => o.toks ++ [bracket safe, fixed .COLON, fixed .RBRACKET]
  | .sliceTo o b safe => o.toks ++ (bracket safe :: fixed .COLON :: (b.toks ++ [fixed .RBRACKET]))
  | .sliceFrom o a safe =>
    o.toks ++ (bracket safe :: (a.toks ++ [fixed .COLON, fixed .RBRACKET]))
  | .sliceBoth o a b safe =>
    o.toks ++ (bracket safe :: (a.toks ++ (fixed .COLON :: (b.toks ++ [fixed .RBRACKET]))))
  | .call f args => f.toks ++ (fixed .LPAREN :: (Syn.listToks args ++ [fixed .RPAREN]))
  | .bin op l r => l.toks ++ (fixed op :: r.toks)
  | .isIn l r => l.toks ++ (fixed .IN :: r.toks)
  | .notIn l r => l.toks ++ (fixed .NOT :: fixed .IN :: r.toks)
  | .tern c t f => c.toks ++ (fixed .QMARK :: (t.toks ++ (fixed .COLON :: f.toks)))
  | .not e => fixed .NOT :: e.toks
  | .neg e => fixed .SUB :: e.toks
/-- members separated by commas -/
def Syn.listToks : List Syn → List Lexeme
  | [] => []
  | x :: xs => x.toks ++ Syn.moreToks xs
/-- further members, each after a comma -/
def Syn.moreToks : List Syn → List Lexeme
  | [] => []
  | x :: xs => fixed .COMMA :: (x.toks ++ Syn.moreToks xs)
/-- items `key: value` separated by commas -/
def Syn.pairToks : List (Syn × Syn) → List Lexeme
  | [] => []
  | (k, v) :: rest => k.toks ++ (fixed .COLON :: (v.toks ++ Syn.morePairToks rest))
/-- further items, each after a comma -/
def Syn.morePairToks : List (Syn × Syn) → List Lexeme
  | [] => []
  | (k, v) :: rest =>
    fixed .COMMA :: (k.toks ++ (fixed .COLON :: (v.toks ++ Syn.morePairToks rest)))
end

/-- a symbol: a leading `$` asks for the built-in scope -/
def symRaw : List Char → Raw
  | '$' :: cs => .sym (String.ofList cs) true
  | cs => .sym (String.ofList cs) false

/-- What each binary operator means (docs/source/syntax.rst). -/
def meaning : Kind → BinOp
  | .SUB => .sub
  | .MUL => .arith .mul | .TDIV => .arith .tdiv | .FDIV => .arith .fdiv | .MOD => .arith .mod
  | .POW => .arith .pow
  | .BWAND => .bit .and | .BWOR => .bit .or | .BWXOR => .bit .xor
  | .BWLSH => .shift .lsh | .BWRSH => .shift .rsh
  | .AND => .and | .OR => .or
  | .EQ => .eq | .NE => .ne
  | .LT => .cmp .lt | .LE => .cmp .le | .GT => .cmp .gt | .GE => .cmp .ge
  | .EQ_FZM => .fuzzy false false | .EQ_FZS => .fuzzy true false
  | .NE_FZM => .fuzzy false true | .NE_FZS => .fuzzy true true
  | _ => .add

mutual
/-- The tree a concrete syntax tree stands for: parentheses and trailing commas disappear, `a not in
b` is `not (a in b)`, left out parts get their defaults. -/
def Syn.raw (codec : LitCodec) : Syn → Raw
  | .bool b => .lit (.bool b)
  | .num t => .floatLit (String.ofList t)
  | .nan => .floatLit "nan"
  | .inf => .floatLit "inf"
  | .null => .lit .none
  | .sym n => symRaw n
  | .str t => .lit (.str ((codec.str t.tail.dropLast).getD ""))
  | .bytes t => .lit (.bytes ((codec.bytes t).getD []))
  | .datetime t => .datetimeLit (String.ofList t)
  | .timedelta t => .timedeltaLit (String.ofList t)
  | .paren e => e.raw codec
  | .array _ xs _ => .array (Syn.raws codec xs)
  | .set xs _ => .set (Syn.raws codec xs)
  | .mapping kvs _ => .mapping (Syn.rawPairs codec kvs)
  | .comp _ r v it => .comp (r.raw codec) (String.ofList v) (it.raw codec) (.lit (.bool true))
  | .compIf _ r v it c => .comp (r.raw codec) (String.ofList v) (it.raw codec) (c.raw codec)
  | .attr o n safe => .getAttr (o.raw codec) (String.ofList n) safe
  | .item o i safe => .getItem (o.raw codec) (i.raw codec) safe
  | .slice o safe => .getSlice (o.raw codec) (.lit (.dec (.fin false 0 0))) (.lit .none) safe
  | .sliceTo o b safe => .getSlice (o.raw codec) (.lit (.dec (.fin false 0 0))) (b.raw codec) safe
  | .sliceFrom o a safe => .getSlice (o.raw codec) (a.raw codec) (.lit .none) safe
  | .sliceBoth o a b safe => .getSlice (o.raw codec) (a.raw codec) (b.raw codec) safe
  | .call f args => .call (f.raw codec) (Syn.raws codec args)
  | .bin op l r => .bin (meaning op) (l.raw codec) (r.raw codec)
  | .isIn l r => .contains (r.raw codec) (l.raw codec)
  | .notIn l r => .not (.contains (r.raw codec) (l.raw codec))
  | .tern c t f => .tern (c.raw codec) (t.raw codec) (f.raw codec)
  | .not e => .not (e.raw codec)
  | .neg e => .neg (e.raw codec)
/-- members -/
def Syn.raws (codec : LitCodec) : List Syn → List Raw
  | [] => []
  | x :: xs => x.raw codec :: Syn.raws codec xs
/-- items -/
def Syn.rawPairs (codec : LitCodec) : List (Syn × Syn) → List (Raw × Raw)
  | [] => []
  | (k, v) :: rest => (k.raw codec, v.raw codec) :: Syn.rawPairs codec rest
end

/-- associativity -/
inductive Assoc where
  | left | right | none
  deriving DecidableEq, Repr

/-- The precedence table (parser/__init__.py 143-165), lowest first: the level of each operator.
13 is the level of unary minus. -/
def level : Kind → Nat
  | .OR => 1
  | .AND => 2
  | .NOT => 3
  | .BWOR => 4
  | .BWXOR => 5
  | .BWAND => 6
  | .QMARK => 7
  | .EQ | .NE | .EQ_FZM | .EQ_FZS | .NE_FZM | .NE_FZS | .GE | .GT | .LE | .LT | .IN => 8
  | .ADD | .SUB => 9
  | .BWLSH | .BWRSH => 10
  | .MUL | .TDIV | .FDIV | .MOD => 11
  | .POW => 12
  | _ => 0

/-- the associativity of each level of the table -/
def assocOf (l : Nat) : Assoc :=
  if l = 3 ∨ l = 7 ∨ l = 13 then .right else if l = 8 then .none else .left

/-- an operator of level `m` groups before one of level `l` that follows it -/
def before (m l : Nat) : Bool := decide (l < m) || (decide (l = m) && decide (assocOf l = .left))

/-- an operator of level `m` groups before one of level `l` that precedes it -/
def after (m l : Nat) : Bool := decide (l < m) || (decide (l = m) && decide (assocOf l = .right))

/-- The levels of the operators whose left operand is exposed at the left end of an expression.  `not
in` starts with the word `not` and counts as such. -/
def Syn.leftEdge : Syn → List Nat
  | .bin op l _ => level op :: l.leftEdge
  | .isIn l _ => level .IN :: l.leftEdge
  | .notIn l _ => level .NOT :: l.leftEdge
  | .tern c _ _ => level .QMARK :: c.leftEdge
  | _ => []

/-- The levels of the operators whose right operand is exposed at the right end. -/
def Syn.rightEdge : Syn → List Nat
  | .bin op _ r => level op :: r.rightEdge
  | .isIn _ r => level .IN :: r.rightEdge
  | .notIn _ r => level .IN :: r.rightEdge
  | .tern _ _ f => level .QMARK :: f.rightEdge
  | .not e => level .NOT :: e.rightEdge
  | .neg e => 13 :: e.rightEdge
  | _ => []

/-- Objects: what may be followed by `.name` or `[…]`.  Numbers and booleans are not objects. -/
def Syn.isObj : Syn → Bool
  | .bool _ | .num _ | .nan | .inf | .bin .. | .isIn .. | .notIn .. | .tern .. | .not _ | .neg _ =>
    false
  | _ => true

/-- What may be called without parentheses around it. -/
def Syn.isAtom : Syn → Bool
  | .bin .. | .isIn .. | .notIn .. | .tern .. | .not _ | .neg _ => false
  | _ => true

/-- the binary operators -/
def binaryKinds : List Kind :=
  [.MOD, .MUL, .FDIV, .TDIV, .POW, .ADD, .SUB, .BWAND, .BWOR, .BWXOR, .BWLSH, .BWRSH, .EQ, .NE, .GT,
   .GE, .LT, .LE, .EQ_FZM, .EQ_FZS, .NE_FZM, .NE_FZS, .AND, .OR]

mutual
/-- The tree is written with all the parentheses the precedence table requires. -/
def Syn.ok (codec : LitCodec) : Syn → Bool
  | .bool _ | .num _ | .nan | .inf | .null | .datetime _ | .timedelta _ => true
  | .sym n => !n.isEmpty
  | .str t => (codec.str t.tail.dropLast).isSome
  | .bytes t => (codec.bytes t).isSome
  | .paren e => e.ok codec
  | .array _ xs comma => Syn.okList codec xs && (!comma || !xs.isEmpty)
  | .set xs _ => Syn.okList codec xs && !xs.isEmpty
  | .mapping kvs comma => Syn.okPairs codec kvs && (!comma || !kvs.isEmpty)
  | .comp _ r _ it => r.ok codec && it.ok codec
  | .compIf _ r _ it c => r.ok codec && it.ok codec && c.ok codec
  | .attr o _ _ => o.ok codec && o.isObj
  | .item o i _ => o.ok codec && o.isObj && i.ok codec
  | .slice o _ => o.ok codec && o.isObj
  | .sliceTo o b _ => o.ok codec && o.isObj && b.ok codec
  | .sliceFrom o a _ => o.ok codec && o.isObj && a.ok codec
  | .sliceBoth o a b _ => o.ok codec && o.isObj && a.ok codec && b.ok codec
  | .call f args => f.ok codec && f.isAtom && Syn.okList codec args
  | .bin op l r =>
    decide (op ∈ binaryKinds) && l.ok codec && r.ok codec &&
    l.rightEdge.all (before · (level op)) && r.leftEdge.all (after · (level op))
  | .isIn l r =>
    l.ok codec && r.ok codec &&
    l.rightEdge.all (before · (level .IN)) && r.leftEdge.all (after · (level .IN))
  | .notIn l r =>
    l.ok codec && r.ok codec &&
    l.rightEdge.all (before · (level .NOT)) && r.leftEdge.all (after · (level .IN))
  | .tern c t f =>
    c.ok codec && t.ok codec && f.ok codec &&
    c.rightEdge.all (before · (level .QMARK)) && f.leftEdge.all (after · (level .QMARK))
  | .not e => e.ok codec && e.leftEdge.all (after · (level .NOT))
  | .neg e => e.ok codec && e.leftEdge.all (after · 13)
/-- all members are -/
def Syn.okList (codec : LitCodec) : List Syn → Bool
  | [] => true
  | x :: xs => x.ok codec && Syn.okList codec xs
/-- all keys and values are -/
def Syn.okPairs (codec : LitCodec) : List (Syn × Syn) → Bool
  | [] => true
  | (k, v) :: rest => k.ok codec && v.ok codec && Syn.okPairs codec rest
end

end RE

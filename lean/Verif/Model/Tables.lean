/-!
# The LALR tables

Generated by `scripts/gen_tables.py` from parser/parsetab.py: do not edit.
-/

namespace RE

/-- Terminal symbols of the grammar (parser/__init__.py 108-112) and the end marker `$end`. -/
inductive Kind where
  | ADD | AND | ATTR | ATTR_SAFE | BWAND | BWLSH | BWOR | BWRSH | BWXOR | BYTES | COLON | COMMA
  | COMMENT | DATETIME | EQ | EQ_FZM | EQ_FZS | FALSE | FDIV | FLOAT | FLOAT_INF | FLOAT_NAN
  | FOR | GE | GT | IF | IN | LBRACE | LBRACKET | LE | LPAREN | LT | MOD | MUL | NE | NE_FZM
  | NE_FZS | NOT | NULL | OR | POW | QMARK | RBRACE | RBRACKET | RPAREN | STRING | SUB | SYMBOL
  | TDIV | TIMEDELTA | TRUE | END
  deriving DecidableEq, Repr, Inhabited

/-- every terminal (parser/__init__.py 108-112) -/
def Kind.all : List Kind :=
  [.ADD, .AND, .ATTR, .ATTR_SAFE, .BWAND, .BWLSH, .BWOR, .BWRSH, .BWXOR, .BYTES, .COLON, .COMMA,
   .COMMENT, .DATETIME, .EQ, .EQ_FZM, .EQ_FZS, .FALSE, .FDIV, .FLOAT, .FLOAT_INF, .FLOAT_NAN,
   .FOR, .GE, .GT, .IF, .IN, .LBRACE, .LBRACKET, .LE, .LPAREN, .LT, .MOD, .MUL, .NE, .NE_FZM,
   .NE_FZS, .NOT, .NULL, .OR, .POW, .QMARK, .RBRACE, .RBRACKET, .RPAREN, .STRING, .SUB, .SYMBOL,
   .TDIV, .TIMEDELTA, .TRUE, .END]

/-- Nonterminal symbols of the grammar (parser/__init__.py 255-564). -/
inductive NonTerm where
  | statement | expression | object | aryMembers | mapMember | mapMembers | start
  deriving DecidableEq, Repr, Inhabited

/-- An entry of the action table: a positive number is a shift, a negative one a reduction, zero
accepts.  A missing entry and the entry `None` are both errors (parser/parsetab.py 11-18). -/
inductive LRAct where
  | shift (q : Nat)
  | reduce (p : Nat)
  | accept
  deriving DecidableEq, Repr, Inhabited

/-- `_lr_action` (parser/parsetab.py 11-18): one row for each state. -/
def actionRows : List (List (Kind × LRAct)) := [
  [(.BYTES, .shift 13), (.DATETIME, .shift 14), (.FALSE, .shift 7), (.FLOAT, .shift 8),
   (.FLOAT_INF, .shift 10), (.FLOAT_NAN, .shift 9), (.LBRACE, .shift 17), (.LBRACKET, .shift 19),
   (.LPAREN, .shift 12), (.NOT, .shift 5), (.NULL, .shift 16), (.STRING, .shift 18),
   (.SUB, .shift 4), (.SYMBOL, .shift 11), (.TIMEDELTA, .shift 15), (.TRUE, .shift 6)],  -- state 0
  [(.END, .accept)],  -- state 1
  [(.END, .reduce 1), (.ADD, .shift 27), (.AND, .shift 46), (.BWAND, .shift 29),
   (.BWLSH, .shift 32), (.BWOR, .shift 30), (.BWRSH, .shift 33), (.BWXOR, .shift 31),
   (.COMMENT, .shift 20), (.EQ, .shift 36), (.EQ_FZM, .shift 42), (.EQ_FZS, .shift 43),
   (.FDIV, .shift 24), (.GE, .shift 39), (.GT, .shift 38), (.IN, .shift 34), (.LE, .shift 41),
   (.LPAREN, .shift 48), (.LT, .shift 40), (.MOD, .shift 22), (.MUL, .shift 23),
   (.NE, .shift 37), (.NE_FZM, .shift 44), (.NE_FZS, .shift 45), (.NOT, .shift 35),
   (.OR, .shift 47), (.POW, .shift 26), (.QMARK, .shift 21), (.SUB, .shift 28),
   (.TDIV, .shift 25)],  -- state 2
  [(.END, .reduce 5), (.ADD, .reduce 5), (.AND, .reduce 5), (.ATTR, .shift 49),
   (.ATTR_SAFE, .shift 50), (.BWAND, .reduce 5), (.BWLSH, .reduce 5), (.BWOR, .reduce 5),
   (.BWRSH, .reduce 5), (.BWXOR, .reduce 5), (.COLON, .reduce 5), (.COMMA, .reduce 5),
   (.COMMENT, .reduce 5), (.EQ, .reduce 5), (.EQ_FZM, .reduce 5), (.EQ_FZS, .reduce 5),
   (.FDIV, .reduce 5), (.FOR, .reduce 5), (.GE, .reduce 5), (.GT, .reduce 5), (.IF, .reduce 5),
   (.IN, .reduce 5), (.LBRACKET, .shift 51), (.LE, .reduce 5), (.LPAREN, .reduce 5),
   (.LT, .reduce 5), (.MOD, .reduce 5), (.MUL, .reduce 5), (.NE, .reduce 5),
   (.NE_FZM, .reduce 5), (.NE_FZS, .reduce 5), (.NOT, .reduce 5), (.OR, .reduce 5),
   (.POW, .reduce 5), (.QMARK, .reduce 5), (.RBRACE, .reduce 5), (.RBRACKET, .reduce 5),
   (.RPAREN, .reduce 5), (.SUB, .reduce 5), (.TDIV, .reduce 5)],  -- state 3
  [(.BYTES, .shift 13), (.DATETIME, .shift 14), (.FALSE, .shift 7), (.FLOAT, .shift 8),
   (.FLOAT_INF, .shift 10), (.FLOAT_NAN, .shift 9), (.LBRACE, .shift 17), (.LBRACKET, .shift 19),
   (.LPAREN, .shift 12), (.NOT, .shift 5), (.NULL, .shift 16), (.STRING, .shift 18),
   (.SUB, .shift 4), (.SYMBOL, .shift 11), (.TIMEDELTA, .shift 15), (.TRUE, .shift 6)],  -- state 4
  [(.BYTES, .shift 13), (.DATETIME, .shift 14), (.FALSE, .shift 7), (.FLOAT, .shift 8),
   (.FLOAT_INF, .shift 10), (.FLOAT_NAN, .shift 9), (.LBRACE, .shift 17), (.LBRACKET, .shift 19),
   (.LPAREN, .shift 12), (.NOT, .shift 5), (.NULL, .shift 16), (.STRING, .shift 18),
   (.SUB, .shift 4), (.SYMBOL, .shift 11), (.TIMEDELTA, .shift 15), (.TRUE, .shift 6)],  -- state 5
  [(.END, .reduce 37), (.ADD, .reduce 37), (.AND, .reduce 37), (.BWAND, .reduce 37),
   (.BWLSH, .reduce 37), (.BWOR, .reduce 37), (.BWRSH, .reduce 37), (.BWXOR, .reduce 37),
   (.COLON, .reduce 37), (.COMMA, .reduce 37), (.COMMENT, .reduce 37), (.EQ, .reduce 37),
   (.EQ_FZM, .reduce 37), (.EQ_FZS, .reduce 37), (.FDIV, .reduce 37), (.FOR, .reduce 37),
   (.GE, .reduce 37), (.GT, .reduce 37), (.IF, .reduce 37), (.IN, .reduce 37), (.LE, .reduce 37),
   (.LPAREN, .reduce 37), (.LT, .reduce 37), (.MOD, .reduce 37), (.MUL, .reduce 37),
   (.NE, .reduce 37), (.NE_FZM, .reduce 37), (.NE_FZS, .reduce 37), (.NOT, .reduce 37),
   (.OR, .reduce 37), (.POW, .reduce 37), (.QMARK, .reduce 37), (.RBRACE, .reduce 37),
   (.RBRACKET, .reduce 37), (.RPAREN, .reduce 37), (.SUB, .reduce 37), (.TDIV, .reduce 37)],  -- state 6
  [(.END, .reduce 38), (.ADD, .reduce 38), (.AND, .reduce 38), (.BWAND, .reduce 38),
   (.BWLSH, .reduce 38), (.BWOR, .reduce 38), (.BWRSH, .reduce 38), (.BWXOR, .reduce 38),
   (.COLON, .reduce 38), (.COMMA, .reduce 38), (.COMMENT, .reduce 38), (.EQ, .reduce 38),
   (.EQ_FZM, .reduce 38), (.EQ_FZS, .reduce 38), (.FDIV, .reduce 38), (.FOR, .reduce 38),
   (.GE, .reduce 38), (.GT, .reduce 38), (.IF, .reduce 38), (.IN, .reduce 38), (.LE, .reduce 38),
   (.LPAREN, .reduce 38), (.LT, .reduce 38), (.MOD, .reduce 38), (.MUL, .reduce 38),
   (.NE, .reduce 38), (.NE_FZM, .reduce 38), (.NE_FZS, .reduce 38), (.NOT, .reduce 38),
   (.OR, .reduce 38), (.POW, .reduce 38), (.QMARK, .reduce 38), (.RBRACE, .reduce 38),
   (.RBRACKET, .reduce 38), (.RPAREN, .reduce 38), (.SUB, .reduce 38), (.TDIV, .reduce 38)],  -- state 7
  [(.END, .reduce 42), (.ADD, .reduce 42), (.AND, .reduce 42), (.BWAND, .reduce 42),
   (.BWLSH, .reduce 42), (.BWOR, .reduce 42), (.BWRSH, .reduce 42), (.BWXOR, .reduce 42),
   (.COLON, .reduce 42), (.COMMA, .reduce 42), (.COMMENT, .reduce 42), (.EQ, .reduce 42),
   (.EQ_FZM, .reduce 42), (.EQ_FZS, .reduce 42), (.FDIV, .reduce 42), (.FOR, .reduce 42),
   (.GE, .reduce 42), (.GT, .reduce 42), (.IF, .reduce 42), (.IN, .reduce 42), (.LE, .reduce 42),
   (.LPAREN, .reduce 42), (.LT, .reduce 42), (.MOD, .reduce 42), (.MUL, .reduce 42),
   (.NE, .reduce 42), (.NE_FZM, .reduce 42), (.NE_FZS, .reduce 42), (.NOT, .reduce 42),
   (.OR, .reduce 42), (.POW, .reduce 42), (.QMARK, .reduce 42), (.RBRACE, .reduce 42),
   (.RBRACKET, .reduce 42), (.RPAREN, .reduce 42), (.SUB, .reduce 42), (.TDIV, .reduce 42)],  -- state 8
  [(.END, .reduce 43), (.ADD, .reduce 43), (.AND, .reduce 43), (.BWAND, .reduce 43),
   (.BWLSH, .reduce 43), (.BWOR, .reduce 43), (.BWRSH, .reduce 43), (.BWXOR, .reduce 43),
   (.COLON, .reduce 43), (.COMMA, .reduce 43), (.COMMENT, .reduce 43), (.EQ, .reduce 43),
   (.EQ_FZM, .reduce 43), (.EQ_FZS, .reduce 43), (.FDIV, .reduce 43), (.FOR, .reduce 43),
   (.GE, .reduce 43), (.GT, .reduce 43), (.IF, .reduce 43), (.IN, .reduce 43), (.LE, .reduce 43),
   (.LPAREN, .reduce 43), (.LT, .reduce 43), (.MOD, .reduce 43), (.MUL, .reduce 43),
   (.NE, .reduce 43), (.NE_FZM, .reduce 43), (.NE_FZS, .reduce 43), (.NOT, .reduce 43),
   (.OR, .reduce 43), (.POW, .reduce 43), (.QMARK, .reduce 43), (.RBRACE, .reduce 43),
   (.RBRACKET, .reduce 43), (.RPAREN, .reduce 43), (.SUB, .reduce 43), (.TDIV, .reduce 43)],  -- state 9
  [(.END, .reduce 44), (.ADD, .reduce 44), (.AND, .reduce 44), (.BWAND, .reduce 44),
   (.BWLSH, .reduce 44), (.BWOR, .reduce 44), (.BWRSH, .reduce 44), (.BWXOR, .reduce 44),
   (.COLON, .reduce 44), (.COMMA, .reduce 44), (.COMMENT, .reduce 44), (.EQ, .reduce 44),
   (.EQ_FZM, .reduce 44), (.EQ_FZS, .reduce 44), (.FDIV, .reduce 44), (.FOR, .reduce 44),
   (.GE, .reduce 44), (.GT, .reduce 44), (.IF, .reduce 44), (.IN, .reduce 44), (.LE, .reduce 44),
   (.LPAREN, .reduce 44), (.LT, .reduce 44), (.MOD, .reduce 44), (.MUL, .reduce 44),
   (.NE, .reduce 44), (.NE_FZM, .reduce 44), (.NE_FZS, .reduce 44), (.NOT, .reduce 44),
   (.OR, .reduce 44), (.POW, .reduce 44), (.QMARK, .reduce 44), (.RBRACE, .reduce 44),
   (.RBRACKET, .reduce 44), (.RPAREN, .reduce 44), (.SUB, .reduce 44), (.TDIV, .reduce 44)],  -- state 10
  [(.END, .reduce 35), (.ADD, .reduce 35), (.AND, .reduce 35), (.ATTR, .reduce 35),
   (.ATTR_SAFE, .reduce 35), (.BWAND, .reduce 35), (.BWLSH, .reduce 35), (.BWOR, .reduce 35),
   (.BWRSH, .reduce 35), (.BWXOR, .reduce 35), (.COLON, .reduce 35), (.COMMA, .reduce 35),
   (.COMMENT, .reduce 35), (.EQ, .reduce 35), (.EQ_FZM, .reduce 35), (.EQ_FZS, .reduce 35),
   (.FDIV, .reduce 35), (.FOR, .reduce 35), (.GE, .reduce 35), (.GT, .reduce 35),
   (.IF, .reduce 35), (.IN, .reduce 35), (.LBRACKET, .reduce 35), (.LE, .reduce 35),
   (.LPAREN, .reduce 35), (.LT, .reduce 35), (.MOD, .reduce 35), (.MUL, .reduce 35),
   (.NE, .reduce 35), (.NE_FZM, .reduce 35), (.NE_FZS, .reduce 35), (.NOT, .reduce 35),
   (.OR, .reduce 35), (.POW, .reduce 35), (.QMARK, .reduce 35), (.RBRACE, .reduce 35),
   (.RBRACKET, .reduce 35), (.RPAREN, .reduce 35), (.SUB, .reduce 35), (.TDIV, .reduce 35)],  -- state 11
  [(.BYTES, .shift 13), (.DATETIME, .shift 14), (.FALSE, .shift 7), (.FLOAT, .shift 8),
   (.FLOAT_INF, .shift 10), (.FLOAT_NAN, .shift 9), (.LBRACE, .shift 17), (.LBRACKET, .shift 19),
   (.LPAREN, .shift 12), (.NOT, .shift 5), (.NULL, .shift 16), (.STRING, .shift 18),
   (.SUB, .shift 4), (.SYMBOL, .shift 11), (.TIMEDELTA, .shift 15), (.TRUE, .shift 6)],  -- state 12
  [(.END, .reduce 39), (.ADD, .reduce 39), (.AND, .reduce 39), (.ATTR, .reduce 39),
   (.ATTR_SAFE, .reduce 39), (.BWAND, .reduce 39), (.BWLSH, .reduce 39), (.BWOR, .reduce 39),
   (.BWRSH, .reduce 39), (.BWXOR, .reduce 39), (.COLON, .reduce 39), (.COMMA, .reduce 39),
   (.COMMENT, .reduce 39), (.EQ, .reduce 39), (.EQ_FZM, .reduce 39), (.EQ_FZS, .reduce 39),
   (.FDIV, .reduce 39), (.FOR, .reduce 39), (.GE, .reduce 39), (.GT, .reduce 39),
   (.IF, .reduce 39), (.IN, .reduce 39), (.LBRACKET, .reduce 39), (.LE, .reduce 39),
   (.LPAREN, .reduce 39), (.LT, .reduce 39), (.MOD, .reduce 39), (.MUL, .reduce 39),
   (.NE, .reduce 39), (.NE_FZM, .reduce 39), (.NE_FZS, .reduce 39), (.NOT, .reduce 39),
   (.OR, .reduce 39), (.POW, .reduce 39), (.QMARK, .reduce 39), (.RBRACE, .reduce 39),
   (.RBRACKET, .reduce 39), (.RPAREN, .reduce 39), (.SUB, .reduce 39), (.TDIV, .reduce 39)],  -- state 13
  [(.END, .reduce 40), (.ADD, .reduce 40), (.AND, .reduce 40), (.ATTR, .reduce 40),
   (.ATTR_SAFE, .reduce 40), (.BWAND, .reduce 40), (.BWLSH, .reduce 40), (.BWOR, .reduce 40),
   (.BWRSH, .reduce 40), (.BWXOR, .reduce 40), (.COLON, .reduce 40), (.COMMA, .reduce 40),
   (.COMMENT, .reduce 40), (.EQ, .reduce 40), (.EQ_FZM, .reduce 40), (.EQ_FZS, .reduce 40),
   (.FDIV, .reduce 40), (.FOR, .reduce 40), (.GE, .reduce 40), (.GT, .reduce 40),
   (.IF, .reduce 40), (.IN, .reduce 40), (.LBRACKET, .reduce 40), (.LE, .reduce 40),
   (.LPAREN, .reduce 40), (.LT, .reduce 40), (.MOD, .reduce 40), (.MUL, .reduce 40),
   (.NE, .reduce 40), (.NE_FZM, .reduce 40), (.NE_FZS, .reduce 40), (.NOT, .reduce 40),
   (.OR, .reduce 40), (.POW, .reduce 40), (.QMARK, .reduce 40), (.RBRACE, .reduce 40),
   (.RBRACKET, .reduce 40), (.RPAREN, .reduce 40), (.SUB, .reduce 40), (.TDIV, .reduce 40)],  -- state 14
  [(.END, .reduce 41), (.ADD, .reduce 41), (.AND, .reduce 41), (.ATTR, .reduce 41),
   (.ATTR_SAFE, .reduce 41), (.BWAND, .reduce 41), (.BWLSH, .reduce 41), (.BWOR, .reduce 41),
   (.BWRSH, .reduce 41), (.BWXOR, .reduce 41), (.COLON, .reduce 41), (.COMMA, .reduce 41),
   (.COMMENT, .reduce 41), (.EQ, .reduce 41), (.EQ_FZM, .reduce 41), (.EQ_FZS, .reduce 41),
   (.FDIV, .reduce 41), (.FOR, .reduce 41), (.GE, .reduce 41), (.GT, .reduce 41),
   (.IF, .reduce 41), (.IN, .reduce 41), (.LBRACKET, .reduce 41), (.LE, .reduce 41),
   (.LPAREN, .reduce 41), (.LT, .reduce 41), (.MOD, .reduce 41), (.MUL, .reduce 41),
   (.NE, .reduce 41), (.NE_FZM, .reduce 41), (.NE_FZS, .reduce 41), (.NOT, .reduce 41),
   (.OR, .reduce 41), (.POW, .reduce 41), (.QMARK, .reduce 41), (.RBRACE, .reduce 41),
   (.RBRACKET, .reduce 41), (.RPAREN, .reduce 41), (.SUB, .reduce 41), (.TDIV, .reduce 41)],  -- state 15
  [(.END, .reduce 45), (.ADD, .reduce 45), (.AND, .reduce 45), (.ATTR, .reduce 45),
   (.ATTR_SAFE, .reduce 45), (.BWAND, .reduce 45), (.BWLSH, .reduce 45), (.BWOR, .reduce 45),
   (.BWRSH, .reduce 45), (.BWXOR, .reduce 45), (.COLON, .reduce 45), (.COMMA, .reduce 45),
   (.COMMENT, .reduce 45), (.EQ, .reduce 45), (.EQ_FZM, .reduce 45), (.EQ_FZS, .reduce 45),
   (.FDIV, .reduce 45), (.FOR, .reduce 45), (.GE, .reduce 45), (.GT, .reduce 45),
   (.IF, .reduce 45), (.IN, .reduce 45), (.LBRACKET, .reduce 45), (.LE, .reduce 45),
   (.LPAREN, .reduce 45), (.LT, .reduce 45), (.MOD, .reduce 45), (.MUL, .reduce 45),
   (.NE, .reduce 45), (.NE_FZM, .reduce 45), (.NE_FZS, .reduce 45), (.NOT, .reduce 45),
   (.OR, .reduce 45), (.POW, .reduce 45), (.QMARK, .reduce 45), (.RBRACE, .reduce 45),
   (.RBRACKET, .reduce 45), (.RPAREN, .reduce 45), (.SUB, .reduce 45), (.TDIV, .reduce 45)],  -- state 16
  [(.BYTES, .shift 13), (.DATETIME, .shift 14), (.FALSE, .shift 7), (.FLOAT, .shift 8),
   (.FLOAT_INF, .shift 10), (.FLOAT_NAN, .shift 9), (.LBRACE, .shift 17), (.LBRACKET, .shift 19),
   (.LPAREN, .shift 12), (.NOT, .shift 5), (.NULL, .shift 16), (.RBRACE, .shift 56),
   (.STRING, .shift 18), (.SUB, .shift 4), (.SYMBOL, .shift 11), (.TIMEDELTA, .shift 15),
   (.TRUE, .shift 6)],  -- state 17
  [(.END, .reduce 48), (.ADD, .reduce 48), (.AND, .reduce 48), (.ATTR, .reduce 48),
   (.ATTR_SAFE, .reduce 48), (.BWAND, .reduce 48), (.BWLSH, .reduce 48), (.BWOR, .reduce 48),
   (.BWRSH, .reduce 48), (.BWXOR, .reduce 48), (.COLON, .reduce 48), (.COMMA, .reduce 48),
   (.COMMENT, .reduce 48), (.EQ, .reduce 48), (.EQ_FZM, .reduce 48), (.EQ_FZS, .reduce 48),
   (.FDIV, .reduce 48), (.FOR, .reduce 48), (.GE, .reduce 48), (.GT, .reduce 48),
   (.IF, .reduce 48), (.IN, .reduce 48), (.LBRACKET, .reduce 48), (.LE, .reduce 48),
   (.LPAREN, .reduce 48), (.LT, .reduce 48), (.MOD, .reduce 48), (.MUL, .reduce 48),
   (.NE, .reduce 48), (.NE_FZM, .reduce 48), (.NE_FZS, .reduce 48), (.NOT, .reduce 48),
   (.OR, .reduce 48), (.POW, .reduce 48), (.QMARK, .reduce 48), (.RBRACE, .reduce 48),
   (.RBRACKET, .reduce 48), (.RPAREN, .reduce 48), (.SUB, .reduce 48), (.TDIV, .reduce 48)],  -- state 18
  [(.BYTES, .shift 13), (.DATETIME, .shift 14), (.FALSE, .shift 7), (.FLOAT, .shift 8),
   (.FLOAT_INF, .shift 10), (.FLOAT_NAN, .shift 9), (.LBRACE, .shift 17), (.LBRACKET, .shift 19),
   (.LPAREN, .shift 12), (.NOT, .shift 5), (.NULL, .shift 16), (.RBRACKET, .shift 60),
   (.STRING, .shift 18), (.SUB, .shift 4), (.SYMBOL, .shift 11), (.TIMEDELTA, .shift 15),
   (.TRUE, .shift 6)],  -- state 19
  [(.END, .reduce 2)],  -- state 20
  [(.BYTES, .shift 13), (.DATETIME, .shift 14), (.FALSE, .shift 7), (.FLOAT, .shift 8),
   (.FLOAT_INF, .shift 10), (.FLOAT_NAN, .shift 9), (.LBRACE, .shift 17), (.LBRACKET, .shift 19),
   (.LPAREN, .shift 12), (.NOT, .shift 5), (.NULL, .shift 16), (.STRING, .shift 18),
   (.SUB, .shift 4), (.SYMBOL, .shift 11), (.TIMEDELTA, .shift 15), (.TRUE, .shift 6)],  -- state 21
  [(.BYTES, .shift 13), (.DATETIME, .shift 14), (.FALSE, .shift 7), (.FLOAT, .shift 8),
   (.FLOAT_INF, .shift 10), (.FLOAT_NAN, .shift 9), (.LBRACE, .shift 17), (.LBRACKET, .shift 19),
   (.LPAREN, .shift 12), (.NOT, .shift 5), (.NULL, .shift 16), (.STRING, .shift 18),
   (.SUB, .shift 4), (.SYMBOL, .shift 11), (.TIMEDELTA, .shift 15), (.TRUE, .shift 6)],  -- state 22
  [(.BYTES, .shift 13), (.DATETIME, .shift 14), (.FALSE, .shift 7), (.FLOAT, .shift 8),
   (.FLOAT_INF, .shift 10), (.FLOAT_NAN, .shift 9), (.LBRACE, .shift 17), (.LBRACKET, .shift 19),
   (.LPAREN, .shift 12), (.NOT, .shift 5), (.NULL, .shift 16), (.STRING, .shift 18),
   (.SUB, .shift 4), (.SYMBOL, .shift 11), (.TIMEDELTA, .shift 15), (.TRUE, .shift 6)],  -- state 23
  [(.BYTES, .shift 13), (.DATETIME, .shift 14), (.FALSE, .shift 7), (.FLOAT, .shift 8),
   (.FLOAT_INF, .shift 10), (.FLOAT_NAN, .shift 9), (.LBRACE, .shift 17), (.LBRACKET, .shift 19),
   (.LPAREN, .shift 12), (.NOT, .shift 5), (.NULL, .shift 16), (.STRING, .shift 18),
   (.SUB, .shift 4), (.SYMBOL, .shift 11), (.TIMEDELTA, .shift 15), (.TRUE, .shift 6)],  -- state 24
  [(.BYTES, .shift 13), (.DATETIME, .shift 14), (.FALSE, .shift 7), (.FLOAT, .shift 8),
   (.FLOAT_INF, .shift 10), (.FLOAT_NAN, .shift 9), (.LBRACE, .shift 17), (.LBRACKET, .shift 19),
   (.LPAREN, .shift 12), (.NOT, .shift 5), (.NULL, .shift 16), (.STRING, .shift 18),
   (.SUB, .shift 4), (.SYMBOL, .shift 11), (.TIMEDELTA, .shift 15), (.TRUE, .shift 6)],  -- state 25
  [(.BYTES, .shift 13), (.DATETIME, .shift 14), (.FALSE, .shift 7), (.FLOAT, .shift 8),
   (.FLOAT_INF, .shift 10), (.FLOAT_NAN, .shift 9), (.LBRACE, .shift 17), (.LBRACKET, .shift 19),
   (.LPAREN, .shift 12), (.NOT, .shift 5), (.NULL, .shift 16), (.STRING, .shift 18),
   (.SUB, .shift 4), (.SYMBOL, .shift 11), (.TIMEDELTA, .shift 15), (.TRUE, .shift 6)],  -- state 26
  [(.BYTES, .shift 13), (.DATETIME, .shift 14), (.FALSE, .shift 7), (.FLOAT, .shift 8),
   (.FLOAT_INF, .shift 10), (.FLOAT_NAN, .shift 9), (.LBRACE, .shift 17), (.LBRACKET, .shift 19),
   (.LPAREN, .shift 12), (.NOT, .shift 5), (.NULL, .shift 16), (.STRING, .shift 18),
   (.SUB, .shift 4), (.SYMBOL, .shift 11), (.TIMEDELTA, .shift 15), (.TRUE, .shift 6)],  -- state 27
  [(.BYTES, .shift 13), (.DATETIME, .shift 14), (.FALSE, .shift 7), (.FLOAT, .shift 8),
   (.FLOAT_INF, .shift 10), (.FLOAT_NAN, .shift 9), (.LBRACE, .shift 17), (.LBRACKET, .shift 19),
   (.LPAREN, .shift 12), (.NOT, .shift 5), (.NULL, .shift 16), (.STRING, .shift 18),
   (.SUB, .shift 4), (.SYMBOL, .shift 11), (.TIMEDELTA, .shift 15), (.TRUE, .shift 6)],  -- state 28
  [(.BYTES, .shift 13), (.DATETIME, .shift 14), (.FALSE, .shift 7), (.FLOAT, .shift 8),
   (.FLOAT_INF, .shift 10), (.FLOAT_NAN, .shift 9), (.LBRACE, .shift 17), (.LBRACKET, .shift 19),
   (.LPAREN, .shift 12), (.NOT, .shift 5), (.NULL, .shift 16), (.STRING, .shift 18),
   (.SUB, .shift 4), (.SYMBOL, .shift 11), (.TIMEDELTA, .shift 15), (.TRUE, .shift 6)],  -- state 29
  [(.BYTES, .shift 13), (.DATETIME, .shift 14), (.FALSE, .shift 7), (.FLOAT, .shift 8),
   (.FLOAT_INF, .shift 10), (.FLOAT_NAN, .shift 9), (.LBRACE, .shift 17), (.LBRACKET, .shift 19),
   (.LPAREN, .shift 12), (.NOT, .shift 5), (.NULL, .shift 16), (.STRING, .shift 18),
   (.SUB, .shift 4), (.SYMBOL, .shift 11), (.TIMEDELTA, .shift 15), (.TRUE, .shift 6)],  -- state 30
  [(.BYTES, .shift 13), (.DATETIME, .shift 14), (.FALSE, .shift 7), (.FLOAT, .shift 8),
   (.FLOAT_INF, .shift 10), (.FLOAT_NAN, .shift 9), (.LBRACE, .shift 17), (.LBRACKET, .shift 19),
   (.LPAREN, .shift 12), (.NOT, .shift 5), (.NULL, .shift 16), (.STRING, .shift 18),
   (.SUB, .shift 4), (.SYMBOL, .shift 11), (.TIMEDELTA, .shift 15), (.TRUE, .shift 6)],  -- state 31
  [(.BYTES, .shift 13), (.DATETIME, .shift 14), (.FALSE, .shift 7), (.FLOAT, .shift 8),
   (.FLOAT_INF, .shift 10), (.FLOAT_NAN, .shift 9), (.LBRACE, .shift 17), (.LBRACKET, .shift 19),
   (.LPAREN, .shift 12), (.NOT, .shift 5), (.NULL, .shift 16), (.STRING, .shift 18),
   (.SUB, .shift 4), (.SYMBOL, .shift 11), (.TIMEDELTA, .shift 15), (.TRUE, .shift 6)],  -- state 32
  [(.BYTES, .shift 13), (.DATETIME, .shift 14), (.FALSE, .shift 7), (.FLOAT, .shift 8),
   (.FLOAT_INF, .shift 10), (.FLOAT_NAN, .shift 9), (.LBRACE, .shift 17), (.LBRACKET, .shift 19),
   (.LPAREN, .shift 12), (.NOT, .shift 5), (.NULL, .shift 16), (.STRING, .shift 18),
   (.SUB, .shift 4), (.SYMBOL, .shift 11), (.TIMEDELTA, .shift 15), (.TRUE, .shift 6)],  -- state 33
  [(.BYTES, .shift 13), (.DATETIME, .shift 14), (.FALSE, .shift 7), (.FLOAT, .shift 8),
   (.FLOAT_INF, .shift 10), (.FLOAT_NAN, .shift 9), (.LBRACE, .shift 17), (.LBRACKET, .shift 19),
   (.LPAREN, .shift 12), (.NOT, .shift 5), (.NULL, .shift 16), (.STRING, .shift 18),
   (.SUB, .shift 4), (.SYMBOL, .shift 11), (.TIMEDELTA, .shift 15), (.TRUE, .shift 6)],  -- state 34
  [(.IN, .shift 77)],  -- state 35
  [(.BYTES, .shift 13), (.DATETIME, .shift 14), (.FALSE, .shift 7), (.FLOAT, .shift 8),
   (.FLOAT_INF, .shift 10), (.FLOAT_NAN, .shift 9), (.LBRACE, .shift 17), (.LBRACKET, .shift 19),
   (.LPAREN, .shift 12), (.NOT, .shift 5), (.NULL, .shift 16), (.STRING, .shift 18),
   (.SUB, .shift 4), (.SYMBOL, .shift 11), (.TIMEDELTA, .shift 15), (.TRUE, .shift 6)],  -- state 36
  [(.BYTES, .shift 13), (.DATETIME, .shift 14), (.FALSE, .shift 7), (.FLOAT, .shift 8),
   (.FLOAT_INF, .shift 10), (.FLOAT_NAN, .shift 9), (.LBRACE, .shift 17), (.LBRACKET, .shift 19),
   (.LPAREN, .shift 12), (.NOT, .shift 5), (.NULL, .shift 16), (.STRING, .shift 18),
   (.SUB, .shift 4), (.SYMBOL, .shift 11), (.TIMEDELTA, .shift 15), (.TRUE, .shift 6)],  -- state 37
  [(.BYTES, .shift 13), (.DATETIME, .shift 14), (.FALSE, .shift 7), (.FLOAT, .shift 8),
   (.FLOAT_INF, .shift 10), (.FLOAT_NAN, .shift 9), (.LBRACE, .shift 17), (.LBRACKET, .shift 19),
   (.LPAREN, .shift 12), (.NOT, .shift 5), (.NULL, .shift 16), (.STRING, .shift 18),
   (.SUB, .shift 4), (.SYMBOL, .shift 11), (.TIMEDELTA, .shift 15), (.TRUE, .shift 6)],  -- state 38
  [(.BYTES, .shift 13), (.DATETIME, .shift 14), (.FALSE, .shift 7), (.FLOAT, .shift 8),
   (.FLOAT_INF, .shift 10), (.FLOAT_NAN, .shift 9), (.LBRACE, .shift 17), (.LBRACKET, .shift 19),
   (.LPAREN, .shift 12), (.NOT, .shift 5), (.NULL, .shift 16), (.STRING, .shift 18),
   (.SUB, .shift 4), (.SYMBOL, .shift 11), (.TIMEDELTA, .shift 15), (.TRUE, .shift 6)],  -- state 39
  [(.BYTES, .shift 13), (.DATETIME, .shift 14), (.FALSE, .shift 7), (.FLOAT, .shift 8),
   (.FLOAT_INF, .shift 10), (.FLOAT_NAN, .shift 9), (.LBRACE, .shift 17), (.LBRACKET, .shift 19),
   (.LPAREN, .shift 12), (.NOT, .shift 5), (.NULL, .shift 16), (.STRING, .shift 18),
   (.SUB, .shift 4), (.SYMBOL, .shift 11), (.TIMEDELTA, .shift 15), (.TRUE, .shift 6)],  -- state 40
  [(.BYTES, .shift 13), (.DATETIME, .shift 14), (.FALSE, .shift 7), (.FLOAT, .shift 8),
   (.FLOAT_INF, .shift 10), (.FLOAT_NAN, .shift 9), (.LBRACE, .shift 17), (.LBRACKET, .shift 19),
   (.LPAREN, .shift 12), (.NOT, .shift 5), (.NULL, .shift 16), (.STRING, .shift 18),
   (.SUB, .shift 4), (.SYMBOL, .shift 11), (.TIMEDELTA, .shift 15), (.TRUE, .shift 6)],  -- state 41
  [(.BYTES, .shift 13), (.DATETIME, .shift 14), (.FALSE, .shift 7), (.FLOAT, .shift 8),
   (.FLOAT_INF, .shift 10), (.FLOAT_NAN, .shift 9), (.LBRACE, .shift 17), (.LBRACKET, .shift 19),
   (.LPAREN, .shift 12), (.NOT, .shift 5), (.NULL, .shift 16), (.STRING, .shift 18),
   (.SUB, .shift 4), (.SYMBOL, .shift 11), (.TIMEDELTA, .shift 15), (.TRUE, .shift 6)],  -- state 42
  [(.BYTES, .shift 13), (.DATETIME, .shift 14), (.FALSE, .shift 7), (.FLOAT, .shift 8),
   (.FLOAT_INF, .shift 10), (.FLOAT_NAN, .shift 9), (.LBRACE, .shift 17), (.LBRACKET, .shift 19),
   (.LPAREN, .shift 12), (.NOT, .shift 5), (.NULL, .shift 16), (.STRING, .shift 18),
   (.SUB, .shift 4), (.SYMBOL, .shift 11), (.TIMEDELTA, .shift 15), (.TRUE, .shift 6)],  -- state 43
  [(.BYTES, .shift 13), (.DATETIME, .shift 14), (.FALSE, .shift 7), (.FLOAT, .shift 8),
   (.FLOAT_INF, .shift 10), (.FLOAT_NAN, .shift 9), (.LBRACE, .shift 17), (.LBRACKET, .shift 19),
   (.LPAREN, .shift 12), (.NOT, .shift 5), (.NULL, .shift 16), (.STRING, .shift 18),
   (.SUB, .shift 4), (.SYMBOL, .shift 11), (.TIMEDELTA, .shift 15), (.TRUE, .shift 6)],  -- state 44
  [(.BYTES, .shift 13), (.DATETIME, .shift 14), (.FALSE, .shift 7), (.FLOAT, .shift 8),
   (.FLOAT_INF, .shift 10), (.FLOAT_NAN, .shift 9), (.LBRACE, .shift 17), (.LBRACKET, .shift 19),
   (.LPAREN, .shift 12), (.NOT, .shift 5), (.NULL, .shift 16), (.STRING, .shift 18),
   (.SUB, .shift 4), (.SYMBOL, .shift 11), (.TIMEDELTA, .shift 15), (.TRUE, .shift 6)],  -- state 45
  [(.BYTES, .shift 13), (.DATETIME, .shift 14), (.FALSE, .shift 7), (.FLOAT, .shift 8),
   (.FLOAT_INF, .shift 10), (.FLOAT_NAN, .shift 9), (.LBRACE, .shift 17), (.LBRACKET, .shift 19),
   (.LPAREN, .shift 12), (.NOT, .shift 5), (.NULL, .shift 16), (.STRING, .shift 18),
   (.SUB, .shift 4), (.SYMBOL, .shift 11), (.TIMEDELTA, .shift 15), (.TRUE, .shift 6)],  -- state 46
  [(.BYTES, .shift 13), (.DATETIME, .shift 14), (.FALSE, .shift 7), (.FLOAT, .shift 8),
   (.FLOAT_INF, .shift 10), (.FLOAT_NAN, .shift 9), (.LBRACE, .shift 17), (.LBRACKET, .shift 19),
   (.LPAREN, .shift 12), (.NOT, .shift 5), (.NULL, .shift 16), (.STRING, .shift 18),
   (.SUB, .shift 4), (.SYMBOL, .shift 11), (.TIMEDELTA, .shift 15), (.TRUE, .shift 6)],  -- state 47
  [(.BYTES, .shift 13), (.DATETIME, .shift 14), (.FALSE, .shift 7), (.FLOAT, .shift 8),
   (.FLOAT_INF, .shift 10), (.FLOAT_NAN, .shift 9), (.LBRACE, .shift 17), (.LBRACKET, .shift 19),
   (.LPAREN, .shift 12), (.NOT, .shift 5), (.NULL, .shift 16), (.RPAREN, .shift 91),
   (.STRING, .shift 18), (.SUB, .shift 4), (.SYMBOL, .shift 11), (.TIMEDELTA, .shift 15),
   (.TRUE, .shift 6)],  -- state 48
  [(.SYMBOL, .shift 93)],  -- state 49
  [(.SYMBOL, .shift 94)],  -- state 50
  [(.BYTES, .shift 13), (.COLON, .shift 96), (.DATETIME, .shift 14), (.FALSE, .shift 7),
   (.FLOAT, .shift 8), (.FLOAT_INF, .shift 10), (.FLOAT_NAN, .shift 9), (.LBRACE, .shift 17),
   (.LBRACKET, .shift 19), (.LPAREN, .shift 12), (.NOT, .shift 5), (.NULL, .shift 16),
   (.STRING, .shift 18), (.SUB, .shift 4), (.SYMBOL, .shift 11), (.TIMEDELTA, .shift 15),
   (.TRUE, .shift 6)],  -- state 51
  [(.END, .reduce 36), (.ADD, .reduce 36), (.AND, .reduce 36), (.BWAND, .reduce 36),
   (.BWLSH, .reduce 36), (.BWOR, .reduce 36), (.BWRSH, .reduce 36), (.BWXOR, .reduce 36),
   (.COLON, .reduce 36), (.COMMA, .reduce 36), (.COMMENT, .reduce 36), (.EQ, .reduce 36),
   (.EQ_FZM, .reduce 36), (.EQ_FZS, .reduce 36), (.FDIV, .reduce 36), (.FOR, .reduce 36),
   (.GE, .reduce 36), (.GT, .reduce 36), (.IF, .reduce 36), (.IN, .reduce 36), (.LE, .reduce 36),
   (.LPAREN, .shift 48), (.LT, .reduce 36), (.MOD, .reduce 36), (.MUL, .reduce 36),
   (.NE, .reduce 36), (.NE_FZM, .reduce 36), (.NE_FZS, .reduce 36), (.NOT, .reduce 36),
   (.OR, .reduce 36), (.POW, .reduce 36), (.QMARK, .reduce 36), (.RBRACE, .reduce 36),
   (.RBRACKET, .reduce 36), (.RPAREN, .reduce 36), (.SUB, .reduce 36), (.TDIV, .reduce 36)],  -- state 52
  [(.END, .reduce 34), (.ADD, .shift 27), (.AND, .reduce 34), (.BWAND, .shift 29),
   (.BWLSH, .shift 32), (.BWOR, .shift 30), (.BWRSH, .shift 33), (.BWXOR, .shift 31),
   (.COLON, .reduce 34), (.COMMA, .reduce 34), (.COMMENT, .reduce 34), (.EQ, .shift 36),
   (.EQ_FZM, .shift 42), (.EQ_FZS, .shift 43), (.FDIV, .shift 24), (.FOR, .reduce 34),
   (.GE, .shift 39), (.GT, .shift 38), (.IF, .reduce 34), (.IN, .shift 34), (.LE, .shift 41),
   (.LPAREN, .shift 48), (.LT, .shift 40), (.MOD, .shift 22), (.MUL, .shift 23),
   (.NE, .shift 37), (.NE_FZM, .shift 44), (.NE_FZS, .shift 45), (.NOT, .shift 35),
   (.OR, .reduce 34), (.POW, .shift 26), (.QMARK, .shift 21), (.RBRACE, .reduce 34),
   (.RBRACKET, .reduce 34), (.RPAREN, .reduce 34), (.SUB, .shift 28), (.TDIV, .shift 25)],  -- state 53
  [(.ADD, .shift 27), (.AND, .shift 46), (.BWAND, .shift 29), (.BWLSH, .shift 32),
   (.BWOR, .shift 30), (.BWRSH, .shift 33), (.BWXOR, .shift 31), (.EQ, .shift 36),
   (.EQ_FZM, .shift 42), (.EQ_FZS, .shift 43), (.FDIV, .shift 24), (.GE, .shift 39),
   (.GT, .shift 38), (.IN, .shift 34), (.LE, .shift 41), (.LPAREN, .shift 48), (.LT, .shift 40),
   (.MOD, .shift 22), (.MUL, .shift 23), (.NE, .shift 37), (.NE_FZM, .shift 44),
   (.NE_FZS, .shift 45), (.NOT, .shift 35), (.OR, .shift 47), (.POW, .shift 26),
   (.QMARK, .shift 21), (.RPAREN, .shift 97), (.SUB, .shift 28), (.TDIV, .shift 25)],  -- state 54
  [(.COMMA, .shift 99), (.RBRACE, .shift 98)],  -- state 55
  [(.END, .reduce 56), (.ADD, .reduce 56), (.AND, .reduce 56), (.ATTR, .reduce 56),
   (.ATTR_SAFE, .reduce 56), (.BWAND, .reduce 56), (.BWLSH, .reduce 56), (.BWOR, .reduce 56),
   (.BWRSH, .reduce 56), (.BWXOR, .reduce 56), (.COLON, .reduce 56), (.COMMA, .reduce 56),
   (.COMMENT, .reduce 56), (.EQ, .reduce 56), (.EQ_FZM, .reduce 56), (.EQ_FZS, .reduce 56),
   (.FDIV, .reduce 56), (.FOR, .reduce 56), (.GE, .reduce 56), (.GT, .reduce 56),
   (.IF, .reduce 56), (.IN, .reduce 56), (.LBRACKET, .reduce 56), (.LE, .reduce 56),
   (.LPAREN, .reduce 56), (.LT, .reduce 56), (.MOD, .reduce 56), (.MUL, .reduce 56),
   (.NE, .reduce 56), (.NE_FZM, .reduce 56), (.NE_FZS, .reduce 56), (.NOT, .reduce 56),
   (.OR, .reduce 56), (.POW, .reduce 56), (.QMARK, .reduce 56), (.RBRACE, .reduce 56),
   (.RBRACKET, .reduce 56), (.RPAREN, .reduce 56), (.SUB, .reduce 56), (.TDIV, .reduce 56)],  -- state 56
  [(.COMMA, .shift 101), (.RBRACE, .shift 100)],  -- state 57
  [(.ADD, .shift 27), (.AND, .shift 46), (.BWAND, .shift 29), (.BWLSH, .shift 32),
   (.BWOR, .shift 30), (.BWRSH, .shift 33), (.BWXOR, .shift 31), (.COLON, .shift 102),
   (.COMMA, .reduce 54), (.EQ, .shift 36), (.EQ_FZM, .shift 42), (.EQ_FZS, .shift 43),
   (.FDIV, .shift 24), (.GE, .shift 39), (.GT, .shift 38), (.IN, .shift 34), (.LE, .shift 41),
   (.LPAREN, .shift 48), (.LT, .shift 40), (.MOD, .shift 22), (.MUL, .shift 23),
   (.NE, .shift 37), (.NE_FZM, .shift 44), (.NE_FZS, .shift 45), (.NOT, .shift 35),
   (.OR, .shift 47), (.POW, .shift 26), (.QMARK, .shift 21), (.RBRACE, .reduce 54),
   (.SUB, .shift 28), (.TDIV, .shift 25)],  -- state 58
  [(.COMMA, .reduce 60), (.RBRACE, .reduce 60)],  -- state 59
  [(.END, .reduce 49), (.ADD, .reduce 49), (.AND, .reduce 49), (.ATTR, .reduce 49),
   (.ATTR_SAFE, .reduce 49), (.BWAND, .reduce 49), (.BWLSH, .reduce 49), (.BWOR, .reduce 49),
   (.BWRSH, .reduce 49), (.BWXOR, .reduce 49), (.COLON, .reduce 49), (.COMMA, .reduce 49),
   (.COMMENT, .reduce 49), (.EQ, .reduce 49), (.EQ_FZM, .reduce 49), (.EQ_FZS, .reduce 49),
   (.FDIV, .reduce 49), (.FOR, .reduce 49), (.GE, .reduce 49), (.GT, .reduce 49),
   (.IF, .reduce 49), (.IN, .reduce 49), (.LBRACKET, .reduce 49), (.LE, .reduce 49),
   (.LPAREN, .reduce 49), (.LT, .reduce 49), (.MOD, .reduce 49), (.MUL, .reduce 49),
   (.NE, .reduce 49), (.NE_FZM, .reduce 49), (.NE_FZS, .reduce 49), (.NOT, .reduce 49),
   (.OR, .reduce 49), (.POW, .reduce 49), (.QMARK, .reduce 49), (.RBRACE, .reduce 49),
   (.RBRACKET, .reduce 49), (.RPAREN, .reduce 49), (.SUB, .reduce 49), (.TDIV, .reduce 49)],  -- state 60
  [(.COMMA, .shift 104), (.RBRACKET, .shift 103)],  -- state 61
  [(.ADD, .shift 27), (.AND, .shift 46), (.BWAND, .shift 29), (.BWLSH, .shift 32),
   (.BWOR, .shift 30), (.BWRSH, .shift 33), (.BWXOR, .shift 31), (.COMMA, .reduce 54),
   (.EQ, .shift 36), (.EQ_FZM, .shift 42), (.EQ_FZS, .shift 43), (.FDIV, .shift 24),
   (.FOR, .shift 105), (.GE, .shift 39), (.GT, .shift 38), (.IN, .shift 34), (.LE, .shift 41),
   (.LPAREN, .shift 48), (.LT, .shift 40), (.MOD, .shift 22), (.MUL, .shift 23),
   (.NE, .shift 37), (.NE_FZM, .shift 44), (.NE_FZS, .shift 45), (.NOT, .shift 35),
   (.OR, .shift 47), (.POW, .shift 26), (.QMARK, .shift 21), (.RBRACKET, .reduce 54),
   (.SUB, .shift 28), (.TDIV, .shift 25)],  -- state 62
  [(.ADD, .shift 27), (.AND, .shift 46), (.BWAND, .shift 29), (.BWLSH, .shift 32),
   (.BWOR, .shift 30), (.BWRSH, .shift 33), (.BWXOR, .shift 31), (.COLON, .shift 106),
   (.EQ, .shift 36), (.EQ_FZM, .shift 42), (.EQ_FZS, .shift 43), (.FDIV, .shift 24),
   (.GE, .shift 39), (.GT, .shift 38), (.IN, .shift 34), (.LE, .shift 41), (.LPAREN, .shift 48),
   (.LT, .shift 40), (.MOD, .shift 22), (.MUL, .shift 23), (.NE, .shift 37),
   (.NE_FZM, .shift 44), (.NE_FZS, .shift 45), (.NOT, .shift 35), (.OR, .shift 47),
   (.POW, .shift 26), (.QMARK, .shift 21), (.SUB, .shift 28), (.TDIV, .shift 25)],  -- state 63
  [(.END, .reduce 7), (.ADD, .reduce 7), (.AND, .reduce 7), (.BWAND, .reduce 7),
   (.BWLSH, .reduce 7), (.BWOR, .reduce 7), (.BWRSH, .reduce 7), (.BWXOR, .reduce 7),
   (.COLON, .reduce 7), (.COMMA, .reduce 7), (.COMMENT, .reduce 7), (.EQ, .reduce 7),
   (.EQ_FZM, .reduce 7), (.EQ_FZS, .reduce 7), (.FDIV, .reduce 7), (.FOR, .reduce 7),
   (.GE, .reduce 7), (.GT, .reduce 7), (.IF, .reduce 7), (.IN, .reduce 7), (.LE, .reduce 7),
   (.LPAREN, .shift 48), (.LT, .reduce 7), (.MOD, .reduce 7), (.MUL, .reduce 7),
   (.NE, .reduce 7), (.NE_FZM, .reduce 7), (.NE_FZS, .reduce 7), (.NOT, .reduce 7),
   (.OR, .reduce 7), (.POW, .shift 26), (.QMARK, .reduce 7), (.RBRACE, .reduce 7),
   (.RBRACKET, .reduce 7), (.RPAREN, .reduce 7), (.SUB, .reduce 7), (.TDIV, .reduce 7)],  -- state 64
  [(.END, .reduce 8), (.ADD, .reduce 8), (.AND, .reduce 8), (.BWAND, .reduce 8),
   (.BWLSH, .reduce 8), (.BWOR, .reduce 8), (.BWRSH, .reduce 8), (.BWXOR, .reduce 8),
   (.COLON, .reduce 8), (.COMMA, .reduce 8), (.COMMENT, .reduce 8), (.EQ, .reduce 8),
   (.EQ_FZM, .reduce 8), (.EQ_FZS, .reduce 8), (.FDIV, .reduce 8), (.FOR, .reduce 8),
   (.GE, .reduce 8), (.GT, .reduce 8), (.IF, .reduce 8), (.IN, .reduce 8), (.LE, .reduce 8),
   (.LPAREN, .shift 48), (.LT, .reduce 8), (.MOD, .reduce 8), (.MUL, .reduce 8),
   (.NE, .reduce 8), (.NE_FZM, .reduce 8), (.NE_FZS, .reduce 8), (.NOT, .reduce 8),
   (.OR, .reduce 8), (.POW, .shift 26), (.QMARK, .reduce 8), (.RBRACE, .reduce 8),
   (.RBRACKET, .reduce 8), (.RPAREN, .reduce 8), (.SUB, .reduce 8), (.TDIV, .reduce 8)],  -- state 65
  [(.END, .reduce 9), (.ADD, .reduce 9), (.AND, .reduce 9), (.BWAND, .reduce 9),
   (.BWLSH, .reduce 9), (.BWOR, .reduce 9), (.BWRSH, .reduce 9), (.BWXOR, .reduce 9),
   (.COLON, .reduce 9), (.COMMA, .reduce 9), (.COMMENT, .reduce 9), (.EQ, .reduce 9),
   (.EQ_FZM, .reduce 9), (.EQ_FZS, .reduce 9), (.FDIV, .reduce 9), (.FOR, .reduce 9),
   (.GE, .reduce 9), (.GT, .reduce 9), (.IF, .reduce 9), (.IN, .reduce 9), (.LE, .reduce 9),
   (.LPAREN, .shift 48), (.LT, .reduce 9), (.MOD, .reduce 9), (.MUL, .reduce 9),
   (.NE, .reduce 9), (.NE_FZM, .reduce 9), (.NE_FZS, .reduce 9), (.NOT, .reduce 9),
   (.OR, .reduce 9), (.POW, .shift 26), (.QMARK, .reduce 9), (.RBRACE, .reduce 9),
   (.RBRACKET, .reduce 9), (.RPAREN, .reduce 9), (.SUB, .reduce 9), (.TDIV, .reduce 9)],  -- state 66
  [(.END, .reduce 10), (.ADD, .reduce 10), (.AND, .reduce 10), (.BWAND, .reduce 10),
   (.BWLSH, .reduce 10), (.BWOR, .reduce 10), (.BWRSH, .reduce 10), (.BWXOR, .reduce 10),
   (.COLON, .reduce 10), (.COMMA, .reduce 10), (.COMMENT, .reduce 10), (.EQ, .reduce 10),
   (.EQ_FZM, .reduce 10), (.EQ_FZS, .reduce 10), (.FDIV, .reduce 10), (.FOR, .reduce 10),
   (.GE, .reduce 10), (.GT, .reduce 10), (.IF, .reduce 10), (.IN, .reduce 10), (.LE, .reduce 10),
   (.LPAREN, .shift 48), (.LT, .reduce 10), (.MOD, .reduce 10), (.MUL, .reduce 10),
   (.NE, .reduce 10), (.NE_FZM, .reduce 10), (.NE_FZS, .reduce 10), (.NOT, .reduce 10),
   (.OR, .reduce 10), (.POW, .shift 26), (.QMARK, .reduce 10), (.RBRACE, .reduce 10),
   (.RBRACKET, .reduce 10), (.RPAREN, .reduce 10), (.SUB, .reduce 10), (.TDIV, .reduce 10)],  -- state 67
  [(.END, .reduce 11), (.ADD, .reduce 11), (.AND, .reduce 11), (.BWAND, .reduce 11),
   (.BWLSH, .reduce 11), (.BWOR, .reduce 11), (.BWRSH, .reduce 11), (.BWXOR, .reduce 11),
   (.COLON, .reduce 11), (.COMMA, .reduce 11), (.COMMENT, .reduce 11), (.EQ, .reduce 11),
   (.EQ_FZM, .reduce 11), (.EQ_FZS, .reduce 11), (.FDIV, .reduce 11), (.FOR, .reduce 11),
   (.GE, .reduce 11), (.GT, .reduce 11), (.IF, .reduce 11), (.IN, .reduce 11), (.LE, .reduce 11),
   (.LPAREN, .shift 48), (.LT, .reduce 11), (.MOD, .reduce 11), (.MUL, .reduce 11),
   (.NE, .reduce 11), (.NE_FZM, .reduce 11), (.NE_FZS, .reduce 11), (.NOT, .reduce 11),
   (.OR, .reduce 11), (.POW, .reduce 11), (.QMARK, .reduce 11), (.RBRACE, .reduce 11),
   (.RBRACKET, .reduce 11), (.RPAREN, .reduce 11), (.SUB, .reduce 11), (.TDIV, .reduce 11)],  -- state 68
  [(.END, .reduce 12), (.ADD, .reduce 12), (.AND, .reduce 12), (.BWAND, .reduce 12),
   (.BWLSH, .shift 32), (.BWOR, .reduce 12), (.BWRSH, .shift 33), (.BWXOR, .reduce 12),
   (.COLON, .reduce 12), (.COMMA, .reduce 12), (.COMMENT, .reduce 12), (.EQ, .reduce 12),
   (.EQ_FZM, .reduce 12), (.EQ_FZS, .reduce 12), (.FDIV, .shift 24), (.FOR, .reduce 12),
   (.GE, .reduce 12), (.GT, .reduce 12), (.IF, .reduce 12), (.IN, .reduce 12), (.LE, .reduce 12),
   (.LPAREN, .shift 48), (.LT, .reduce 12), (.MOD, .shift 22), (.MUL, .shift 23),
   (.NE, .reduce 12), (.NE_FZM, .reduce 12), (.NE_FZS, .reduce 12), (.NOT, .reduce 12),
   (.OR, .reduce 12), (.POW, .shift 26), (.QMARK, .reduce 12), (.RBRACE, .reduce 12),
   (.RBRACKET, .reduce 12), (.RPAREN, .reduce 12), (.SUB, .reduce 12), (.TDIV, .shift 25)],  -- state 69
  [(.END, .reduce 13), (.ADD, .reduce 13), (.AND, .reduce 13), (.BWAND, .reduce 13),
   (.BWLSH, .shift 32), (.BWOR, .reduce 13), (.BWRSH, .shift 33), (.BWXOR, .reduce 13),
   (.COLON, .reduce 13), (.COMMA, .reduce 13), (.COMMENT, .reduce 13), (.EQ, .reduce 13),
   (.EQ_FZM, .reduce 13), (.EQ_FZS, .reduce 13), (.FDIV, .shift 24), (.FOR, .reduce 13),
   (.GE, .reduce 13), (.GT, .reduce 13), (.IF, .reduce 13), (.IN, .reduce 13), (.LE, .reduce 13),
   (.LPAREN, .shift 48), (.LT, .reduce 13), (.MOD, .shift 22), (.MUL, .shift 23),
   (.NE, .reduce 13), (.NE_FZM, .reduce 13), (.NE_FZS, .reduce 13), (.NOT, .reduce 13),
   (.OR, .reduce 13), (.POW, .shift 26), (.QMARK, .reduce 13), (.RBRACE, .reduce 13),
   (.RBRACKET, .reduce 13), (.RPAREN, .reduce 13), (.SUB, .reduce 13), (.TDIV, .shift 25)],  -- state 70
  [(.END, .reduce 14), (.ADD, .shift 27), (.AND, .reduce 14), (.BWAND, .reduce 14),
   (.BWLSH, .shift 32), (.BWOR, .reduce 14), (.BWRSH, .shift 33), (.BWXOR, .reduce 14),
   (.COLON, .reduce 14), (.COMMA, .reduce 14), (.COMMENT, .reduce 14), (.EQ, .shift 36),
   (.EQ_FZM, .shift 42), (.EQ_FZS, .shift 43), (.FDIV, .shift 24), (.FOR, .reduce 14),
   (.GE, .shift 39), (.GT, .shift 38), (.IF, .reduce 14), (.IN, .shift 34), (.LE, .shift 41),
   (.LPAREN, .shift 48), (.LT, .shift 40), (.MOD, .shift 22), (.MUL, .shift 23),
   (.NE, .shift 37), (.NE_FZM, .shift 44), (.NE_FZS, .shift 45), (.NOT, .reduce 14),
   (.OR, .reduce 14), (.POW, .shift 26), (.QMARK, .shift 21), (.RBRACE, .reduce 14),
   (.RBRACKET, .reduce 14), (.RPAREN, .reduce 14), (.SUB, .shift 28), (.TDIV, .shift 25)],  -- state 71
  [(.END, .reduce 15), (.ADD, .shift 27), (.AND, .reduce 15), (.BWAND, .shift 29),
   (.BWLSH, .shift 32), (.BWOR, .reduce 15), (.BWRSH, .shift 33), (.BWXOR, .shift 31),
   (.COLON, .reduce 15), (.COMMA, .reduce 15), (.COMMENT, .reduce 15), (.EQ, .shift 36),
   (.EQ_FZM, .shift 42), (.EQ_FZS, .shift 43), (.FDIV, .shift 24), (.FOR, .reduce 15),
   (.GE, .shift 39), (.GT, .shift 38), (.IF, .reduce 15), (.IN, .shift 34), (.LE, .shift 41),
   (.LPAREN, .shift 48), (.LT, .shift 40), (.MOD, .shift 22), (.MUL, .shift 23),
   (.NE, .shift 37), (.NE_FZM, .shift 44), (.NE_FZS, .shift 45), (.NOT, .reduce 15),
   (.OR, .reduce 15), (.POW, .shift 26), (.QMARK, .shift 21), (.RBRACE, .reduce 15),
   (.RBRACKET, .reduce 15), (.RPAREN, .reduce 15), (.SUB, .shift 28), (.TDIV, .shift 25)],  -- state 72
  [(.END, .reduce 16), (.ADD, .shift 27), (.AND, .reduce 16), (.BWAND, .shift 29),
   (.BWLSH, .shift 32), (.BWOR, .reduce 16), (.BWRSH, .shift 33), (.BWXOR, .reduce 16),
   (.COLON, .reduce 16), (.COMMA, .reduce 16), (.COMMENT, .reduce 16), (.EQ, .shift 36),
   (.EQ_FZM, .shift 42), (.EQ_FZS, .shift 43), (.FDIV, .shift 24), (.FOR, .reduce 16),
   (.GE, .shift 39), (.GT, .shift 38), (.IF, .reduce 16), (.IN, .shift 34), (.LE, .shift 41),
   (.LPAREN, .shift 48), (.LT, .shift 40), (.MOD, .shift 22), (.MUL, .shift 23),
   (.NE, .shift 37), (.NE_FZM, .shift 44), (.NE_FZS, .shift 45), (.NOT, .reduce 16),
   (.OR, .reduce 16), (.POW, .shift 26), (.QMARK, .shift 21), (.RBRACE, .reduce 16),
   (.RBRACKET, .reduce 16), (.RPAREN, .reduce 16), (.SUB, .shift 28), (.TDIV, .shift 25)],  -- state 73
  [(.END, .reduce 17), (.ADD, .reduce 17), (.AND, .reduce 17), (.BWAND, .reduce 17),
   (.BWLSH, .reduce 17), (.BWOR, .reduce 17), (.BWRSH, .reduce 17), (.BWXOR, .reduce 17),
   (.COLON, .reduce 17), (.COMMA, .reduce 17), (.COMMENT, .reduce 17), (.EQ, .reduce 17),
   (.EQ_FZM, .reduce 17), (.EQ_FZS, .reduce 17), (.FDIV, .shift 24), (.FOR, .reduce 17),
   (.GE, .reduce 17), (.GT, .reduce 17), (.IF, .reduce 17), (.IN, .reduce 17), (.LE, .reduce 17),
   (.LPAREN, .shift 48), (.LT, .reduce 17), (.MOD, .shift 22), (.MUL, .shift 23),
   (.NE, .reduce 17), (.NE_FZM, .reduce 17), (.NE_FZS, .reduce 17), (.NOT, .reduce 17),
   (.OR, .reduce 17), (.POW, .shift 26), (.QMARK, .reduce 17), (.RBRACE, .reduce 17),
   (.RBRACKET, .reduce 17), (.RPAREN, .reduce 17), (.SUB, .reduce 17), (.TDIV, .shift 25)],  -- state 74
  [(.END, .reduce 18), (.ADD, .reduce 18), (.AND, .reduce 18), (.BWAND, .reduce 18),
   (.BWLSH, .reduce 18), (.BWOR, .reduce 18), (.BWRSH, .reduce 18), (.BWXOR, .reduce 18),
   (.COLON, .reduce 18), (.COMMA, .reduce 18), (.COMMENT, .reduce 18), (.EQ, .reduce 18),
   (.EQ_FZM, .reduce 18), (.EQ_FZS, .reduce 18), (.FDIV, .shift 24), (.FOR, .reduce 18),
   (.GE, .reduce 18), (.GT, .reduce 18), (.IF, .reduce 18), (.IN, .reduce 18), (.LE, .reduce 18),
   (.LPAREN, .shift 48), (.LT, .reduce 18), (.MOD, .shift 22), (.MUL, .shift 23),
   (.NE, .reduce 18), (.NE_FZM, .reduce 18), (.NE_FZS, .reduce 18), (.NOT, .reduce 18),
   (.OR, .reduce 18), (.POW, .shift 26), (.QMARK, .reduce 18), (.RBRACE, .reduce 18),
   (.RBRACKET, .reduce 18), (.RPAREN, .reduce 18), (.SUB, .reduce 18), (.TDIV, .shift 25)],  -- state 75
  [(.END, .reduce 19), (.ADD, .shift 27), (.AND, .reduce 19), (.BWAND, .reduce 19),
   (.BWLSH, .shift 32), (.BWOR, .reduce 19), (.BWRSH, .shift 33), (.BWXOR, .reduce 19),
   (.COLON, .reduce 19), (.COMMA, .reduce 19), (.COMMENT, .reduce 19), (.FDIV, .shift 24),
   (.FOR, .reduce 19), (.IF, .reduce 19), (.LPAREN, .shift 48), (.MOD, .shift 22),
   (.MUL, .shift 23), (.NOT, .reduce 19), (.OR, .reduce 19), (.POW, .shift 26),
   (.QMARK, .reduce 19), (.RBRACE, .reduce 19), (.RBRACKET, .reduce 19), (.RPAREN, .reduce 19),
   (.SUB, .shift 28), (.TDIV, .shift 25)],  -- state 76
  [(.BYTES, .shift 13), (.DATETIME, .shift 14), (.FALSE, .shift 7), (.FLOAT, .shift 8),
   (.FLOAT_INF, .shift 10), (.FLOAT_NAN, .shift 9), (.LBRACE, .shift 17), (.LBRACKET, .shift 19),
   (.LPAREN, .shift 12), (.NOT, .shift 5), (.NULL, .shift 16), (.STRING, .shift 18),
   (.SUB, .shift 4), (.SYMBOL, .shift 11), (.TIMEDELTA, .shift 15), (.TRUE, .shift 6)],  -- state 77
  [(.END, .reduce 21), (.ADD, .shift 27), (.AND, .reduce 21), (.BWAND, .reduce 21),
   (.BWLSH, .shift 32), (.BWOR, .reduce 21), (.BWRSH, .shift 33), (.BWXOR, .reduce 21),
   (.COLON, .reduce 21), (.COMMA, .reduce 21), (.COMMENT, .reduce 21), (.FDIV, .shift 24),
   (.FOR, .reduce 21), (.IF, .reduce 21), (.LPAREN, .shift 48), (.MOD, .shift 22),
   (.MUL, .shift 23), (.NOT, .reduce 21), (.OR, .reduce 21), (.POW, .shift 26),
   (.QMARK, .reduce 21), (.RBRACE, .reduce 21), (.RBRACKET, .reduce 21), (.RPAREN, .reduce 21),
   (.SUB, .shift 28), (.TDIV, .shift 25)],  -- state 78
  [(.END, .reduce 22), (.ADD, .shift 27), (.AND, .reduce 22), (.BWAND, .reduce 22),
   (.BWLSH, .shift 32), (.BWOR, .reduce 22), (.BWRSH, .shift 33), (.BWXOR, .reduce 22),
   (.COLON, .reduce 22), (.COMMA, .reduce 22), (.COMMENT, .reduce 22), (.FDIV, .shift 24),
   (.FOR, .reduce 22), (.IF, .reduce 22), (.LPAREN, .shift 48), (.MOD, .shift 22),
   (.MUL, .shift 23), (.NOT, .reduce 22), (.OR, .reduce 22), (.POW, .shift 26),
   (.QMARK, .reduce 22), (.RBRACE, .reduce 22), (.RBRACKET, .reduce 22), (.RPAREN, .reduce 22),
   (.SUB, .shift 28), (.TDIV, .shift 25)],  -- state 79
  [(.END, .reduce 23), (.ADD, .shift 27), (.AND, .reduce 23), (.BWAND, .reduce 23),
   (.BWLSH, .shift 32), (.BWOR, .reduce 23), (.BWRSH, .shift 33), (.BWXOR, .reduce 23),
   (.COLON, .reduce 23), (.COMMA, .reduce 23), (.COMMENT, .reduce 23), (.FDIV, .shift 24),
   (.FOR, .reduce 23), (.IF, .reduce 23), (.LPAREN, .shift 48), (.MOD, .shift 22),
   (.MUL, .shift 23), (.NOT, .reduce 23), (.OR, .reduce 23), (.POW, .shift 26),
   (.QMARK, .reduce 23), (.RBRACE, .reduce 23), (.RBRACKET, .reduce 23), (.RPAREN, .reduce 23),
   (.SUB, .shift 28), (.TDIV, .shift 25)],  -- state 80
  [(.END, .reduce 24), (.ADD, .shift 27), (.AND, .reduce 24), (.BWAND, .reduce 24),
   (.BWLSH, .shift 32), (.BWOR, .reduce 24), (.BWRSH, .shift 33), (.BWXOR, .reduce 24),
   (.COLON, .reduce 24), (.COMMA, .reduce 24), (.COMMENT, .reduce 24), (.FDIV, .shift 24),
   (.FOR, .reduce 24), (.IF, .reduce 24), (.LPAREN, .shift 48), (.MOD, .shift 22),
   (.MUL, .shift 23), (.NOT, .reduce 24), (.OR, .reduce 24), (.POW, .shift 26),
   (.QMARK, .reduce 24), (.RBRACE, .reduce 24), (.RBRACKET, .reduce 24), (.RPAREN, .reduce 24),
   (.SUB, .shift 28), (.TDIV, .shift 25)],  -- state 81
  [(.END, .reduce 25), (.ADD, .shift 27), (.AND, .reduce 25), (.BWAND, .reduce 25),
   (.BWLSH, .shift 32), (.BWOR, .reduce 25), (.BWRSH, .shift 33), (.BWXOR, .reduce 25),
   (.COLON, .reduce 25), (.COMMA, .reduce 25), (.COMMENT, .reduce 25), (.FDIV, .shift 24),
   (.FOR, .reduce 25), (.IF, .reduce 25), (.LPAREN, .shift 48), (.MOD, .shift 22),
   (.MUL, .shift 23), (.NOT, .reduce 25), (.OR, .reduce 25), (.POW, .shift 26),
   (.QMARK, .reduce 25), (.RBRACE, .reduce 25), (.RBRACKET, .reduce 25), (.RPAREN, .reduce 25),
   (.SUB, .shift 28), (.TDIV, .shift 25)],  -- state 82
  [(.END, .reduce 26), (.ADD, .shift 27), (.AND, .reduce 26), (.BWAND, .reduce 26),
   (.BWLSH, .shift 32), (.BWOR, .reduce 26), (.BWRSH, .shift 33), (.BWXOR, .reduce 26),
   (.COLON, .reduce 26), (.COMMA, .reduce 26), (.COMMENT, .reduce 26), (.FDIV, .shift 24),
   (.FOR, .reduce 26), (.IF, .reduce 26), (.LPAREN, .shift 48), (.MOD, .shift 22),
   (.MUL, .shift 23), (.NOT, .reduce 26), (.OR, .reduce 26), (.POW, .shift 26),
   (.QMARK, .reduce 26), (.RBRACE, .reduce 26), (.RBRACKET, .reduce 26), (.RPAREN, .reduce 26),
   (.SUB, .shift 28), (.TDIV, .shift 25)],  -- state 83
  [(.END, .reduce 27), (.ADD, .shift 27), (.AND, .reduce 27), (.BWAND, .reduce 27),
   (.BWLSH, .shift 32), (.BWOR, .reduce 27), (.BWRSH, .shift 33), (.BWXOR, .reduce 27),
   (.COLON, .reduce 27), (.COMMA, .reduce 27), (.COMMENT, .reduce 27), (.FDIV, .shift 24),
   (.FOR, .reduce 27), (.IF, .reduce 27), (.LPAREN, .shift 48), (.MOD, .shift 22),
   (.MUL, .shift 23), (.NOT, .reduce 27), (.OR, .reduce 27), (.POW, .shift 26),
   (.QMARK, .reduce 27), (.RBRACE, .reduce 27), (.RBRACKET, .reduce 27), (.RPAREN, .reduce 27),
   (.SUB, .shift 28), (.TDIV, .shift 25)],  -- state 84
  [(.END, .reduce 28), (.ADD, .shift 27), (.AND, .reduce 28), (.BWAND, .reduce 28),
   (.BWLSH, .shift 32), (.BWOR, .reduce 28), (.BWRSH, .shift 33), (.BWXOR, .reduce 28),
   (.COLON, .reduce 28), (.COMMA, .reduce 28), (.COMMENT, .reduce 28), (.FDIV, .shift 24),
   (.FOR, .reduce 28), (.IF, .reduce 28), (.LPAREN, .shift 48), (.MOD, .shift 22),
   (.MUL, .shift 23), (.NOT, .reduce 28), (.OR, .reduce 28), (.POW, .shift 26),
   (.QMARK, .reduce 28), (.RBRACE, .reduce 28), (.RBRACKET, .reduce 28), (.RPAREN, .reduce 28),
   (.SUB, .shift 28), (.TDIV, .shift 25)],  -- state 85
  [(.END, .reduce 29), (.ADD, .shift 27), (.AND, .reduce 29), (.BWAND, .reduce 29),
   (.BWLSH, .shift 32), (.BWOR, .reduce 29), (.BWRSH, .shift 33), (.BWXOR, .reduce 29),
   (.COLON, .reduce 29), (.COMMA, .reduce 29), (.COMMENT, .reduce 29), (.FDIV, .shift 24),
   (.FOR, .reduce 29), (.IF, .reduce 29), (.LPAREN, .shift 48), (.MOD, .shift 22),
   (.MUL, .shift 23), (.NOT, .reduce 29), (.OR, .reduce 29), (.POW, .shift 26),
   (.QMARK, .reduce 29), (.RBRACE, .reduce 29), (.RBRACKET, .reduce 29), (.RPAREN, .reduce 29),
   (.SUB, .shift 28), (.TDIV, .shift 25)],  -- state 86
  [(.END, .reduce 30), (.ADD, .shift 27), (.AND, .reduce 30), (.BWAND, .reduce 30),
   (.BWLSH, .shift 32), (.BWOR, .reduce 30), (.BWRSH, .shift 33), (.BWXOR, .reduce 30),
   (.COLON, .reduce 30), (.COMMA, .reduce 30), (.COMMENT, .reduce 30), (.FDIV, .shift 24),
   (.FOR, .reduce 30), (.IF, .reduce 30), (.LPAREN, .shift 48), (.MOD, .shift 22),
   (.MUL, .shift 23), (.NOT, .reduce 30), (.OR, .reduce 30), (.POW, .shift 26),
   (.QMARK, .reduce 30), (.RBRACE, .reduce 30), (.RBRACKET, .reduce 30), (.RPAREN, .reduce 30),
   (.SUB, .shift 28), (.TDIV, .shift 25)],  -- state 87
  [(.END, .reduce 31), (.ADD, .shift 27), (.AND, .reduce 31), (.BWAND, .shift 29),
   (.BWLSH, .shift 32), (.BWOR, .shift 30), (.BWRSH, .shift 33), (.BWXOR, .shift 31),
   (.COLON, .reduce 31), (.COMMA, .reduce 31), (.COMMENT, .reduce 31), (.EQ, .shift 36),
   (.EQ_FZM, .shift 42), (.EQ_FZS, .shift 43), (.FDIV, .shift 24), (.FOR, .reduce 31),
   (.GE, .shift 39), (.GT, .shift 38), (.IF, .reduce 31), (.IN, .shift 34), (.LE, .shift 41),
   (.LPAREN, .shift 48), (.LT, .shift 40), (.MOD, .shift 22), (.MUL, .shift 23),
   (.NE, .shift 37), (.NE_FZM, .shift 44), (.NE_FZS, .shift 45), (.NOT, .shift 35),
   (.OR, .reduce 31), (.POW, .shift 26), (.QMARK, .shift 21), (.RBRACE, .reduce 31),
   (.RBRACKET, .reduce 31), (.RPAREN, .reduce 31), (.SUB, .shift 28), (.TDIV, .shift 25)],  -- state 88
  [(.END, .reduce 32), (.ADD, .shift 27), (.AND, .shift 46), (.BWAND, .shift 29),
   (.BWLSH, .shift 32), (.BWOR, .shift 30), (.BWRSH, .shift 33), (.BWXOR, .shift 31),
   (.COLON, .reduce 32), (.COMMA, .reduce 32), (.COMMENT, .reduce 32), (.EQ, .shift 36),
   (.EQ_FZM, .shift 42), (.EQ_FZS, .shift 43), (.FDIV, .shift 24), (.FOR, .reduce 32),
   (.GE, .shift 39), (.GT, .shift 38), (.IF, .reduce 32), (.IN, .shift 34), (.LE, .shift 41),
   (.LPAREN, .shift 48), (.LT, .shift 40), (.MOD, .shift 22), (.MUL, .shift 23),
   (.NE, .shift 37), (.NE_FZM, .shift 44), (.NE_FZS, .shift 45), (.NOT, .shift 35),
   (.OR, .reduce 32), (.POW, .shift 26), (.QMARK, .shift 21), (.RBRACE, .reduce 32),
   (.RBRACKET, .reduce 32), (.RPAREN, .reduce 32), (.SUB, .shift 28), (.TDIV, .shift 25)],  -- state 89
  [(.ADD, .shift 27), (.AND, .shift 46), (.BWAND, .shift 29), (.BWLSH, .shift 32),
   (.BWOR, .shift 30), (.BWRSH, .shift 33), (.BWXOR, .shift 31), (.COMMA, .reduce 54),
   (.EQ, .shift 36), (.EQ_FZM, .shift 42), (.EQ_FZS, .shift 43), (.FDIV, .shift 24),
   (.GE, .shift 39), (.GT, .shift 38), (.IN, .shift 34), (.LE, .shift 41), (.LPAREN, .shift 48),
   (.LT, .shift 40), (.MOD, .shift 22), (.MUL, .shift 23), (.NE, .shift 37),
   (.NE_FZM, .shift 44), (.NE_FZS, .shift 45), (.NOT, .shift 35), (.OR, .shift 47),
   (.POW, .shift 26), (.QMARK, .shift 21), (.RPAREN, .reduce 54), (.SUB, .shift 28),
   (.TDIV, .shift 25)],  -- state 90
  [(.END, .reduce 67), (.ADD, .reduce 67), (.AND, .reduce 67), (.ATTR, .reduce 67),
   (.ATTR_SAFE, .reduce 67), (.BWAND, .reduce 67), (.BWLSH, .reduce 67), (.BWOR, .reduce 67),
   (.BWRSH, .reduce 67), (.BWXOR, .reduce 67), (.COLON, .reduce 67), (.COMMA, .reduce 67),
   (.COMMENT, .reduce 67), (.EQ, .reduce 67), (.EQ_FZM, .reduce 67), (.EQ_FZS, .reduce 67),
   (.FDIV, .reduce 67), (.FOR, .reduce 67), (.GE, .reduce 67), (.GT, .reduce 67),
   (.IF, .reduce 67), (.IN, .reduce 67), (.LBRACKET, .reduce 67), (.LE, .reduce 67),
   (.LPAREN, .reduce 67), (.LT, .reduce 67), (.MOD, .reduce 67), (.MUL, .reduce 67),
   (.NE, .reduce 67), (.NE_FZM, .reduce 67), (.NE_FZS, .reduce 67), (.NOT, .reduce 67),
   (.OR, .reduce 67), (.POW, .reduce 67), (.QMARK, .reduce 67), (.RBRACE, .reduce 67),
   (.RBRACKET, .reduce 67), (.RPAREN, .reduce 67), (.SUB, .reduce 67), (.TDIV, .reduce 67)],  -- state 91
  [(.COMMA, .shift 109), (.RPAREN, .shift 108)],  -- state 92
  [(.END, .reduce 3), (.ADD, .reduce 3), (.AND, .reduce 3), (.ATTR, .reduce 3),
   (.ATTR_SAFE, .reduce 3), (.BWAND, .reduce 3), (.BWLSH, .reduce 3), (.BWOR, .reduce 3),
   (.BWRSH, .reduce 3), (.BWXOR, .reduce 3), (.COLON, .reduce 3), (.COMMA, .reduce 3),
   (.COMMENT, .reduce 3), (.EQ, .reduce 3), (.EQ_FZM, .reduce 3), (.EQ_FZS, .reduce 3),
   (.FDIV, .reduce 3), (.FOR, .reduce 3), (.GE, .reduce 3), (.GT, .reduce 3), (.IF, .reduce 3),
   (.IN, .reduce 3), (.LBRACKET, .reduce 3), (.LE, .reduce 3), (.LPAREN, .reduce 3),
   (.LT, .reduce 3), (.MOD, .reduce 3), (.MUL, .reduce 3), (.NE, .reduce 3),
   (.NE_FZM, .reduce 3), (.NE_FZS, .reduce 3), (.NOT, .reduce 3), (.OR, .reduce 3),
   (.POW, .reduce 3), (.QMARK, .reduce 3), (.RBRACE, .reduce 3), (.RBRACKET, .reduce 3),
   (.RPAREN, .reduce 3), (.SUB, .reduce 3), (.TDIV, .reduce 3)],  -- state 93
  [(.END, .reduce 4), (.ADD, .reduce 4), (.AND, .reduce 4), (.ATTR, .reduce 4),
   (.ATTR_SAFE, .reduce 4), (.BWAND, .reduce 4), (.BWLSH, .reduce 4), (.BWOR, .reduce 4),
   (.BWRSH, .reduce 4), (.BWXOR, .reduce 4), (.COLON, .reduce 4), (.COMMA, .reduce 4),
   (.COMMENT, .reduce 4), (.EQ, .reduce 4), (.EQ_FZM, .reduce 4), (.EQ_FZS, .reduce 4),
   (.FDIV, .reduce 4), (.FOR, .reduce 4), (.GE, .reduce 4), (.GT, .reduce 4), (.IF, .reduce 4),
   (.IN, .reduce 4), (.LBRACKET, .reduce 4), (.LE, .reduce 4), (.LPAREN, .reduce 4),
   (.LT, .reduce 4), (.MOD, .reduce 4), (.MUL, .reduce 4), (.NE, .reduce 4),
   (.NE_FZM, .reduce 4), (.NE_FZS, .reduce 4), (.NOT, .reduce 4), (.OR, .reduce 4),
   (.POW, .reduce 4), (.QMARK, .reduce 4), (.RBRACE, .reduce 4), (.RBRACKET, .reduce 4),
   (.RPAREN, .reduce 4), (.SUB, .reduce 4), (.TDIV, .reduce 4)],  -- state 94
  [(.ADD, .shift 27), (.AND, .shift 46), (.BWAND, .shift 29), (.BWLSH, .shift 32),
   (.BWOR, .shift 30), (.BWRSH, .shift 33), (.BWXOR, .shift 31), (.COLON, .shift 111),
   (.EQ, .shift 36), (.EQ_FZM, .shift 42), (.EQ_FZS, .shift 43), (.FDIV, .shift 24),
   (.GE, .shift 39), (.GT, .shift 38), (.IN, .shift 34), (.LE, .shift 41), (.LPAREN, .shift 48),
   (.LT, .shift 40), (.MOD, .shift 22), (.MUL, .shift 23), (.NE, .shift 37),
   (.NE_FZM, .shift 44), (.NE_FZS, .shift 45), (.NOT, .shift 35), (.OR, .shift 47),
   (.POW, .shift 26), (.QMARK, .shift 21), (.RBRACKET, .shift 110), (.SUB, .shift 28),
   (.TDIV, .shift 25)],  -- state 95
  [(.BYTES, .shift 13), (.DATETIME, .shift 14), (.FALSE, .shift 7), (.FLOAT, .shift 8),
   (.FLOAT_INF, .shift 10), (.FLOAT_NAN, .shift 9), (.LBRACE, .shift 17), (.LBRACKET, .shift 19),
   (.LPAREN, .shift 12), (.NOT, .shift 5), (.NULL, .shift 16), (.RBRACKET, .shift 112),
   (.STRING, .shift 18), (.SUB, .shift 4), (.SYMBOL, .shift 11), (.TIMEDELTA, .shift 15),
   (.TRUE, .shift 6)],  -- state 96
  [(.END, .reduce 33), (.ADD, .reduce 33), (.AND, .reduce 33), (.ATTR, .reduce 33),
   (.ATTR_SAFE, .reduce 33), (.BWAND, .reduce 33), (.BWLSH, .reduce 33), (.BWOR, .reduce 33),
   (.BWRSH, .reduce 33), (.BWXOR, .reduce 33), (.COLON, .reduce 33), (.COMMA, .reduce 33),
   (.COMMENT, .reduce 33), (.EQ, .reduce 33), (.EQ_FZM, .reduce 33), (.EQ_FZS, .reduce 33),
   (.FDIV, .reduce 33), (.FOR, .reduce 33), (.GE, .reduce 33), (.GT, .reduce 33),
   (.IF, .reduce 33), (.IN, .reduce 33), (.LBRACKET, .reduce 33), (.LE, .reduce 33),
   (.LPAREN, .reduce 33), (.LT, .reduce 33), (.MOD, .reduce 33), (.MUL, .reduce 33),
   (.NE, .reduce 33), (.NE_FZM, .reduce 33), (.NE_FZS, .reduce 33), (.NOT, .reduce 33),
   (.OR, .reduce 33), (.POW, .reduce 33), (.QMARK, .reduce 33), (.RBRACE, .reduce 33),
   (.RBRACKET, .reduce 33), (.RPAREN, .reduce 33), (.SUB, .reduce 33), (.TDIV, .reduce 33)],  -- state 97
  [(.END, .reduce 46), (.ADD, .reduce 46), (.AND, .reduce 46), (.ATTR, .reduce 46),
   (.ATTR_SAFE, .reduce 46), (.BWAND, .reduce 46), (.BWLSH, .reduce 46), (.BWOR, .reduce 46),
   (.BWRSH, .reduce 46), (.BWXOR, .reduce 46), (.COLON, .reduce 46), (.COMMA, .reduce 46),
   (.COMMENT, .reduce 46), (.EQ, .reduce 46), (.EQ_FZM, .reduce 46), (.EQ_FZS, .reduce 46),
   (.FDIV, .reduce 46), (.FOR, .reduce 46), (.GE, .reduce 46), (.GT, .reduce 46),
   (.IF, .reduce 46), (.IN, .reduce 46), (.LBRACKET, .reduce 46), (.LE, .reduce 46),
   (.LPAREN, .reduce 46), (.LT, .reduce 46), (.MOD, .reduce 46), (.MUL, .reduce 46),
   (.NE, .reduce 46), (.NE_FZM, .reduce 46), (.NE_FZS, .reduce 46), (.NOT, .reduce 46),
   (.OR, .reduce 46), (.POW, .reduce 46), (.QMARK, .reduce 46), (.RBRACE, .reduce 46),
   (.RBRACKET, .reduce 46), (.RPAREN, .reduce 46), (.SUB, .reduce 46), (.TDIV, .reduce 46)],  -- state 98
  [(.BYTES, .shift 13), (.DATETIME, .shift 14), (.FALSE, .shift 7), (.FLOAT, .shift 8),
   (.FLOAT_INF, .shift 10), (.FLOAT_NAN, .shift 9), (.LBRACE, .shift 17), (.LBRACKET, .shift 19),
   (.LPAREN, .shift 12), (.NOT, .shift 5), (.NULL, .shift 16), (.RBRACE, .shift 114),
   (.STRING, .shift 18), (.SUB, .shift 4), (.SYMBOL, .shift 11), (.TIMEDELTA, .shift 15),
   (.TRUE, .shift 6)],  -- state 99
  [(.END, .reduce 57), (.ADD, .reduce 57), (.AND, .reduce 57), (.ATTR, .reduce 57),
   (.ATTR_SAFE, .reduce 57), (.BWAND, .reduce 57), (.BWLSH, .reduce 57), (.BWOR, .reduce 57),
   (.BWRSH, .reduce 57), (.BWXOR, .reduce 57), (.COLON, .reduce 57), (.COMMA, .reduce 57),
   (.COMMENT, .reduce 57), (.EQ, .reduce 57), (.EQ_FZM, .reduce 57), (.EQ_FZS, .reduce 57),
   (.FDIV, .reduce 57), (.FOR, .reduce 57), (.GE, .reduce 57), (.GT, .reduce 57),
   (.IF, .reduce 57), (.IN, .reduce 57), (.LBRACKET, .reduce 57), (.LE, .reduce 57),
   (.LPAREN, .reduce 57), (.LT, .reduce 57), (.MOD, .reduce 57), (.MUL, .reduce 57),
   (.NE, .reduce 57), (.NE_FZM, .reduce 57), (.NE_FZS, .reduce 57), (.NOT, .reduce 57),
   (.OR, .reduce 57), (.POW, .reduce 57), (.QMARK, .reduce 57), (.RBRACE, .reduce 57),
   (.RBRACKET, .reduce 57), (.RPAREN, .reduce 57), (.SUB, .reduce 57), (.TDIV, .reduce 57)],  -- state 100
  [(.BYTES, .shift 13), (.DATETIME, .shift 14), (.FALSE, .shift 7), (.FLOAT, .shift 8),
   (.FLOAT_INF, .shift 10), (.FLOAT_NAN, .shift 9), (.LBRACE, .shift 17), (.LBRACKET, .shift 19),
   (.LPAREN, .shift 12), (.NOT, .shift 5), (.NULL, .shift 16), (.RBRACE, .shift 116),
   (.STRING, .shift 18), (.SUB, .shift 4), (.SYMBOL, .shift 11), (.TIMEDELTA, .shift 15),
   (.TRUE, .shift 6)],  -- state 101
  [(.BYTES, .shift 13), (.DATETIME, .shift 14), (.FALSE, .shift 7), (.FLOAT, .shift 8),
   (.FLOAT_INF, .shift 10), (.FLOAT_NAN, .shift 9), (.LBRACE, .shift 17), (.LBRACKET, .shift 19),
   (.LPAREN, .shift 12), (.NOT, .shift 5), (.NULL, .shift 16), (.STRING, .shift 18),
   (.SUB, .shift 4), (.SYMBOL, .shift 11), (.TIMEDELTA, .shift 15), (.TRUE, .shift 6)],  -- state 102
  [(.END, .reduce 50), (.ADD, .reduce 50), (.AND, .reduce 50), (.ATTR, .reduce 50),
   (.ATTR_SAFE, .reduce 50), (.BWAND, .reduce 50), (.BWLSH, .reduce 50), (.BWOR, .reduce 50),
   (.BWRSH, .reduce 50), (.BWXOR, .reduce 50), (.COLON, .reduce 50), (.COMMA, .reduce 50),
   (.COMMENT, .reduce 50), (.EQ, .reduce 50), (.EQ_FZM, .reduce 50), (.EQ_FZS, .reduce 50),
   (.FDIV, .reduce 50), (.FOR, .reduce 50), (.GE, .reduce 50), (.GT, .reduce 50),
   (.IF, .reduce 50), (.IN, .reduce 50), (.LBRACKET, .reduce 50), (.LE, .reduce 50),
   (.LPAREN, .reduce 50), (.LT, .reduce 50), (.MOD, .reduce 50), (.MUL, .reduce 50),
   (.NE, .reduce 50), (.NE_FZM, .reduce 50), (.NE_FZS, .reduce 50), (.NOT, .reduce 50),
   (.OR, .reduce 50), (.POW, .reduce 50), (.QMARK, .reduce 50), (.RBRACE, .reduce 50),
   (.RBRACKET, .reduce 50), (.RPAREN, .reduce 50), (.SUB, .reduce 50), (.TDIV, .reduce 50)],  -- state 103
  [(.BYTES, .shift 13), (.DATETIME, .shift 14), (.FALSE, .shift 7), (.FLOAT, .shift 8),
   (.FLOAT_INF, .shift 10), (.FLOAT_NAN, .shift 9), (.LBRACE, .shift 17), (.LBRACKET, .shift 19),
   (.LPAREN, .shift 12), (.NOT, .shift 5), (.NULL, .shift 16), (.RBRACKET, .shift 120),
   (.STRING, .shift 18), (.SUB, .shift 4), (.SYMBOL, .shift 11), (.TIMEDELTA, .shift 15),
   (.TRUE, .shift 6)],  -- state 104
  [(.SYMBOL, .shift 121)],  -- state 105
  [(.BYTES, .shift 13), (.DATETIME, .shift 14), (.FALSE, .shift 7), (.FLOAT, .shift 8),
   (.FLOAT_INF, .shift 10), (.FLOAT_NAN, .shift 9), (.LBRACE, .shift 17), (.LBRACKET, .shift 19),
   (.LPAREN, .shift 12), (.NOT, .shift 5), (.NULL, .shift 16), (.STRING, .shift 18),
   (.SUB, .shift 4), (.SYMBOL, .shift 11), (.TIMEDELTA, .shift 15), (.TRUE, .shift 6)],  -- state 106
  [(.END, .reduce 20), (.ADD, .shift 27), (.AND, .reduce 20), (.BWAND, .reduce 20),
   (.BWLSH, .shift 32), (.BWOR, .reduce 20), (.BWRSH, .shift 33), (.BWXOR, .reduce 20),
   (.COLON, .reduce 20), (.COMMA, .reduce 20), (.COMMENT, .reduce 20), (.FDIV, .shift 24),
   (.FOR, .reduce 20), (.IF, .reduce 20), (.LPAREN, .shift 48), (.MOD, .shift 22),
   (.MUL, .shift 23), (.NOT, .reduce 20), (.OR, .reduce 20), (.POW, .shift 26),
   (.QMARK, .reduce 20), (.RBRACE, .reduce 20), (.RBRACKET, .reduce 20), (.RPAREN, .reduce 20),
   (.SUB, .shift 28), (.TDIV, .shift 25)],  -- state 107
  [(.END, .reduce 68), (.ADD, .reduce 68), (.AND, .reduce 68), (.ATTR, .reduce 68),
   (.ATTR_SAFE, .reduce 68), (.BWAND, .reduce 68), (.BWLSH, .reduce 68), (.BWOR, .reduce 68),
   (.BWRSH, .reduce 68), (.BWXOR, .reduce 68), (.COLON, .reduce 68), (.COMMA, .reduce 68),
   (.COMMENT, .reduce 68), (.EQ, .reduce 68), (.EQ_FZM, .reduce 68), (.EQ_FZS, .reduce 68),
   (.FDIV, .reduce 68), (.FOR, .reduce 68), (.GE, .reduce 68), (.GT, .reduce 68),
   (.IF, .reduce 68), (.IN, .reduce 68), (.LBRACKET, .reduce 68), (.LE, .reduce 68),
   (.LPAREN, .reduce 68), (.LT, .reduce 68), (.MOD, .reduce 68), (.MUL, .reduce 68),
   (.NE, .reduce 68), (.NE_FZM, .reduce 68), (.NE_FZS, .reduce 68), (.NOT, .reduce 68),
   (.OR, .reduce 68), (.POW, .reduce 68), (.QMARK, .reduce 68), (.RBRACE, .reduce 68),
   (.RBRACKET, .reduce 68), (.RPAREN, .reduce 68), (.SUB, .reduce 68), (.TDIV, .reduce 68)],  -- state 108
  [(.BYTES, .shift 13), (.DATETIME, .shift 14), (.FALSE, .shift 7), (.FLOAT, .shift 8),
   (.FLOAT_INF, .shift 10), (.FLOAT_NAN, .shift 9), (.LBRACE, .shift 17), (.LBRACKET, .shift 19),
   (.LPAREN, .shift 12), (.NOT, .shift 5), (.NULL, .shift 16), (.STRING, .shift 18),
   (.SUB, .shift 4), (.SYMBOL, .shift 11), (.TIMEDELTA, .shift 15), (.TRUE, .shift 6)],  -- state 109
  [(.END, .reduce 62), (.ADD, .reduce 62), (.AND, .reduce 62), (.ATTR, .reduce 62),
   (.ATTR_SAFE, .reduce 62), (.BWAND, .reduce 62), (.BWLSH, .reduce 62), (.BWOR, .reduce 62),
   (.BWRSH, .reduce 62), (.BWXOR, .reduce 62), (.COLON, .reduce 62), (.COMMA, .reduce 62),
   (.COMMENT, .reduce 62), (.EQ, .reduce 62), (.EQ_FZM, .reduce 62), (.EQ_FZS, .reduce 62),
   (.FDIV, .reduce 62), (.FOR, .reduce 62), (.GE, .reduce 62), (.GT, .reduce 62),
   (.IF, .reduce 62), (.IN, .reduce 62), (.LBRACKET, .reduce 62), (.LE, .reduce 62),
   (.LPAREN, .reduce 62), (.LT, .reduce 62), (.MOD, .reduce 62), (.MUL, .reduce 62),
   (.NE, .reduce 62), (.NE_FZM, .reduce 62), (.NE_FZS, .reduce 62), (.NOT, .reduce 62),
   (.OR, .reduce 62), (.POW, .reduce 62), (.QMARK, .reduce 62), (.RBRACE, .reduce 62),
   (.RBRACKET, .reduce 62), (.RPAREN, .reduce 62), (.SUB, .reduce 62), (.TDIV, .reduce 62)],  -- state 110
  [(.BYTES, .shift 13), (.DATETIME, .shift 14), (.FALSE, .shift 7), (.FLOAT, .shift 8),
   (.FLOAT_INF, .shift 10), (.FLOAT_NAN, .shift 9), (.LBRACE, .shift 17), (.LBRACKET, .shift 19),
   (.LPAREN, .shift 12), (.NOT, .shift 5), (.NULL, .shift 16), (.RBRACKET, .shift 124),
   (.STRING, .shift 18), (.SUB, .shift 4), (.SYMBOL, .shift 11), (.TIMEDELTA, .shift 15),
   (.TRUE, .shift 6)],  -- state 111
  [(.END, .reduce 63), (.ADD, .reduce 63), (.AND, .reduce 63), (.ATTR, .reduce 63),
   (.ATTR_SAFE, .reduce 63), (.BWAND, .reduce 63), (.BWLSH, .reduce 63), (.BWOR, .reduce 63),
   (.BWRSH, .reduce 63), (.BWXOR, .reduce 63), (.COLON, .reduce 63), (.COMMA, .reduce 63),
   (.COMMENT, .reduce 63), (.EQ, .reduce 63), (.EQ_FZM, .reduce 63), (.EQ_FZS, .reduce 63),
   (.FDIV, .reduce 63), (.FOR, .reduce 63), (.GE, .reduce 63), (.GT, .reduce 63),
   (.IF, .reduce 63), (.IN, .reduce 63), (.LBRACKET, .reduce 63), (.LE, .reduce 63),
   (.LPAREN, .reduce 63), (.LT, .reduce 63), (.MOD, .reduce 63), (.MUL, .reduce 63),
   (.NE, .reduce 63), (.NE_FZM, .reduce 63), (.NE_FZS, .reduce 63), (.NOT, .reduce 63),
   (.OR, .reduce 63), (.POW, .reduce 63), (.QMARK, .reduce 63), (.RBRACE, .reduce 63),
   (.RBRACKET, .reduce 63), (.RPAREN, .reduce 63), (.SUB, .reduce 63), (.TDIV, .reduce 63)],  -- state 112
  [(.ADD, .shift 27), (.AND, .shift 46), (.BWAND, .shift 29), (.BWLSH, .shift 32),
   (.BWOR, .shift 30), (.BWRSH, .shift 33), (.BWXOR, .shift 31), (.EQ, .shift 36),
   (.EQ_FZM, .shift 42), (.EQ_FZS, .shift 43), (.FDIV, .shift 24), (.GE, .shift 39),
   (.GT, .shift 38), (.IN, .shift 34), (.LE, .shift 41), (.LPAREN, .shift 48), (.LT, .shift 40),
   (.MOD, .shift 22), (.MUL, .shift 23), (.NE, .shift 37), (.NE_FZM, .shift 44),
   (.NE_FZS, .shift 45), (.NOT, .shift 35), (.OR, .shift 47), (.POW, .shift 26),
   (.QMARK, .shift 21), (.RBRACKET, .shift 125), (.SUB, .shift 28), (.TDIV, .shift 25)],  -- state 113
  [(.END, .reduce 47), (.ADD, .reduce 47), (.AND, .reduce 47), (.ATTR, .reduce 47),
   (.ATTR_SAFE, .reduce 47), (.BWAND, .reduce 47), (.BWLSH, .reduce 47), (.BWOR, .reduce 47),
   (.BWRSH, .reduce 47), (.BWXOR, .reduce 47), (.COLON, .reduce 47), (.COMMA, .reduce 47),
   (.COMMENT, .reduce 47), (.EQ, .reduce 47), (.EQ_FZM, .reduce 47), (.EQ_FZS, .reduce 47),
   (.FDIV, .reduce 47), (.FOR, .reduce 47), (.GE, .reduce 47), (.GT, .reduce 47),
   (.IF, .reduce 47), (.IN, .reduce 47), (.LBRACKET, .reduce 47), (.LE, .reduce 47),
   (.LPAREN, .reduce 47), (.LT, .reduce 47), (.MOD, .reduce 47), (.MUL, .reduce 47),
   (.NE, .reduce 47), (.NE_FZM, .reduce 47), (.NE_FZS, .reduce 47), (.NOT, .reduce 47),
   (.OR, .reduce 47), (.POW, .reduce 47), (.QMARK, .reduce 47), (.RBRACE, .reduce 47),
   (.RBRACKET, .reduce 47), (.RPAREN, .reduce 47), (.SUB, .reduce 47), (.TDIV, .reduce 47)],  -- state 114
  [(.ADD, .shift 27), (.AND, .shift 46), (.BWAND, .shift 29), (.BWLSH, .shift 32),
   (.BWOR, .shift 30), (.BWRSH, .shift 33), (.BWXOR, .shift 31), (.COMMA, .reduce 55),
   (.EQ, .shift 36), (.EQ_FZM, .shift 42), (.EQ_FZS, .shift 43), (.FDIV, .shift 24),
   (.GE, .shift 39), (.GT, .shift 38), (.IN, .shift 34), (.LE, .shift 41), (.LPAREN, .shift 48),
   (.LT, .shift 40), (.MOD, .shift 22), (.MUL, .shift 23), (.NE, .shift 37),
   (.NE_FZM, .shift 44), (.NE_FZS, .shift 45), (.NOT, .shift 35), (.OR, .shift 47),
   (.POW, .shift 26), (.QMARK, .shift 21), (.RBRACE, .reduce 55), (.RBRACKET, .reduce 55),
   (.RPAREN, .reduce 55), (.SUB, .shift 28), (.TDIV, .shift 25)],  -- state 115
  [(.END, .reduce 58), (.ADD, .reduce 58), (.AND, .reduce 58), (.ATTR, .reduce 58),
   (.ATTR_SAFE, .reduce 58), (.BWAND, .reduce 58), (.BWLSH, .reduce 58), (.BWOR, .reduce 58),
   (.BWRSH, .reduce 58), (.BWXOR, .reduce 58), (.COLON, .reduce 58), (.COMMA, .reduce 58),
   (.COMMENT, .reduce 58), (.EQ, .reduce 58), (.EQ_FZM, .reduce 58), (.EQ_FZS, .reduce 58),
   (.FDIV, .reduce 58), (.FOR, .reduce 58), (.GE, .reduce 58), (.GT, .reduce 58),
   (.IF, .reduce 58), (.IN, .reduce 58), (.LBRACKET, .reduce 58), (.LE, .reduce 58),
   (.LPAREN, .reduce 58), (.LT, .reduce 58), (.MOD, .reduce 58), (.MUL, .reduce 58),
   (.NE, .reduce 58), (.NE_FZM, .reduce 58), (.NE_FZS, .reduce 58), (.NOT, .reduce 58),
   (.OR, .reduce 58), (.POW, .reduce 58), (.QMARK, .reduce 58), (.RBRACE, .reduce 58),
   (.RBRACKET, .reduce 58), (.RPAREN, .reduce 58), (.SUB, .reduce 58), (.TDIV, .reduce 58)],  -- state 116
  [(.COMMA, .reduce 61), (.RBRACE, .reduce 61)],  -- state 117
  [(.ADD, .shift 27), (.AND, .shift 46), (.BWAND, .shift 29), (.BWLSH, .shift 32),
   (.BWOR, .shift 30), (.BWRSH, .shift 33), (.BWXOR, .shift 31), (.COLON, .shift 102),
   (.EQ, .shift 36), (.EQ_FZM, .shift 42), (.EQ_FZS, .shift 43), (.FDIV, .shift 24),
   (.GE, .shift 39), (.GT, .shift 38), (.IN, .shift 34), (.LE, .shift 41), (.LPAREN, .shift 48),
   (.LT, .shift 40), (.MOD, .shift 22), (.MUL, .shift 23), (.NE, .shift 37),
   (.NE_FZM, .shift 44), (.NE_FZS, .shift 45), (.NOT, .shift 35), (.OR, .shift 47),
   (.POW, .shift 26), (.QMARK, .shift 21), (.SUB, .shift 28), (.TDIV, .shift 25)],  -- state 118
  [(.ADD, .shift 27), (.AND, .shift 46), (.BWAND, .shift 29), (.BWLSH, .shift 32),
   (.BWOR, .shift 30), (.BWRSH, .shift 33), (.BWXOR, .shift 31), (.COMMA, .reduce 59),
   (.EQ, .shift 36), (.EQ_FZM, .shift 42), (.EQ_FZS, .shift 43), (.FDIV, .shift 24),
   (.GE, .shift 39), (.GT, .shift 38), (.IN, .shift 34), (.LE, .shift 41), (.LPAREN, .shift 48),
   (.LT, .shift 40), (.MOD, .shift 22), (.MUL, .shift 23), (.NE, .shift 37),
   (.NE_FZM, .shift 44), (.NE_FZS, .shift 45), (.NOT, .shift 35), (.OR, .shift 47),
   (.POW, .shift 26), (.QMARK, .shift 21), (.RBRACE, .reduce 59), (.SUB, .shift 28),
   (.TDIV, .shift 25)],  -- state 119
  [(.END, .reduce 51), (.ADD, .reduce 51), (.AND, .reduce 51), (.ATTR, .reduce 51),
   (.ATTR_SAFE, .reduce 51), (.BWAND, .reduce 51), (.BWLSH, .reduce 51), (.BWOR, .reduce 51),
   (.BWRSH, .reduce 51), (.BWXOR, .reduce 51), (.COLON, .reduce 51), (.COMMA, .reduce 51),
   (.COMMENT, .reduce 51), (.EQ, .reduce 51), (.EQ_FZM, .reduce 51), (.EQ_FZS, .reduce 51),
   (.FDIV, .reduce 51), (.FOR, .reduce 51), (.GE, .reduce 51), (.GT, .reduce 51),
   (.IF, .reduce 51), (.IN, .reduce 51), (.LBRACKET, .reduce 51), (.LE, .reduce 51),
   (.LPAREN, .reduce 51), (.LT, .reduce 51), (.MOD, .reduce 51), (.MUL, .reduce 51),
   (.NE, .reduce 51), (.NE_FZM, .reduce 51), (.NE_FZS, .reduce 51), (.NOT, .reduce 51),
   (.OR, .reduce 51), (.POW, .reduce 51), (.QMARK, .reduce 51), (.RBRACE, .reduce 51),
   (.RBRACKET, .reduce 51), (.RPAREN, .reduce 51), (.SUB, .reduce 51), (.TDIV, .reduce 51)],  -- state 120
  [(.IN, .shift 126)],  -- state 121
  [(.END, .reduce 6), (.ADD, .shift 27), (.AND, .reduce 6), (.BWAND, .reduce 6),
   (.BWLSH, .shift 32), (.BWOR, .reduce 6), (.BWRSH, .shift 33), (.BWXOR, .reduce 6),
   (.COLON, .reduce 6), (.COMMA, .reduce 6), (.COMMENT, .reduce 6), (.EQ, .shift 36),
   (.EQ_FZM, .shift 42), (.EQ_FZS, .shift 43), (.FDIV, .shift 24), (.FOR, .reduce 6),
   (.GE, .shift 39), (.GT, .shift 38), (.IF, .reduce 6), (.IN, .shift 34), (.LE, .shift 41),
   (.LPAREN, .shift 48), (.LT, .shift 40), (.MOD, .shift 22), (.MUL, .shift 23),
   (.NE, .shift 37), (.NE_FZM, .shift 44), (.NE_FZS, .shift 45), (.NOT, .reduce 6),
   (.OR, .reduce 6), (.POW, .shift 26), (.QMARK, .shift 21), (.RBRACE, .reduce 6),
   (.RBRACKET, .reduce 6), (.RPAREN, .reduce 6), (.SUB, .shift 28), (.TDIV, .shift 25)],  -- state 122
  [(.ADD, .shift 27), (.AND, .shift 46), (.BWAND, .shift 29), (.BWLSH, .shift 32),
   (.BWOR, .shift 30), (.BWRSH, .shift 33), (.BWXOR, .shift 31), (.EQ, .shift 36),
   (.EQ_FZM, .shift 42), (.EQ_FZS, .shift 43), (.FDIV, .shift 24), (.GE, .shift 39),
   (.GT, .shift 38), (.IN, .shift 34), (.LE, .shift 41), (.LPAREN, .shift 48), (.LT, .shift 40),
   (.MOD, .shift 22), (.MUL, .shift 23), (.NE, .shift 37), (.NE_FZM, .shift 44),
   (.NE_FZS, .shift 45), (.NOT, .shift 35), (.OR, .shift 47), (.POW, .shift 26),
   (.QMARK, .shift 21), (.RBRACKET, .shift 127), (.SUB, .shift 28), (.TDIV, .shift 25)],  -- state 123
  [(.END, .reduce 65), (.ADD, .reduce 65), (.AND, .reduce 65), (.ATTR, .reduce 65),
   (.ATTR_SAFE, .reduce 65), (.BWAND, .reduce 65), (.BWLSH, .reduce 65), (.BWOR, .reduce 65),
   (.BWRSH, .reduce 65), (.BWXOR, .reduce 65), (.COLON, .reduce 65), (.COMMA, .reduce 65),
   (.COMMENT, .reduce 65), (.EQ, .reduce 65), (.EQ_FZM, .reduce 65), (.EQ_FZS, .reduce 65),
   (.FDIV, .reduce 65), (.FOR, .reduce 65), (.GE, .reduce 65), (.GT, .reduce 65),
   (.IF, .reduce 65), (.IN, .reduce 65), (.LBRACKET, .reduce 65), (.LE, .reduce 65),
   (.LPAREN, .reduce 65), (.LT, .reduce 65), (.MOD, .reduce 65), (.MUL, .reduce 65),
   (.NE, .reduce 65), (.NE_FZM, .reduce 65), (.NE_FZS, .reduce 65), (.NOT, .reduce 65),
   (.OR, .reduce 65), (.POW, .reduce 65), (.QMARK, .reduce 65), (.RBRACE, .reduce 65),
   (.RBRACKET, .reduce 65), (.RPAREN, .reduce 65), (.SUB, .reduce 65), (.TDIV, .reduce 65)],  -- state 124
  [(.END, .reduce 64), (.ADD, .reduce 64), (.AND, .reduce 64), (.ATTR, .reduce 64),
   (.ATTR_SAFE, .reduce 64), (.BWAND, .reduce 64), (.BWLSH, .reduce 64), (.BWOR, .reduce 64),
   (.BWRSH, .reduce 64), (.BWXOR, .reduce 64), (.COLON, .reduce 64), (.COMMA, .reduce 64),
   (.COMMENT, .reduce 64), (.EQ, .reduce 64), (.EQ_FZM, .reduce 64), (.EQ_FZS, .reduce 64),
   (.FDIV, .reduce 64), (.FOR, .reduce 64), (.GE, .reduce 64), (.GT, .reduce 64),
   (.IF, .reduce 64), (.IN, .reduce 64), (.LBRACKET, .reduce 64), (.LE, .reduce 64),
   (.LPAREN, .reduce 64), (.LT, .reduce 64), (.MOD, .reduce 64), (.MUL, .reduce 64),
   (.NE, .reduce 64), (.NE_FZM, .reduce 64), (.NE_FZS, .reduce 64), (.NOT, .reduce 64),
   (.OR, .reduce 64), (.POW, .reduce 64), (.QMARK, .reduce 64), (.RBRACE, .reduce 64),
   (.RBRACKET, .reduce 64), (.RPAREN, .reduce 64), (.SUB, .reduce 64), (.TDIV, .reduce 64)],  -- state 125
  [(.BYTES, .shift 13), (.DATETIME, .shift 14), (.FALSE, .shift 7), (.FLOAT, .shift 8),
   (.FLOAT_INF, .shift 10), (.FLOAT_NAN, .shift 9), (.LBRACE, .shift 17), (.LBRACKET, .shift 19),
   (.LPAREN, .shift 12), (.NOT, .shift 5), (.NULL, .shift 16), (.STRING, .shift 18),
   (.SUB, .shift 4), (.SYMBOL, .shift 11), (.TIMEDELTA, .shift 15), (.TRUE, .shift 6)],  -- state 126
  [(.END, .reduce 66), (.ADD, .reduce 66), (.AND, .reduce 66), (.ATTR, .reduce 66),
   (.ATTR_SAFE, .reduce 66), (.BWAND, .reduce 66), (.BWLSH, .reduce 66), (.BWOR, .reduce 66),
   (.BWRSH, .reduce 66), (.BWXOR, .reduce 66), (.COLON, .reduce 66), (.COMMA, .reduce 66),
   (.COMMENT, .reduce 66), (.EQ, .reduce 66), (.EQ_FZM, .reduce 66), (.EQ_FZS, .reduce 66),
   (.FDIV, .reduce 66), (.FOR, .reduce 66), (.GE, .reduce 66), (.GT, .reduce 66),
   (.IF, .reduce 66), (.IN, .reduce 66), (.LBRACKET, .reduce 66), (.LE, .reduce 66),
   (.LPAREN, .reduce 66), (.LT, .reduce 66), (.MOD, .reduce 66), (.MUL, .reduce 66),
   (.NE, .reduce 66), (.NE_FZM, .reduce 66), (.NE_FZS, .reduce 66), (.NOT, .reduce 66),
   (.OR, .reduce 66), (.POW, .reduce 66), (.QMARK, .reduce 66), (.RBRACE, .reduce 66),
   (.RBRACKET, .reduce 66), (.RPAREN, .reduce 66), (.SUB, .reduce 66), (.TDIV, .reduce 66)],  -- state 127
  [(.ADD, .shift 27), (.AND, .shift 46), (.BWAND, .shift 29), (.BWLSH, .shift 32),
   (.BWOR, .shift 30), (.BWRSH, .shift 33), (.BWXOR, .shift 31), (.EQ, .shift 36),
   (.EQ_FZM, .shift 42), (.EQ_FZS, .shift 43), (.FDIV, .shift 24), (.GE, .shift 39),
   (.GT, .shift 38), (.IF, .shift 130), (.IN, .shift 34), (.LE, .shift 41), (.LPAREN, .shift 48),
   (.LT, .shift 40), (.MOD, .shift 22), (.MUL, .shift 23), (.NE, .shift 37),
   (.NE_FZM, .shift 44), (.NE_FZS, .shift 45), (.NOT, .shift 35), (.OR, .shift 47),
   (.POW, .shift 26), (.QMARK, .shift 21), (.RBRACKET, .shift 129), (.SUB, .shift 28),
   (.TDIV, .shift 25)],  -- state 128
  [(.END, .reduce 52), (.ADD, .reduce 52), (.AND, .reduce 52), (.ATTR, .reduce 52),
   (.ATTR_SAFE, .reduce 52), (.BWAND, .reduce 52), (.BWLSH, .reduce 52), (.BWOR, .reduce 52),
   (.BWRSH, .reduce 52), (.BWXOR, .reduce 52), (.COLON, .reduce 52), (.COMMA, .reduce 52),
   (.COMMENT, .reduce 52), (.EQ, .reduce 52), (.EQ_FZM, .reduce 52), (.EQ_FZS, .reduce 52),
   (.FDIV, .reduce 52), (.FOR, .reduce 52), (.GE, .reduce 52), (.GT, .reduce 52),
   (.IF, .reduce 52), (.IN, .reduce 52), (.LBRACKET, .reduce 52), (.LE, .reduce 52),
   (.LPAREN, .reduce 52), (.LT, .reduce 52), (.MOD, .reduce 52), (.MUL, .reduce 52),
   (.NE, .reduce 52), (.NE_FZM, .reduce 52), (.NE_FZS, .reduce 52), (.NOT, .reduce 52),
   (.OR, .reduce 52), (.POW, .reduce 52), (.QMARK, .reduce 52), (.RBRACE, .reduce 52),
   (.RBRACKET, .reduce 52), (.RPAREN, .reduce 52), (.SUB, .reduce 52), (.TDIV, .reduce 52)],  -- state 129
  [(.BYTES, .shift 13), (.DATETIME, .shift 14), (.FALSE, .shift 7), (.FLOAT, .shift 8),
   (.FLOAT_INF, .shift 10), (.FLOAT_NAN, .shift 9), (.LBRACE, .shift 17), (.LBRACKET, .shift 19),
   (.LPAREN, .shift 12), (.NOT, .shift 5), (.NULL, .shift 16), (.STRING, .shift 18),
   (.SUB, .shift 4), (.SYMBOL, .shift 11), (.TIMEDELTA, .shift 15), (.TRUE, .shift 6)],  -- state 130
  [(.ADD, .shift 27), (.AND, .shift 46), (.BWAND, .shift 29), (.BWLSH, .shift 32),
   (.BWOR, .shift 30), (.BWRSH, .shift 33), (.BWXOR, .shift 31), (.EQ, .shift 36),
   (.EQ_FZM, .shift 42), (.EQ_FZS, .shift 43), (.FDIV, .shift 24), (.GE, .shift 39),
   (.GT, .shift 38), (.IN, .shift 34), (.LE, .shift 41), (.LPAREN, .shift 48), (.LT, .shift 40),
   (.MOD, .shift 22), (.MUL, .shift 23), (.NE, .shift 37), (.NE_FZM, .shift 44),
   (.NE_FZS, .shift 45), (.NOT, .shift 35), (.OR, .shift 47), (.POW, .shift 26),
   (.QMARK, .shift 21), (.RBRACKET, .shift 132), (.SUB, .shift 28), (.TDIV, .shift 25)],  -- state 131
  [(.END, .reduce 53), (.ADD, .reduce 53), (.AND, .reduce 53), (.ATTR, .reduce 53),
   (.ATTR_SAFE, .reduce 53), (.BWAND, .reduce 53), (.BWLSH, .reduce 53), (.BWOR, .reduce 53),
   (.BWRSH, .reduce 53), (.BWXOR, .reduce 53), (.COLON, .reduce 53), (.COMMA, .reduce 53),
   (.COMMENT, .reduce 53), (.EQ, .reduce 53), (.EQ_FZM, .reduce 53), (.EQ_FZS, .reduce 53),
   (.FDIV, .reduce 53), (.FOR, .reduce 53), (.GE, .reduce 53), (.GT, .reduce 53),
   (.IF, .reduce 53), (.IN, .reduce 53), (.LBRACKET, .reduce 53), (.LE, .reduce 53),
   (.LPAREN, .reduce 53), (.LT, .reduce 53), (.MOD, .reduce 53), (.MUL, .reduce 53),
   (.NE, .reduce 53), (.NE_FZM, .reduce 53), (.NE_FZS, .reduce 53), (.NOT, .reduce 53),
   (.OR, .reduce 53), (.POW, .reduce 53), (.QMARK, .reduce 53), (.RBRACE, .reduce 53),
   (.RBRACKET, .reduce 53), (.RPAREN, .reduce 53), (.SUB, .reduce 53), (.TDIV, .reduce 53)]]  -- state 132

/-- `_lr_goto` (parser/parsetab.py 20-27): one row for each state. -/
def gotoRows : List (List (NonTerm × Nat)) := [
  [(.expression, 2), (.object, 3), (.statement, 1)],
  [],
  [],
  [],
  [(.expression, 52), (.object, 3)],
  [(.expression, 53), (.object, 3)],
  [],
  [],
  [],
  [],
  [],
  [],
  [(.expression, 54), (.object, 3)],
  [],
  [],
  [],
  [],
  [(.aryMembers, 55), (.expression, 58), (.mapMember, 59), (.mapMembers, 57), (.object, 3)],
  [],
  [(.aryMembers, 61), (.expression, 62), (.object, 3)],
  [],
  [(.expression, 63), (.object, 3)],
  [(.expression, 64), (.object, 3)],
  [(.expression, 65), (.object, 3)],
  [(.expression, 66), (.object, 3)],
  [(.expression, 67), (.object, 3)],
  [(.expression, 68), (.object, 3)],
  [(.expression, 69), (.object, 3)],
  [(.expression, 70), (.object, 3)],
  [(.expression, 71), (.object, 3)],
  [(.expression, 72), (.object, 3)],
  [(.expression, 73), (.object, 3)],
  [(.expression, 74), (.object, 3)],
  [(.expression, 75), (.object, 3)],
  [(.expression, 76), (.object, 3)],
  [],
  [(.expression, 78), (.object, 3)],
  [(.expression, 79), (.object, 3)],
  [(.expression, 80), (.object, 3)],
  [(.expression, 81), (.object, 3)],
  [(.expression, 82), (.object, 3)],
  [(.expression, 83), (.object, 3)],
  [(.expression, 84), (.object, 3)],
  [(.expression, 85), (.object, 3)],
  [(.expression, 86), (.object, 3)],
  [(.expression, 87), (.object, 3)],
  [(.expression, 88), (.object, 3)],
  [(.expression, 89), (.object, 3)],
  [(.aryMembers, 92), (.expression, 90), (.object, 3)],
  [],
  [],
  [(.expression, 95), (.object, 3)],
  [],
  [],
  [],
  [],
  [],
  [],
  [],
  [],
  [],
  [],
  [],
  [],
  [],
  [],
  [],
  [],
  [],
  [],
  [],
  [],
  [],
  [],
  [],
  [],
  [],
  [(.expression, 107), (.object, 3)],
  [],
  [],
  [],
  [],
  [],
  [],
  [],
  [],
  [],
  [],
  [],
  [],
  [],
  [],
  [],
  [],
  [],
  [],
  [(.expression, 113), (.object, 3)],
  [],
  [],
  [(.expression, 115), (.object, 3)],
  [],
  [(.expression, 118), (.mapMember, 117), (.object, 3)],
  [(.expression, 119), (.object, 3)],
  [],
  [(.expression, 115), (.object, 3)],
  [],
  [(.expression, 122), (.object, 3)],
  [],
  [],
  [(.expression, 115), (.object, 3)],
  [],
  [(.expression, 123), (.object, 3)],
  [],
  [],
  [],
  [],
  [],
  [],
  [],
  [],
  [],
  [],
  [],
  [],
  [],
  [],
  [(.expression, 128), (.object, 3)],
  [],
  [],
  [],
  [(.expression, 131), (.object, 3)],
  [],
  []]

/-- left side and length of every production (parser/parsetab.py 28-98) -/
def productions : List (NonTerm × Nat) := [
  (.start, 1),  -- 0: S' -> statement
  (.statement, 1),  -- 1: statement -> expression
  (.statement, 2),  -- 2: statement -> expression COMMENT
  (.object, 3),  -- 3: object -> object ATTR SYMBOL
  (.object, 3),  -- 4: object -> object ATTR_SAFE SYMBOL
  (.expression, 1),  -- 5: expression -> object
  (.expression, 5),  -- 6: expression -> expression QMARK expression COLON expression
  (.expression, 3),  -- 7: expression -> expression MOD expression
  (.expression, 3),  -- 8: expression -> expression MUL expression
  (.expression, 3),  -- 9: expression -> expression FDIV expression
  (.expression, 3),  -- 10: expression -> expression TDIV expression
  (.expression, 3),  -- 11: expression -> expression POW expression
  (.expression, 3),  -- 12: expression -> expression ADD expression
  (.expression, 3),  -- 13: expression -> expression SUB expression
  (.expression, 3),  -- 14: expression -> expression BWAND expression
  (.expression, 3),  -- 15: expression -> expression BWOR expression
  (.expression, 3),  -- 16: expression -> expression BWXOR expression
  (.expression, 3),  -- 17: expression -> expression BWLSH expression
  (.expression, 3),  -- 18: expression -> expression BWRSH expression
  (.expression, 3),  -- 19: expression -> expression IN expression
  (.expression, 4),  -- 20: expression -> expression NOT IN expression
  (.expression, 3),  -- 21: expression -> expression EQ expression
  (.expression, 3),  -- 22: expression -> expression NE expression
  (.expression, 3),  -- 23: expression -> expression GT expression
  (.expression, 3),  -- 24: expression -> expression GE expression
  (.expression, 3),  -- 25: expression -> expression LT expression
  (.expression, 3),  -- 26: expression -> expression LE expression
  (.expression, 3),  -- 27: expression -> expression EQ_FZM expression
  (.expression, 3),  -- 28: expression -> expression EQ_FZS expression
  (.expression, 3),  -- 29: expression -> expression NE_FZM expression
  (.expression, 3),  -- 30: expression -> expression NE_FZS expression
  (.expression, 3),  -- 31: expression -> expression AND expression
  (.expression, 3),  -- 32: expression -> expression OR expression
  (.object, 3),  -- 33: object -> LPAREN expression RPAREN
  (.expression, 2),  -- 34: expression -> NOT expression
  (.object, 1),  -- 35: object -> SYMBOL
  (.expression, 2),  -- 36: expression -> SUB expression
  (.expression, 1),  -- 37: expression -> TRUE
  (.expression, 1),  -- 38: expression -> FALSE
  (.object, 1),  -- 39: object -> BYTES
  (.object, 1),  -- 40: object -> DATETIME
  (.object, 1),  -- 41: object -> TIMEDELTA
  (.expression, 1),  -- 42: expression -> FLOAT
  (.expression, 1),  -- 43: expression -> FLOAT_NAN
  (.expression, 1),  -- 44: expression -> FLOAT_INF
  (.object, 1),  -- 45: object -> NULL
  (.object, 3),  -- 46: object -> LBRACE ary_members RBRACE
  (.object, 4),  -- 47: object -> LBRACE ary_members COMMA RBRACE
  (.object, 1),  -- 48: object -> STRING
  (.object, 2),  -- 49: object -> LBRACKET RBRACKET
  (.object, 3),  -- 50: object -> LBRACKET ary_members RBRACKET
  (.object, 4),  -- 51: object -> LBRACKET ary_members COMMA RBRACKET
  (.object, 7),  -- 52: object -> LBRACKET expression FOR SYMBOL IN expression RBRACKET
  (.object, 9),  -- 53: object -> LBRACKET expression FOR SYMBOL IN expression IF expression RBRACKET
  (.aryMembers, 1),  -- 54: ary_members -> expression
  (.aryMembers, 3),  -- 55: ary_members -> ary_members COMMA expression
  (.object, 2),  -- 56: object -> LBRACE RBRACE
  (.object, 3),  -- 57: object -> LBRACE map_members RBRACE
  (.object, 4),  -- 58: object -> LBRACE map_members COMMA RBRACE
  (.mapMember, 3),  -- 59: map_member -> expression COLON expression
  (.mapMembers, 1),  -- 60: map_members -> map_member
  (.mapMembers, 3),  -- 61: map_members -> map_members COMMA map_member
  (.object, 4),  -- 62: object -> object LBRACKET expression RBRACKET
  (.object, 4),  -- 63: object -> object LBRACKET COLON RBRACKET
  (.object, 5),  -- 64: object -> object LBRACKET COLON expression RBRACKET
  (.object, 5),  -- 65: object -> object LBRACKET expression COLON RBRACKET
  (.object, 6),  -- 66: object -> object LBRACKET expression COLON expression RBRACKET
  (.object, 3),  -- 67: object -> expression LPAREN RPAREN
  (.object, 4)]  -- 68: object -> expression LPAREN ary_members RPAREN

end RE

import Verif.Model.Rule
import Verif.Model.Parser

/-!
# The two classes of rules and their objects (engine.py 578-605, 671-675)
-/

namespace RE

/-- `Rule` and `DebugRule` (engine.py 578, 671) -/
inductive RuleClass where
  | rule
  | debugRule
  deriving DecidableEq, Repr

/-- The class attribute `parser` (engine.py 583, 672): the line counter of its lexer, which for `Rule` is
the one of the process; `DebugRule.parser` is None. -/
def RuleClass.parser : RuleClass → Proc → Option Nat
  | .rule, p => some p.line
  | .debugRule, _ => none

/-- A rule object: its class, `text` and `statement` (engine.py 588-599).  The context is the `Env` in
which it is used. -/
structure RuleObj where
  cls : RuleClass
  text : String
  statement : Expr

/-- What comes of a constructor: the object or the exception, with the place a syntax error reports, and
the process left behind. -/
structure Made where
  out : Except Err RuleObj
  place : Option PErr
  proc : Proc

/-- `cls(text, context)` (engine.py 588-599, 671-675; parser/base.py 51-82).  `DebugRule.__init__` makes a
new parser, whose lexer is at line 1, and sets it on the object; then both classes do the same with
`self.parser`.  Simplified: the log and the table files written by PLY in debug mode are not modelled. -/
def RuleClass.new (codec : LitCodec) (env : Env) (dct : DecCtx) (cls : RuleClass) (text : String) (p : Proc) :
    Made :=
  let line := match cls with
    | .rule => p.line
    | .debugRule => 1
  let r := parseRule codec env dct line text p.st
  let after := (parseText codec line text).line
  { out := match r.1 with
      | .ok e => .ok ⟨cls, text, e⟩
      | .error err => .error err
    place := match (parseText codec line text).out with
      | .ok _ => none
      | .error e => some e
    proc := ⟨match cls with
      | .rule => after
      | .debugRule => p.line, r.2⟩ }

/-- `cls.is_valid(text, context)` (engine.py 616-633): a class method, it uses the parser of the class.
`None.parse` raises AttributeError, which is no EngineError. -/
def RuleClass.isValid (codec : LitCodec) (env : Env) (dct : DecCtx) (cls : RuleClass) (text : String)
    (p : Proc) : Except Err Bool × Proc :=
  match cls.parser p with
  | none => (.error (.py .attributeError), p)
  | some line =>
    let r := isValidText codec env dct line text p.st
    (r.1, ⟨(parseText codec line text).line, r.2⟩)

/-- `str(rule)` (engine.py 604-605) -/
def RuleObj.str (r : RuleObj) : String := r.text

/-- `rule.evaluate(thing)` (engine.py 635-646), which both classes share -/
def RuleObj.evaluate (env : Env) (r : RuleObj) (thing : Value) (p : Proc) : Except Err Value × Proc :=
  p.evaluate env r.statement thing

end RE

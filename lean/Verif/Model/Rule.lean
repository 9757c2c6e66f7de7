import Verif.Model.Build

/-!
# `Rule`, the default resolvers
-/

namespace RE

/-- `resolve_item` (engine.py 75-89).  For a missing name, `suggest_symbol` is called on the keys,
which raises TypeError if one of them is not a string (suggestions.py 102: `re.match` on the key). -/
def resolveItem (off : TzDb) (thing : Value) (name : String) : Except Err Value :=
  match thing with
  | .map _ kvs =>
    match mapLookup off kvs (.str name) with
    | some v => .ok v
    | none =>
      if kvs.all (fun p => p.1.isStr) then .error (.eng (.symbolResolution name))
      else .error .typeError
  | _ => .error (.eng (.symbolResolution name))

/-- `type_resolver_from_dict` (engine.py 91-114) for a dictionary of type definitions. -/
def typeResolverFromDict (d : List (String × DataType)) (name : String) : Except Err DataType :=
  match d.find? (fun p => p.1 == name) with
  | some p => .ok p.2
  | none => .error (.eng (.symbolResolution name))

/-- the entry of the type map for one dictionary value (engine.py 113): a definition is kept, any
other value is replaced by its type -/
def typeMapOfValues : List (String × Value) → Except Err (List (String × DataType))
  | [] => .ok []
  | (n, v) :: rest => do
    let t ← fromValue v
    let ts ← typeMapOfValues rest
    .ok ((n, t) :: ts)

/-- the type resolver used when none is given (engine.py 494) -/
def noTypes (_ : String) : Except Err DataType := .ok .undefined

/-- `Rule.__init__` after the text has been parsed into a tree (engine.py 588-599,
parser/base.py 82): build in the current thread, whose decimal context is `dct`. -/
def construct (env : Env) (dct : DecCtx) (raw : Raw) : M Expr := build env dct raw

/-- `Context._tls.reset()` (engine.py 415-417). -/
def St.reset (s : St) : St := { s with scopes := [], groups := .none }

/-- `Rule.evaluate` (engine.py 635-646): reset the thread's storage, then evaluate under the
context's decimal context. -/
def ruleEval (env : Env) (e : Expr) (thing : Value) : M Value := fun s =>
  eval env env.decCtx thing e s.reset

/-- `Rule.matches` (engine.py 648-657). -/
def ruleMatches (env : Env) (e : Expr) (thing : Value) : M Bool := do
  let v ← ruleEval env e thing
  pure v.truthy

/-- `Rule.filter` run to exhaustion (engine.py 607-614): the things yielded, and the exception that
ended the iteration, if any. -/
def ruleFilter (env : Env) (e : Expr) : List Value → St → (List Value × Option Err) × St
  | [], s => (([], none), s)
  | t :: ts, s =>
    match ruleMatches env e t s with
    | (.error err, s') => (([], some err), s')
    | (.ok b, s') =>
      let ((ys, end_), s'') := ruleFilter env e ts s'
      ((if b then t :: ys else ys, end_), s'')

/-- One `next()` on the generator `Rule.filter` returns (engine.py 607-614), when `things` is what its
source iterator still has: it pulls things until one matches, and gives that one and the rest. -/
def filterNext (env : Env) (e : Expr) : List Value → M (Option (Value × List Value))
  | [] => pure none
  | t :: ts => do
    let b ← ruleMatches env e t
    if b then pure (some (t, ts)) else filterNext env e ts

/-- `Rule.is_valid` (engine.py 616-633) on the parsed tree: False for an `EngineError`, any other
exception escapes. -/
def isValid (env : Env) (dct : DecCtx) (raw : Raw) : M Bool := fun s =>
  match construct env dct raw s with
  | (.ok _, s') => (.ok true, s')
  | (.error (.eng _), s') => (.ok false, s')
  | (.error (.py e), s') => (.error (.py e), s')

end RE

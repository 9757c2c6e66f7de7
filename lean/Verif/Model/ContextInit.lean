import Verif.Model.Rule
import Verif.Model.BuiltinsMap

/-!
# `Context.__init__`

engine.py 424-495: the checks and defaults of the arguments of a context.
-/

namespace RE

/-- What can be given as *default_timezone* (engine.py 470-478). -/
inductive TzGiven where
  | str (s : String)
  | tzinfo (z : Nat)
  | other

/-- the check of *default_timezone* (engine.py 470-478); `local_` and `utc` are the zones `dateutil` gives -/
def timezoneOf (env : Env) (local_ utc : Nat) : TzGiven → Except Err Nat
  | .tzinfo z => .ok z
  | .other => .error .typeError
  | .str s =>
    let l := pyLower env s
    if l == "local" then .ok local_ else if l == "utc" then .ok utc else .error (.py .valueError)

/-- A value of a dictionary given as *type_resolver* (engine.py 113): a type, or an example. -/
inductive TypeGiven where
  | type (t : DataType)
  | value (v : Value)

/-- `type_map` (engine.py 113): a definition is kept, of any other value the type is taken -/
def typeMapOf : List (String × TypeGiven) → Except Err (List (String × DataType))
  | [] => .ok []
  | (n, .type t) :: rest => do
    let ts ← typeMapOf rest
    .ok ((n, t) :: ts)
  | (n, .value v) :: rest => do
    let t ← fromValue v
    let ts ← typeMapOf rest
    .ok ((n, t) :: ts)

/-- What can be given as *type_resolver* (engine.py 492-494). -/
inductive ResolverGiven where
  | nothing
  | function (f : String → Except Err DataType)
  | mapping (d : List (String × TypeGiven))

/-- The arguments of `Context(…)` (engine.py 424-432), but for *regex_flags*, which are part of the regex oracle.
`errors.UNDEFINED` as *default_value* is `none`. -/
structure ContextArgs where
  resolver : Option (Value → String → Except Err Value) := none
  typeResolver : ResolverGiven := .nothing
  defaultTimezone : TzGiven := .str "local"
  defaultValue : Option Value := none
  decimalContext : Option DecCtx := none

/-- the type resolver of the context (engine.py 492-494) -/
def typeResolverOf : ResolverGiven → Except Err (String → Except Err DataType)
  | .nothing => .ok noTypes
  | .function f => .ok f
  | .mapping d => do
    let m ← typeMapOf d
    .ok (typeResolverFromDict m)

/-- `Context.__init__` (engine.py 459-495) in a thread whose decimal context is `dct`: the context, over a runtime `env`.
Simplification: callables and decimal contexts count as true, so `x or default` takes the default only for None. -/
def contextInit (env : Env) (local_ utc : Nat) (dct : DecCtx) (a : ContextArgs) : Except Err Env := do
  let tz ← timezoneOf env local_ utc a.defaultTimezone
  let tr ← typeResolverOf a.typeResolver
  .ok { env with
    resolver := a.resolver.getD (resolveItem env.utcoffset)
    typeResolver := tr
    defaultValue := a.defaultValue
    defaultTz := tz
    decCtx := a.decimalContext.getD dct }

end RE

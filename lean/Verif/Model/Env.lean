import Verif.Model.Types

/-!
# Environment, per-thread state, and the evaluation monad
-/

namespace RE

/-- The binary arithmetic operators of `ArithmeticExpression` (ast.py 505-509) plus add and sub. -/
inductive ArithOp where
  | add | sub | mul | tdiv | fdiv | mod | pow
  deriving DecidableEq, Repr, Inhabited

/-- A result of Python's own number arithmetic: int, float, or a complex number (a power of a negative
float), which the engine cannot map to a data type (ast.py 498). -/
inductive RawNum where
  | int (i : Int)
  | float (f : PyFloat)
  | complex (id : Nat)
  deriving DecidableEq, Repr, Inhabited

/-- as a value (ast.py 498) -/
def RawNum.toValue : RawNum → Value
  | .int i => .int i
  | .float f => .float f
  | .complex i => .obj i

/-- A `Context` object (engine.py 419-495) together with the parts of the Python runtime and of the
user's code that are not modelled.  All of these are arbitrary in every theorem. -/
structure Env where
  /-- the resolver callback (engine.py 495, 540); `resolveItem` is the default -/
  resolver : Value → String → Except Err Value
  /-- the type resolver callback (engine.py 494, 576) -/
  typeResolver : String → Except Err DataType
  /-- `Context.default_value`, `none` for `errors.UNDEFINED` (engine.py 482) -/
  defaultValue : Option Value
  /-- `Context.default_timezone` (engine.py 480) -/
  defaultTz : Nat
  /-- `Context.decimal_context` (engine.py 490) -/
  decCtx : DecCtx
  /-- `re.compile` with the context's flags succeeds -/
  reValid : String → Bool
  /-- `re.compile` raises OverflowError ("the repetition number is too large", `x{4294967296}`) instead of `re.error` -/
  reLimit : String → Bool
  /-- groups of `regex.search(s)` (`true`) or `regex.match(s)` (`false`), `none` if no match -/
  reRun : Bool → String → String → Option (List (Option String))
  /-- result of calling user function number `n` -/
  callUser : Nat → List Value → Except Err Value
  /-- `tzinfo.utcoffset` -/
  utcoffset : TzDb
  /-- `datetime.tzname()` -/
  tzname : Nat → Int → Option String
  /-- `strftime('%A')` by day of the week (0 = Monday) -/
  weekdayName : Nat → String
  /-- `Decimal.__pow__` -/
  decPow : DecCtx → Dec → Dec → Except DecErr Dec
  /-- `str.lower` outside ASCII -/
  lower : String → String
  /-- `str.upper` outside ASCII -/
  upper : String → String
  /-- `bytes.decode(encoding)`, `none` if it raises -/
  textDecode : String → List UInt8 → Option String
  /-- `str.encode(encoding)`, `none` if it raises -/
  textEncode : String → String → Option (List UInt8)
  /-- `dateutil.parser.isoparse`, `none` if it raises -/
  isoparse : String → Option (Int × Option Nat)
  /-- `dateutil.parser.isoparse` raises OverflowError ("date value out of range", `9999-12-31T24:00`) instead of
  ValueError -/
  isoLimit : String → Bool
  /-- `datetime.now(tz)` wall clock -/
  now : Nat → Int
  /-- `random.random()` / `random.randint(0, n)` -/
  random : Option Nat → Value
  /-- `sys.get_int_max_str_digits()`, `none` for no limit: `repr` of a longer int raises ValueError (types.py 58).  (Ints
  of that length in the user's data are not modelled.) -/
  maxStrDigits : Option Nat
  /-- arithmetic of raw Python floats and ints (only reachable through members of Python sets,
  which the engine does not coerce) -/
  rawArith : ArithOp → Value → Value → Except Err RawNum

/-- `repr(n)` raises ValueError (types.py 55-58) -/
def Env.tooLong (env : Env) (n : Nat) : Bool :=
  match env.maxStrDigits with
  | none => false
  | some d => decide (10 ^ d ≤ n)

/-- `int` of a text of that many digits raises ValueError (which `ast.literal_eval` turns into SyntaxError) -/
def Env.tooMany (env : Env) (n : Nat) : Bool :=
  match env.maxStrDigits with
  | none => false
  | some d => decide (d < n)

/-- the exception of `_compile_regex` for a pattern that `re.compile` refuses (ast.py 643-648): only `re.error` is turned
into RegexSyntaxError -/
def Env.reError (env : Env) (pattern : String) : Err :=
  if env.reLimit pattern then .py .overflowError else .eng .regexSyntax

/-- the exception of `parse_datetime` for a text that `isoparse` refuses (parser/utilities.py 63-66): only ValueError is
turned into DatetimeSyntaxError -/
def Env.isoError (env : Env) (text : String) : Err :=
  if env.isoLimit text then .py .overflowError else .eng .datetimeSyntax

/-- The record of one comprehension variable (ast.py 79-96). -/
structure Assignment where
  name : String
  value : Value
  type : DataType
  deriving DecidableEq, Repr, Inhabited

/-- An interaction with code outside the engine, or a regex match
(engine.py 540; ast.py 663-666, 1097). -/
inductive Event where
  /-- the user's resolver was called with this object and name (engine.py 540) -/
  | resolve (obj : Value) (name : String)
  /-- a function value was called (ast.py 1097, and by `$map`/`$filter`) -/
  | call (f : Value) (args : List Value)
  /-- a regex operator matched, with these groups (ast.py 663-666) -/
  | matched (groups : Value)
  deriving DecidableEq, Repr, Inhabited

/-- `_ThreadLocalStorage` (engine.py 404-417): the assignment scopes, oldest first (each scope binds
exactly one variable), and the groups of the last regex match (`None` or a tuple); plus
`Context.symbols` (engine.py 463) and a log of external calls (a ghost variable). -/
structure St where
  scopes : List Assignment
  groups : Value
  symbols : List String
  log : List Event
  deriving DecidableEq, Repr, Inhabited

/-- fresh storage (engine.py 411-413) -/
def St.init : St := { scopes := [], groups := .none, symbols := [], log := [] }

/-- Computations that may raise, with state kept when they raise (ast.py 106-113). -/
def M (α : Type) : Type := St → Except Err α × St

namespace M

/-- `return` (ast.py 106-113) -/
def pure {α : Type} (a : α) : M α := fun s => (.ok a, s)

/-- sequencing; an exception skips the continuation but keeps the state (ast.py 106-113) -/
def bind {α β : Type} (m : M α) (f : α → M β) : M β := fun s =>
  match m s with
  | (.ok a, s') => f a s'
  | (.error e, s') => (.error e, s')

instance : Monad M where
  pure := M.pure
  bind := M.bind

/-- `raise` (ast.py 106-113) -/
def throw {α : Type} (e : Err) : M α := fun s => (.error e, s)

/-- lift a computation without effects (ast.py 106-113) -/
def lift {α : Type} (x : Except Err α) : M α := fun s => (x, s)

/-- read the state (engine.py 512-516) -/
def get : M St := fun s => (.ok s, s)

/-- change the state (engine.py 512-516) -/
def modify (f : St → St) : M Unit := fun s => (.ok (), f s)

/-- `try: … except` on the outcome of `m` (ast.py 806-826, 1026-1059) -/
def catchErr {α : Type} (m : M α) (h : Err → M α) : M α := fun s =>
  match m s with
  | (.ok a, s') => (.ok a, s')
  | (.error e, s') => h e s'

/-- `with context.assignments(a): m` (engine.py 497-510): push a scope, run, pop it in any case -/
def withScope {α : Type} (a : Assignment) (m : M α) : M α := fun s =>
  let (r, s') := m { s with scopes := s.scopes ++ [a] }
  (r, { s' with scopes := s'.scopes.dropLast })

@[simp] theorem pure_apply {α : Type} (a : α) (s : St) : (Pure.pure a : M α) s = (.ok a, s) := rfl

theorem bind_apply {α β : Type} (m : M α) (f : α → M β) (s : St) :
    (m >>= f) s = match m s with
      | (.ok a, s') => f a s'
      | (.error e, s') => (.error e, s') := rfl

theorem bind_ok {α β : Type} {m : M α} {f : α → M β} {s s' : St} {a : α}
    (h : m s = (.ok a, s')) : (m >>= f) s = f a s' := by
  rw [bind_apply, h]

theorem bind_error {α β : Type} {m : M α} {f : α → M β} {s s' : St} {e : Err}
    (h : m s = (.error e, s')) : (m >>= f) s = (.error e, s') := by
  rw [bind_apply, h]

@[simp] theorem throw_apply {α : Type} (e : Err) (s : St) : (M.throw e : M α) s = (.error e, s) := rfl
@[simp] theorem lift_apply {α : Type} (x : Except Err α) (s : St) : M.lift x s = (x, s) := rfl
@[simp] theorem get_apply (s : St) : M.get s = (.ok s, s) := rfl
@[simp] theorem modify_apply (f : St → St) (s : St) : M.modify f s = (.ok (), f s) := rfl

end M

instance : LawfulMonad M := LawfulMonad.mk'
  (id_map := by
    intro α x; funext s; simp only [Functor.map, M.bind, Function.comp]
    rcases h : x s with ⟨_ | _, _⟩ <;> rfl)
  (pure_bind := by intros; rfl)
  (bind_assoc := by
    intro α β γ x f g; funext s; simp only [Bind.bind, M.bind]
    rcases h : x s with ⟨_ | _, _⟩ <;> rfl)

end RE

import Verif.Model.Dec

/-!
# Values, data types and exceptions
-/

namespace RE

/-- A Python `float`: the exact value of the binary float, and the Decimal that its `repr` denotes
(the engine converts floats with `Decimal(repr(value))`, types.py 55-58). -/
structure PyFloat where
  exact : Dec
  repr : Dec
  deriving DecidableEq, Repr, Inhabited

/-- `tuple`, `list` and `range` (types.py 73). -/
inductive SeqKind where
  | tuple | list | range
  deriving DecidableEq, Repr, Inhabited

/-- `dict` and `collections.OrderedDict` (types.py 82). -/
inductive MapKind where
  | dict | ordered
  deriving DecidableEq, Repr, Inhabited

/-- The functions in the default builtins (builtins.py 161-183). -/
inductive Builtin where
  | abs | any | all | sum | map | max | min | filter
  | parseDatetime | parseFloat | parseTimedelta | random | range | split
  deriving DecidableEq, Repr, Inhabited

/-- The attributes whose value is a function bound to the object (engine.py 205-207, 308-310,
360-362, 375-377). -/
inductive Method where
  | decode | encode | startsWith | endsWith
  deriving DecidableEq, Repr, Inhabited

/-- The Python values that can reach the engine.

* `datetime us tz`: microseconds since 0001-01-01T00:00 on the wall clock, and the identity of the
  tzinfo object, if any.  `date d` is the day number (same origin).
* `timedelta us`: length in microseconds.
* `set xs`: the members in insertion order (Python's iteration order is unspecified).
* `map k kvs`: the items in insertion order.
* `userFn i` is a callable supplied by the user, `obj i` any other object the engine cannot map to
  a data type (types.py 559), `undef` the sentinel `errors.UNDEFINED` (errors.py 36-50).
Subclasses of these types, and other `Mapping`/`Sequence` classes, are not modelled. -/
inductive Value where
  | none
  | bool (b : Bool)
  | int (i : Int)
  | float (f : PyFloat)
  | dec (d : Dec)
  | str (s : String)
  | bytes (b : List UInt8)
  | date (days : Int)
  | datetime (us : Int) (tz : Option Nat)
  | timedelta (us : Int)
  | seq (k : SeqKind) (xs : List Value)
  | set (xs : List Value)
  | map (k : MapKind) (kvs : List (Value × Value))
  | builtinFn (f : Builtin)
  | userFn (id : Nat)
  | method (m : Method) (self : Value)
  | obj (id : Nat)
  | undef
  deriving Repr, Inhabited

/-- Engine tuples (types.py 440). -/
abbrev Value.tuple (xs : List Value) : Value := .seq .tuple xs

mutual
/-- Decidable (structural) equality of values; used for concrete examples only (ast.py 584). -/
def Value.beq : Value → Value → Bool
  | .none, .none => true
  | .bool a, .bool b => a == b
  | .int a, .int b => a == b
  | .float a, .float b => a == b
  | .dec a, .dec b => a == b
  | .str a, .str b => a == b
  | .bytes a, .bytes b => a == b
  | .date a, .date b => a == b
  | .datetime a s, .datetime b t => a == b && s == t
  | .timedelta a, .timedelta b => a == b
  | .seq k a, .seq l b => k == l && Value.beqs a b
  | .set a, .set b => Value.beqs a b
  | .map k a, .map l b => k == l && Value.beqp a b
  | .builtinFn a, .builtinFn b => a == b
  | .userFn a, .userFn b => a == b
  | .method m a, .method n b => m == n && Value.beq a b
  | .obj a, .obj b => a == b
  | .undef, .undef => true
  | _, _ => false
/-- the same for lists (ast.py 584) -/
def Value.beqs : List Value → List Value → Bool
  | [], [] => true
  | a :: as, b :: bs => Value.beq a b && Value.beqs as bs
  | _, _ => false
/-- the same for lists (ast.py 584) -/
def Value.beqp : List (Value × Value) → List (Value × Value) → Bool
  | [], [] => true
  | (k, v) :: as, (l, w) :: bs => Value.beq k l && Value.beq v w && Value.beqp as bs
  | _, _ => false
end

mutual
theorem Value.beq_iff : ∀ a b : Value, Value.beq a b = true ↔ a = b
  | .none, b => by cases b <;> simp [Value.beq]
  | .bool _, b => by cases b <;> simp [Value.beq]
  | .int _, b => by cases b <;> simp [Value.beq]
  | .float _, b => by cases b <;> simp [Value.beq]
  | .dec _, b => by cases b <;> simp [Value.beq]
  | .str _, b => by cases b <;> simp [Value.beq]
  | .bytes _, b => by cases b <;> simp [Value.beq]
  | .date _, b => by cases b <;> simp [Value.beq]
  | .datetime _ _, b => by cases b <;> simp [Value.beq]
  | .timedelta _, b => by cases b <;> simp [Value.beq]
  | .seq _ xs, b => by cases b <;> simp [Value.beq, Value.beqs_iff xs]
  | .set xs, b => by cases b <;> simp [Value.beq, Value.beqs_iff xs]
  | .map _ xs, b => by cases b <;> simp [Value.beq, Value.beqp_iff xs]
  | .builtinFn _, b => by cases b <;> simp [Value.beq]
  | .userFn _, b => by cases b <;> simp [Value.beq]
  | .method _ a, b => by cases b <;> simp [Value.beq, Value.beq_iff a]
  | .obj _, b => by cases b <;> simp [Value.beq]
  | .undef, b => by cases b <;> simp [Value.beq]
theorem Value.beqs_iff : ∀ a b : List Value, Value.beqs a b = true ↔ a = b
  | [], b => by cases b <;> simp [Value.beqs]
  | a :: as, b => by cases b <;> simp [Value.beqs, Value.beq_iff a, Value.beqs_iff as]
theorem Value.beqp_iff : ∀ a b : List (Value × Value), Value.beqp a b = true ↔ a = b
  | [], b => by cases b <;> simp [Value.beqp]
  | (k, v) :: as, b => by
    cases b with
    | nil => simp [Value.beqp]
    | cons p bs =>
      obtain ⟨l, w⟩ := p
      simp [Value.beqp, Value.beq_iff k, Value.beq_iff v, Value.beqp_iff as]
end

instance : DecidableEq Value := fun a b => decidable_of_iff _ (Value.beq_iff a b)

/-- Data type definitions (types.py 179-382 and the constants 437-457).  A FUNCTION definition
carries its name, which equality ignores; `args = none` and `min = none` stand for UNDEFINED. -/
inductive DataType where
  | array (value : DataType) (nullable : Bool)
  | bytes
  | boolean
  | datetime
  | float
  | function (name : String) (ret : DataType) (args : Option (List DataType)) (min : Option Nat)
  | mapping (key value : DataType) (nullable : Bool)
  | null
  | set (value : DataType) (nullable : Bool)
  | string
  | timedelta
  | undefined
  deriving Repr, Inhabited

namespace DataType

/-- `DataType.ARRAY` without member type (types.py 440). -/
abbrev anyArray : DataType := .array .undefined true
/-- `DataType.SET` without member type (types.py 448). -/
abbrev anySet : DataType := .set .undefined true
/-- `DataType.MAPPING` without member types (types.py 446). -/
abbrev anyMapping : DataType := .mapping .undefined .undefined true
/-- `DataType.FUNCTION` without signature (types.py 445). -/
abbrev anyFunction : DataType := .function "" .undefined none none

/-- `_DataTypeDef.is_scalar` (types.py 184, 225, 276): ARRAY, SET and MAPPING are compound. -/
def isScalar : DataType → Bool
  | .array .. | .set .. | .mapping .. => false
  | _ => true

/-- `_DataTypeDef.is_compound` (types.py 204-206). -/
def isCompound (t : DataType) : Bool := !t.isScalar

/-- `isinstance(t, DataType.ARRAY.__class__)` (types.py 264-265). -/
def isArray : DataType → Bool
  | .array .. => true
  | _ => false

/-- `isinstance(t, DataType.SET.__class__)` (types.py 267-268). -/
def isSet : DataType → Bool
  | .set .. => true
  | _ => false

/-- `isinstance(t, DataType.MAPPING.__class__)` (types.py 270-322). -/
def isMapping : DataType → Bool
  | .mapping .. => true
  | _ => false

/-- `isinstance(t, DataType.FUNCTION.__class__)` (types.py 324-382). -/
def isFunction : DataType → Bool
  | .function .. => true
  | _ => false

/-- `iterable_type` of a definition (types.py 229-231, 285-287); unset for scalars. -/
def iterableType : DataType → Option DataType
  | .array v _ => some v
  | .set v _ => some v
  | .mapping k _ _ => some k
  | _ => none

/-- `_DataTypeDef.is_iterable` (types.py 189-191). -/
def isIterable (t : DataType) : Bool := t.iterableType.isSome

mutual
/-- `DataType.__eq__` (types.py 193-196, 253-259, 312-319, 372-379). -/
def eq : DataType → DataType → Bool
  | .array a n, .array b m => eq a b && n == m
  | .bytes, .bytes => true
  | .boolean, .boolean => true
  | .datetime, .datetime => true
  | .float, .float => true
  | .function _ r as m, .function _ s bs n => eq r s && eqArgs as bs && m == n
  | .mapping k v n, .mapping l w m => eq k l && eq v w && n == m
  | .null, .null => true
  | .set a n, .set b m => eq a b && n == m
  | .string, .string => true
  | .timedelta, .timedelta => true
  | .undefined, .undefined => true
  | _, _ => false
/-- equality of the `argument_types` attributes (UNDEFINED or a tuple) (types.py 372-379). -/
def eqArgs : Option (List DataType) → Option (List DataType) → Bool
  | none, none => true
  | some as, some bs => eqList as bs
  | _, _ => false
/-- elementwise equality of tuples of definitions (types.py 372-379). -/
def eqList : List DataType → List DataType → Bool
  | [], [] => true
  | a :: as, b :: bs => eq a b && eqList as bs
  | _, _ => false
end

mutual
/-- `DataType.is_compatible` (types.py 562-605). -/
def compat : DataType → DataType → Bool
  | .undefined, _ => true
  | _, .undefined => true
  | .array a _, .array b _ => compat a b
  | .bytes, .bytes => true
  | .boolean, .boolean => true
  | .datetime, .datetime => true
  | .float, .float => true
  | .function _ r as m, .function _ s bs n =>
    compat r s && compatArgs as bs &&
      (match m, n with
       | some m, some n => m == n
       | _, _ => true)
  | .mapping k v _, .mapping l w _ => compat k l && compat v w
  | .null, .null => true
  | .set a _, .set b _ => compat a b
  | .string, .string => true
  | .timedelta, .timedelta => true
  | _, _ => false
/-- the argument types are compared only if both are defined (types.py 587-591). -/
def compatArgs : Option (List DataType) → Option (List DataType) → Bool
  | some as, some bs => compatList as bs
  | _, _ => true
/-- same length and pairwise compatible (types.py 588-591). -/
def compatList : List DataType → List DataType → Bool
  | [], [] => true
  | a :: as, b :: bs => compat a b && compatList as bs
  | _, _ => false
end

end DataType

mutual
/-- Structural equality of definitions (for `decide` in examples) (types.py 193-379). -/
def DataType.sbeq : DataType → DataType → Bool
  | .array a n, .array b m => DataType.sbeq a b && n == m
  | .bytes, .bytes => true
  | .boolean, .boolean => true
  | .datetime, .datetime => true
  | .float, .float => true
  | .function x r as m, .function y s bs n =>
    x == y && DataType.sbeq r s && DataType.sbeqo as bs && m == n
  | .mapping k v n, .mapping l w m => DataType.sbeq k l && DataType.sbeq v w && n == m
  | .null, .null => true
  | .set a n, .set b m => DataType.sbeq a b && n == m
  | .string, .string => true
  | .timedelta, .timedelta => true
  | .undefined, .undefined => true
  | _, _ => false
/-- the same for lists (types.py 193-379) -/
def DataType.sbeqo : Option (List DataType) → Option (List DataType) → Bool
  | none, none => true
  | some as, some bs => DataType.sbeqs as bs
  | _, _ => false
/-- the same for lists (types.py 193-379) -/
def DataType.sbeqs : List DataType → List DataType → Bool
  | [], [] => true
  | a :: as, b :: bs => DataType.sbeq a b && DataType.sbeqs as bs
  | _, _ => false
end

mutual
theorem DataType.sbeq_iff : ∀ a b : DataType, DataType.sbeq a b = true ↔ a = b
  | .array a _, b => by cases b <;> simp [DataType.sbeq, DataType.sbeq_iff a]
  | .bytes, b => by cases b <;> simp [DataType.sbeq]
  | .boolean, b => by cases b <;> simp [DataType.sbeq]
  | .datetime, b => by cases b <;> simp [DataType.sbeq]
  | .float, b => by cases b <;> simp [DataType.sbeq]
  | .function _ r as _, b => by
    cases b <;> simp [DataType.sbeq, DataType.sbeq_iff r, DataType.sbeqo_iff as, and_assoc]
  | .mapping k v _, b => by
    cases b <;> simp [DataType.sbeq, DataType.sbeq_iff k, DataType.sbeq_iff v, and_assoc]
  | .null, b => by cases b <;> simp [DataType.sbeq]
  | .set a _, b => by cases b <;> simp [DataType.sbeq, DataType.sbeq_iff a]
  | .string, b => by cases b <;> simp [DataType.sbeq]
  | .timedelta, b => by cases b <;> simp [DataType.sbeq]
  | .undefined, b => by cases b <;> simp [DataType.sbeq]
theorem DataType.sbeqo_iff : ∀ a b : Option (List DataType), DataType.sbeqo a b = true ↔ a = b
  | none, b => by cases b <;> simp [DataType.sbeqo]
  | some as, b => by cases b <;> simp [DataType.sbeqo, DataType.sbeqs_iff as]
theorem DataType.sbeqs_iff : ∀ a b : List DataType, DataType.sbeqs a b = true ↔ a = b
  | [], b => by cases b <;> simp [DataType.sbeqs]
  | a :: as, b => by cases b <;> simp [DataType.sbeqs, DataType.sbeq_iff a, DataType.sbeqs_iff as]
end

instance : DecidableEq DataType := fun a b => decidable_of_iff _ (DataType.sbeq_iff a b)

/-- The `EngineError` hierarchy (errors.py).  Message texts and most attributes are dropped; errors
about a name carry the name. -/
inductive EngErr where
  | engine
  | evaluation
  | attributeResolution (name : String)
  | attributeType (name : String)
  | lookup
  | symbolResolution (name : String)
  | symbolType (name : String)
  | functionCall
  | bytesSyntax | stringSyntax | datetimeSyntax | floatSyntax | timedeltaSyntax
  | regexSyntax | ruleSyntax
  deriving DecidableEq, Repr, Inhabited

/-- `isinstance(error, errors.EvaluationError)` (errors.py 47-310). -/
def EngErr.isEvaluation : EngErr → Bool
  | .evaluation | .attributeResolution _ | .attributeType _ | .lookup
  | .symbolResolution _ | .symbolType _ | .functionCall => true
  | _ => false

/-- `isinstance(error, errors.SyntaxError)` (errors.py 47-310). -/
def EngErr.isSyntax : EngErr → Bool
  | .bytesSyntax | .stringSyntax | .datetimeSyntax | .floatSyntax | .timedeltaSyntax
  | .regexSyntax | .ruleSyntax => true
  | _ => false

/-- Exceptions that are not `EngineError`s (ast.py 445-1097). -/
inductive PyErr where
  | typeError | valueError | attributeError | indexError | keyError | lookupError
  | zeroDivisionError | invalidOperation | decimalOverflow | overflowError | syntaxError | other
  deriving DecidableEq, Repr, Inhabited

/-- An exception raised inside the engine (errors.py 47-310). -/
inductive Err where
  | eng (e : EngErr)
  | py (e : PyErr)
  deriving DecidableEq, Repr, Inhabited

/-- `isinstance(error, errors.EngineError)` (errors.py 47-310). -/
def Err.isEngine : Err → Bool
  | .eng _ => true
  | .py _ => false

/-- `errors.EvaluationError('data type mismatch …')` (ast.py 389). -/
abbrev Err.mismatch : Err := .eng .evaluation

/-- `TypeError` (types.py 560). -/
abbrev Err.typeError : Err := .py .typeError

/-- a trapped decimal signal as a Python exception (ast.py 497-503). -/
def Err.ofDec : DecErr → Err
  | .invalid => .py .invalidOperation
  | .divZero => .py .zeroDivisionError
  | .overflow => .py .decimalOverflow

instance {ε α : Type} [DecidableEq ε] [DecidableEq α] : DecidableEq (Except ε α)
  | .ok a, .ok b => if h : a = b then isTrue (by rw [h]) else isFalse (by simpa using h)
  | .error a, .error b => if h : a = b then isTrue (by rw [h]) else isFalse (by simpa using h)
  | .ok _, .error _ => isFalse (by simp)
  | .error _, .ok _ => isFalse (by simp)

end RE

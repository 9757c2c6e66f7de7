import Verif.Model.Hints

/-!
# Data type definitions as Python objects

`types.py` 179-471: the classes of data type definitions with their constructors, `__eq__`, `__hash__`,
and the class `DataType` as a container of constants.  Elsewhere in the model a definition is a `DataType`;
here it is a `TypeObj`, which also keeps whether the argument types of a FUNCTION are a list or a tuple,
because `__eq__` and `__hash__` depend on it.
-/

namespace RE

/-- A data type definition (types.py 179-382).  The argument types of a FUNCTION are UNDEFINED (`none`), or
a list (`true`) or tuple (`false`); its minimum is UNDEFINED (`none`) or a number. -/
inductive TypeObj where
  | array (value : TypeObj) (nullable : Bool)
  | bytes
  | boolean
  | datetime
  | float
  | function (name : String) (ret : TypeObj) (args : Option (Bool × List TypeObj)) (min : Option Nat)
  | mapping (key value : TypeObj) (nullable : Bool)
  | null
  | set (value : TypeObj) (nullable : Bool)
  | string
  | timedelta
  | undefined
  deriving Repr, Inhabited

mutual
/-- `__eq__` of the definitions (types.py 193-196, 253-259, 312-319, 372-379).  The name of a FUNCTION is
not compared; a list is not equal to a tuple. -/
def TypeObj.eq : TypeObj → TypeObj → Bool
  | .array a n, .array b m => TypeObj.eq a b && n == m
  | .bytes, .bytes => true
  | .boolean, .boolean => true
  | .datetime, .datetime => true
  | .float, .float => true
  | .function _ r as m, .function _ r' as' m' => TypeObj.eq r r' && TypeObj.eqArgs as as' && m == m'
  | .mapping k v n, .mapping k' v' n' => TypeObj.eq k k' && TypeObj.eq v v' && n == n'
  | .null, .null => true
  | .set a n, .set b m => TypeObj.eq a b && n == m
  | .string, .string => true
  | .timedelta, .timedelta => true
  | .undefined, .undefined => true
  | _, _ => false
/-- `self.argument_types == other.argument_types` (types.py 377) -/
def TypeObj.eqArgs : Option (Bool × List TypeObj) → Option (Bool × List TypeObj) → Bool
  | none, none => true
  | some (l, as), some (l', bs) => l == l' && TypeObj.eqList as bs
  | _, _ => false
/-- equality of the members of two sequences (types.py 377) -/
def TypeObj.eqList : List TypeObj → List TypeObj → Bool
  | [], [] => true
  | a :: as, b :: bs => TypeObj.eq a b && TypeObj.eqList as bs
  | _, _ => false
end

/-- The Python types of the definitions (types.py 440-451). -/
inductive PyClass where
  | tuple | bytes | bool | datetime | decimal | function | dict | noneType | set | str | timedelta | undefined
  deriving DecidableEq, Repr

/-- What `__hash__` hands to `hash` (types.py 198-199, 261-262, 321-322, 381-382): a tuple that nests the hashes of
the parts.  `hash` of equal tuples is equal; of other tuples it may be anything. -/
inductive HashKey where
  | plain (cls : PyClass) (scalar : Bool)
  | collection (cls : PyClass) (value : HashKey) (nullable : Bool)
  | mapping (key value : HashKey) (nullable : Bool)
  | function (ret : HashKey) (args : Option (List HashKey)) (min : Option Nat)

mutual
/-- `__hash__` (types.py 198-199, 261-262, 321-322, 381-382); `none` is the TypeError for a list, which cannot be
hashed. -/
def TypeObj.hashKey : TypeObj → Option HashKey
  | .array a n => do
    let k ← a.hashKey
    some (.collection .tuple k n)
  | .bytes => some (.plain .bytes true)
  | .boolean => some (.plain .bool true)
  | .datetime => some (.plain .datetime true)
  | .float => some (.plain .decimal true)
  | .function _ r as m => do
    let k ← r.hashKey
    let ks ← TypeObj.hashArgs as
    some (.function k ks m)
  | .mapping a b n => do
    let k ← a.hashKey
    let v ← b.hashKey
    some (.mapping k v n)
  | .null => some (.plain .noneType true)
  | .set a n => do
    let k ← a.hashKey
    some (.collection .set k n)
  | .string => some (.plain .str true)
  | .timedelta => some (.plain .timedelta true)
  | .undefined => some (.plain .undefined true)
/-- the hash of the argument types (types.py 382) -/
def TypeObj.hashArgs : Option (Bool × List TypeObj) → Option (Option (List HashKey))
  | none => some none
  | some (true, _) => none
  | some (false, ts) => (TypeObj.hashList ts).map some
/-- the hashes of the members of a tuple (types.py 382) -/
def TypeObj.hashList : List TypeObj → Option (List HashKey)
  | [] => some []
  | t :: ts => do
    let k ← t.hashKey
    let ks ← TypeObj.hashList ts
    some (k :: ks)
end

mutual
/-- the definition without the difference of lists and tuples, as in the rest of the model (types.py 324-382) -/
def TypeObj.toDataType : TypeObj → DataType
  | .array a n => .array a.toDataType n
  | .bytes => .bytes
  | .boolean => .boolean
  | .datetime => .datetime
  | .float => .float
  | .function x r as m => .function x r.toDataType (TypeObj.toArgs as) m
  | .mapping k v n => .mapping k.toDataType v.toDataType n
  | .null => .null
  | .set a n => .set a.toDataType n
  | .string => .string
  | .timedelta => .timedelta
  | .undefined => .undefined
/-- the argument types (types.py 324-382) -/
def TypeObj.toArgs : Option (Bool × List TypeObj) → Option (List DataType)
  | none => none
  | some (_, ts) => some (TypeObj.toTypes ts)
/-- a sequence of types (types.py 324-382) -/
def TypeObj.toTypes : List TypeObj → List DataType
  | [] => []
  | t :: ts => t.toDataType :: TypeObj.toTypes ts
end

/-- What can be given as the argument types of a FUNCTION (types.py 326-342). -/
inductive ArgsGiven where
  | unspecified
  | sequence (list : Bool) (ts : List TypeObj)
  | other

/-- `DataType.FUNCTION(name, return_type, argument_types, minimum_arguments)` (types.py 326-362).  Simplification: a
minimum is not negative, and texts, which Python counts as sequences, are `other`. -/
def mkFunctionType (name : String) (ret : TypeObj) (args : ArgsGiven) (min : Option Nat) : Except Err TypeObj :=
  match args with
  | .unspecified => .ok (.function name ret none min)
  | .other => .error .typeError
  | .sequence l ts =>
    let m := min.getD ts.length
    if ts.length < m then .error (.py .valueError) else .ok (.function name ret (some (l, ts)) (some m))

/-- `is_compound` of a definition (types.py 204-206, 225, 276) -/
def TypeObj.isCompound : TypeObj → Bool
  | .array .. | .set .. | .mapping .. => true
  | _ => false

/-- `DataType.MAPPING(key_type, value_type, value_type_nullable)` (types.py 272-302). -/
def mkMappingObj (key value : TypeObj) (nullable : Bool) : Except Err TypeObj :=
  match key with
  | .set .. | .mapping .. => .error (.eng .engine)
  | key => .ok (.mapping key value nullable)

/-- the constants of the class `DataType`, in the order of the class body (types.py 440-451) -/
def typeConstants : List (String × TypeObj) :=
  [("ARRAY", .array .undefined true), ("BYTES", .bytes), ("BOOLEAN", .boolean), ("DATETIME", .datetime),
   ("FLOAT", .float), ("FUNCTION", .function "" .undefined none none), ("MAPPING", .mapping .undefined .undefined true),
   ("NULL", .null), ("SET", .set .undefined true), ("STRING", .string), ("TIMEDELTA", .timedelta),
   ("UNDEFINED", .undefined)]

/-- `DataTypeMeta.__iter__` (types.py 405-406): the names of the constants -/
def typeNames : List String := typeConstants.map (·.1)

/-- `DataTypeMeta.__getitem__` (types.py 400-403) -/
def typeGetItem (name : String) : Except Err TypeObj :=
  if typeNames.contains name then
    match typeConstants.lookup name with
    | some t => .ok t
    | none => .error (.py .other)
  else .error (.py .keyError)

/-- What `DataType.from_name` is given (types.py 466-467). -/
inductive NameGiven where
  | str (s : String)
  | other

/-- `DataType.from_name` (types.py 456-471).  The class has further attributes (methods, `_members_`), but none of
them is a definition. -/
def fromName : NameGiven → Except Err TypeObj
  | .other => .error .typeError
  | .str s =>
    match typeConstants.lookup s with
    | some t => .ok t
    | none => .error (.py .valueError)

end RE

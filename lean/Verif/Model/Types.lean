import Verif.Model.PyOps

/-!
# `types.py`: data types of values, coercion, number predicates
-/

namespace RE

/-- `iterable_member_value_type` (types.py 153-177) on the list of the members' types: the common
type of the members that are not NULL, UNDEFINED if there is none. -/
def memberType (ts : List DataType) : DataType :=
  match ts.filter (fun t => !DataType.eq t .null) with
  | [] => .undefined
  | t :: rest => if rest.all (fun u => DataType.eq u t) then t else .undefined

/-- `DataType.MAPPING(key_type, value_type)` (types.py 272-301): the key type may not be a SET or
MAPPING. -/
def mkMappingType (k v : DataType) (nullable : Bool) : Except Err DataType :=
  if k.isCompound && !k.isArray then .error (.eng .engine) else .ok (.mapping k v nullable)

mutual
/-- `DataType.from_value` (types.py 525-560). -/
def fromValue : Value → Except Err DataType
  | .bool _ => .ok .boolean
  | .bytes _ => .ok .bytes
  | .date _ => .ok .datetime
  | .datetime .. => .ok .datetime
  | .timedelta _ => .ok .timedelta
  | .dec _ => .ok .float
  | .float _ => .ok .float
  | .int _ => .ok .float
  | .none => .ok .null
  | .set xs => do
    let ts ← typesOf xs
    .ok (.set (memberType ts) true)
  | .str _ => .ok .string
  | .map _ kvs => do
    let ks ← typesOfKeys kvs
    let vs ← typesOfVals kvs
    mkMappingType (memberType ks) (memberType vs) true
  | .seq _ xs => do
    let ts ← typesOf xs
    .ok (.array (memberType ts) true)
  | .builtinFn _ => .ok .anyFunction
  | .userFn _ => .ok .anyFunction
  | .method .. => .ok .anyFunction
  | .obj _ => .error .typeError
  | .undef => .error .typeError
/-- the types of the members of an iterable (types.py 164-168) -/
def typesOf : List Value → Except Err (List DataType)
  | [] => .ok []
  | x :: xs => do
    let t ← fromValue x
    let ts ← typesOf xs
    .ok (t :: ts)
/-- the types of the keys of a mapping (types.py 553) -/
def typesOfKeys : List (Value × Value) → Except Err (List DataType)
  | [] => .ok []
  | (k, _) :: rest => do
    let t ← fromValue k
    let ts ← typesOfKeys rest
    .ok (t :: ts)
/-- the types of the values of a mapping (types.py 554) -/
def typesOfVals : List (Value × Value) → Except Err (List DataType)
  | [] => .ok []
  | (_, v) :: rest => do
    let t ← fromValue v
    let ts ← typesOfVals rest
    .ok (t :: ts)
end

/-- `OrderedDict(pairs)` (types.py 82-86) -/
def mapOfList {α : Type} (off : TzDb) (kvs : List (Value × α)) : List (Value × α) :=
  kvs.foldl (fun acc p => mapInsert off acc p.1 p.2) []

mutual
/-- `coerce_value(value, verify_type=False)` (types.py 60-88). -/
def coerce (off : TzDb) : Value → Value
  | .seq _ xs => .seq .tuple (coerceList off xs)
  | .date d => .datetime (d * dayUs) none
  | .float f => .dec f.repr
  | .int i => .dec (.ofInt i)
  | .map _ kvs => .map .ordered (mapOfList off (coercePairs off kvs))
  | v => v
/-- members of a sequence (types.py 73-81) -/
def coerceList (off : TzDb) : List Value → List Value
  | [] => []
  | x :: xs => coerce off x :: coerceList off xs
/-- items of a mapping (types.py 82-86) -/
def coercePairs (off : TzDb) : List (Value × Value) → List (Value × Value)
  | [] => []
  | (k, v) :: rest => (coerce off k, coerce off v) :: coercePairs off rest
end

/-- `coerce_value(value)` (types.py 60-88): the conversion, then a TypeError if the result has no
data type.  (The recursive calls verify the members first; the check of the whole value verifies
the same members.) -/
def coerceVerify (off : TzDb) (v : Value) : Except Err Value := do
  let c := coerce off v
  let _ ← fromValue c
  .ok c

/-- `is_numeric` (types.py 138-151). -/
def isNumeric : Value → Bool
  | .dec _ | .float _ | .int _ => true
  | _ => false

/-- `is_real_number` (types.py 122-136).  `math.isfinite` converts its argument to a binary float:
a Decimal too large for one counts as infinite, an int raises OverflowError. -/
def isReal : Value → Except Err Bool
  | .dec d => .ok (decIsFinite d)
  | .float f => .ok (match f.exact with | .fin .. => true | _ => false)
  | .int i => if decFloatOverflows i.natAbs 0 then .error (.py .overflowError) else .ok true
  | _ => .ok false

/-- `is_integer_number` (types.py 90-105). -/
def isInteger (v : Value) : Except Err Bool := do
  if ← isReal v then
    match v with
    | .dec (.fin n k e) => .ok (decIsInt n k e)
    | .float ⟨.fin n k e, _⟩ => .ok (decIsInt n k e)
    | _ => .ok true
  else .ok false

/-- `value < 0` for numbers (types.py 107-120). -/
def isNegative : Value → Bool
  | .dec (.fin n k _) => n && k != 0
  | .dec (.inf n) => n
  | .float ⟨.fin n k _, _⟩ => n && k != 0
  | .float ⟨.inf n, _⟩ => n
  | .int i => decide (i < 0)
  | _ => false

/-- `is_natural_number` (types.py 107-120). -/
def isNatural (v : Value) : Except Err Bool := do
  if ← isInteger v then .ok (!isNegative v) else .ok false

/-- `int(value)` for a number that passed one of the checks above (ast.py 546, 900). -/
def toInt : Value → Int
  | .dec (.fin n k e) => decTrunc n k e
  | .float ⟨.fin n k e, _⟩ => decTrunc n k e
  | .int i => i
  | _ => 0

/-- `_assert_is_integer_number(value)` (ast.py 49-51). -/
def assertInteger (v : Value) : Except Err Unit := do
  if ← isInteger v then .ok () else .error .mismatch

/-- `_assert_is_natural_number(value)` (ast.py 53-55). -/
def assertNatural (v : Value) : Except Err Unit := do
  if ← isNatural v then .ok () else .error .mismatch

/-- `_assert_is_numeric(value)` (ast.py 57-59). -/
def assertNumeric (v : Value) : Except Err Unit :=
  if isNumeric v then .ok () else .error .mismatch

/-- `isinstance(v, bytes)` (ast.py 45-47) -/
def Value.isBytes : Value → Bool
  | .bytes _ => true
  | _ => false

/-- `isinstance(v, str)` (ast.py 61-63) -/
def Value.isStr : Value → Bool
  | .str _ => true
  | _ => false

/-- `callable(v)`; opaque objects are assumed not callable (types.py 558). -/
def Value.isCallable : Value → Bool
  | .builtinFn _ | .userFn _ | .method .. => true
  | _ => false

end RE

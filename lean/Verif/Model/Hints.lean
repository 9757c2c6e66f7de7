import Verif.Model.Types

/-!
# Python types and type hints as data types (types.py 473-523)
-/

namespace RE

/-- The arguments of `DataType.from_type` (types.py 486-522): classes, and type hints, which have an `__origin__`
and, unless they are bare (`typing.List`), `__args__`.  Only the first two arguments are ever looked at. -/
inductive Hint where
  /-- the classes the engine knows -/
  | bool | bytes | date | datetime | timedelta | decimal | float | int | none | str | function
  | list | range | tuple | set | dict
  /-- any other class -/
  | otherClass
  /-- something that is neither a class nor has an `__origin__`, such as `typing.Union` or a TypeVar -/
  | notType
  /-- a hint with an `__origin__` but no `__args__`, such as `typing.List` -/
  | bare (origin : Hint)
  /-- a hint with empty `__args__`, such as `list[()]` -/
  | of0 (origin : Hint)
  /-- a hint with one argument, such as `list[int]` -/
  | of1 (origin a : Hint)
  /-- a hint with two or more arguments, such as `dict[str, int]` -/
  | of2 (origin a b : Hint)
  deriving Repr, Inhabited

/-- `maintype(valuetype)` for `list` and `set` (types.py 510-512); `DataType.ARRAY` and `DataType.SET` called with a
value type -/
def memberOf (main t : DataType) : DataType :=
  match main with
  | .array .. => .array t true
  | .set .. => .set t true
  | other => other

/-- `DataType.from_type` (types.py 473-523). -/
def fromType : Hint → Except Err DataType
  | .notType => .error .typeError
  | .list | .range | .tuple => .ok (.array .undefined true)
  | .bool => .ok .boolean
  | .bytes => .ok .bytes
  | .date | .datetime => .ok .datetime
  | .timedelta => .ok .timedelta
  | .decimal | .float | .int => .ok .float
  | .dict => .ok (.mapping .undefined .undefined true)
  | .none => .ok .null
  | .set => .ok (.set .undefined true)
  | .str => .ok .string
  | .function => .ok .anyFunction
  | .otherClass => .error (.py .valueError)
  | .bare origin => fromType origin
  | .of0 origin => do
    let main ← fromType origin
    match origin with
    | .list | .set | .dict => .error (.py .indexError)
    | _ => .ok main
  | .of1 origin a => do
    let main ← fromType origin
    match origin with
    | .list | .set => do
      let t ← fromType a
      .ok (memberOf main t)
    | .dict => do
      let _ ← fromType a
      .error (.py .indexError)
    | _ => .ok main
  | .of2 origin a b => do
    let main ← fromType origin
    match origin with
    | .list | .set => do
      let t ← fromType a
      .ok (memberOf main t)
    | .dict => do
      let k ← fromType a
      let v ← fromType b
      mkMappingType k v true
    | _ => .ok main

end RE

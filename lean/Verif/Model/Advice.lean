import Verif.Model.Rule
import Verif.Model.Suggest

/-!
# The suggestions in errors about names (engine.py 72, 85-88, 92-93, 192; ast.py 815-824)

`none` at the outside: `suggest_symbol` raises.  `some none`: the attribute `suggestion` is None.
-/

namespace RE

/-- `type_map[...].keys()`: the attributes in order of registration (engine.py 205-402) -/
def attrNames : AttrKind → List String
  | .bytes => ["decode", "ends_with", "is_empty", "length", "starts_with", "to_ary", "to_set"]
  | .datetime => ["to_epoch", "date", "day", "hour", "microsecond", "millisecond", "minute", "month", "second",
      "weekday", "year", "zone_name"]
  | .float => ["ceiling", "floor", "is_nan", "to_flt", "to_int", "to_str"]
  | .mapping => ["keys", "values", "is_empty", "length"]
  | .string => ["as_lower", "as_upper", "encode", "to_flt", "to_int", "ends_with", "is_empty", "length",
      "starts_with", "to_ary", "to_str", "to_set"]
  | .timedelta => ["days", "seconds", "microseconds", "total_seconds"]
  | .array => ["ends_with", "is_empty", "length", "starts_with", "to_ary", "to_set"]
  | .set => ["is_empty", "length", "to_ary", "to_set"]

/-- `thing.keys()` when all keys are strings (engine.py 88; otherwise `resolve_item` raises TypeError) -/
def strKeys (kvs : List (Value × Value)) : List String :=
  kvs.filterMap fun p =>
    match p.1 with
    | .str s => some s
    | _ => none

/-- `.suggestion` of the SymbolResolutionError that `resolve_item` raises (engine.py 85-88): none is given when
the thing is no mapping. -/
def itemAdvice (fl : ℚ → ℚ) (thing : Value) (name : String) : Option (Option String) :=
  match thing with
  | .map _ kvs => suggestSymbol fl name (strKeys kvs)
  | _ => some none

/-- `.suggestion` of the SymbolResolutionError of a type resolver made from a dictionary (engine.py 91-94) -/
def typeAdvice (fl : ℚ → ℚ) (d : List (String × DataType)) (name : String) : Option (Option String) :=
  suggestSymbol fl name (d.map (·.1))

/-- `.suggestion` of the AttributeResolutionError for a data type (engine.py 184-193) -/
def attrAdvice (fl : ℚ → ℚ) (t : DataType) (name : String) : Option (Option String) :=
  match attrKind t with
  | none => some none
  | some k => suggestSymbol fl name (attrNames k)

/-- `.suggestion` of the AttributeResolutionError for a value (engine.py 169-174) -/
def valueAdvice (fl : ℚ → ℚ) (obj : Value) (name : String) : Option (Option String) :=
  match fromValue obj with
  | .ok t => attrAdvice fl t name
  | .error _ => some none

/-- `.suggestion` of the AttributeResolutionError that `GetAttributeExpression.evaluate` raises when neither the
type nor the object has the name (ast.py 815-824), with `resolve_item` as the resolver: of two suggestions the
better one.  (`or` tests the suggestions for truth; a suggested name is never empty.) -/
def getAttrAdvice (fl : ℚ → ℚ) (obj : Value) (name : String) : Option (Option String) := do
  let a ← valueAdvice fl obj name
  let b ← itemAdvice fl obj name
  match a, b with
  | some x, some y => suggestSymbol fl name [x, y]
  | some x, none => some (some x)
  | none, b => some b

end RE

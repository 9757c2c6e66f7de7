import Verif.Model.Env
import Verif.Model.Codec

/-!
# Attributes of values (`_AttributeResolver`, engine.py 154-402)
-/

namespace RE

/-- The keys of `attribute.type_map`, in order of first registration (engine.py 155, 164-167). -/
inductive AttrKind where
  | bytes | datetime | float | mapping | string | timedelta | array | set
  deriving DecidableEq, Repr, Inhabited

/-- `_get_resolver` (engine.py 184-193): the first registered type compatible with the object's
type.  (UNDEFINED is compatible with the first one; callers never ask for it.) -/
def attrKind : DataType → Option AttrKind
  | .bytes => some .bytes
  | .datetime => some .datetime
  | .float => some .float
  | .mapping .. => some .mapping
  | .string => some .string
  | .timedelta => some .timedelta
  | .array .. => some .array
  | .set .. => some .set
  | .undefined => some .bytes
  | .boolean => none
  | .null => none
  | .function .. => none

/-- `.value_type` of a definition; only collections and mappings have one (types.py 226, 282). -/
def DataType.valueType : DataType → DataType
  | .array v _ => v
  | .set v _ => v
  | .mapping _ v _ => v
  | _ => .undefined

/-- `_value_to_ary_result_type` (engine.py 116-121). -/
def toAryType : DataType → DataType
  | .bytes => .array .float true
  | .string => .array .string true
  | t => .array t.valueType true

/-- `_value_to_set_result_type` (engine.py 123-128). -/
def toSetType : DataType → DataType
  | .bytes => .set .float true
  | .string => .set .string true
  | t => .set t.valueType true

/-- `_value_with_result_type` (engine.py 130-131). -/
def withType (name : String) (t : DataType) : DataType :=
  .function name .boolean (some [t]) (some 1)

/-- The registered attributes and their result types (engine.py 205-402). -/
def attrTypeFn (k : AttrKind) (name : String) : Option (DataType → DataType) :=
  match k with
  | .bytes =>
    match name with
    | "decode" => some fun _ => .function "decode" .string (some [.string]) (some 1)
    | "ends_with" => some (withType "ends_with")
    | "is_empty" => some fun _ => .boolean
    | "length" => some fun _ => .float
    | "starts_with" => some (withType "starts_with")
    | "to_ary" => some toAryType
    | "to_set" => some toSetType
    | _ => none
  | .datetime =>
    match name with
    | "to_epoch" => some fun _ => .float
    | "date" => some fun _ => .datetime
    | "day" => some fun _ => .float
    | "hour" => some fun _ => .float
    | "microsecond" => some fun _ => .float
    | "millisecond" => some fun _ => .float
    | "minute" => some fun _ => .float
    | "month" => some fun _ => .float
    | "second" => some fun _ => .float
    | "weekday" => some fun _ => .string
    | "year" => some fun _ => .float
    | "zone_name" => some fun _ => .string
    | _ => none
  | .float =>
    match name with
    | "ceiling" => some fun _ => .float
    | "floor" => some fun _ => .float
    | "is_nan" => some fun _ => .boolean
    | "to_flt" => some fun _ => .float
    | "to_int" => some fun _ => .float
    | "to_str" => some fun _ => .string
    | _ => none
  | .mapping =>
    match name with
    | "keys" => some fun _ => .anyArray
    | "values" => some fun _ => .anyArray
    | "is_empty" => some fun _ => .boolean
    | "length" => some fun _ => .float
    | _ => none
  | .string =>
    match name with
    | "as_lower" => some fun _ => .string
    | "as_upper" => some fun _ => .string
    | "encode" => some fun _ => .function "encode" .bytes (some [.string]) (some 1)
    | "to_flt" => some fun _ => .float
    | "to_int" => some fun _ => .float
    | "ends_with" => some (withType "ends_with")
    | "is_empty" => some fun _ => .boolean
    | "length" => some fun _ => .float
    | "starts_with" => some (withType "starts_with")
    | "to_ary" => some toAryType
    | "to_str" => some fun _ => .string
    | "to_set" => some toSetType
    | _ => none
  | .timedelta =>
    match name with
    | "days" => some fun _ => .float
    | "seconds" => some fun _ => .float
    | "microseconds" => some fun _ => .float
    | "total_seconds" => some fun _ => .float
    | _ => none
  | .array =>
    match name with
    | "ends_with" => some (withType "ends_with")
    | "is_empty" => some fun _ => .boolean
    | "length" => some fun _ => .float
    | "starts_with" => some (withType "starts_with")
    | "to_ary" => some toAryType
    | "to_set" => some toSetType
    | _ => none
  | .set =>
    match name with
    | "is_empty" => some fun _ => .boolean
    | "length" => some fun _ => .float
    | "to_ary" => some toAryType
    | "to_set" => some toSetType
    | _ => none

/-- `Context.resolve_attribute_type` (engine.py 184-203, 558). -/
def resolveAttrType (t : DataType) (name : String) : Except Err DataType :=
  match attrKind t with
  | none => .error (.eng (.attributeResolution name))
  | some k =>
    match attrTypeFn k name with
    | none => .error (.eng (.attributeResolution name))
    | some f => .ok (f t)

/-- days before the first of the month in a common year (`_DAYS_BEFORE_MONTH` of datetime.py) -/
def daysBeforeMonth : Nat → Int
  | 1 => 0 | 2 => 31 | 3 => 59 | 4 => 90 | 5 => 120 | 6 => 151 | 7 => 181 | 8 => 212 | 9 => 243
  | 10 => 273 | 11 => 304 | 12 => 334 | _ => 365

/-- `_DAYS_IN_MONTH` of datetime.py -/
def daysInMonth : Nat → Int
  | 2 => 28 | 4 => 30 | 6 => 30 | 9 => 30 | 11 => 30 | _ => 31

/-- `datetime._ord2ymd` (year, month, day of a day number; day 0 is 0001-01-01). -/
def ymdOfDay (n : Int) : Int × Nat × Int :=
  let n400 := n / 146097
  let n := n % 146097
  let n100 := n / 36524
  let n := n % 36524
  let n4 := n / 1461
  let n := n % 1461
  let n1 := n / 365
  let n := n % 365
  let year := n400 * 400 + 1 + n100 * 100 + n4 * 4 + n1
  if n1 = 4 ∨ n100 = 4 then (year - 1, 12, 31)
  else
    let leap := decide (n1 = 3) && (decide (n4 ≠ 24) || decide (n100 = 3))
    let month := ((n + 50) / 32).toNat
    let preceding := daysBeforeMonth month + (if month > 2 && leap then 1 else 0)
    if n < preceding then
      let month := month - 1
      let preceding := preceding - (daysInMonth month + (if month = 2 ∧ leap then 1 else 0))
      (year, month, n - preceding + 1)
    else (year, month, n - preceding + 1)

/-- decimal digits of a natural number (engine.py 386-398) -/
def natDigits (n : Nat) : List Char := Nat.toDigits 10 n

/-- `str(Decimal)` for finite values (`_pydecimal.Decimal.__str__`) (engine.py 386-398). -/
def decToString (neg : Bool) (k : Nat) (e : Int) : String :=
  let ds := natDigits k
  let left : Int := e + ds.length
  let dot : Int := if e ≤ 0 ∧ -6 < left then left else 1
  let intpart := if dot ≤ 0 then ['0']
    else if (ds.length : Int) ≤ dot then ds ++ List.replicate (dot - ds.length).toNat '0'
    else ds.take dot.toNat
  let frac := if dot ≤ 0 then '.' :: (List.replicate (-dot).toNat '0' ++ ds)
    else if (ds.length : Int) ≤ dot then []
    else '.' :: ds.drop dot.toNat
  let ex := if left = dot then []
    else 'E' :: (if left - dot < 0 then '-' else '+') :: natDigits (left - dot).natAbs
  String.ofList ((if neg then ['-'] else []) ++ intpart ++ frac ++ ex)

/-- `value.lower()` (engine.py 300-302) -/
def pyLower (env : Env) (s : String) : String :=
  if isAscii s.toList then String.ofList (s.toList.map asciiLower) else env.lower s

/-- `value.upper()` (engine.py 304-306) -/
def pyUpper (env : Env) (s : String) : String :=
  if isAscii s.toList then String.ofList (s.toList.map asciiUpper) else env.upper s

/-- `[0-9]+` -/
def allDigits (s : List Char) : Bool := !s.isEmpty && s.all isDigit

/-- Does the text match the FLOAT token `0(b[01]+|o[0-7]+|x[0-9a-fA-F]+)` exactly? returns base and
digits -/
def prefixedToken : List Char → Option (Nat × List Char)
  | '0' :: c :: d :: ds =>
    let base := if c == 'b' then 2 else if c == 'o' then 8 else if c == 'x' then 16 else 0
    if base != 0 && (readNat base 0 (d :: ds)).isSome then some (base, d :: ds) else none
  | _ => none

/-- does the text match `([eE][+-]?[0-9]+)?` exactly? -/
def exponentToken : List Char → Bool
  | [] => true
  | c :: cs =>
    (c == 'e' || c == 'E') &&
      (match cs with
       | '+' :: ds => allDigits ds
       | '-' :: ds => allDigits ds
       | ds => allDigits ds)

/-- does the text match `[0-9]+(\.[0-9]*)?([eE][+-]?[0-9]+)?|\.[0-9]+([eE][+-]?[0-9]+)?` exactly? -/
def decimalToken (s : List Char) : Bool :=
  let (ip, rest) := spanDigits s
  match rest with
  | '.' :: r =>
    let (fp, rest') := spanDigits r
    (!ip.isEmpty || !fp.isEmpty) && exponentToken rest'
  | r => !ip.isEmpty && exponentToken r

/-- the number that a decimal token denotes -/
def floatText (s : List Char) : ℚ :=
  let (ip, rest) := spanDigits s
  let (fp, rest) := takeFraction rest
  ((readNat 10 0 (ip ++ fp)).getD 0 : Nat) * pow10 ((readExponent rest).getD 0 - fp.length)

/-- `string_to_flt` (engine.py 327-335).  `ast.literal_eval` yields an int for a plain digit string
(SyntaxError with a leading zero, or with more digits than `sys.get_int_max_str_digits()`), a binary float
otherwise. -/
def stringToFlt (env : Env) (s : String) : Except Err Value :=
  let v := pyStrip s.toList
  if "inf".toList.isPrefixOf v || "-inf".toList.isPrefixOf v then
    match decimalOfString v with
    | some d => .ok (.dec d)
    | none => .error (.py .invalidOperation)
  else
    match prefixedToken v with
    | some (base, ds) => .ok (.int ((readNat base 0 ds).getD 0 : Nat))
    | none =>
      if decimalToken v then
        if v.all isDigit then
          if (v.head? == some '0' || env.tooMany v.length) && v.any (· != '0') then .error (.py .syntaxError)
          else .ok (.int ((readNat 10 0 v).getD 0 : Nat))
        else .ok (.float (floatNear false (floatText v)))
      else .ok (.dec .nan)

/-- `coerce_value` of an attribute that is a Python int goes through `repr`, which raises ValueError for a long one
(types.py 55-58; engine.py 175). -/
def Env.shortInt (env : Env) (v : Value) : Except Err Value :=
  match v with
  | .int i => if env.tooLong i.natAbs then .error (.py .valueError) else .ok v
  | _ => .ok v

theorem shortInt_ok {env : Env} {v w : Value} (h : env.shortInt v = .ok w) : w = v := by
  unfold Env.shortInt at h
  split at h
  · split at h <;> cases h; rfl
  · cases h; rfl

theorem shortInt_error {env : Env} {v : Value} {e : Err} (h : env.shortInt v = .error e) :
    e = .py .valueError ∧ ∃ i, v = .int i ∧ env.tooLong i.natAbs = true := by
  unfold Env.shortInt at h
  split at h
  · split at h <;> cases h
    exact ⟨rfl, _, rfl, by assumption⟩
  · cases h

/-- `len(value)` for the types with a `length` attribute (engine.py 367-373) -/
def Value.len : Value → Nat
  | .str s => s.toList.length
  | .bytes b => b.length
  | .seq _ xs => xs.length
  | .set xs => xs.length
  | .map _ kvs => kvs.length
  | _ => 0

/-- `iter(value)`: the members of an iterable, TypeError otherwise
(engine.py 382-384, 400-402; ast.py 707) -/
def Value.members : Value → Except Err (List Value)
  | .str s => .ok (s.toList.map fun c => .str (String.ofList [c]))
  | .bytes b => .ok (b.map fun x => .int x.toNat)
  | .seq _ xs => .ok xs
  | .set xs => .ok xs
  | .map _ kvs => .ok (kvs.map (·.1))
  | _ => .error .typeError

/-- The attribute functions (engine.py 205-402), applied to the object. -/
def attrValue (env : Env) (k : AttrKind) (name : String) (v : Value) : Except Err Value :=
  let attrErr : Except Err Value := .error (.py .attributeError)
  match k, name with
  | .bytes, "decode" => .ok (.method .decode v)
  | .string, "encode" => .ok (.method .encode v)
  | .string, "as_lower" =>
    match v with
    | .str s => .ok (.str (pyLower env s))
    | _ => attrErr
  | .string, "as_upper" =>
    match v with
    | .str s => .ok (.str (pyUpper env s))
    | _ => attrErr
  | .string, "to_flt" =>
    match v with
    | .str s => do
      let r ← stringToFlt env s
      env.shortInt r
    | _ => attrErr
  | .string, "to_int" =>
    match v with
    | .str s => do
      let r ← stringToFlt env s
      assertInteger r
      env.shortInt r
    | _ => attrErr
  | .string, "to_str" => .ok v
  | .float, "to_str" =>
    match v with
    | .dec .nan => .ok (.str "nan")
    | .dec (.inf true) => .ok (.str "-inf")
    | .dec (.inf false) => .ok (.str "inf")
    | .dec (.fin n c e) => .ok (.str (decToString n c e))
    | _ => attrErr
  | .float, "ceiling" =>
    match v with
    | .dec (.fin n c e) => env.shortInt (.int (decCeil n c e))
    | .dec d => .ok (.dec d)
    | _ => attrErr
  | .float, "floor" =>
    match v with
    | .dec (.fin n c e) => env.shortInt (.int (decFloor n c e))
    | .dec d => .ok (.dec d)
    | _ => attrErr
  | .float, "is_nan" =>
    match v with
    | .dec d => .ok (.bool (d == .nan))
    | .float f => .ok (.bool (f.exact == .nan))
    | .int i => if decFloatOverflows i.natAbs 0 then .error (.py .overflowError) else .ok (.bool false)
    | _ => attrErr
  | .float, "to_flt" => .ok v
  | .float, "to_int" => do
    assertInteger v
    .ok v
  | .mapping, "keys" =>
    match v with
    | .map _ kvs => .ok (.tuple (kvs.map (·.1)))
    | _ => attrErr
  | .mapping, "values" =>
    match v with
    | .map _ kvs => .ok (.tuple (kvs.map (·.2)))
    | _ => attrErr
  | .timedelta, "days" =>
    match v with
    | .timedelta us => .ok (.int (us / dayUs))
    | _ => attrErr
  | .timedelta, "seconds" =>
    match v with
    | .timedelta us => .ok (.int (us % dayUs / 1000000))
    | _ => attrErr
  | .timedelta, "microseconds" =>
    match v with
    | .timedelta us => .ok (.int (us % 1000000))
    | _ => attrErr
  | .timedelta, "total_seconds" =>
    match v with
    | .timedelta us => .ok (.float (floatQuot us 1000000))
    | _ => attrErr
  | .datetime, "to_epoch" =>
    match v with
    | .datetime us (some tz) =>
      -- days from 0001-01-01 to 1970-01-01
      .ok (.float (floatQuot (utcOf env.utcoffset us tz - 719162 * dayUs) 1000000))
    | .datetime us none =>
      -- a naive datetime is interpreted in the process's local timezone, here number 0
      .ok (.float (naiveTimestamp (utcOf env.utcoffset us 0 - 719162 * dayUs)))
    | _ => attrErr
  | .datetime, "date" =>
    match v with
    | .datetime us tz => .ok (.datetime (us - us % dayUs) tz)
    | _ => .error .typeError
  | .datetime, "day" =>
    match v with
    | .datetime us _ => .ok (.int (ymdOfDay (us / dayUs)).2.2)
    | .date d => .ok (.int (ymdOfDay d).2.2)
    | _ => attrErr
  | .datetime, "month" =>
    match v with
    | .datetime us _ => .ok (.int (ymdOfDay (us / dayUs)).2.1)
    | .date d => .ok (.int (ymdOfDay d).2.1)
    | _ => attrErr
  | .datetime, "year" =>
    match v with
    | .datetime us _ => .ok (.int (ymdOfDay (us / dayUs)).1)
    | .date d => .ok (.int (ymdOfDay d).1)
    | _ => attrErr
  | .datetime, "weekday" =>
    match v with
    | .datetime us _ => .ok (.str (env.weekdayName (us / dayUs % 7).toNat))
    | .date d => .ok (.str (env.weekdayName (d % 7).toNat))
    | _ => attrErr
  | .datetime, "hour" =>
    match v with
    | .datetime us _ => .ok (.int (us % dayUs / 3600000000))
    | _ => attrErr
  | .datetime, "minute" =>
    match v with
    | .datetime us _ => .ok (.int (us % 3600000000 / 60000000))
    | _ => attrErr
  | .datetime, "second" =>
    match v with
    | .datetime us _ => .ok (.int (us % 60000000 / 1000000))
    | _ => attrErr
  | .datetime, "microsecond" =>
    match v with
    | .datetime us _ => .ok (.int (us % 1000000))
    | _ => attrErr
  | .datetime, "millisecond" =>
    match v with
    | .datetime us _ => .ok (.float (floatQuot (us % 1000000) 1000))
    | _ => attrErr
  | .datetime, "zone_name" =>
    match v with
    | .datetime us (some tz) =>
      match env.tzname tz us with
      | some s => .ok (.str s)
      | none => .ok .none
    | .datetime _ none => .ok .none
    | _ => attrErr
  | _, "starts_with" => .ok (.method .startsWith v)
  | _, "ends_with" => .ok (.method .endsWith v)
  | _, "is_empty" => .ok (.bool (v.len == 0))
  | _, "length" => .ok (.int v.len)
  | _, "to_ary" => do
    let xs ← v.members
    .ok (.tuple xs)
  | _, "to_set" => do
    let xs ← v.members
    let s ← setOfList env.utcoffset xs
    .ok (.set s)
  | _, _ => attrErr

/-- `Context.resolve_attribute` (engine.py 169-193, 543-558): AttributeResolutionError if the type
of the object has no such attribute; otherwise the coerced value, checked against the declared
result type (which the code computes from the type of the *result*, line 179). -/
def resolveAttr (env : Env) (obj : Value) (name : String) : Except Err Value :=
  match fromValue obj with
  | .error (.py .typeError) => .error (.eng (.attributeResolution name))
  | .error e => .error e
  | .ok t =>
    match attrKind t with
    | none => .error (.eng (.attributeResolution name))
    | some k =>
      match attrTypeFn k name with
      | none => .error (.eng (.attributeResolution name))
      | some f => do
        let v ← attrValue env k name obj
        let v ← coerceVerify env.utcoffset v
        let vt ← fromValue v
        if DataType.compat (f vt) vt then .ok v else .error (.eng (.attributeType name))

end RE

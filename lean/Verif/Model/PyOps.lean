import Verif.Model.Value

/-!
# Python operators on the modelled values

Equality, ordering, truth value, hashing, `in`, indexing and slicing as CPython defines them.
`off tz us` describes `tzinfo.utcoffset` of zone `tz` at the wall clock time `us`; all datetimes have
`fold = 0`.
-/

namespace RE

/-- `tzinfo.utcoffset` at a wall clock time: the offset in microseconds, and whether it would be
different with `fold = 1` (a time in a daylight saving gap or fold) (ast.py 149-150, 584). -/
structure UtcOffset where
  us : Int
  foldDependent : Bool
  deriving DecidableEq, Repr, Inhabited

/-- the time zones: `tzinfo` object number and wall clock time to offset (ast.py 149-150, 584) -/
abbrev TzDb := Nat → Int → UtcOffset

/-- `timedelta(days=1)` in microseconds (ast.py 445). -/
def dayUs : Int := 86400000000

/-- number of days from 0001-01-01 through 9999-12-31. -/
def maxOrdinal : Int := 3652059

/-- `datetime.min <= d <= datetime.max` (ast.py 445, 486). -/
def datetimeInRange (us : Int) : Bool := decide (0 ≤ us) && decide (us < maxOrdinal * dayUs)

/-- `timedelta.min <= t <= timedelta.max` (ast.py 445, 486). -/
def timedeltaInRange (us : Int) : Bool :=
  decide (-(999999999 * dayUs) ≤ us) && decide (us < 1000000000 * dayUs)

/-- The exact numeric value of `bool`, `int`, `float` and `Decimal` objects (ast.py 584, 625). -/
def Value.asNumber : Value → Option Dec
  | .bool b => some (.ofInt (if b then 1 else 0))
  | .int i => some (.ofInt i)
  | .float f => some f.exact
  | .dec d => some d
  | _ => .none

/-- the UTC time of an aware datetime (ast.py 584, 625). -/
def utcOf (off : TzDb) (us : Int) (tz : Nat) : Int := us - (off tz us).us

/-- `datetime.__eq__`: within one zone the wall clock times are compared, between zones the UTC times,
and then a time whose offset depends on `fold` is equal to nothing (PEP 495); naive and aware
datetimes are unequal (ast.py 584). -/
def datetimeEq (off : TzDb) (a : Int) (s : Option Nat) (b : Int) (t : Option Nat) : Bool :=
  match s, t with
  | none, none => a == b
  | some s, some t => if s = t then a == b
    else !(off s a).foldDependent && !(off t b).foldDependent && utcOf off a s == utcOf off b t
  | _, _ => false

mutual
/-- Python `a == b`.  (The identity shortcut of containers, observable only with NaN members and
bound functions, is not modelled.) (ast.py 584) -/
def pyEq (off : TzDb) : Value → Value → Bool
  | .none, .none => true
  | .bool a, b =>
    match b.asNumber with
    | some d => decEq (.ofInt (if a then 1 else 0)) d
    | none => false
  | .int a, b =>
    match b.asNumber with
    | some d => decEq (.ofInt a) d
    | none => false
  | .float a, b =>
    match b.asNumber with
    | some d => decEq a.exact d
    | none => false
  | .dec a, b =>
    match b.asNumber with
    | some d => decEq a d
    | none => false
  | .str a, .str b => a == b
  | .bytes a, .bytes b => a == b
  | .date a, .date b => a == b
  | .datetime a s, .datetime b t => datetimeEq off a s b t
  | .timedelta a, .timedelta b => a == b
  | .seq k a, .seq l b => k == l && pyEqSeq off a b
  | .set a, .set b => a.length == b.length && pySubset off a b
  | .map k a, .map l b =>
    a.length == b.length && pySubmap off a b &&
      (if k == .ordered && l == .ordered then pyEqKeys off a b else true)
  | .builtinFn a, .builtinFn b => a == b
  | .userFn a, .userFn b => a == b
  | .obj a, .obj b => a == b
  | .undef, .undef => true
  | _, _ => false
/-- elementwise equality of sequences (ast.py 584) -/
def pyEqSeq (off : TzDb) : List Value → List Value → Bool
  | [], [] => true
  | a :: as, b :: bs => pyEq off a b && pyEqSeq off as bs
  | _, _ => false
/-- every member of the first list has an equal member in the second (ast.py 584) -/
def pySubset (off : TzDb) : List Value → List Value → Bool
  | [], _ => true
  | a :: as, bs => bs.any (fun b => pyEq off a b) && pySubset off as bs
/-- every item of the first mapping has an equal item in the second (ast.py 584) -/
def pySubmap (off : TzDb) : List (Value × Value) → List (Value × Value) → Bool
  | [], _ => true
  | (k, v) :: as, bs => bs.any (fun b => pyEq off k b.1 && pyEq off v b.2) && pySubmap off as bs
/-- the keys of two mappings are equal in order (`OrderedDict.__eq__`) (ast.py 584) -/
def pyEqKeys (off : TzDb) : List (Value × Value) → List (Value × Value) → Bool
  | [], [] => true
  | (k, _) :: as, b :: bs => pyEq off k b.1 && pyEqKeys off as bs
  | _, _ => false
end

/-- The Python type of a value, for `type(a) is type(b)` (ast.py 618-625). -/
inductive PyType where
  | none | bool | int | float | dec | str | bytes | date | datetime | timedelta
  | tuple | list | range | set | dict | ordered
  | cFunction | pyFunction | partialFn | user (id : Nat) | obj (id : Nat) | undef
  deriving DecidableEq, Repr

/-- `type(value)`.  The builtins `abs any all sum max min` are C functions, `parse_datetime` and
the attribute functions are `functools.partial` objects, the other builtins are Python functions;
user functions and objects each have their own class (ast.py 618-625). -/
def Value.pyType : Value → PyType
  | .none => .none
  | .bool _ => .bool
  | .int _ => .int
  | .float _ => .float
  | .dec _ => .dec
  | .str _ => .str
  | .bytes _ => .bytes
  | .date _ => .date
  | .datetime .. => .datetime
  | .timedelta _ => .timedelta
  | .seq .tuple _ => .tuple
  | .seq .list _ => .list
  | .seq .range _ => .range
  | .set _ => .set
  | .map .dict _ => .dict
  | .map .ordered _ => .ordered
  | .builtinFn f =>
    match f with
    | .abs | .any | .all | .sum | .max | .min => .cFunction
    | .parseDatetime => .partialFn
    | _ => .pyFunction
  | .userFn i => .user i
  | .method .. => .partialFn
  | .obj i => .obj i
  | .undef => .undef

/-- `bool(value)`; user functions and opaque objects are truthy (ast.py 569, 572, 1199, 1254). -/
def Value.truthy : Value → Bool
  | .none => false
  | .bool b => b
  | .int i => i != 0
  | .float f => f.exact.truthy
  | .dec d => d.truthy
  | .str s => s != ""
  | .bytes b => b != []
  | .date _ => true
  | .datetime .. => true
  | .timedelta us => us != 0
  | .seq _ xs => !xs.isEmpty
  | .set xs => !xs.isEmpty
  | .map _ kvs => !kvs.isEmpty
  | .builtinFn _ => true
  | .userFn _ => true
  | .method .. => true
  | .obj _ => true
  | .undef => false

mutual
/-- Is the value hashable? (lists, sets and dictionaries are not) (ast.py 212, 308) -/
def Value.hashable : Value → Bool
  | .seq .list _ => false
  | .seq .tuple xs => Value.allHashable xs
  | .set _ => false
  | .map .. => false
  | _ => true
/-- the same for lists (ast.py 212, 308) -/
def Value.allHashable : List Value → Bool
  | [] => true
  | x :: xs => x.hashable && Value.allHashable xs
end

/-- `set.add` on a list without duplicates (ast.py 212). -/
def setAdd (off : TzDb) (xs : List Value) (x : Value) : List Value :=
  if xs.any (fun y => pyEq off y x) then xs else xs ++ [x]

/-- `set(iterable)`: TypeError for an unhashable member (ast.py 212, engine.py 400-402). -/
def setOfList (off : TzDb) (xs : List Value) : Except Err (List Value) :=
  if Value.allHashable xs then .ok (xs.foldl (setAdd off) []) else .error .typeError

/-- `mapping[key] = value` on an insertion-ordered dictionary: an existing equal key is kept and its
value replaced (ast.py 308). -/
def mapInsert {α : Type} (off : TzDb) : List (Value × α) → Value → α → List (Value × α)
  | [], k, v => [(k, v)]
  | (k', v') :: rest, k, v =>
    if pyEq off k' k then (k', v) :: rest else (k', v') :: mapInsert off rest k v

/-- `mapping[key]`, `none` for a KeyError (ast.py 902, engine.py 89). -/
def mapLookup {α : Type} (off : TzDb) (kvs : List (Value × α)) (k : Value) : Option α :=
  (kvs.find? (fun p => pyEq off p.1 k)).map (·.2)

/-- the comparison operators of the `operator` module used by the engine (ast.py 627-630) -/
inductive CmpOp where
  | lt | le | gt | ge | ne
  deriving DecidableEq, Repr, Inhabited

/-- apply a comparison operator to the outcome of a three-way comparison (ast.py 625) -/
def CmpOp.holds : CmpOp → Ordering → Bool
  | .lt, o => o == .lt
  | .le, o => o != .gt
  | .gt, o => o == .gt
  | .ge, o => o != .lt
  | .ne, o => o != .eq

/-- lexicographic three-way comparison of sequences of atoms (strings by code point, bytes)
(ast.py 625) -/
def lexCmp {α : Type} (cmp : α → α → Ordering) : List α → List α → Ordering
  | [], [] => .eq
  | [], _ :: _ => .lt
  | _ :: _, [] => .gt
  | a :: as, b :: bs =>
    match cmp a b with
    | .eq => lexCmp cmp as bs
    | o => o

/-- numeric comparison of Decimals: `!=` with NaN is true, ordering with NaN is InvalidOperation
(ast.py 625). -/
def decCmpOp (op : CmpOp) (a b : Dec) : Except Err Bool :=
  match decCmp a b with
  | some o => .ok (op.holds o)
  | none => if op = .ne then .ok true else .error (.py .invalidOperation)

/-- Python `op(a, b)` for two values of the same Python type other than tuples (those are handled
by the engine itself, ast.py 610-616).  Raw floats are compared like the exact numbers they denote
(a NaN float compares false instead of raising). -/
def pyCmp (off : TzDb) (op : CmpOp) (a b : Value) : Except Err Bool :=
  match a, b with
  | .none, .none => if op = .ne then .ok false else .error .typeError
  | .bool x, .bool y => .ok (op.holds (compare x.toNat y.toNat))
  | .int x, .int y => .ok (op.holds (compare x y))
  | .float x, .float y =>
    match decCmp x.exact y.exact with
    | some o => .ok (op.holds o)
    | none => .ok (op == .ne)
  | .dec x, .dec y => decCmpOp op x y
  | .str x, .str y => .ok (op.holds (lexCmp (fun c d => compare c.toNat d.toNat) x.toList y.toList))
  | .bytes x, .bytes y => .ok (op.holds (lexCmp (fun c d => compare c.toNat d.toNat) x y))
  | .date x, .date y => .ok (op.holds (compare x y))
  | .datetime x s, .datetime y t =>
    match s, t with
    | none, none => .ok (op.holds (compare x y))
    | some s, some t =>
      if s = t then .ok (op.holds (compare x y))
      else if op = .ne then .ok (!datetimeEq off x (some s) y (some t))
      else .ok (op.holds (compare (utcOf off x s) (utcOf off y t)))
    | _, _ => if op = .ne then .ok true else .error .typeError
  | .timedelta x, .timedelta y => .ok (op.holds (compare x y))
  | .set x, .set y =>
    let sub := pySubset off x y
    let sup := pySubset off y x
    match op with
    | .ne => .ok (!pyEq off a b)
    | .lt => .ok (sub && decide (x.length < y.length))
    | .le => .ok sub
    | .gt => .ok (sup && decide (y.length < x.length))
    | .ge => .ok sup
  | a, b => if op = .ne then .ok (!pyEq off a b) else .error .typeError

/-- is `p` a contiguous part of `s`? (`p in s` for strings and bytes) (ast.py 752) -/
def isPart {α : Type} [BEq α] (p : List α) : List α → Bool
  | [] => p.isEmpty
  | s@(_ :: t) => p.isPrefixOf s || isPart p t

/-- Python `member in container` (ast.py 752). -/
def pyIn (off : TzDb) (member container : Value) : Except Err Bool :=
  match container with
  | .str s =>
    match member with
    | .str m => .ok (isPart m.toList s.toList)
    | _ => .error .typeError
  | .bytes s =>
    match member with
    | .bytes m => .ok (isPart m s)
    | _ => .error .typeError
  | .seq _ xs => .ok (xs.any (fun x => pyEq off x member))
  | .set xs =>
    match member with
    | .set _ => .ok false   -- looked up as a frozenset; the model has no frozensets
    | m => if m.hashable then .ok (xs.any (fun x => pyEq off x m)) else .error .typeError
  | .map _ kvs =>
    if member.hashable then .ok (kvs.any (fun p => pyEq off p.1 member)) else .error .typeError
  | _ => .error .typeError

/-- position of a Python index in a sequence of length `n` (ast.py 902) -/
def pyIndex (n : Nat) (i : Int) : Option Nat :=
  if 0 ≤ i then (if i < n then some i.toNat else none)
  else if 0 ≤ i + n then some (i + n).toNat else none

/-- a slice bound clamped to `[0, n]` (ast.py 984) -/
def sliceBound (n : Nat) (i : Int) : Nat :=
  if i < 0 then (i + n).toNat else min i.toNat n

/-- `xs[start:stop]` (ast.py 984) -/
def pySlice {α : Type} (xs : List α) (start stop : Option Int) : List α :=
  let n := xs.length
  let a := match start with | none => 0 | some i => sliceBound n i
  let b := match stop with | none => n | some i => sliceBound n i
  (xs.take b).drop a

end RE

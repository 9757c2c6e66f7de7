import Verif.Model.Builtins

/-!
# The class `Builtins`

builtins.py 86-214: the mapping behind `$name`, with namespaces, generated values, and the way `from_defaults` merges
values and types.  `Model/Builtins.lean` has the result for the builtins of a `Context` (engine.py 484-488) as a table;
`Props/BuiltinsMap.lean` proves that the table is what this class computes.
-/

namespace RE

/-- A value given to `Builtins` (builtins.py 101-126): a Python value, a `BuiltinValueGenerator`, or a mapping, which is
a namespace.  Simplification: a generator is a function of the namespace and the timezone of the instance it is given. -/
inductive BEntry where
  | value (v : Value)
  | generator (g : Option String → Nat → Except Err Value)
  | nested (kvs : List (String × BEntry))

/-- An instance of `Builtins` (builtins.py 109-126).  The dictionaries are lists without repeated names. -/
structure Builtins where
  values : List (String × BEntry)
  types : List (String × DataType)
  ns : Option String
  timezone : Nat

/-- What an item of an instance is: a value, or a further instance for a namespace (builtins.py 138-148). -/
inductive BItem where
  | value (v : Value)
  | nested (b : Builtins)

/-- `Builtins.resolve_type` (builtins.py 128-135) -/
def Builtins.resolveType (b : Builtins) (name : String) : DataType := (b.types.lookup name).getD .undefined

/-- the namespace of an item (builtins.py 142-145) -/
def Builtins.subspace (b : Builtins) (name : String) : String :=
  match b.ns with
  | none => name
  | some n => n ++ "." ++ name

/-- `Builtins.__getitem__` (builtins.py 138-148), with the number of generators called. -/
def Builtins.getItem (b : Builtins) (name : String) : Except Err BItem × Nat :=
  match b.values.lookup name with
  | none => (.error (.py .keyError), 0)
  | some (.nested kvs) => (.ok (.nested ⟨kvs, [], some (b.subspace name), b.timezone⟩), 0)
  | some (.generator g) => ((g b.ns b.timezone).map .value, 1)
  | some (.value v) => (.ok (.value v), 0)

/-- `Builtins.__iter__` (builtins.py 150-151) -/
def Builtins.keys (b : Builtins) : List String := b.values.map (·.1)

/-- `Builtins.__len__` (builtins.py 153-154) -/
def Builtins.len (b : Builtins) : Nat := b.values.length

/-- `name in builtins`: `collections.abc.Mapping.__contains__` asks for the item and takes KeyError for no
(builtins.py 101). -/
def Builtins.contains (b : Builtins) (name : String) : Except Err Bool × Nat :=
  match b.getItem name with
  | (.ok _, n) => (.ok true, n)
  | (.error (.py .keyError), n) => (.ok false, n)
  | (.error e, n) => (.error e, n)

/-- `resolve_item(builtins, name)` (engine.py 75-89, 532-535); the names are texts, so the suggestion raises nothing. -/
def Builtins.resolve (b : Builtins) (name : String) : Except Err BItem × Nat :=
  match b.contains name with
  | (.error e, n) => (.error e, n)
  | (.ok false, n) => (.error (.eng (.symbolResolution name)), n)
  | (.ok true, n) =>
    let (r, m) := b.getItem name
    (r, n + m)

/-- `dict.update` (builtins.py 184, 213) -/
def dictUpdate {α : Type} (d u : List (String × α)) : List (String × α) :=
  d.map (fun p => (p.1, (u.lookup p.1).getD p.2)) ++ u.filter (fun p => !(d.map (·.1)).contains p.1)

/-- the default values (builtins.py 159-183) -/
def defaultEntries (env : Env) : List (String × BEntry) :=
  let now (tz : Nat) : Value := .datetime (env.now tz) (some tz)
  let today (tz : Nat) : Value := .datetime (env.now tz - env.now tz % dayUs) (some tz)
  [("e", .value (.dec (.fin false 2718281828459045 (-15)))), ("pi", .value (.dec (.fin false 3141592653589793 (-15)))),
   ("now", .generator fun _ tz => .ok (now tz)), ("today", .generator fun _ tz => .ok (today tz)),
   ("abs", .value (.builtinFn .abs)), ("any", .value (.builtinFn .any)), ("all", .value (.builtinFn .all)),
   ("sum", .value (.builtinFn .sum)), ("map", .value (.builtinFn .map)), ("max", .value (.builtinFn .max)),
   ("min", .value (.builtinFn .min)), ("filter", .value (.builtinFn .filter)),
   ("parse_datetime", .generator fun _ _ => .ok (.builtinFn .parseDatetime)),
   ("parse_float", .value (.builtinFn .parseFloat)), ("parse_timedelta", .value (.builtinFn .parseTimedelta)),
   ("random", .value (.builtinFn .random)), ("range", .value (.builtinFn .range)), ("split", .value (.builtinFn .split))]

/-- the default types (builtins.py 185-212) -/
def defaultTypes : List (String × DataType) :=
  let arr := DataType.anyArray
  let arrF := DataType.array .float true
  let fn (n : String) (r : DataType) (as : List DataType) (m : Nat) := (n, DataType.function n r (some as) (some m))
  [("e", .float), ("pi", .float), ("now", .datetime), ("today", .datetime),
   fn "abs" .float [.float] 1, fn "all" .boolean [arr] 1, fn "any" .boolean [arr] 1, fn "sum" .float [arrF] 1,
   fn "map" arr [.anyFunction, arr] 2, fn "max" .float [arrF] 1, fn "min" .float [arrF] 1,
   fn "filter" arr [.anyFunction, arr] 2, fn "parse_datetime" .datetime [.string] 1, fn "parse_float" .float [.string] 1,
   fn "parse_timedelta" .timedelta [.string] 1, fn "random" .float [.float] 0,
   fn "range" arrF [.float, .float, .float] 1, fn "split" (.array .string true) [.string, .string, .float] 1]

/-- `Builtins.from_defaults(values, value_types=…, namespace=…, timezone=…)` (builtins.py 156-214) -/
def Builtins.fromDefaults (env : Env) (values : List (String × BEntry)) (types : List (String × DataType))
    (ns : Option String) (timezone : Nat) : Builtins :=
  ⟨dictUpdate (defaultEntries env) values, dictUpdate defaultTypes types, ns, timezone⟩

/-- the builtins of a `Context` (engine.py 484-488); `groups` is the thread's `regex_groups` -/
def contextBuiltins (env : Env) (groups : Value) : Builtins :=
  .fromDefaults env [("re_groups", .generator fun _ _ => .ok groups)] [("re_groups", .array .string true)] none
    env.defaultTz

mutual
/-- A namespace as the value of a symbol (ast.py 147, types.py 82-86): `coerce_value` makes a dictionary of all its
items, so every generator in it is called. -/
def BEntry.toValue (ns : Option String) (tz : Nat) (name : String) : BEntry → Except Err Value
  | .value v => .ok v
  | .generator g => g ns tz
  | .nested kvs => do
    let items ← BEntry.toItems (some (Builtins.subspace ⟨[], [], ns, tz⟩ name)) tz kvs
    .ok (.map .dict items)
/-- the items of a namespace (types.py 82-86) -/
def BEntry.toItems (ns : Option String) (tz : Nat) : List (String × BEntry) → Except Err (List (Value × Value))
  | [] => .ok []
  | (n, e) :: rest => do
    let v ← e.toValue ns tz n
    let vs ← BEntry.toItems ns tz rest
    .ok ((.str n, v) :: vs)
end

end RE

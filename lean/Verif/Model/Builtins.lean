import Verif.Model.Arith
import Verif.Model.Attr

/-!
# `builtins.py` and the functions bound to attributes
-/

namespace RE

/-- The name under which each builtin function is registered (builtins.py 161-183). -/
def builtinNamed (name : String) : Option Builtin :=
  match name with
  | "abs" => some .abs
  | "any" => some .any
  | "all" => some .all
  | "sum" => some .sum
  | "map" => some .map
  | "max" => some .max
  | "min" => some .min
  | "filter" => some .filter
  | "parse_datetime" => some .parseDatetime
  | "parse_float" => some .parseFloat
  | "parse_timedelta" => some .parseTimedelta
  | "random" => some .random
  | "range" => some .range
  | "split" => some .split
  | _ => none

/-- `resolve_item(self.builtins, name)` (engine.py 532-535, builtins.py 138-148, 156-184): the value
of `$name`, `none` if there is no such builtin.  `groups` is the thread's `regex_groups`
(engine.py 53-55, 485). -/
def builtinValue (env : Env) (groups : Value) (name : String) : Option Value :=
  match name with
  | "e" => some (.dec (.fin false 2718281828459045 (-15)))
  | "pi" => some (.dec (.fin false 3141592653589793 (-15)))
  | "now" => some (.datetime (env.now env.defaultTz) (some env.defaultTz))
  | "today" =>
    let us := env.now env.defaultTz
    some (.datetime (us - us % dayUs) (some env.defaultTz))
  | "re_groups" => some groups
  | name => (builtinNamed name).map .builtinFn

/-- `Builtins.resolve_type` (builtins.py 126-133, 185-213, engine.py 486). -/
def builtinType (name : String) : DataType :=
  let arr := DataType.anyArray
  let arrF := DataType.array .float true
  match name with
  | "e" => .float
  | "pi" => .float
  | "now" => .datetime
  | "today" => .datetime
  | "abs" => .function "abs" .float (some [.float]) (some 1)
  | "all" => .function "all" .boolean (some [arr]) (some 1)
  | "any" => .function "any" .boolean (some [arr]) (some 1)
  | "sum" => .function "sum" .float (some [arrF]) (some 1)
  | "map" => .function "map" arr (some [.anyFunction, arr]) (some 2)
  | "max" => .function "max" .float (some [arrF]) (some 1)
  | "min" => .function "min" .float (some [arrF]) (some 1)
  | "filter" => .function "filter" arr (some [.anyFunction, arr]) (some 2)
  | "parse_datetime" => .function "parse_datetime" .datetime (some [.string]) (some 1)
  | "parse_float" => .function "parse_float" .float (some [.string]) (some 1)
  | "parse_timedelta" => .function "parse_timedelta" .timedelta (some [.string]) (some 1)
  | "random" => .function "random" .float (some [.float]) (some 0)
  | "range" => .function "range" arrF (some [.float, .float, .float]) (some 1)
  | "split" => .function "split" (.array .string true) (some [.string, .string, .float]) (some 1)
  | "re_groups" => .array .string true
  | _ => .undefined

mutual
/-- Python `a < b` (`gt = false`) or `a > b` (`gt = true`) on arbitrary values, as used by `min` and
`max` (builtins.py 174-175). -/
def pyLess (off : TzDb) (gt : Bool) : Value → Value → Except Err Bool
  | .seq .tuple xs, .seq .tuple ys => pyLessSeq off gt xs ys
  | a, b =>
    let op := if gt then CmpOp.gt else CmpOp.lt
    match a.asNumber, b.asNumber with
    | some x, some y =>
      match decCmp x y with
      | some o => .ok (op.holds o)
      | none => if a.isDec || b.isDec then .error (.py .invalidOperation) else .ok false
    | _, _ => if a.pyType = b.pyType then pyCmp off op a b else .error .typeError
/-- lexicographic comparison of tuples (builtins.py 174-175) -/
def pyLessSeq (off : TzDb) (gt : Bool) : List Value → List Value → Except Err Bool
  | [], ys => .ok (if gt then false else !ys.isEmpty)
  | _ :: _, [] => .ok gt
  | x :: xs, y :: ys => if pyEq off x y then pyLessSeq off gt xs ys else pyLess off gt x y
end

/-- `max(iterable)` / `min(iterable)`: the first extreme member, ValueError if there is none
(builtins.py 174-175) -/
def pyExtreme (off : TzDb) (gt : Bool) : List Value → Except Err Value
  | [] => .error (.py .valueError)
  | x :: xs => xs.foldlM (fun cur y => do
      if ← pyLess off gt y cur then .ok y else .ok cur) x

/-- `sum(iterable)` (builtins.py 172) -/
def pySum (env : Env) (dc : DecCtx) (xs : List Value) : Except Err Value :=
  xs.foldlM (fun acc x => numOp env dc .add acc x) (.int 0)

/-- `list(range(a, b, s))` (builtins.py 64-75) -/
def pyRange (a b s : Int) : List Value :=
  let n : Int := if 0 < s then (b - a + s - 1) / s else if s < 0 then (a - b - s - 1) / (-s) else 0
  (List.range n.toNat).map fun (i : Nat) => Value.int (a + s * (i : Int))

/-- `FunctionCallError` raised by a builtin for a bad argument (builtins.py 64-84) -/
def badArg {α : Type} : Except Err α := .error (.eng .functionCall)

/-- an argument that must be an integer number (builtins.py 66-74) -/
def integerArg (v : Value) : Except Err Int := do
  if ← isInteger v then .ok (toInt v) else badArg

/-- `_builtin_range` (builtins.py 64-75): a `stop` or `step` of zero counts as absent. -/
def builtinRange (args : List Value) : Except Err Value :=
  let go (start : Value) (stop step : Option Value) : Except Err Value := do
    let a ← integerArg start
    match stop with
    | some stop =>
      if stop.truthy then do
        let b ← integerArg stop
        match step with
        | some step =>
          if step.truthy then do
            let s ← integerArg step
            .ok (.seq .list (pyRange a b s))
          else .ok (.seq .list (pyRange a b 1))
        | none => .ok (.seq .list (pyRange a b 1))
      else .ok (.seq .list (pyRange 0 a 1))
    | none => .ok (.seq .list (pyRange 0 a 1))
  match args with
  | [a] => go a none none
  | [a, b] => go a (some b) none
  | [a, b, c] => go a (some b) (some c)
  | _ => .error .typeError

/-- `_builtins_split` (builtins.py 77-84). -/
def builtinSplit (args : List Value) : Except Err Value :=
  let go (s : Value) (sep : Option Value) (maxsplit : Option Value) : Except Err Value := do
    let k : Option Nat ← (match maxsplit with
      | none => .ok none
      | some .none => .ok none
      | some m => do
        if ← isNatural m then .ok (some (toInt m).toNat) else badArg)
    match s with
    | .str s =>
      let parts : Except Err (List (List Char)) := match sep with
        | none => .ok (splitWs s.toList k)
        | some .none => .ok (splitWs s.toList k)
        | some (.str p) =>
          if p.toList.isEmpty then .error (.py .valueError) else .ok (splitSep p.toList s.toList k)
        | some _ => .error .typeError
      do
        let ps ← parts
        .ok (.tuple (ps.map fun p => .str (String.ofList p)))
    | _ => .error (.py .attributeError)
  match args with
  | [a] => go a none none
  | [a, b] => go a (some b) none
  | [a, b, c] => go a (some b) (some c)
  | _ => .error .typeError

/-- `parse_datetime` (parser/utilities.py 55-69). -/
def parseDatetime (env : Env) (s : String) : Except Err Value :=
  match env.isoparse s with
  | none => .error (env.isoError s)
  | some (us, none) => .ok (.datetime us (some env.defaultTz))
  | some (us, some tz) => .ok (.datetime us (some tz))

/-- `len(value)`, TypeError for values without length (engine.py 371-373) -/
def pyLen (v : Value) : Except Err Nat :=
  match v with
  | .str _ | .bytes _ | .seq .. | .set _ | .map .. => .ok v.len
  | _ => .error .typeError

/-- `_bytes_decode`, `_string_encode`, `_value_starts_with`, `_value_ends_with`
(engine.py 209-219, 312-325, 364-365, 379-380). -/
def callMethod (env : Env) (m : Method) (self : Value) (args : List Value) : Except Err Value :=
  match m, self, args with
  | .decode, .bytes b, [.str enc] =>
    let enc := pyLower env enc
    if enc == "base16" || enc == "hex" then .ok (.str (String.ofList (hexEncode b)))
    else if enc == "base64" then .ok (.str (String.ofList (b64Encode b)))
    else
      match env.textDecode enc b with
      | some s => .ok (.str s)
      | none => .error (.py .valueError)
  | .encode, .str s, [.str enc] =>
    let enc := pyLower env enc
    if enc == "base16" || enc == "hex" then
      match hexDecode s.toList with
      | some b => .ok (.bytes b)
      | none => badArg
    else if enc == "base64" then
      match b64Decode s.toList with
      | some b => .ok (.bytes b)
      | none => badArg
    else
      match env.textEncode enc s with
      | some b => .ok (.bytes b)
      | none => .error (.py .valueError)
  | .startsWith, v, [p] => do
    let n ← pyLen p
    let part ← pyGetSlice v none (some n)
    .ok (.bool (pyEq env.utcoffset part p))
  | .endsWith, v, [p] => do
    let n ← pyLen p
    let part ← pyGetSlice v (some (-(n : Int))) none
    .ok (.bool (pyEq env.utcoffset part p))
  | _, _, _ => .error .typeError

/-- Calling a builtin other than `map` and `filter` (builtins.py 48-84). -/
def callBuiltin (env : Env) (dc : DecCtx) (f : Builtin) (args : List Value) : Except Err Value :=
  match f, args with
  | .abs, [.dec d] => ((decAbs dc d).mapError Err.ofDec).map Value.dec
  | .abs, [.int i] => .ok (.int i.natAbs)
  | .abs, [.bool b] => .ok (.int (if b then 1 else 0))
  | .abs, [.timedelta us] => mkTimedelta us.natAbs
  | .any, [v] => do
    let xs ← v.members
    .ok (.bool (xs.any Value.truthy))
  | .all, [v] => do
    let xs ← v.members
    .ok (.bool (xs.all Value.truthy))
  | .sum, [v] => do
    let xs ← v.members
    pySum env dc xs
  | .max, [v] => do
    let xs ← v.members
    pyExtreme env.utcoffset true xs
  | .min, [v] => do
    let xs ← v.members
    pyExtreme env.utcoffset false xs
  | .parseDatetime, [.str s] => parseDatetime env s
  | .parseFloat, [.str s] => (parseFloat s.toList).map Value.dec
  | .parseTimedelta, [.str s] => (parseTimedelta s.toList).map Value.timedelta
  | .random, [] => .ok (env.random none)
  | .random, [b] =>
    if b.truthy then do
      if ← isNatural b then .ok (env.random (some (toInt b).toNat)) else badArg
    else .ok (env.random none)
  | .range, args => builtinRange args
  | .split, args => builtinSplit args
  | _, _ => .error .typeError

/-- Calling a function value other than the builtins `map` and `filter`.  (Those take two arguments
and so fail with a TypeError when called with one by `map` or `filter` themselves.)
(builtins.py 48-84, engine.py 205-402) -/
def callBasic (env : Env) (dc : DecCtx) (f : Value) (args : List Value) : Except Err Value :=
  match f with
  | .builtinFn b => callBuiltin env dc b args
  | .userFn n => env.callUser n args
  | .method m self => callMethod env m self args
  | _ => .error .typeError

/-- a call of a function value, recorded in the log (ast.py 1097) -/
def callLogged (env : Env) (dc : DecCtx) (f : Value) (args : List Value) : M Value := fun s =>
  (callBasic env dc f args, { s with log := s.log ++ [.call f args] })

/-- `tuple(map(f, members))` (builtins.py 51-52) -/
def mapCalls (env : Env) (dc : DecCtx) (f : Value) : List Value → M (List Value)
  | [] => pure []
  | x :: xs => do
    let y ← callLogged env dc f [x]
    let ys ← mapCalls env dc f xs
    pure (y :: ys)

/-- `tuple(filter(f, members))` (builtins.py 48-49) -/
def filterCalls (env : Env) (dc : DecCtx) (f : Value) : List Value → M (List Value)
  | [] => pure []
  | x :: xs => do
    let y ← callLogged env dc f [x]
    let ys ← filterCalls env dc f xs
    pure (if y.truthy then x :: ys else ys)

/-- `function(*arguments)` (ast.py 1097): `$map` and `$filter` call back into functions
(builtins.py 48-52), everything else is a single call. -/
def callFn (env : Env) (dc : DecCtx) (f : Value) (args : List Value) : M Value :=
  match f, args with
  | .builtinFn .map, [g, it] => do
    M.modify (fun s => { s with log := s.log ++ [.call f args] })
    let xs ← M.lift it.members
    let ys ← mapCalls env dc g xs
    pure (.tuple ys)
  | .builtinFn .filter, [g, it] => do
    M.modify (fun s => { s with log := s.log ++ [.call f args] })
    let xs ← M.lift it.members
    let ys ← filterCalls env dc g xs
    pure (.tuple ys)
  | _, _ => callLogged env dc f args

end RE

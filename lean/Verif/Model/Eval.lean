import Verif.Model.Expr

/-!
# `evaluate` of every node class
-/

namespace RE

/-- Look a name up in the assignment scopes, oldest scope first (engine.py 537-539, 573-575). -/
def scopeLookup (scopes : List Assignment) (name : String) : Option Assignment :=
  scopes.find? (fun a => a.name == name)

/-- `Context.resolve(thing, name, scope)` (engine.py 518-541). -/
def ctxResolve (env : Env) (thing : Value) (name : String) (builtin : Bool) : M Value := fun s =>
  if builtin then
    match builtinValue env s.groups name with
    | some v => (.ok v, s)
    | none => (.error (.eng (.symbolResolution name)), s)
  else
    match scopeLookup s.scopes name with
    | some a => (.ok a.value, s)
    | none => (env.resolver thing name, { s with log := s.log ++ [.resolve thing name] })

/-- `value.replace(tzinfo=default_timezone)` for naive datetimes (ast.py 149-150). -/
def localise (env : Env) : Value → Value
  | .datetime us none => .datetime us (some env.defaultTz)
  | v => v

/-- `_new_value(value, verify_type=False)` (ast.py 146-151). -/
def newValue (env : Env) (v : Value) : Value := localise env (coerce env.utcoffset v)

/-- is the exception a `SymbolResolutionError`? (ast.py 816) -/
def isSymErr : Err → Bool
  | .eng (.symbolResolution _) => true
  | _ => false

/-- `SymbolExpression.evaluate` after resolution (ast.py 1037-1059): the declared type `rt` against
the value. -/
def checkSymbol (name : String) (rt : DataType) (v : Value) : Except Err Value :=
  if DataType.eq rt .undefined then .ok v
  else do
    let vt ← fromValue v
    let mismatch : Except Err Value :=
      if DataType.eq vt .null then .ok v else .error (.eng (.symbolType name))
    if DataType.compat vt rt then
      if rt.isScalar then .ok v
      else if DataType.eq rt.valueType .undefined then .ok v
      else
        let nullable := match rt with
          | .array _ n => n
          | .set _ n => n
          | .mapping _ _ n => n
          | _ => true
        -- `any(v is None for v in value)`: iterating a mapping yields its keys
        let hasNull := match v with
          | .seq _ xs => xs.any (· == Value.none)
          | .set xs => xs.any (· == Value.none)
          | .map _ kvs => kvs.any (fun p => p.1 == Value.none)
          | _ => false
        if !DataType.eq rt.valueType .null && !nullable && hasNull then
          .error (.eng (.symbolType name))
        else if DataType.eq rt.valueType vt.valueType then .ok v
        else mismatch
    else mismatch

/-- `SymbolExpression.evaluate` (ast.py 1026-1059). -/
def evalSymbol (env : Env) (thing : Value) (name : String) (rt : DataType) (builtin : Bool) :
    M Value := do
  let v ← M.catchErr (ctxResolve env thing name builtin) (fun e =>
    match isSymErr e, env.defaultValue with
    | true, some d => pure d
    | _, _ => M.throw e)
  M.lift (checkSymbol name rt (newValue env v))

/-- is the exception an `AttributeResolutionError`? (ast.py 809) -/
def isAttrErr : Err → Bool
  | .eng (.attributeResolution _) => true
  | _ => false

/-- `GetAttributeExpression.evaluate` after the object has been evaluated and was not skipped
(ast.py 801-826). -/
def evalGetAttr (env : Env) (obj : Value) (name : String) : M Value := fun s =>
  match resolveAttr env obj name with
  | .ok v => (.ok (newValue env v), s)
  | .error e =>
    if isAttrErr e then
      match ctxResolve env obj name false s with
      | (.ok v, s') => (.ok (newValue env v), s')
      | (.error e', s') =>
        if isSymErr e' then
          match env.defaultValue with
          | some d => (.ok (newValue env d), s')
          | none => (.error e, s')
        else (.error e', s')
    else (.error e, s)

/-- `FunctionCallExpression._validate_function` (ast.py 1108-1132) on the types of the arguments. -/
def validateCall (ft : DataType) (args : List DataType) : Except Err Unit :=
  match ft with
  | .function _ _ argTypes min =>
    if (match min with | some m => decide (args.length < m) | none => false) then badArg
    else
      match argTypes with
      | none => .ok ()
      | some ts =>
        if args.length > ts.length then badArg
        else if (args.zip ts).all (fun p => DataType.compat p.1 p.2) then .ok () else badArg
  | _ => .error .mismatch

/-- types of the argument values, checked one after the other (ast.py 1123-1132): a value without
type raises TypeError only if the arguments before it were compatible. -/
def validateArgs : List Value → List DataType → Except Err Unit
  | v :: vs, t :: ts => do
    let vt ← fromValue v
    if DataType.compat vt t then validateArgs vs ts else badArg
  | _, _ => .ok ()

/-- `_validate_function` on argument values (ast.py 1090-1093, 1108-1132). -/
def validateCallValues (ft : DataType) (args : List Value) : Except Err Unit :=
  match ft with
  | .function _ _ argTypes min =>
    if (match min with | some m => decide (args.length < m) | none => false) then badArg
    else
      match argTypes with
      | none => .ok ()
      | some ts => if args.length > ts.length then badArg else validateArgs args ts
  | _ => .error .mismatch

/-- Calling the function and checking what it returned (ast.py 1096-1106); `rt` is the static type of
the call. -/
def finishCall (env : Env) (dc : DecCtx) (rt : DataType) (f : Value) (args : List Value) :
    M Value := do
  let r ← M.catchErr (callFn env dc f args) (fun _ => M.throw (.eng .functionCall))
  let r ← M.lift (coerceVerify env.utcoffset r)
  let t ← M.lift (fromValue (localise env r))
  if DataType.compat t rt then pure (localise env r) else M.throw (.eng .functionCall)

/-- `FunctionCallExpression.evaluate` on the evaluated function and arguments (ast.py 1084-1106);
`ft` is the static type of the function node, `rt` of the call. -/
def evalCall (env : Env) (dc : DecCtx) (ft rt : DataType) (f : Value) (args : List Value) :
    M Value :=
  if DataType.eq ft .undefined then finishCall env dc rt f args
  else do
    M.lift (validateCallValues ft args)
    finishCall env dc rt f args

/-- `self.context._tls.regex_groups = match.groups()` (ast.py 666) -/
def recordMatch (groups : Value) : M Unit :=
  M.modify (fun s => { s with groups := groups, log := s.log ++ [.matched groups] })

/-- `FuzzyComparisonExpression.__op_regex` (ast.py 650-667) on evaluated operands.  (The left operand
is checked before the right one is evaluated, see `evalBin`.)  A pattern that is a string literal
has been compiled by the constructor, with the same result. -/
def opFuzzy (env : Env) (search negate : Bool) (left regex : Value) : M Value :=
  match regex with
  | .str p =>
    if env.reValid p then
      match left with
      | .str l =>
        match env.reRun search p l with
        | some gs => do
          recordMatch (.tuple (gs.map (fun g => match g with | some x => .str x | none => .none)))
          pure (.bool (!negate))
        | none => pure (.bool negate)
      -- left is None, the pattern is not: `not modifier(left, regex)`
      | _ => pure (.bool negate)
    else M.throw (env.reError p)
  | .none =>
    match left with
    | .none => pure (.bool (!negate))
    | _ => pure (.bool negate)
  | _ => M.throw .mismatch

/-- `_evaluator` of the binary operator nodes, given what evaluates the operands
(ast.py 394-395). -/
def evalBin (env : Env) (dc : DecCtx) (op : BinOp) (l r : M Value) : M Value :=
  match op with
  | .add => do
    let a ← l
    let b ← r
    M.lift (opAdd env dc a b)
  | .sub => do
    let a ← l
    let b ← r
    M.lift (opSub env dc a b)
  | .arith op => do
    let a ← l
    M.lift (assertNumeric a)
    let b ← r
    M.lift (assertNumeric b)
    M.lift (opArith env dc op a b)
  | .bit op => do
    let a ← l
    let t ← M.lift (fromValue a)
    if DataType.eq t .float then do
      M.lift (assertNatural a)
      let b ← r
      M.lift (opBitNat env op a b)
    else
      match a with
      | .set xs => do
        let b ← r
        M.lift (opBitSet env.utcoffset op xs b)
      | _ => M.throw .mismatch
  | .shift op => do
    let a ← l
    let t ← M.lift (fromValue a)
    if DataType.eq t .float then do
      M.lift (assertNatural a)
      let b ← r
      M.lift (opBitNat env op a b)
    else
      match a with
      | .set xs => do
        let b ← r
        M.lift (opBitSet env.utcoffset op xs b)
      | _ => M.throw .mismatch
  | .and => do
    let a ← l
    if a.truthy then do
      let b ← r
      pure (.bool b.truthy)
    else pure (.bool false)
  | .or => do
    let a ← l
    if a.truthy then pure (.bool true)
    else do
      let b ← r
      pure (.bool b.truthy)
  | .eq => do
    let a ← l
    let b ← r
    pure (.bool (opEq env.utcoffset a b))
  | .ne => do
    let a ← l
    let b ← r
    pure (.bool (opNe env.utcoffset a b))
  | .cmp op => do
    let a ← l
    let b ← r
    let x ← M.lift (opCmpValues env.utcoffset a op b)
    pure (.bool x)
  | .fuzzy search negate => do
    let a ← l
    match a with
    | .str _ | .none => do
      let b ← r
      opFuzzy env search negate a b
    | _ => M.throw .mismatch

/-- evaluate a list of expressions from left to right (ast.py 211-212) -/
def seqM : List (M Value) → M (List Value)
  | [] => pure []
  | m :: ms => do
    let v ← m
    let vs ← seqM ms
    pure (v :: vs)

/-- `set(member.evaluate(thing) for member in self.value)` (ast.py 211-212): every member is hashed
and added as soon as it has been evaluated. -/
def setM (off : TzDb) : List Value → List (M Value) → M (List Value)
  | acc, [] => pure acc
  | acc, m :: ms => do
    let v ← m
    if v.hashable then setM off (setAdd off acc v) ms else M.throw .typeError

/-- the key phase of `MappingExpression.evaluate` (ast.py 301-308) -/
def mapKeysM (off : TzDb) :
    List (Value × M Value) → List (M Value × M Value) → M (List (Value × M Value))
  | acc, [] => pure acc
  | acc, (k, v) :: rest => do
    let key ← k
    let kt ← M.lift (fromValue key)
    if kt.isCompound && !kt.isArray then M.throw (.eng .engine)
    else if key.hashable then mapKeysM off (mapInsert off acc key v) rest
    else M.throw .typeError

/-- the value phase of `MappingExpression.evaluate` (ast.py 309-312) -/
def mapValsM : List (Value × M Value) → M (List (Value × Value))
  | [] => pure []
  | (k, m) :: rest => do
    let v ← m
    let vs ← mapValsM rest
    pure ((k, v) :: vs)

/-- the loop of `ComprehensionExpression.evaluate` (ast.py 707-712) -/
def compM (var : String) (cond result : M Value) : List Value → M (List Value)
  | [] => pure []
  | x :: xs => do
    let r ← M.withScope ⟨var, x, .undefined⟩ (do
      let c ← cond
      if c.truthy then do
        let v ← result
        pure (some v)
      else pure none)
    let vs ← compM var cond result xs
    pure (match r with
      | some v => v :: vs
      | none => vs)

/-- `UnaryExpression` minus (ast.py 1256-1260). -/
def opNeg (dc : DecCtx) (v : Value) : Except Err Value :=
  if isNumeric v || (match v with | .timedelta _ => true | _ => false) then pyNeg dc v
  else .error .mismatch

/-- `GetSliceExpression.evaluate` on the evaluated container (ast.py 969-985). -/
def evalSlice (env : Env) (c : Value) (start stop : M Value) : M Value := do
  let a ← start
  let a ← M.lift (sliceArg a)
  let b ← stop
  let b ← M.lift (sliceArg b)
  let v ← M.lift (pyGetSlice c a b)
  pure (coerce env.utcoffset v)

mutual
/-- `node.evaluate(thing)` for every node class, in a decimal context (ast.py 106-113). -/
def eval (env : Env) (dc : DecCtx) (thing : Value) : Expr → M Value
  | .lit v _ => pure v
  | .array xs => do
    let vs ← seqM (evals env dc thing xs)
    pure (.tuple vs)
  | .set xs => do
    let vs ← setM env.utcoffset [] (evals env dc thing xs)
    pure (.set vs)
  | .mapping kvs => do
    let ks ← mapKeysM env.utcoffset [] (evalPairs env dc thing kvs)
    let items ← mapValsM ks
    pure (.map .ordered items)
  | .bin op l r => evalBin env dc op (eval env dc thing l) (eval env dc thing r)
  | .comp result var iterable cond => do
    let it ← eval env dc thing iterable
    let t ← M.lift (fromValue it)
    if t.isIterable then do
      let xs ← M.lift it.members
      let vs ← compM var (eval env dc thing cond) (eval env dc thing result) xs
      pure (.tuple vs)
    else M.throw .mismatch
  | .contains container member => do
    let c ← eval env dc thing container
    let ct ← M.lift (fromValue c)
    let m ← eval env dc thing member
    let b ← M.lift (opContains env.utcoffset ct c m)
    pure (.bool b)
  | .getAttr obj name safe => do
    let o ← eval env dc thing obj
    if o = .none ∧ safe = true then pure .none
    else evalGetAttr env o name
  | .getItem container item safe => do
    let c ← eval env dc thing container
    if c = .none then (if safe then pure .none else M.throw .mismatch)
    else do
      let i ← eval env dc thing item
      match ← M.lift (opGetItem env.utcoffset c i) with
      | some v => pure (newValue env v)
      | none => if safe then pure .none else M.throw (.eng .lookup)
  | .getSlice container start stop safe => do
    let c ← eval env dc thing container
    if c = .none then (if safe then pure .none else M.throw .mismatch)
    else evalSlice env c (eval env dc thing start) (eval env dc thing stop)
  | .sym name rt builtin => evalSymbol env thing name rt builtin
  | .call f args => do
    let fv ← eval env dc thing f
    if fv.isCallable then do
      let vs ← seqM (evals env dc thing args)
      evalCall env dc f.rt (callNodeType f.rt) fv vs
    else M.throw .mismatch
  | .tern c t f => do
    let v ← eval env dc thing c
    if v.truthy then eval env dc thing t else eval env dc thing f
  | .not e => do
    let v ← eval env dc thing e
    pure (.bool (!v.truthy))
  | .neg e => do
    let v ← eval env dc thing e
    M.lift (opNeg dc v)
/-- the evaluators of a list of nodes (ast.py 211-212) -/
def evals (env : Env) (dc : DecCtx) (thing : Value) : List Expr → List (M Value)
  | [] => []
  | e :: es => eval env dc thing e :: evals env dc thing es
/-- the evaluators of the items of a mapping literal (ast.py 301-312) -/
def evalPairs (env : Env) (dc : DecCtx) (thing : Value) :
    List (Expr × Expr) → List (M Value × M Value)
  | [] => []
  | (k, v) :: rest => (eval env dc thing k, eval env dc thing v) :: evalPairs env dc thing rest
end

end RE

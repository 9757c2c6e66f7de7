import Verif.Model.Eval

/-!
# Construction of nodes: type checks (`__init__`), constant folding (`reduce`), `build`
-/

namespace RE

/-- `Context.resolve_type(name, scope)` (engine.py 560-576). -/
def ctxResolveType (env : Env) (name : String) (builtin : Bool) : M DataType := fun s =>
  if builtin then (.ok (builtinType name), s)
  else
    match scopeLookup s.scopes name with
    | some a => (.ok a.type, s)
    | none => (env.typeResolver name, s)

/-- `compatible_types` of each operator class (ast.py 351, 411, 453, 490, 515, 559, 598, 637). -/
def BinOp.compatibleTypes : BinOp → List DataType
  | .add => [.bytes, .float, .string, .datetime, .timedelta]
  | .sub => [.float, .datetime, .timedelta]
  | .arith _ => [.float]
  | .bit _ => [.float, .anySet]
  | .shift _ => [.float]
  | .and | .or | .eq | .ne =>
    [.anyArray, .boolean, .datetime, .timedelta, .float, .anyMapping, .null, .anySet, .string]
  | .cmp _ => [.anyArray, .boolean, .datetime, .timedelta, .float, .null, .string]
  | .fuzzy .. => [.null, .string]

/-- `_assert_type_is_compatible` (ast.py 384-389). -/
def BinOp.accepts (op : BinOp) (t : DataType) : Bool :=
  DataType.eq t .undefined || op.compatibleTypes.any (fun dt => DataType.compat dt t)

/-- same Python class of data type definition (`__class__`): the constructors other than ARRAY, SET,
MAPPING and FUNCTION are all `_DataTypeDef` (types.py 437-455) -/
def DataType.sameClass : DataType → DataType → Bool
  | .array .., .array .. => true
  | .set .., .set .. => true
  | .mapping .., .mapping .. => true
  | .function .., .function .. => true
  | .array .., _ | .set .., _ | .mapping .., _ | .function .., _ => false
  | _, .array .. | _, .set .. | _, .mapping .. | _, .function .. => false
  | .undefined, .undefined => true
  | .undefined, _ | _, .undefined => false
  | _, _ => true

/-- both types known (ast.py 415-431, 456-473, 521) -/
def bothKnown (l r : DataType) : Bool :=
  !DataType.eq l .undefined && !DataType.eq r .undefined

/-- the constructor's check of a literal operand of a bitwise operator (ast.py 521-529): literals of
type FLOAT must be natural numbers -/
def checkNaturalLit : Expr → Except Err Unit
  | .lit v .float => assertNatural v
  | _ => .ok ()

/-- The type checks in the constructors of the binary operators (ast.py 358-378, 414-428, 456-473,
517-532, 599-603, 638-641). -/
def BinOp.check (env : Env) (op : BinOp) (l r : Expr) : Except Err Unit := do
  if op.accepts l.rt && op.accepts r.rt then .ok () else .error .mismatch
  match op with
  | .add =>
    if bothKnown l.rt r.rt then
      if DataType.eq l.rt .datetime then
        (if DataType.eq r.rt .timedelta then .ok () else .error .mismatch)
      else if DataType.eq l.rt .timedelta then
        (if DataType.eq r.rt .datetime || DataType.eq r.rt .timedelta then .ok ()
         else .error .mismatch)
      else if DataType.eq l.rt r.rt then .ok () else .error .mismatch
    else .ok ()
  | .sub =>
    if bothKnown l.rt r.rt then
      if DataType.eq l.rt .datetime then
        (if DataType.eq r.rt .datetime || DataType.eq r.rt .timedelta then .ok ()
         else .error .mismatch)
      else if DataType.eq l.rt .timedelta then
        (if DataType.eq r.rt .timedelta then .ok () else .error .mismatch)
      else if DataType.eq l.rt r.rt then .ok () else .error .mismatch
    else .ok ()
  | .bit _ | .shift _ => do
    if bothKnown l.rt r.rt && !DataType.sameClass l.rt r.rt then .error .mismatch else .ok ()
    checkNaturalLit l
    checkNaturalLit r
  | .cmp _ =>
    if bothKnown l.rt r.rt && !DataType.eq l.rt r.rt then .error .mismatch else .ok ()
  | .fuzzy .. =>
    match r with
    | .lit (.str p) _ => if env.reValid p then .ok () else .error (env.reError p)
    | _ => .ok ()
  | _ => .ok ()

/-- `LiteralExpressionBase.from_value(self.context, self.evaluate(None))`: fold a node into a
literal.  Folding happens in the decimal context of the constructing thread (ast.py 400). -/
def foldLit (env : Env) (dct : DecCtx) (e : Expr) : M Expr := do
  let v ← eval env dct .none e
  M.lift (litOf env.utcoffset v)

/-- A binary operator: constructor and `reduce` (ast.py 358-400). -/
def mkBin (env : Env) (dct : DecCtx) (op : BinOp) (l r : Expr) : M Expr := do
  M.lift (op.check env l r)
  if l.reduced && r.reduced then foldLit env dct (.bin op l r) else pure (.bin op l r)

/-- `MappingExpression.__init__` (ast.py 286-293): the key type may not be SET or MAPPING. -/
def mkMapping (kvs : List (Expr × Expr)) : Except Err Expr := do
  let _ ← mkMappingType (memberType (Expr.keyRts kvs)) (memberType (Expr.valRts kvs)) true
  .ok (.mapping kvs)

/-- `ContainsExpression.__init__` (ast.py 728-733). -/
def checkContains (c m : DataType) : Except Err Unit :=
  if DataType.eq c .bytes || DataType.eq c .string then
    if !DataType.eq m .undefined && !DataType.eq m c then .error .mismatch else .ok ()
  else if !DataType.eq c .undefined && c.isScalar then .error .mismatch
  else .ok ()

/-- `ContainsExpression` constructor and `reduce` (ast.py 728-757). -/
def mkContains (env : Env) (dct : DecCtx) (c m : Expr) : M Expr := do
  M.lift (checkContains c.rt m.rt)
  if c.reduced && m.reduced then do
    let v ← eval env dct .none (.contains c m)
    pure (.lit v .boolean)
  else pure (.contains c m)

/-- `GetAttributeExpression.__init__` (ast.py 780-792). -/
def checkAttr (t : DataType) (name : String) (safe : Bool) : Except Err Unit :=
  if DataType.eq t .undefined then .ok ()
  else if DataType.eq t .null && safe then .ok ()
  else
    match resolveAttrType t name with
    | .ok _ => .ok ()
    | .error e => if t.isMapping then .ok () else .error e

/-- `GetAttributeExpression` constructor and `reduce` (ast.py 780-834): a folded function keeps the
type of the node if that is a FUNCTION type. -/
def mkGetAttr (env : Env) (dct : DecCtx) (o : Expr) (name : String) (safe : Bool) : M Expr := do
  M.lift (checkAttr o.rt name safe)
  let node := Expr.getAttr o name safe
  if o.reduced then do
    let e ← foldLit env dct node
    match e with
    | .lit v (.function n r a m) =>
      if DataType.eq (.function n r a m) .anyFunction && DataType.compat node.rt .anyFunction then
        pure (.lit v node.rt)
      else pure (.lit v (.function n r a m))
    | e => pure e
  else pure node

/-- `GetItemExpression.__init__` (ast.py 856-880). -/
def checkItem (c i : DataType) (safe : Bool) : Except Err Unit :=
  match c with
  | .bytes | .string | .array .. => if DataType.compat i .float then .ok () else .error .mismatch
  | .mapping k _ _ => if safe || DataType.compat i k then .ok () else .error (.eng .lookup)
  | .set .. => .error .mismatch
  | .undefined => .ok ()
  | .null => if safe then .ok () else .error .mismatch
  | _ => .error .mismatch

/-- the key can statically not be in the mapping (ast.py 911-913) -/
def staticMiss (c i : DataType) (safe : Bool) : Bool :=
  match c with
  | .mapping k _ _ => safe && !DataType.compat i k
  | _ => false

/-- `GetItemExpression` constructor and `reduce` (ast.py 855-915). -/
def mkGetItem (env : Env) (dct : DecCtx) (c i : Expr) (safe : Bool) : M Expr := do
  M.lift (checkItem c.rt i.rt safe)
  if staticMiss c.rt i.rt safe then pure (.lit .none .null)
  else if c.reduced && i.reduced then foldLit env dct (.getItem c i safe)
  else pure (.getItem c i safe)

/-- `GetSliceExpression.__init__` (ast.py 939-956). -/
def checkSlice (c : DataType) (safe : Bool) : Except Err Unit :=
  match c with
  | .bytes | .string | .array .. | .undefined => .ok ()
  | .null => if safe then .ok () else .error .mismatch
  | _ => .error .mismatch

/-- `GetSliceExpression` constructor and `reduce` (ast.py 939-990). -/
def mkGetSlice (env : Env) (dct : DecCtx) (c a b : Expr) (safe : Bool) : M Expr := do
  M.lift (checkSlice c.rt safe)
  if c.reduced && a.reduced && b.reduced then foldLit env dct (.getSlice c a b safe)
  else pure (.getSlice c a b safe)

/-- `FunctionCallExpression` constructor and `reduce` (ast.py 1066-1082). -/
def mkCall (env : Env) (dct : DecCtx) (f : Expr) (args : List Expr) : M Expr := do
  if DataType.eq f.rt .undefined then pure () else M.lift (validateCall f.rt (Expr.rts args))
  if f.reduced && Expr.reducedList args then foldLit env dct (.call f args)
  else pure (.call f args)

/-- truth value of a literal node's `value` attribute (ast.py 1205): compound literals hold a
container of nodes -/
def Expr.litTruthy : Expr → Bool
  | .lit v _ => v.truthy
  | .array xs => !xs.isEmpty
  | .set xs => !xs.isEmpty
  | .mapping kvs => !kvs.isEmpty
  | _ => true

/-- `TernaryExpression` constructor and `reduce` (ast.py 1184-1206).  The chosen branch is reduced
once more, which has no effect. -/
def mkTern (c t f : Expr) : Expr :=
  if c.reduced then (if c.litTruthy then t else f) else .tern c t f

/-- `UnaryExpression` `not`: constructor and `reduce` (ast.py 1229-1239, 1264-1275). -/
def mkNot (env : Env) (dct : DecCtx) (e : Expr) : M Expr :=
  if e.reduced then do
    let v ← eval env dct .none (.not e)
    pure (.lit v .boolean)
  else pure (.not e)

/-- `UnaryExpression` minus: constructor and `reduce` (ast.py 1229-1239, 1264-1275). -/
def mkNeg (env : Env) (dct : DecCtx) (e : Expr) : M Expr :=
  if e.reduced then
    match e with
    | .lit _ .float => do
      let v ← eval env dct .none (.neg e)
      pure (.lit v .float)
    | .lit _ .timedelta => do
      let v ← eval env dct .none (.neg e)
      pure (.lit v .timedelta)
    | _ => M.throw .mismatch
  else pure (.neg e)

/-- the member type a comprehension variable gets, or a type error (ast.py 689-692) -/
def iterVarType (t : DataType) : Except Err DataType :=
  match t with
  | .undefined => .ok .undefined
  | t =>
    match t.iterableType with
    | some u => .ok u
    | none => .error .mismatch

/-- `Symbol` node (ast.py 1007-1021): the name is recorded in `Context.symbols`, then its type
resolved. -/
def mkSym (env : Env) (name : String) (builtin : Bool) : M Expr := do
  M.modify (fun s => { s with symbols := name :: s.symbols })
  let t ← ctxResolveType env name builtin
  pure (.sym name t builtin)

mutual
/-- `_DeferredAstNode.build` (parser/__init__.py 55-57) and the `build` class methods: children
first, then constructor checks, then `reduce`.  `dct` is the decimal context of the thread. -/
def build (env : Env) (dct : DecCtx) : Raw → M Expr
  | .lit v => M.lift (do
      let t ← fromValue v
      .ok (.lit v t))
  | .floatLit s => M.lift (do
      let d ← parseFloat s.toList
      .ok (.lit (.dec d) .float))
  | .datetimeLit s => M.lift (do
      let v ← parseDatetime env s
      .ok (.lit v .datetime))
  | .timedeltaLit s => M.lift (do
      let us ← parseTimedelta s.toList
      .ok (.lit (.timedelta us) .timedelta))
  | .array xs => do
    let es ← buildList env dct xs
    pure (.array es)
  | .set xs => do
    let es ← buildList env dct xs
    pure (.set es)
  | .mapping kvs => do
    let es ← buildPairs env dct kvs
    M.lift (mkMapping es)
  | .bin op l r => do
    let l ← build env dct l
    let r ← build env dct r
    mkBin env dct op l r
  | .comp result var iterable cond => do
    let it ← build env dct iterable
    let t ← M.lift (iterVarType it.rt)
    let (c, r) ← M.withScope ⟨var, .undef, t⟩ (do
      let c ← build env dct cond
      let r ← build env dct result
      pure (c, r))
    pure (.comp r var it c)
  | .contains container member => do
    let c ← build env dct container
    let m ← build env dct member
    mkContains env dct c m
  | .getAttr obj name safe => do
    let o ← build env dct obj
    mkGetAttr env dct o name safe
  | .getItem container item safe => do
    let c ← build env dct container
    let i ← build env dct item
    mkGetItem env dct c i safe
  | .getSlice container start stop safe => do
    let a ← build env dct start
    let b ← build env dct stop
    let c ← build env dct container
    mkGetSlice env dct c a b safe
  | .sym name builtin => mkSym env name builtin
  | .call f args => do
    let f ← build env dct f
    let as ← buildList env dct args
    mkCall env dct f as
  | .tern c t f => do
    let c ← build env dct c
    let t ← build env dct t
    let f ← build env dct f
    pure (mkTern c t f)
  | .not e => do
    let e ← build env dct e
    mkNot env dct e
  | .neg e => do
    let e ← build env dct e
    mkNeg env dct e
/-- `[member.build() for member in value]` (ast.py 233, 336, 1077) -/
def buildList (env : Env) (dct : DecCtx) : List Raw → M (List Expr)
  | [] => pure []
  | x :: xs => do
    let e ← build env dct x
    let es ← buildList env dct xs
    pure (e :: es)
/-- `OrderedDict((k.build(), v.build()) for k, v in value.items())` (ast.py 298) -/
def buildPairs (env : Env) (dct : DecCtx) : List (Raw × Raw) → M (List (Expr × Expr))
  | [] => pure []
  | (k, v) :: rest => do
    let k ← build env dct k
    let v ← build env dct v
    let es ← buildPairs env dct rest
    pure ((k, v) :: es)
end

end RE

import Verif.Model.Builtins

/-!
# Syntax trees: `Raw` (deferred nodes made by the parser) and `Expr` (constructed nodes)
-/

namespace RE

/-- The binary operators and the node class that implements them (parser/__init__.py 71-90). -/
inductive BinOp where
  /-- `AddExpression` (ast.py 409-445) -/
  | add
  /-- `SubtractExpression` (ast.py 447-486) -/
  | sub
  /-- `ArithmeticExpression` (ast.py 488-509): mul, tdiv, fdiv, mod, pow -/
  | arith (op : ArithOp)
  /-- `BitwiseExpression` (ast.py 511-556): and, or, xor -/
  | bit (op : BitOp)
  /-- `BitwiseShiftExpression` (ast.py 558-564): lsh, rsh -/
  | shift (op : BitOp)
  /-- `LogicExpression` `and` (ast.py 566-569) -/
  | and
  /-- `LogicExpression` `or` (ast.py 571-572) -/
  | or
  /-- `ComparisonExpression` `==` (ast.py 579-584) -/
  | eq
  /-- `ComparisonExpression` `!=` (ast.py 586-591) -/
  | ne
  /-- `ArithmeticComparisonExpression` (ast.py 593-630): lt, le, gt, ge -/
  | cmp (op : CmpOp)
  /-- `FuzzyComparisonExpression` (ast.py 632-672): `search` or match, negated or not -/
  | fuzzy (search negate : Bool)
  deriving DecidableEq, Repr, Inhabited

/-- A parse tree of `_DeferredAstNode`s (parser/__init__.py 45-57, 255-564).  Text of number,
datetime and timedelta literals is kept: those are converted when the node is built.  An absent
comprehension condition is the literal `true`, absent slice bounds are the literals `0` and `null`
(ast.py 710, 954-955). -/
inductive Raw where
  /-- `true`, `false`, `null`, string and bytes literals -/
  | lit (v : Value)
  | floatLit (s : String)
  | datetimeLit (s : String)
  | timedeltaLit (s : String)
  | array (xs : List Raw)
  | set (xs : List Raw)
  | mapping (kvs : List (Raw × Raw))
  | bin (op : BinOp) (l r : Raw)
  | comp (result : Raw) (var : String) (iterable : Raw) (cond : Raw)
  | contains (container member : Raw)
  | getAttr (obj : Raw) (name : String) (safe : Bool)
  | getItem (container item : Raw) (safe : Bool)
  | getSlice (container start stop : Raw) (safe : Bool)
  /-- `builtin` for names written `$name` (parser/__init__.py 395-402) -/
  | sym (name : String) (builtin : Bool)
  | call (f : Raw) (args : List Raw)
  | tern (c t f : Raw)
  | not (e : Raw)
  | neg (e : Raw)
  deriving Repr, Inhabited

/-- Constructed AST nodes.  `lit v rt` is a scalar literal with its result type; only function
literals get a type that is not the type of the value (ast.py 828-834). -/
inductive Expr where
  | lit (v : Value) (rt : DataType)
  | array (xs : List Expr)
  | set (xs : List Expr)
  | mapping (kvs : List (Expr × Expr))
  | bin (op : BinOp) (l r : Expr)
  | comp (result : Expr) (var : String) (iterable : Expr) (cond : Expr)
  | contains (container member : Expr)
  | getAttr (obj : Expr) (name : String) (safe : Bool)
  | getItem (container item : Expr) (safe : Bool)
  | getSlice (container start stop : Expr) (safe : Bool)
  | sym (name : String) (rt : DataType) (builtin : Bool)
  | call (f : Expr) (args : List Expr)
  | tern (c t f : Expr)
  | not (e : Expr)
  | neg (e : Expr)
  deriving Repr, Inhabited

/-- `AddExpression.result_type` (ast.py 414-428), given that the checks passed. -/
def addType (l r : DataType) : DataType :=
  if DataType.eq l .undefined || DataType.eq r .undefined then .undefined
  else if DataType.eq l .timedelta then r
  else l

/-- `SubtractExpression.result_type` (ast.py 456-473). -/
def subType (l r : DataType) : DataType :=
  if DataType.eq l .undefined || DataType.eq r .undefined then .undefined
  else if DataType.eq l .datetime && DataType.eq r .datetime then .timedelta
  else l

/-- `BitwiseExpression.result_type` (ast.py 517-532). -/
def bitType (dflt l r : DataType) : DataType :=
  if l.isSet || r.isSet then .anySet
  else if DataType.eq l .float || DataType.eq r .float then .float
  else dflt

/-- `result_type` of a binary operator node (ast.py 357, 410-672). -/
def BinOp.rt (op : BinOp) (l r : DataType) : DataType :=
  match op with
  | .add => addType l r
  | .sub => subType l r
  | .arith _ => .float
  | .bit _ => bitType .undefined l r
  | .shift _ => bitType .float l r
  | .and | .or | .eq | .ne | .cmp _ | .fuzzy .. => .boolean

/-- `GetAttributeExpression.result_type` (ast.py 782-792). -/
def attrNodeType (t : DataType) (name : String) (safe : Bool) : DataType :=
  if DataType.eq t .undefined then .undefined
  else if DataType.eq t .null && safe then .undefined
  else
    match resolveAttrType t name with
    | .ok u => u
    | .error _ => .undefined

/-- `GetItemExpression.result_type` (ast.py 856-880). -/
def itemNodeType : DataType → DataType
  | .bytes => .float
  | .string => .string
  | .array v _ => v
  | .mapping _ v _ => v
  | _ => .undefined

/-- `GetSliceExpression.result_type` (ast.py 939-953). -/
def sliceNodeType : DataType → DataType
  | .bytes => .bytes
  | .string => .string
  | .array v n => .array v n
  | _ => .undefined

/-- `FunctionCallExpression.result_type` (ast.py 1069-1072). -/
def callNodeType : DataType → DataType
  | .function _ ret _ _ => ret
  | _ => .undefined

/-- `TernaryExpression.result_type` (ast.py 1188-1191). -/
def ternNodeType (t f : DataType) : DataType :=
  if DataType.eq t f then t
  else if t.isArray && f.isArray then .anyArray
  else .undefined

mutual
/-- `result_type` of a node (ast.py 153-1275). -/
def Expr.rt : Expr → DataType
  | .lit _ rt => rt
  | .array xs => .array (memberType (Expr.rts xs)) true
  | .set xs => .set (memberType (Expr.rts xs)) true
  | .mapping kvs => .mapping (memberType (Expr.keyRts kvs)) (memberType (Expr.valRts kvs)) true
  | .bin op l r => op.rt l.rt r.rt
  | .comp result _ _ _ => .array result.rt true
  | .contains _ _ => .boolean
  | .getAttr obj name safe => attrNodeType obj.rt name safe
  | .getItem c _ _ => itemNodeType c.rt
  | .getSlice c _ _ _ => sliceNodeType c.rt
  | .sym _ rt _ => rt
  | .call f _ => callNodeType f.rt
  | .tern _ t f => ternNodeType t.rt f.rt
  | .not _ => .boolean
  | .neg e => e.rt
/-- result types of a list of nodes (ast.py 73-77) -/
def Expr.rts : List Expr → List DataType
  | [] => []
  | e :: es => e.rt :: Expr.rts es
/-- result types of the keys of a mapping literal (ast.py 291) -/
def Expr.keyRts : List (Expr × Expr) → List DataType
  | [] => []
  | (k, _) :: rest => k.rt :: Expr.keyRts rest
/-- result types of the values of a mapping literal (ast.py 292) -/
def Expr.valRts : List (Expr × Expr) → List DataType
  | [] => []
  | (_, v) :: rest => v.rt :: Expr.valRts rest
end

mutual
/-- `_is_reduced` (ast.py 65-71, 214-216, 314-316): literals all the way down. -/
def Expr.reduced : Expr → Bool
  | .lit _ _ => true
  | .array xs => Expr.reducedList xs
  | .set xs => Expr.reducedList xs
  | .mapping kvs => Expr.reducedPairs kvs
  | _ => false
/-- `_is_reduced(*values)` (ast.py 65-71) -/
def Expr.reducedList : List Expr → Bool
  | [] => true
  | e :: es => e.reduced && Expr.reducedList es
/-- `all(_is_reduced(key, value) for key, value in …)` (ast.py 316) -/
def Expr.reducedPairs : List (Expr × Expr) → Bool
  | [] => true
  | (k, v) :: rest => k.reduced && v.reduced && Expr.reducedPairs rest
end

mutual
/-- `LiteralExpressionBase.from_value` (ast.py 172-196) after the type of the whole value has been
determined. -/
def Expr.ofValue (off : TzDb) : Value → Expr
  | .seq _ xs => .array (Expr.ofValues off xs)
  | .set xs => .set (Expr.ofValues off xs)
  | .map _ kvs => .mapping (Expr.ofPairs off kvs)
  | v => .lit (coerce off v) (match fromValue v with | .ok t => t | .error _ => .undefined)
/-- members (ast.py 172-196) -/
def Expr.ofValues (off : TzDb) : List Value → List Expr
  | [] => []
  | v :: vs => Expr.ofValue off v :: Expr.ofValues off vs
/-- items of a mapping (ast.py 172-196) -/
def Expr.ofPairs (off : TzDb) : List (Value × Value) → List (Expr × Expr)
  | [] => []
  | (k, v) :: rest => (Expr.ofValue off k, Expr.ofValue off v) :: Expr.ofPairs off rest
end

/-- `LiteralExpressionBase.from_value` (ast.py 172-196): a value whose type cannot be determined
raises (the recursive calls on the members determine types again, with the same outcome). -/
def litOf (off : TzDb) (v : Value) : Except Err Expr := do
  let _ ← fromValue v
  .ok (Expr.ofValue off v)

end RE

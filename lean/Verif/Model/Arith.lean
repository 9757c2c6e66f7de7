import Verif.Model.Float64
import Verif.Model.Env

/-!
# The `operator` functions applied by the expression classes
-/

namespace RE

/-- a Python int operand of a Decimal operation (ast.py 498) -/
def Value.asIntDec : Value → Option Dec
  | .dec d => some d
  | .int i => some (.ofInt i)
  | .bool b => some (.ofInt (if b then 1 else 0))
  | _ => .none

/-- the int behind `int` and `bool` (ast.py 498) -/
def Value.asInt : Value → Option Int
  | .int i => some i
  | .bool b => some (if b then 1 else 0)
  | _ => .none

/-- is the value a Decimal? (ast.py 498) -/
def Value.isDec : Value → Bool
  | .dec _ => true
  | _ => false

/-- the Decimal operators (ast.py 498, 505-509) -/
def decOp (env : Env) (dc : DecCtx) : ArithOp → Dec → Dec → Except DecErr Dec
  | .add => decAdd dc
  | .sub => decSub dc
  | .mul => decMul dc
  | .tdiv => decDiv dc
  | .fdiv => decFloorDiv dc
  | .mod => decMod dc
  | .pow => env.decPow dc

/-- Python numeric operators on numbers: Decimal with Decimal or int is Decimal arithmetic in the
active decimal context, Decimal with float is a TypeError, and raw ints and floats (only reachable
through members of Python sets) follow Python (ast.py 498, 505-509). -/
def numOp (env : Env) (dc : DecCtx) (op : ArithOp) (a b : Value) : Except Err Value :=
  if a.isDec || b.isDec then
    match a.asIntDec, b.asIntDec with
    | some x, some y => ((decOp env dc op x y).mapError Err.ofDec).map Value.dec
    | _, _ => .error .typeError
  else
    match a.asInt, b.asInt with
    | some x, some y =>
      match op with
      | .add => .ok (.int (x + y))
      | .sub => .ok (.int (x - y))
      | .mul => .ok (.int (x * y))
      | .fdiv => if y = 0 then .error (.py .zeroDivisionError) else .ok (.int (x.fdiv y))
      | .mod => if y = 0 then .error (.py .zeroDivisionError) else .ok (.int (x.fmod y))
      | .tdiv =>
        if y = 0 then .error (.py .zeroDivisionError)
        else if pow2 1024 ≤ fl64 ((x.natAbs : ℚ) / (y.natAbs : ℚ)) then .error (.py .overflowError)
        else .ok (.float (floatQuot x y))
      | .pow => (env.rawArith .pow a b).map RawNum.toValue
    | _, _ =>
      match a.asNumber, b.asNumber with
      | some _, some _ => (env.rawArith op a b).map RawNum.toValue
      | _, _ => .error .typeError

/-- a datetime result, OverflowError when out of range (ast.py 445, 486) -/
def mkDatetime (us : Int) (tz : Option Nat) : Except Err Value :=
  if datetimeInRange us then .ok (.datetime us tz) else .error (.py .overflowError)

/-- a timedelta result, OverflowError when out of range (ast.py 445, 486) -/
def mkTimedelta (us : Int) : Except Err Value :=
  if timedeltaInRange us then .ok (.timedelta us) else .error (.py .overflowError)

/-- `operator.add(left, right)` (ast.py 445) -/
def pyAdd (env : Env) (dc : DecCtx) (a b : Value) : Except Err Value :=
  match a, b with
  | .datetime x tz, .timedelta y => mkDatetime (x + y) tz
  | .timedelta x, .datetime y tz => mkDatetime (y + x) tz
  | .timedelta x, .timedelta y => mkTimedelta (x + y)
  | .str x, .str y => .ok (.str (x ++ y))
  | .bytes x, .bytes y => .ok (.bytes (x ++ y))
  | a, b => numOp env dc .add a b

/-- `operator.sub(left, right)` (ast.py 486) -/
def pySub (env : Env) (dc : DecCtx) (a b : Value) : Except Err Value :=
  match a, b with
  | .datetime x s, .datetime y t =>
    match s, t with
    | none, none => mkTimedelta (x - y)
    | some s, some t =>
      if s = t then mkTimedelta (x - y)
      else mkTimedelta (utcOf env.utcoffset x s - utcOf env.utcoffset y t)
    | _, _ => .error .typeError
  | .datetime x s, .timedelta y => mkDatetime (x - y) s
  | .timedelta x, .timedelta y => mkTimedelta (x - y)
  | a, b => numOp env dc .sub a b

/-- `operator.neg(value)` for numbers and timedeltas (ast.py 1260-1262) -/
def pyNeg (dc : DecCtx) : Value → Except Err Value
  | .dec d => ((decNeg dc d).mapError Err.ofDec).map Value.dec
  | .int i => .ok (.int (-i))
  | .float f => .ok (.float ⟨decCopyNegate f.exact, decCopyNegate f.repr⟩)
  | .timedelta us => mkTimedelta (-us)
  | _ => .error .typeError

/-- The operand checks of `AddExpression._op_add` (ast.py 433-444).  `_assert_is_bytes` and
`_assert_is_string` (ast.py 45-47, 61-63) only test their first argument, because
`map(isinstance, values, [bytes])` stops after one element. -/
def addCheck (a b : Value) : Except Err Unit :=
  match a with
  | .datetime .. =>
    match b with
    | .timedelta _ => .ok ()
    | _ => .error .mismatch
  | .timedelta _ =>
    match b with
    | .timedelta _ | .datetime .. => .ok ()
    | _ => .error .mismatch
  | _ =>
    if a.isBytes || b.isBytes then (if a.isBytes then .ok () else .error .mismatch)
    else if a.isStr || b.isStr then (if a.isStr then .ok () else .error .mismatch)
    else do
      assertNumeric a
      assertNumeric b

/-- `AddExpression._op_add` on the evaluated operands (ast.py 433-445). -/
def opAdd (env : Env) (dc : DecCtx) (a b : Value) : Except Err Value := do
  addCheck a b
  pyAdd env dc a b

/-- The operand checks of `SubtractExpression._op_sub` (ast.py 476-485). -/
def subCheck (a b : Value) : Except Err Unit :=
  match a with
  | .datetime .. =>
    match b with
    | .timedelta _ | .datetime .. => .ok ()
    | _ => .error .mismatch
  | .timedelta _ =>
    match b with
    | .timedelta _ => .ok ()
    | _ => .error .mismatch
  | _ => do
    assertNumeric a
    assertNumeric b

/-- `SubtractExpression._op_sub` on the evaluated operands (ast.py 476-486). -/
def opSub (env : Env) (dc : DecCtx) (a b : Value) : Except Err Value := do
  subCheck a b
  pySub env dc a b

/-- the arithmetic errors caught by `ArithmeticExpression` (ast.py 499-502): `ZeroDivisionError` and
every other `ArithmeticError` -/
def isArithmeticError : Err → Bool
  | .py .zeroDivisionError => true
  | .py .invalidOperation => true
  | .py .decimalOverflow => true
  | .py .overflowError => true
  | _ => false

/-- `ArithmeticExpression.__op_arithmetic` on evaluated numeric operands (ast.py 492-503). -/
def opArith (env : Env) (dc : DecCtx) (op : ArithOp) (a b : Value) : Except Err Value :=
  match numOp env dc op a b with
  | .ok v => .ok v
  | .error e => if isArithmeticError e then .error .mismatch else .error e

/-- bitwise operators (ast.py 554-556, 563-564) -/
inductive BitOp where
  | and | or | xor | lsh | rsh
  deriving DecidableEq, Repr, Inhabited

/-- the operators on natural numbers (ast.py 546) -/
def bitNat : BitOp → Nat → Nat → Nat
  | .and, a, b => a &&& b
  | .or, a, b => a ||| b
  | .xor, a, b => a ^^^ b
  | .lsh, a, b => a <<< b
  | .rsh, a, b => a >>> b

/-- `BitwiseExpression._op_bitwise_float` after evaluating the right operand (ast.py 542-546): both
must be natural numbers, the result is an int converted to Decimal by way of its `repr`.  (Operands are below 2^1024,
and the limit is at least 640 digits: only `<<` can exceed it.) -/
def opBitNat (env : Env) (op : BitOp) (a b : Value) : Except Err Value := do
  assertNatural b
  let n := bitNat op (toInt a).toNat (toInt b).toNat
  if op = .lsh ∧ env.tooLong n = true then .error (.py .valueError)
  else .ok (.dec (.ofInt n))

/-- the operators on sets; shifting sets is a TypeError (ast.py 552) -/
def bitSet (off : TzDb) (op : BitOp) (xs ys : List Value) : Except Err (List Value) :=
  let isIn (zs : List Value) (x : Value) := zs.any (fun z => pyEq off z x)
  match op with
  | .and => .ok (xs.filter (isIn ys))
  | .or => .ok (xs ++ ys.filter (fun y => !isIn xs y))
  | .xor => .ok (xs.filter (fun x => !isIn ys x) ++ ys.filter (fun y => !isIn xs y))
  | .lsh | .rsh => .error .typeError

/-- `BitwiseExpression._op_bitwise_set` after evaluating the right operand (ast.py 548-552). -/
def opBitSet (off : TzDb) (op : BitOp) (xs : List Value) (b : Value) : Except Err Value := do
  let bt ← fromValue b
  if DataType.compat bt .anySet then
    match b with
    | .set ys => do
      let zs ← bitSet off op xs ys
      .ok (.set zs)
    | _ => .error .typeError
  else .error .mismatch

/-- `ComparisonExpression._op_eq` on the evaluated operands (ast.py 579-584). -/
def opEq (off : TzDb) (a b : Value) : Bool :=
  if a.pyType = b.pyType then pyEq off a b else false

/-- Python `a != b`: for the types in question the negation of `==` (ast.py 591). -/
def pyNe (off : TzDb) (a b : Value) : Bool := !pyEq off a b

/-- `ComparisonExpression._op_ne` on the evaluated operands (ast.py 586-591). -/
def opNe (off : TzDb) (a b : Value) : Bool :=
  if a.pyType = b.pyType then pyNe off a b else true

mutual
/-- `ArithmeticComparisonExpression.__op_arithmetic_values` (ast.py 618-625). -/
def opCmpValues (off : TzDb) : Value → CmpOp → Value → Except Err Bool
  | .none, op, .none => .ok (op == .ge || op == .le)
  | .seq .tuple xs, op, .seq .tuple ys => opCmpArrays off xs op ys xs.length ys.length
  | a, op, b => if a.pyType = b.pyType then pyCmp off op a b else .error .mismatch
/-- `__op_arithmetic_arrays` (ast.py 610-616); `n`, `m` are the lengths of the whole arrays. -/
def opCmpArrays (off : TzDb) :
    List Value → CmpOp → List Value → Nat → Nat → Except Err Bool
  | x :: xs, op, y :: ys, n, m => do
    if ← opCmpValues off x .ne y then opCmpValues off x op y
    else opCmpArrays off xs op ys n m
  | [], op, _, n, m =>
    if n ≠ m then pyCmp off op (.int n) (.int m) else .ok (op == .ge || op == .le)
  | _ :: _, op, [], n, m =>
    if n ≠ m then pyCmp off op (.int n) (.int m) else .ok (op == .ge || op == .le)
end

/-- `ContainsExpression.evaluate` on the evaluated operands (ast.py 745-752); the type of the
container has been computed before the member was evaluated. -/
def opContains (off : TzDb) (ct : DataType) (container member : Value) :
    Except Err Bool :=
  if DataType.eq ct .bytes || DataType.eq ct .string then do
    let mt ← fromValue member
    if DataType.eq mt ct then pyIn off member container else .error .mismatch
  else pyIn off member container

/-- `operator.getitem(container, item)` after the index check of ast.py 901-907; `none` is an
IndexError or KeyError. -/
def pyGetItem (off : TzDb) (c i : Value) : Except Err (Option Value) :=
  match c with
  | .str s => .ok ((pyIndex s.toList.length (toInt i)).bind fun n =>
      (s.toList[n]?).map fun ch => .str (String.ofList [ch]))
  | .bytes b => .ok ((pyIndex b.length (toInt i)).bind fun n => (b[n]?).map fun x => .int x.toNat)
  | .seq .tuple xs => .ok ((pyIndex xs.length (toInt i)).bind fun n => xs[n]?)
  | .seq _ xs =>
    -- a raw list is indexed with a Decimal, which is not an index type
    match i.asInt with
    | some j => .ok ((pyIndex xs.length j).bind fun n => xs[n]?)
    | .none => .error .typeError
  | .map _ kvs => if i.hashable then .ok (mapLookup off kvs i) else .error .typeError
  | _ => .error .typeError

/-- the index check of ast.py 899-901 -/
def itemCheck (c i : Value) : Except Err Unit :=
  match c with
  | .bytes _ | .str _ | .seq .tuple _ => assertInteger i
  | _ => .ok ()

/-- `GetItemExpression.evaluate` on evaluated operands, container not null (ast.py 898-907), before
`_new_value`: `none` stands for a failed lookup. -/
def opGetItem (off : TzDb) (c i : Value) : Except Err (Option Value) := do
  itemCheck c i
  pyGetItem off c i

/-- a slice bound: null or an integer number (ast.py 976-983) -/
def sliceArg (v : Value) : Except Err (Option Int) :=
  match v with
  | .none => .ok .none
  | v => do
    assertInteger v
    .ok (some (toInt v))

/-- `operator.getitem(container, slice(start, stop))` (ast.py 984) -/
def pyGetSlice (c : Value) (a b : Option Int) : Except Err Value :=
  match c with
  | .str s => .ok (.str (String.ofList (pySlice s.toList a b)))
  | .bytes x => .ok (.bytes (pySlice x a b))
  | .seq k xs => .ok (.seq k (pySlice xs a b))
  | _ => .error .typeError

end RE

import Verif.Model.Parser

/-!
# Evaluation in a world that changes

`Env` gives the resolver, the functions, the clock and the random numbers as functions: the same question always has the same
answer.  Here an answer may depend on everything that has happened before (a resolver with side effects, data that another
thread changes, `$now` read twice, `$random()`): the ghost log of the state is the history of the evaluation, and a world gives
its answers for a history.  Since an evaluation has one history, any answers in any order are those of a world.  This module
repeats `evaluate` of every node class (`Model/Eval.lean`) with such a world.
-/

namespace RE

/-- The ghost event of reading a builtin symbol (engine.py 530-535).  No function is called with a string as the function, so that
this is not the event of a call. -/
def Event.read (name : String) : Event := .call (.str name) []

/-- What the surroundings of an evaluation answer, after a history. -/
structure World where
  /-- `resolver(thing, name)` (engine.py 540) -/
  resolve : List Event → Value → String → Except Err Value
  /-- `function(*arguments)` (ast.py 1097) in a decimal context -/
  call : List Event → DecCtx → Value → List Value → Except Err Value
  /-- the value of a builtin symbol, given the groups of the last match (engine.py 530-535, builtins.py 86-99) -/
  builtin : List Event → Value → String → Option Value

/-- The world of a context and a runtime that do not change. -/
def World.still (env : Env) : World := ⟨fun _ => env.resolver, fun _ => callBasic env, fun _ => builtinValue env⟩

/-- The world of a context whose resolver, functions, clock and random numbers are, after a history, those of `E`. -/
def World.moving (E : List Event → Env) : World :=
  ⟨fun h => (E h).resolver, fun h => callBasic (E h), fun h => builtinValue (E h)⟩

/-- `Context.resolve(thing, name, scope)` (engine.py 518-541) -/
def ctxResolveW (W : World) (thing : Value) (name : String) (builtin : Bool) : M Value := fun s =>
  if builtin then
    (match W.builtin s.log s.groups name with
      | some v => .ok v
      | none => .error (.eng (.symbolResolution name)), { s with log := s.log ++ [.read name] })
  else
    match scopeLookup s.scopes name with
    | some a => (.ok a.value, s)
    | none => (W.resolve s.log thing name, { s with log := s.log ++ [.resolve thing name] })

/-- `SymbolExpression.evaluate` (ast.py 1026-1059) -/
def evalSymbolW (W : World) (env : Env) (thing : Value) (name : String) (rt : DataType) (builtin : Bool) :
    M Value := do
  let v ← M.catchErr (ctxResolveW W thing name builtin) (fun e =>
    match isSymErr e, env.defaultValue with
    | true, some d => pure d
    | _, _ => M.throw e)
  M.lift (checkSymbol name rt (newValue env v))

/-- `GetAttributeExpression.evaluate` (ast.py 801-826) -/
def evalGetAttrW (W : World) (env : Env) (obj : Value) (name : String) : M Value := fun s =>
  match resolveAttr env obj name with
  | .ok v => (.ok (newValue env v), s)
  | .error e =>
    if isAttrErr e then
      match ctxResolveW W obj name false s with
      | (.ok v, s') => (.ok (newValue env v), s')
      | (.error e', s') =>
        if isSymErr e' then
          match env.defaultValue with
          | some d => (.ok (newValue env d), s')
          | none => (.error e, s')
        else (.error e', s')
    else (.error e, s)

/-- a single call (ast.py 1097) -/
def callLoggedW (W : World) (dc : DecCtx) (f : Value) (args : List Value) : M Value := fun s =>
  (W.call s.log dc f args, { s with log := s.log ++ [.call f args] })

/-- `tuple(map(f, members))` (builtins.py 51-52) -/
def mapCallsW (W : World) (dc : DecCtx) (f : Value) : List Value → M (List Value)
  | [] => pure []
  | x :: xs => do
    let y ← callLoggedW W dc f [x]
    let ys ← mapCallsW W dc f xs
    pure (y :: ys)

/-- `tuple(filter(f, members))` (builtins.py 48-49) -/
def filterCallsW (W : World) (dc : DecCtx) (f : Value) : List Value → M (List Value)
  | [] => pure []
  | x :: xs => do
    let y ← callLoggedW W dc f [x]
    let ys ← filterCallsW W dc f xs
    pure (if y.truthy then x :: ys else ys)

/-- `function(*arguments)` (ast.py 1097), with `$map` and `$filter` (builtins.py 48-52) -/
def callFnW (W : World) (env : Env) (dc : DecCtx) (f : Value) (args : List Value) : M Value :=
  match f, args with
  | .builtinFn .map, [g, it] => do
    M.modify (fun s => { s with log := s.log ++ [.call f args] })
    let xs ← M.lift it.members
    let ys ← mapCallsW W dc g xs
    pure (.tuple ys)
  | .builtinFn .filter, [g, it] => do
    M.modify (fun s => { s with log := s.log ++ [.call f args] })
    let xs ← M.lift it.members
    let ys ← filterCallsW W dc g xs
    pure (.tuple ys)
  | _, _ => callLoggedW W dc f args

/-- calling the function and checking what it returned (ast.py 1096-1106) -/
def finishCallW (W : World) (env : Env) (dc : DecCtx) (rt : DataType) (f : Value) (args : List Value) :
    M Value := do
  let r ← M.catchErr (callFnW W env dc f args) (fun _ => M.throw (.eng .functionCall))
  let r ← M.lift (coerceVerify env.utcoffset r)
  let t ← M.lift (fromValue (localise env r))
  if DataType.compat t rt then pure (localise env r) else M.throw (.eng .functionCall)

/-- `FunctionCallExpression.evaluate` on the evaluated function and arguments (ast.py 1084-1106) -/
def evalCallW (W : World) (env : Env) (dc : DecCtx) (ft rt : DataType) (f : Value) (args : List Value) :
    M Value :=
  if DataType.eq ft .undefined then finishCallW W env dc rt f args
  else do
    M.lift (validateCallValues ft args)
    finishCallW W env dc rt f args

mutual
/-- `node.evaluate(thing)` for every node class (ast.py 106-113): as `eval` (`Model/Eval.lean`, which cites the lines
of each class), with the answers of a world that changes -/
def evalW (W : World) (env : Env) (dc : DecCtx) (thing : Value) : Expr → M Value
  | .lit v _ => pure v
  | .array xs => do
    let vs ← seqM (evalsW W env dc thing xs)
    pure (.tuple vs)
  | .set xs => do
    let vs ← setM env.utcoffset [] (evalsW W env dc thing xs)
    pure (.set vs)
  | .mapping kvs => do
    let ks ← mapKeysM env.utcoffset [] (evalPairsW W env dc thing kvs)
    let items ← mapValsM ks
    pure (.map .ordered items)
  | .bin op l r => evalBin env dc op (evalW W env dc thing l) (evalW W env dc thing r)
  | .comp result var iterable cond => do
    let it ← evalW W env dc thing iterable
    let t ← M.lift (fromValue it)
    if t.isIterable then do
      let xs ← M.lift it.members
      let vs ← compM var (evalW W env dc thing cond) (evalW W env dc thing result) xs
      pure (.tuple vs)
    else M.throw .mismatch
  | .contains container member => do
    let c ← evalW W env dc thing container
    let ct ← M.lift (fromValue c)
    let m ← evalW W env dc thing member
    let b ← M.lift (opContains env.utcoffset ct c m)
    pure (.bool b)
  | .getAttr obj name safe => do
    let o ← evalW W env dc thing obj
    if o = .none ∧ safe = true then pure .none
    else evalGetAttrW W env o name
  | .getItem container item safe => do
    let c ← evalW W env dc thing container
    if c = .none then (if safe then pure .none else M.throw .mismatch)
    else do
      let i ← evalW W env dc thing item
      match ← M.lift (opGetItem env.utcoffset c i) with
      | some v => pure (newValue env v)
      | none => if safe then pure .none else M.throw (.eng .lookup)
  | .getSlice container start stop safe => do
    let c ← evalW W env dc thing container
    if c = .none then (if safe then pure .none else M.throw .mismatch)
    else evalSlice env c (evalW W env dc thing start) (evalW W env dc thing stop)
  | .sym name rt builtin => evalSymbolW W env thing name rt builtin
  | .call f args => do
    let fv ← evalW W env dc thing f
    if fv.isCallable then do
      let vs ← seqM (evalsW W env dc thing args)
      evalCallW W env dc f.rt (callNodeType f.rt) fv vs
    else M.throw .mismatch
  | .tern c t f => do
    let v ← evalW W env dc thing c
    if v.truthy then evalW W env dc thing t else evalW W env dc thing f
  | .not e => do
    let v ← evalW W env dc thing e
    pure (.bool (!v.truthy))
  | .neg e => do
    let v ← evalW W env dc thing e
    M.lift (opNeg dc v)
/-- the evaluators of a list of nodes (ast.py 211-212) -/
def evalsW (W : World) (env : Env) (dc : DecCtx) (thing : Value) : List Expr → List (M Value)
  | [] => []
  | e :: es => evalW W env dc thing e :: evalsW W env dc thing es
/-- the evaluators of the items of a mapping literal (ast.py 301-312) -/
def evalPairsW (W : World) (env : Env) (dc : DecCtx) (thing : Value) :
    List (Expr × Expr) → List (M Value × M Value)
  | [] => []
  | (k, v) :: rest => (evalW W env dc thing k, evalW W env dc thing v) :: evalPairsW W env dc thing rest
end

/-- `Rule.evaluate` (engine.py 635-646) -/
def ruleEvalW (W : World) (env : Env) (e : Expr) (thing : Value) : M Value := fun s =>
  evalW W env env.decCtx thing e s.reset

/-- `rule.evaluate(thing)` in a process (engine.py 635-646) -/
def Proc.evaluateW (W : World) (env : Env) (e : Expr) (thing : Value) (p : Proc) : Except Err Value × Proc :=
  let r := ruleEvalW W env e thing p.st
  (r.1, ⟨p.line, r.2⟩)

end RE

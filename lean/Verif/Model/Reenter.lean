import Verif.Model.Parser

/-!
# Evaluation with re-entrant resolvers and functions

A resolver or a function given to the context may itself evaluate rules of the same context, in the same thread.
`Rule.evaluate` begins with `self.context._tls.reset()` (engine.py 644, 415-417), so such a nested evaluation clears the
variables of the comprehensions that are being evaluated around it, and replaces the groups of the last match.  This
module repeats `evaluate` of every node class (`Model/Eval.lean`) with this effect made explicit.
-/

namespace RE

/-- What the resolver and the functions of a context do to the thread's storage, besides returning a value or raising
(which is `env.resolver` and `callBasic`): the identity, unless rules of the same context are evaluated. -/
structure Nested where
  /-- the effect of `resolver(thing, name)` -/
  resolve : Value → String → St → St
  /-- the effect of `function(*arguments)` -/
  call : Value → List Value → St → St

/-- no rule is evaluated by the resolver or by a function -/
def Nested.quiet : Nested := ⟨fun _ _ s => s, fun _ _ s => s⟩

/-- `Context.resolve(thing, name, scope)` (engine.py 518-541) -/
def ctxResolveN (N : Nested) (env : Env) (thing : Value) (name : String) (builtin : Bool) : M Value := fun s =>
  if builtin then
    match builtinValue env s.groups name with
    | some v => (.ok v, s)
    | none => (.error (.eng (.symbolResolution name)), s)
  else
    match scopeLookup s.scopes name with
    | some a => (.ok a.value, s)
    | none => (env.resolver thing name, N.resolve thing name { s with log := s.log ++ [.resolve thing name] })

/-- `SymbolExpression.evaluate` (ast.py 1026-1059) -/
def evalSymbolN (N : Nested) (env : Env) (thing : Value) (name : String) (rt : DataType) (builtin : Bool) :
    M Value := do
  let v ← M.catchErr (ctxResolveN N env thing name builtin) (fun e =>
    match isSymErr e, env.defaultValue with
    | true, some d => pure d
    | _, _ => M.throw e)
  M.lift (checkSymbol name rt (newValue env v))

/-- `GetAttributeExpression.evaluate` (ast.py 801-826) -/
def evalGetAttrN (N : Nested) (env : Env) (obj : Value) (name : String) : M Value := fun s =>
  match resolveAttr env obj name with
  | .ok v => (.ok (newValue env v), s)
  | .error e =>
    if isAttrErr e then
      match ctxResolveN N env obj name false s with
      | (.ok v, s') => (.ok (newValue env v), s')
      | (.error e', s') =>
        if isSymErr e' then
          match env.defaultValue with
          | some d => (.ok (newValue env d), s')
          | none => (.error e, s')
        else (.error e', s')
    else (.error e, s)

/-- a single call (ast.py 1097) -/
def callLoggedN (N : Nested) (env : Env) (dc : DecCtx) (f : Value) (args : List Value) : M Value := fun s =>
  (callBasic env dc f args, N.call f args { s with log := s.log ++ [.call f args] })

/-- `tuple(map(f, members))` (builtins.py 51-52) -/
def mapCallsN (N : Nested) (env : Env) (dc : DecCtx) (f : Value) : List Value → M (List Value)
  | [] => pure []
  | x :: xs => do
    let y ← callLoggedN N env dc f [x]
    let ys ← mapCallsN N env dc f xs
    pure (y :: ys)

/-- `tuple(filter(f, members))` (builtins.py 48-49) -/
def filterCallsN (N : Nested) (env : Env) (dc : DecCtx) (f : Value) : List Value → M (List Value)
  | [] => pure []
  | x :: xs => do
    let y ← callLoggedN N env dc f [x]
    let ys ← filterCallsN N env dc f xs
    pure (if y.truthy then x :: ys else ys)

/-- `function(*arguments)` (ast.py 1097), with `$map` and `$filter` (builtins.py 48-52) -/
def callFnN (N : Nested) (env : Env) (dc : DecCtx) (f : Value) (args : List Value) : M Value :=
  match f, args with
  | .builtinFn .map, [g, it] => do
    M.modify (fun s => { s with log := s.log ++ [.call f args] })
    let xs ← M.lift it.members
    let ys ← mapCallsN N env dc g xs
    pure (.tuple ys)
  | .builtinFn .filter, [g, it] => do
    M.modify (fun s => { s with log := s.log ++ [.call f args] })
    let xs ← M.lift it.members
    let ys ← filterCallsN N env dc g xs
    pure (.tuple ys)
  | _, _ => callLoggedN N env dc f args

/-- calling the function and checking what it returned (ast.py 1096-1106) -/
def finishCallN (N : Nested) (env : Env) (dc : DecCtx) (rt : DataType) (f : Value) (args : List Value) :
    M Value := do
  let r ← M.catchErr (callFnN N env dc f args) (fun _ => M.throw (.eng .functionCall))
  let r ← M.lift (coerceVerify env.utcoffset r)
  let t ← M.lift (fromValue (localise env r))
  if DataType.compat t rt then pure (localise env r) else M.throw (.eng .functionCall)

/-- `FunctionCallExpression.evaluate` on the evaluated function and arguments (ast.py 1084-1106) -/
def evalCallN (N : Nested) (env : Env) (dc : DecCtx) (ft rt : DataType) (f : Value) (args : List Value) :
    M Value :=
  if DataType.eq ft .undefined then finishCallN N env dc rt f args
  else do
    M.lift (validateCallValues ft args)
    finishCallN N env dc rt f args

/-- `with context.assignments(a): m` (engine.py 497-510): push a scope, run, pop it in any case.  `deque.pop()` raises
IndexError if the deque has been cleared meanwhile, whatever `m` gave. -/
def withScopeN {α : Type} (a : Assignment) (m : M α) : M α := fun s =>
  let (r, s') := m { s with scopes := s.scopes ++ [a] }
  match s'.scopes with
  | [] => (.error (.py .indexError), s')
  | _ :: _ => (r, { s' with scopes := s'.scopes.dropLast })

/-- the loop of `ComprehensionExpression.evaluate` (ast.py 707-712) -/
def compN (var : String) (cond result : M Value) : List Value → M (List Value)
  | [] => pure []
  | x :: xs => do
    let r ← withScopeN ⟨var, x, .undefined⟩ (do
      let c ← cond
      if c.truthy then do
        let v ← result
        pure (some v)
      else pure none)
    let vs ← compN var cond result xs
    pure (match r with
      | some v => v :: vs
      | none => vs)

mutual
/-- `node.evaluate(thing)` for every node class (ast.py 106-113): as `eval` (`Model/Eval.lean`, which cites the lines
of each class), with the effects of the resolver and the functions -/
def evalN (N : Nested) (env : Env) (dc : DecCtx) (thing : Value) : Expr → M Value
  | .lit v _ => pure v
  | .array xs => do
    let vs ← seqM (evalsN N env dc thing xs)
    pure (.tuple vs)
  | .set xs => do
    let vs ← setM env.utcoffset [] (evalsN N env dc thing xs)
    pure (.set vs)
  | .mapping kvs => do
    let ks ← mapKeysM env.utcoffset [] (evalPairsN N env dc thing kvs)
    let items ← mapValsM ks
    pure (.map .ordered items)
  | .bin op l r => evalBin env dc op (evalN N env dc thing l) (evalN N env dc thing r)
  | .comp result var iterable cond => do
    let it ← evalN N env dc thing iterable
    let t ← M.lift (fromValue it)
    if t.isIterable then do
      let xs ← M.lift it.members
      let vs ← compN var (evalN N env dc thing cond) (evalN N env dc thing result) xs
      pure (.tuple vs)
    else M.throw .mismatch
  | .contains container member => do
    let c ← evalN N env dc thing container
    let ct ← M.lift (fromValue c)
    let m ← evalN N env dc thing member
    let b ← M.lift (opContains env.utcoffset ct c m)
    pure (.bool b)
  | .getAttr obj name safe => do
    let o ← evalN N env dc thing obj
    if o = .none ∧ safe = true then pure .none
    else evalGetAttrN N env o name
  | .getItem container item safe => do
    let c ← evalN N env dc thing container
    if c = .none then (if safe then pure .none else M.throw .mismatch)
    else do
      let i ← evalN N env dc thing item
      match ← M.lift (opGetItem env.utcoffset c i) with
      | some v => pure (newValue env v)
      | none => if safe then pure .none else M.throw (.eng .lookup)
  | .getSlice container start stop safe => do
    let c ← evalN N env dc thing container
    if c = .none then (if safe then pure .none else M.throw .mismatch)
    else evalSlice env c (evalN N env dc thing start) (evalN N env dc thing stop)
  | .sym name rt builtin => evalSymbolN N env thing name rt builtin
  | .call f args => do
    let fv ← evalN N env dc thing f
    if fv.isCallable then do
      let vs ← seqM (evalsN N env dc thing args)
      evalCallN N env dc f.rt (callNodeType f.rt) fv vs
    else M.throw .mismatch
  | .tern c t f => do
    let v ← evalN N env dc thing c
    if v.truthy then evalN N env dc thing t else evalN N env dc thing f
  | .not e => do
    let v ← evalN N env dc thing e
    pure (.bool (!v.truthy))
  | .neg e => do
    let v ← evalN N env dc thing e
    M.lift (opNeg dc v)
/-- the evaluators of a list of nodes (ast.py 211-212) -/
def evalsN (N : Nested) (env : Env) (dc : DecCtx) (thing : Value) : List Expr → List (M Value)
  | [] => []
  | e :: es => evalN N env dc thing e :: evalsN N env dc thing es
/-- the evaluators of the items of a mapping literal (ast.py 301-312) -/
def evalPairsN (N : Nested) (env : Env) (dc : DecCtx) (thing : Value) :
    List (Expr × Expr) → List (M Value × M Value)
  | [] => []
  | (k, v) :: rest => (evalN N env dc thing k, evalN N env dc thing v) :: evalPairsN N env dc thing rest
end

/-- `Rule.evaluate` (engine.py 635-646) -/
def ruleEvalN (N : Nested) (env : Env) (e : Expr) (thing : Value) : M Value := fun s =>
  evalN N env env.decCtx thing e s.reset

/-- `rule.evaluate(thing)` in a process (engine.py 635-646) -/
def Proc.evaluateN (N : Nested) (env : Env) (e : Expr) (thing : Value) (p : Proc) : Except Err Value × Proc :=
  let r := ruleEvalN N env e thing p.st
  (r.1, ⟨p.line, r.2⟩)

end RE

import Verif.Model.Rule

/-!
# Evaluation when sets are listed in any order

CPython lists the members of a set in an order that depends on hash seeds and history.  The evaluator of `Model/Eval` lists them
in the order of insertion.  Here `order` decides, after every node, in what order the sets in its value are listed from then on
(any function of the state, which records the history, and the value).
-/

namespace RE

/-- list the sets in the value in the order that `order` gives (ast.py 211-212, 334-337: `set(...)`) -/
def relist (order : St → Value → Value) (v : Value) : M Value := fun s => (.ok (order s v), s)

mutual
/-- `node.evaluate(thing)` (ast.py 106-113) for every node class, as `eval` of `Model/Eval` but with the sets in the value of
every node listed in the order that `order` gives -/
def evalAnyOrder (env : Env) (dc : DecCtx) (order : St → Value → Value) (thing : Value) : Expr → M Value
  | .lit v _ => relist order v
  | .array xs => do
    let vs ← seqM (evalsAnyOrder env dc order thing xs)
    relist order (.tuple vs)
  | .set xs => do
    let vs ← setM env.utcoffset [] (evalsAnyOrder env dc order thing xs)
    relist order (.set vs)
  | .mapping kvs => do
    let v ← (do
      let ks ← mapKeysM env.utcoffset [] (evalPairsAnyOrder env dc order thing kvs)
      let items ← mapValsM ks
      pure (.map .ordered items) : M Value)
    relist order v
  | .bin op l r => do
    let v ← evalBin env dc op (evalAnyOrder env dc order thing l) (evalAnyOrder env dc order thing r)
    relist order v
  | .comp result var iterable cond => do
    let it ← evalAnyOrder env dc order thing iterable
    let t ← M.lift (fromValue it)
    if t.isIterable then do
      let xs ← M.lift it.members
      let vs ← compM var (evalAnyOrder env dc order thing cond) (evalAnyOrder env dc order thing result) xs
      relist order (.tuple vs)
    else M.throw .mismatch
  | .contains container member => do
    let c ← evalAnyOrder env dc order thing container
    let ct ← M.lift (fromValue c)
    let m ← evalAnyOrder env dc order thing member
    let b ← M.lift (opContains env.utcoffset ct c m)
    relist order (.bool b)
  | .getAttr obj name safe => do
    let o ← evalAnyOrder env dc order thing obj
    if o = .none ∧ safe = true then relist order .none
    else do
      let v ← evalGetAttr env o name
      relist order v
  | .getItem container item safe => do
    let c ← evalAnyOrder env dc order thing container
    if c = .none then (if safe then relist order .none else M.throw .mismatch)
    else do
      let i ← evalAnyOrder env dc order thing item
      match ← M.lift (opGetItem env.utcoffset c i) with
      | some v => relist order (newValue env v)
      | none => if safe then relist order .none else M.throw (.eng .lookup)
  | .getSlice container start stop safe => do
    let c ← evalAnyOrder env dc order thing container
    if c = .none then (if safe then relist order .none else M.throw .mismatch)
    else do
      let v ← evalSlice env c (evalAnyOrder env dc order thing start) (evalAnyOrder env dc order thing stop)
      relist order v
  | .sym name rt builtin => do
    let v ← evalSymbol env thing name rt builtin
    relist order v
  | .call f args => do
    let fv ← evalAnyOrder env dc order thing f
    if fv.isCallable then do
      let vs ← seqM (evalsAnyOrder env dc order thing args)
      let v ← evalCall env dc f.rt (callNodeType f.rt) fv vs
      relist order v
    else M.throw .mismatch
  | .tern c t f => do
    let v ← evalAnyOrder env dc order thing c
    if v.truthy then evalAnyOrder env dc order thing t else evalAnyOrder env dc order thing f
  | .not e => do
    let v ← evalAnyOrder env dc order thing e
    relist order (.bool (!v.truthy))
  | .neg e => do
    let v ← evalAnyOrder env dc order thing e
    let w ← M.lift (opNeg dc v)
    relist order w
/-- the evaluators of a list of nodes (ast.py 211-212) -/
def evalsAnyOrder (env : Env) (dc : DecCtx) (order : St → Value → Value) (thing : Value) : List Expr → List (M Value)
  | [] => []
  | e :: es => evalAnyOrder env dc order thing e :: evalsAnyOrder env dc order thing es
/-- the evaluators of the items of a mapping literal (ast.py 301-312) -/
def evalPairsAnyOrder (env : Env) (dc : DecCtx) (order : St → Value → Value) (thing : Value) :
    List (Expr × Expr) → List (M Value × M Value)
  | [] => []
  | (k, v) :: rest =>
    (evalAnyOrder env dc order thing k, evalAnyOrder env dc order thing v) :: evalPairsAnyOrder env dc order thing rest
end

/-- `Rule.evaluate` (engine.py 635-646) when sets are listed in the order that `order` gives -/
def ruleEvalAnyOrder (env : Env) (order : St → Value → Value) (e : Expr) (thing : Value) : M Value := fun s =>
  evalAnyOrder env env.decCtx order thing e s.reset

end RE

import Verif.Model.Rule

/-!
# Threads sharing a Context, and the parser lock

`Rule.evaluate` and the building of nodes run in the calling thread; what several threads share is
the `Context` object and the one parser object of the class `Rule`.
-/

namespace RE

/-! ## Programs over the storage of a Context -/

/-- What a thread does, as a tree of atomic actions on a shared `Context`: each action is one access
to an attribute of `Context._tls` or `Context.symbols`, or an external call; everything else is
computation on values of the thread (engine.py 404-417, 497-516). -/
inductive Prog (α : Type) : Type where
  /-- finished: a value or an exception -/
  | done (r : Except Err α)
  /-- iterate over `_tls.assignment_scopes` (engine.py 537-539, 573-575) -/
  | readScopes (k : List Assignment → Prog α)
  /-- `_tls.assignment_scopes.append(…)` (engine.py 506) -/
  | push (a : Assignment) (k : Prog α)
  /-- `_tls.assignment_scopes.pop()` (engine.py 510) -/
  | pop (k : Prog α)
  /-- read `_tls.regex_groups` (engine.py 53-55, 485) -/
  | readGroups (k : Value → Prog α)
  /-- `_tls.regex_groups = coerce_value(match.groups())` (ast.py 666) -/
  | setGroups (g : Value) (k : Prog α)
  /-- `_tls.reset()` (engine.py 415-417, 644) -/
  | reset (k : Prog α)
  /-- `context.symbols.add(name)` (ast.py 1015) -/
  | addSymbol (name : String) (k : Prog α)
  /-- a call of the resolver or of a function (engine.py 540, ast.py 1097) -/
  | extern (e : Event) (k : Prog α)

namespace Prog

/-- sequencing: an exception skips the rest (engine.py 404-417, 497-516) -/
def bind {α β : Type} : Prog α → (α → Prog β) → Prog β
  | .done (.ok a), f => f a
  | .done (.error e), _ => .done (.error e)
  | .readScopes k, f => .readScopes fun x => (k x).bind f
  | .push a k, f => .push a (k.bind f)
  | .pop k, f => .pop (k.bind f)
  | .readGroups k, f => .readGroups fun x => (k x).bind f
  | .setGroups g k, f => .setGroups g (k.bind f)
  | .reset k, f => .reset (k.bind f)
  | .addSymbol n k, f => .addSymbol n (k.bind f)
  | .extern e k, f => .extern e (k.bind f)

/-- `try … finally`/`except`: continue with the outcome, value or exception (engine.py 507-510) -/
def attempt {α β : Type} : Prog α → (Except Err α → Prog β) → Prog β
  | .done r, f => f r
  | .readScopes k, f => .readScopes fun x => (k x).attempt f
  | .push a k, f => .push a (k.attempt f)
  | .pop k, f => .pop (k.attempt f)
  | .readGroups k, f => .readGroups fun x => (k x).attempt f
  | .setGroups g k, f => .setGroups g (k.attempt f)
  | .reset k, f => .reset (k.attempt f)
  | .addSymbol n k, f => .addSymbol n (k.attempt f)
  | .extern e k, f => .extern e (k.attempt f)

/-- the program executed without interruption, on the storage of its own thread
(engine.py 635-646) -/
def run {α : Type} : Prog α → M α
  | .done r, s => (r, s)
  | .readScopes k, s => (k s.scopes).run s
  | .push a k, s => k.run { s with scopes := s.scopes ++ [a] }
  | .pop k, s => k.run { s with scopes := s.scopes.dropLast }
  | .readGroups k, s => (k s.groups).run s
  | .setGroups g k, s => k.run { s with groups := g, log := s.log ++ [.matched g] }
  | .reset k, s => k.run s.reset
  | .addSymbol n k, s => k.run { s with symbols := n :: s.symbols }
  | .extern e k, s => k.run { s with log := s.log ++ [e] }

/-- one program after the other in the same thread, keeping the outcome of each, whether a value or an
exception (engine.py 635-646) -/
def session {α : Type} : List (Prog α) → Prog (List (Except Err α))
  | [] => .done (.ok [])
  | p :: ps => p.attempt fun r => (session ps).bind fun rs => .done (.ok (r :: rs))

end Prog

/-! ## Interleaved execution -/

/-- The storage of one thread: `_ThreadLocalStorage` (engine.py 404-417), with the ghost log. -/
structure Cell where
  scopes : List Assignment
  groups : Value
  log : List Event
  deriving DecidableEq, Repr, Inhabited

/-- `_ThreadLocalStorage()` (engine.py 411-413) -/
def Cell.new : Cell := ⟨[], .none, []⟩

/-- The state of a `Context` that threads can change: `_thread_local` (engine.py 479), by thread, and
`symbols` (engine.py 463). -/
structure Shared where
  storage : Nat → Option Cell
  symbols : List String

/-- a new Context (engine.py 463, 479) -/
def Shared.new : Shared := ⟨fun _ => none, []⟩

/-- the property `Context._tls` (engine.py 512-516) in thread `t`: the thread's storage, a new one if
there is none yet -/
def Shared.tls (w : Shared) (t : Nat) : Cell := (w.storage t).getD Cell.new

/-- assign to an attribute of `Context._tls` in thread `t` (engine.py 512-516) -/
def Shared.setTls (w : Shared) (t : Nat) (c : Cell) : Shared :=
  { w with storage := fun u => if u = t then some c else w.storage u }

/-- One atomic action of thread `t` (engine.py 404-417, 463, 497-516). -/
def Prog.step {α : Type} (t : Nat) (w : Shared) : Prog α → Shared × Prog α
  | .done r => (w, .done r)
  | .readScopes k => (w, k (w.tls t).scopes)
  | .push a k => (w.setTls t { w.tls t with scopes := (w.tls t).scopes ++ [a] }, k)
  | .pop k => (w.setTls t { w.tls t with scopes := (w.tls t).scopes.dropLast }, k)
  | .readGroups k => (w, k (w.tls t).groups)
  | .setGroups g k =>
    (w.setTls t { w.tls t with groups := g, log := (w.tls t).log ++ [.matched g] }, k)
  | .reset k => (w.setTls t { w.tls t with scopes := [], groups := .none }, k)
  | .addSymbol n k => ({ w with symbols := n :: w.symbols }, k)
  | .extern e k => (w.setTls t { w.tls t with log := (w.tls t).log ++ [e] }, k)

/-- what every thread still has to do (engine.py 479) -/
abbrev Pool (α : Type) : Type := Nat → Prog α

/-- thread `t` makes one step (engine.py 479) -/
def Pool.step {α : Type} (c : Shared × Pool α) (t : Nat) : Shared × Pool α :=
  ((c.2 t).step t c.1 |>.1, fun u => if u = t then ((c.2 t).step t c.1).2 else c.2 u)

/-- execution under a schedule: the threads that make the steps, one after the other
(engine.py 479) -/
def Pool.exec {α : Type} (c : Shared × Pool α) (schedule : List Nat) : Shared × Pool α :=
  schedule.foldl Pool.step c

/-! ## The parser lock -/

/-- Where a thread is in `ParserBase.parse` (parser/base.py 63-82).  `rest` are the grammar actions
still to be executed (`none` for one that raises, e.g. at a syntax error): which ones is determined by
the text alone; `made` are the nodes made so far, each with the context it refers to. -/
inductive ParsePhase where
  /-- before `with self.__mutex` -/
  | waiting (ctx : Nat) (rest : List (Option Nat))
  /-- the lock has been taken -/
  | entered (ctx : Nat) (rest : List (Option Nat))
  /-- `self.context = context` has been executed; the parser is running -/
  | parsing (ctx : Nat) (rest : List (Option Nat)) (made : List (Nat × Option Nat))
  /-- `self.context = None` has been executed, or an exception left the block: about to release -/
  | leaving (ctx : Nat) (made : List (Nat × Option Nat)) (failed : Bool)
  /-- outside of the block: the nodes are going to be built, or the exception is propagating -/
  | left (ctx : Nat) (made : List (Nat × Option Nat)) (failed : Bool)
  deriving DecidableEq, Repr

/-- The shared parser object: `__mutex` and `context` (parser/base.py 51, 58).  Contexts are numbered;
`none` is `None`. -/
structure ParserObj where
  holder : Option Nat
  context : Option Nat
  deriving DecidableEq, Repr

/-- One atomic action of thread `t` in `ParserBase.parse` (parser/base.py 75-82); a grammar action makes
a `_DeferredAstNode` with `self.context` as its first argument (parser/__init__.py 255-564).  A thread
that waits for a lock held by another thread stays where it is.  When a grammar action raises, the
`with` statement releases the lock, and `self.context` keeps its value. -/
def ParsePhase.step (t : Nat) (p : ParserObj) : ParsePhase → ParserObj × ParsePhase
  | .waiting ctx rest =>
    match p.holder with
    | none => ({ p with holder := some t }, .entered ctx rest)
    | some _ => (p, .waiting ctx rest)
  | .entered ctx rest => ({ p with context := some ctx }, .parsing ctx rest [])
  | .parsing ctx (some n :: rest) made => (p, .parsing ctx rest (made ++ [(n, p.context)]))
  | .parsing ctx (none :: _) made => (p, .leaving ctx made true)
  | .parsing ctx [] made => ({ p with context := none }, .leaving ctx made false)
  | .leaving ctx made failed => ({ p with holder := none }, .left ctx made failed)
  | .left ctx made failed => (p, .left ctx made failed)

/-- all threads (parser/base.py 63-82) -/
abbrev ParsePool : Type := Nat → ParsePhase

/-- thread `t` makes one step (parser/base.py 63-82) -/
def ParsePool.step (c : ParserObj × ParsePool) (t : Nat) : ParserObj × ParsePool :=
  ((c.2 t).step t c.1 |>.1, fun u => if u = t then ((c.2 t).step t c.1).2 else c.2 u)

/-- execution under a schedule (parser/base.py 63-82) -/
def ParsePool.exec (c : ParserObj × ParsePool) (schedule : List Nat) : ParserObj × ParsePool :=
  schedule.foldl ParsePool.step c

end RE

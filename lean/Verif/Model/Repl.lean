import Verif.Model.Parser
import Verif.Model.Text

/-!
# The debug REPL (debug_repl.py 82-140)
-/

namespace RE

/-- the text after a word it starts with: a literal part of the regular expression (debug_repl.py 108) -/
def afterLit (w s : List Char) : Option (List Char) := if w.isPrefixOf s then some (s.drop w.length) else none

/-- `\s*` (debug_repl.py 108): `re` takes the characters `str.isspace` takes -/
def skipSpace (s : List Char) : List Char := s.dropWhile isPySpace

/-- `re.match(r'\s*#!\s*debug\s*=\s*(\w+)', rule_text)` and `match.group(1).lower() != 'false'`
(debug_repl.py 108-110).  `word` is the class `\w`, which is a parameter.  Simplified: `lower` changes ASCII
letters only (no other character becomes one of the letters of "false"). -/
def debugCommand (word : Char → Bool) (s : List Char) : Option Bool :=
  match afterLit "#!".toList (skipSpace s) with
  | none => none
  | some s1 =>
    match afterLit "debug".toList (skipSpace s1) with
    | none => none
    | some s2 =>
      match afterLit "=".toList (skipSpace s2) with
      | none => none
      | some s3 =>
        let w := (skipSpace s3).takeWhile word
        if w.isEmpty then none else some (decide (w.map Char.toLower ≠ "false".toList))

/-- What the REPL prints for a line.  Simplified: an exception is printed as its class and, for a syntax
error, the place in its message (the rest of the message, the suggestion and the details of a regular
expression or function are functions of the exception; the model has no message texts); `trace` says that a
traceback is printed. -/
inductive Reply where
  /-- `# debugging = ...` (debug_repl.py 111) -/
  | debugging (on : Bool)
  /-- `result:` and the value (debug_repl.py 139-140) -/
  | result (v : Value)
  /-- an EngineError (debug_repl.py 117-135) -/
  | engineError (e : EngErr) (place : Option PErr) (trace : Bool)
  /-- any other exception (debug_repl.py 136-137) -/
  | otherError (e : PyErr)

/-- What the loop keeps: the flag `debugging`, and the process with its parser and its thread. -/
structure Repl where
  debugging : Bool
  proc : Proc

/-- The `try` statement for a line that is no command (debug_repl.py 114-140). -/
def replTry (codec : LitCodec) (env : Env) (dct : DecCtx) (thing : Value) (debugging : Bool) (line : String)
    (p : Proc) : Reply × Proc :=
  let place := match (parseText codec p.line line).out with
    | .ok _ => none
    | .error e => some e
  match p.rule codec env dct line with
  | (.error (.eng e), p1) => (.engineError e place debugging, p1)
  | (.error (.py k), p1) => (.otherError k, p1)
  | (.ok rule, p1) =>
    match p1.evaluate env rule thing with
    | (.error (.eng e), p2) => (.engineError e none debugging, p2)
    | (.error (.py k), p2) => (.otherError k, p2)
    | (.ok v, p2) => (.result v, p2)

/-- One round of the loop (debug_repl.py 102-140). -/
def replLine (codec : LitCodec) (env : Env) (dct : DecCtx) (word : Char → Bool) (thing : Value) (line : String)
    (s : Repl) : Reply × Repl :=
  match debugCommand word line.toList with
  | some on => (.debugging on, ⟨on, s.proc⟩)
  | none =>
    let r := replTry codec env dct thing s.debugging line s.proc
    (r.1, ⟨s.debugging, r.2⟩)

/-- The loop over the lines of the input (debug_repl.py 102-140): the replies, and what is left at the end of
the input.  Every path through a round goes on to the next.  Not modelled: the edit console, which makes
`context` and `thing` (here `env` and `thing`); exceptions while printing; the signals that end the loop. -/
def repl (codec : LitCodec) (env : Env) (dct : DecCtx) (word : Char → Bool) (thing : Value) :
    List String → Repl → List Reply × Repl
  | [], s => ([], s)
  | line :: lines, s =>
    let r := replLine codec env dct word thing line s
    let rs := repl codec env dct word thing lines r.2
    (r.1 :: rs.1, rs.2)

end RE

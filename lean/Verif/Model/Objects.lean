import Verif.Model.World

/-!
# Objects as things (`resolve_attribute`, engine.py 57-73)

`resolve_attribute` is the resolver for objects: it reads an attribute with `hasattr` and then again with `getattr`.  Reading an
attribute runs code of the object (a property), so that the two readings may differ; the oracle `Objects` answers for every
reading after those before it.
-/

namespace RE

/-- What reading an attribute of a Python object does: a value, AttributeError, or another exception. -/
inductive Access where
  | value (v : Value)
  | missing
  | raises (e : Err)

/-- The attributes of all values, for a reading after earlier readings (of an object, by name). -/
structure Objects where
  access : List (Value × String) → Value → String → Access

/-- Objects whose attributes do not change. -/
def Objects.still (A : Value → String → Access) : Objects := ⟨fun _ => A⟩

/-- `hasattr(thing, name)` (engine.py 71): false for AttributeError; other exceptions are passed on -/
def Access.has : Access → Except Err Bool
  | .value _ => .ok true
  | .missing => .ok false
  | .raises e => .error e

/-- `getattr(thing, name)` (engine.py 73) -/
def Access.get : Access → Except Err Value
  | .value v => .ok v
  | .missing => .error (.py .attributeError)
  | .raises e => .error e

/-- `resolve_attribute(thing, name)` (engine.py 57-73), with the readings made.  Simplified: `dir(thing)` of the suggestion
(engine.py 72) raises nothing. -/
def Objects.resolve (A : Objects) (h : List (Value × String)) (thing : Value) (name : String) :
    Except Err Value × List (Value × String) :=
  let h1 := h ++ [(thing, name)]
  match (A.access h thing name).has with
  | .error e => (.error e, h1)
  | .ok false => (.error (.eng (.symbolResolution name)), h1)
  | .ok true => ((A.access h1 thing name).get, h1 ++ [(thing, name)])

/-- `resolve_attribute(thing, name)` of objects that do not change (engine.py 57-73) -/
def resolveAttribute (A : Value → String → Access) (thing : Value) (name : String) : Except Err Value :=
  ((Objects.still A).resolve [] thing name).1

/-- the readings after those in `acc`, in a history in which all questions are answered by `resolve_attribute` -/
def Objects.readFrom (A : Objects) (acc : List (Value × String)) : List Event → List (Value × String)
  | [] => acc
  | .resolve o n :: h => A.readFrom (A.resolve acc o n).2 h
  | _ :: h => A.readFrom acc h

/-- the readings of a history -/
def Objects.reads (A : Objects) (h : List Event) : List (Value × String) := A.readFrom [] h

/-- The world of a context whose resolver is `resolve_attribute` (engine.py 57-73, 518-541); nothing else changes. -/
def World.objects (env : Env) (A : Objects) : World :=
  { World.still env with resolve := fun h o n => (A.resolve (A.reads h) o n).1 }

end RE

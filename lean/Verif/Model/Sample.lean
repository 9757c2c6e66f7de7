import Verif.Model.Rule

/-!
# A concrete environment for examples

Used only to show that hypotheses of theorems are met by concrete programs, and for witnesses of
negative results.  The oracles are simple computable stand-ins: timezone 0 is UTC, timezone `n` is
`n` hours east of UTC, a pattern is "valid" unless it is `"("`, and matches a text that starts with
it (search: contains it), with the pattern as the only group.
-/

namespace RE

/-- sample oracles with the default resolver `resolve_item` (engine.py 424-495) -/
def sampleEnv : Env where
  resolver := resolveItem (fun z _ => ⟨(z : Int) * 3600000000, false⟩)
  typeResolver := noTypes
  defaultValue := none
  defaultTz := 0
  decCtx := .default
  reValid := fun p => p != "(" && p != "x{4294967296}"
  reLimit := fun p => p == "x{4294967296}"
  reRun := fun search p s =>
    if (if search then isPart p.toList s.toList else p.toList.isPrefixOf s.toList)
    then some [some p] else none
  callUser := fun n args =>
    match n, args with
    | 0, [a] => .ok a
    | 1, _ => .ok (.obj 0)
    | 2, _ => .error (.py .valueError)
    | _, _ => .ok (.int n)
  utcoffset := fun z _ => ⟨(z : Int) * 3600000000, false⟩
  tzname := fun _ _ => none
  weekdayName := fun n => if n = 0 then "Monday" else "other"
  decPow := fun c a b =>
    match b with
    | .fin false k 0 => decMul c a (.fin false k 0)
    | _ => .error .invalid
  lower := id
  upper := id
  textDecode := fun _ _ => none
  textEncode := fun _ _ => none
  isoparse := fun s => if s == "2020-01-01" then some (63713433600000000, none) else none
  isoLimit := fun s => s == "9999-12-31T24:00"
  now := fun _ => 63713433600000000
  random := fun _ => .dec (.fin false 5 (-1))
  maxStrDigits := some 4300
  rawArith := fun _ _ _ => .error (.py .other)

/-- construct a rule from a tree and evaluate it on a thing, in fresh thread storage
(engine.py 588-599, 635-646) -/
def runRaw (env : Env) (raw : Raw) (thing : Value) : Except Err Value :=
  match construct env env.decCtx raw St.init with
  | (.ok e, s) => (ruleEval env e thing s).1
  | (.error e, _) => .error e

/-- a dictionary with string keys (engine.py 75-89) -/
def dictOf (kvs : List (String × Value)) : Value := .map .dict (kvs.map fun p => (.str p.1, p.2))

end RE

import Lean
open Lean Elab

/-- elaborate one file, write its olean even if there are errors, print the errors' lines -/
unsafe def main (args : List String) : IO UInt32 := do
  match args with
  | [modName, src, olean] =>
    initSearchPath (← findSysroot) ((← IO.getEnv "LEAN_PATH").map (System.SearchPath.parse) |>.getD [])
    enableInitializersExecution
    let input ← IO.FS.readFile src
    let ictx := Parser.mkInputContext input src
    let (header, ps, msgs) ← Parser.parseHeader ictx
    let (env, msgs) ← processHeader header {} msgs ictx 0 (mainModule := modName.toName)
    let env := env.setMainModule modName.toName
    let opts : Options := {}
    let st := Command.mkState env msgs opts
    let s ← IO.processCommands ictx ps st
    for m in s.commandState.messages.toList do
      if m.severity == .error then
        IO.println s!"ERR {m.pos.line} {((← m.data.toString).take 100).replace "\n" " "}"
    writeModule s.commandState.env olean
    return 0
  | _ => return 1

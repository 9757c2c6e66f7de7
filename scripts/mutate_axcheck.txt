import Lean
open Lean
unsafe def main (args : List String) : IO UInt32 := do
  match args with
  | root :: names =>
    initSearchPath (← findSysroot) ((← IO.getEnv "LEAN_PATH").map (System.SearchPath.parse) |>.getD [])
    let env ← importModules #[{module := root.toName}] {} 0
    for n in names do
      match env.find? n.toName with
      | none => IO.println s!"MISSING {n}"
      | some _ =>
        let (axs, _) ← (collectAxioms n.toName : CoreM (Array Name)).toIO { fileName := "", fileMap := default } { env }
        if axs.contains ``sorryAx then IO.println s!"BROKEN {n}"
        else IO.println s!"FINE {n}"
    return 0
  | _ => return 1

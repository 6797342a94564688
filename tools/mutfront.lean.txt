import Lean
/-! Used by tools/mutate.py (copied to the scratch directory as `mutfront.lean`): elaborates one module, prints the
declarations with errors, and writes the .olean in any case, with failed proofs as holes.
`dump`: prints, for the imported library, which constants (and `sorryAx`) each constant uses. -/
open Lean Elab

unsafe def main (args : List String) : IO UInt32 := do
  initSearchPath (← findSysroot)
  enableInitializersExecution
  match args with
  | ["build", file, modName, olean] =>
    let input ← IO.FS.readFile file
    let ctx := Parser.mkInputContext input file
    let (header, pst, msgs) ← Parser.parseHeader ctx
    let opts : Options := {}
    let (env, msgs) ← processHeader header opts msgs ctx (trustLevel := 0) (mainModule := modName.toName)
    let s ← IO.processCommands ctx pst (Command.mkState env msgs opts)
    for m in s.commandState.messages.toList do
      if m.severity == .error then
        let t ← m.data.toString
        IO.println s!"ERR {m.pos.line} {(t.replace "\n" " ").take 160}"
    writeModule s.commandState.env olean
    return 0
  | "dump" :: root :: only =>
    let env ← importModules #[{ module := root.toName }] {} (trustLevel := 0) (loadExts := false)
    let inLib (u : Name) : Bool := u == ``sorryAx || match env.getModuleIdxFor? u with
      | some j => (`Verif).isPrefixOf env.header.moduleNames[j.toNat]!
      | none => false
    for m in env.header.moduleNames, d in env.header.moduleData do
      if (`Verif).isPrefixOf m && (only.isEmpty || only.contains m.toString) then
        for n in d.constNames do
          if let some ci := env.find? n then
            let us := ci.getUsedConstantsAsSet.toList.filter inLib
            let h := mixHash ci.type.hash ((ci.value? (allowOpaque := true)).map (·.hash) |>.getD 7)
            IO.println s!"{m}\t{n}\t{h}\t{" ".intercalate (us.map toString)}"
    return 0
  | _ => return 2

import Verif
import Lean
open Lean Elab Command
run_cmd do
  let env ← getEnv
  let h ← IO.FS.Handle.mk "/tmp/mut_base/deps.txt" .write
  for (c, ci) in env.constants.map₁.toList do
    if (`Convst).isPrefixOf c then
      let used := ci.getUsedConstantsAsSet.toList.filter fun d => (`Convst).isPrefixOf d
      h.putStrLn s!"{c} {" ".intercalate (used.map toString)}"

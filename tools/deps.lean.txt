import Verif
import Lean.Data.Json
open Lean
/-- For every theorem of MANIFEST.json the theorems of `Verif` it depends on (used by tools/mutation_log.py). -/
partial def collect (env : Environment) (n : Name) (seen : NameSet) : NameSet := Id.run do
  if seen.contains n then return seen
  let mut seen := seen.insert n
  if let some ci := env.find? n then
    let mut used := ci.type.getUsedConstants
    if let some v := ci.value? (allowOpaque := true) then used := used ++ v.getUsedConstants
    for c in used do
      if let some i := env.getModuleIdxFor? c then
        if (env.header.moduleNames[i]!).getRoot == `Verif then seen := collect env c seen
  return seen
run_cmd do
  let env ← Lean.getEnv
  let txt ← IO.FS.readFile "../MANIFEST.json"
  let j ← IO.ofExcept (Json.parse txt)
  let claims ← IO.ofExcept (j.getObjValAs? (Array Json) "claims")
  let mut out : Array Json := #[]
  for c in claims do
    let p ← IO.ofExcept (c.getObjValAs? String "property")
    let ths ← IO.ofExcept (c.getObjValAs? (Array String) "theorems")
    for t in ths do
      let s := collect env t.toName {}
      out := out.push (Json.mkObj [("property", p), ("theorem", t), ("deps", toJson (s.toArray.map fun n =>
        (match env.getModuleIdxFor? n with | some i => (env.header.moduleNames[i]!).toString | none => "") ++ "|" ++ n.toString))])
  IO.FS.writeFile "/tmp/deps.json" (Json.arr out).compress

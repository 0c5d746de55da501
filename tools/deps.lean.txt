import Verif
open Lean
def isOurs (n : Name) : Bool := n.getRoot == `Kajiki || (n.toString.startsWith "_private.Verif")
partial def go (env : Environment) (todo : List Name) (seen : NameSet) : NameSet :=
  match todo with
  | [] => seen
  | n :: r =>
    if seen.contains n then go env r seen else
    match env.find? n with
    | none => go env r seen
    | some c =>
      let us := (c.type.getUsedConstants ++ (c.value? (allowOpaque := true) |>.map (·.getUsedConstants) |>.getD #[])).toList.filter isOurs
      go env (us ++ r) (seen.insert n)
run_cmd do
  let env ← getEnv
  let ts := env.constants.fold (init := #[]) fun a n c => match c with
    | .thmInfo _ => if n.getPrefix == `Kajiki.Props then a.push n else a
    | _ => a
  let h ← IO.FS.Handle.mk "/tmp/w/deps.txt" .write
  for t in ts do
    let s := (go env [t] {}).toList.map fun n => (privateToUserName n).toString
    h.putStrLn (t.toString ++ " " ++ " ".intercalate s)

import Lean.Elab.Command
import Verif.Props.LineTables
import Verif.Props.Escaping
import Verif.Props.SmallAlgorithms
import Verif.Props.Doctype
import Verif.Props.Entities
import Verif.Props.Errors
import Verif.Props.Loader
import Verif.Props.Options
import Verif.Props.Scope
import Verif.Props.Settings
import Verif.Props.Sharing
import Verif.Props.SearchPath
import Verif.Props.Streams
import Verif.Props.StreamsRun
import Verif.Props.Codegen
import Verif.Props.Directives
import Verif.Props.Inheritance
import Verif.Props.Dom
import Verif.Props.XmlText
import Verif.Props.Translation
import Verif.Props.XmlCompile
import Verif.Props.Strip
import Verif.Props.Document
import Verif.Props.Accept
import Verif.Props.Static
import Verif.Props.Fill
import Verif.Props.Layout
import Verif.Props.Funs
import Verif.Props.Reader
import Verif.Props.HtmlReader
import Verif.Props.TreeSem
import Verif.Props.DoctypeOut
import Verif.Props.Pure
import Verif.Props.TextRender
import Verif.Props.PureText
import Verif.Props.Include
import Verif.Props.IncludeText
import Verif.Props.PasteText
import Verif.Props.IncludedText
import Verif.Props.Lines
import Verif.Props.LinesText
import Verif.Props.LinesExpr
import Verif.Props.LinesGen
import Verif.Props.LinesGenText
import Verif.Props.Ends
import Verif.Props.Woven
import Verif.Props.Swap
import Verif.Props.SwapDoc
import Verif.Props.Paste
import Verif.Props.Hide
import Verif.Props.Extract
import Verif.Props.Integration
import Verif.Props.Translated
import Verif.Props.SwapText
import Verif.Props.HideText
import Verif.Props.Unused
import Verif.Props.Raises
import Verif.Props.Blank
import Verif.Props.Forms
import Verif.Props.Text
import Verif.Props.TextTree
import Verif.Props.WellFormed

/-!
# What the property theorems rest on

Building this file fails if a theorem of `Kajiki.Props` depends on anything else than `propext`,
`Classical.choice` and `Quot.sound`.
-/

open Lean in
run_cmd do
  let env ← getEnv
  let names := env.constants.fold (init := #[]) fun acc n c =>
    match c with
    | .thmInfo _ => if n.getPrefix == `Kajiki.Props then acc.push n else acc
    | _ => acc
  if names.size < 150 then throwError "only {names.size} theorems found"
  for n in names do
    for a in ← collectAxioms n do
      unless [``propext, ``Classical.choice, ``Quot.sound].contains a do
        throwError "{n} depends on {a}"

import Verif.Model.XmlCompile

/-!
# Extraction of messages (`kajiki/i18n.py` 15-46)

Babel's `extract_python`, which reads expressions if the option of that name is set, is a parameter: what it finds in an
expression, and whether it then raises `TokenError` or `SyntaxError`.
-/

namespace Kajiki

/-- `isinstance(node, TranslatableTextNode)` with text that is not blank (`kajiki/i18n.py` 37-39): these are
the nodes that become a call of gettext (`kajiki/ir.py` 304-314); line and text. -/
def extractTok : FTok → Option (Nat × Str)
  | .other [(0, .yieldGettext t)] ln => some (ln, t)
  | _ => none

/-- `for node in ir` (`kajiki/i18n.py` 36-39). -/
def extractTmpl (t : Tmpl) : List (Nat × Str) := (flatTmpl t).filterMap extractTok

/-- The options `extract` gives to the compiler (`kajiki/i18n.py` 32-34): mode (`xml` unless given) and
`is_fragment`; the others keep their defaults (`kajiki/xml_template.py` 74-76). -/
def extractOpts (mode : Str) (isFragment : Bool) : Opts := ⟨mode, isFragment, [], true⟩

/-- `extract` (`kajiki/i18n.py` 15-39) on the events expat reports for the source. -/
def extractMessages (py : PyCompile) (gen : Nat → Str) (mode : Str) (isFragment stripText : Bool)
    (dtd : Str) (es : List Event) : Except Err (List (Nat × Str)) :=
  match xmlTemplate py gen (extractOpts mode isFragment) stripText dtd es with
  | .error e => .error e
  | .ok t => .ok (extractTmpl t)

/-! ## With expressions -/

/-- What `extract` looks at: a text to translate or an expression. -/
inductive Read
  | message (t : Str)
  | expression (e : Str)
deriving DecidableEq, Repr

mutual
/-- The nodes among those a node iterates over (`__iter__` in `kajiki/ir.py`) that `extract` looks at
(`kajiki/i18n.py` 36-40), with their lines.  The tails of `CallNode`s and others are not `ExprNode`s, and merging
(`kajiki/ir.py` 432-444) leaves these nodes as they are. -/
def reads : Ir → List (Nat × Read)
  | .text .. => []
  | .trans t ln => if (strip t).isEmpty then [] else [(ln, .message t)]
  | .expr c _ ln => [(ln, .expression c)]
  | .attr _ _ _ value _ => readsList value
  | .attrs .. => []
  | .python .. => []
  | .imp .. => []
  | .incl .. => []
  | .ext .. => []
  | .innerDef _ body _ => readsList body
  | .call _ _ body _ => readsList body
  | .forN _ body _ => readsList body
  | .withN _ body _ => readsList body
  | .switchN _ body _ => readsList body
  | .caseN _ body _ => readsList body
  | .ifN _ body _ => readsList body
  | .elseN body _ => readsList body
  | .pass _ => []

/-- Several nodes. -/
def readsList : List Ir → List (Nat × Read)
  | [] => []
  | x :: xs => reads x ++ readsList xs
end

/-- A template: its functions in order (`kajiki/ir.py` 97-102); module level Python has no such nodes. -/
def readsTmpl (t : Tmpl) : List (Nat × Read) := t.defs.flatMap fun d => readsList d.body

/-- The loop of `extract` (`kajiki/i18n.py` 36-46): the messages it yields (line, and the text or what
`extract_python` gave), and the line of the `KajikiSyntaxError` it ends with, if it does.  `python` is `none` if
expressions are not read. -/
def extractLoop {M : Type} (python : Option (Str → List M × Bool)) : List (Nat × Read) → List (Nat × (Str ⊕ M)) × Option Nat
  | [] => ([], none)
  | (ln, .message t) :: xs =>
    let r := extractLoop python xs
    ((ln, .inl t) :: r.1, r.2)
  | (ln, .expression e) :: xs =>
    match python with
    | none => extractLoop python xs
    | some f =>
      let found := (f e).1.map fun m => (ln, Sum.inr m)
      if (f e).2 then (found, some ln)
      else
        let r := extractLoop python xs
        (found ++ r.1, r.2)

/-- `extract` (`kajiki/i18n.py` 15-46): an exception while the template is compiled, or what it yields. -/
def extractAll {M : Type} (python : Option (Str → List M × Bool)) (py : PyCompile) (gen : Nat → Str) (mode : Str)
    (isFragment stripText : Bool) (dtd : Str) (es : List Event) :
    Except Err (List (Nat × (Str ⊕ M)) × Option Nat) :=
  match xmlTemplate py gen (extractOpts mode isFragment) stripText dtd es with
  | .error e => .error e
  | .ok t => .ok (extractLoop python (readsTmpl t))

end Kajiki

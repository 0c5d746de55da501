import Verif.Spec.DocSem
import Verif.Spec.XmlText
import Mathlib.Data.List.Sort

/-!
# Documents without directives

A tree of elements, text, CDATA sections and comments, how it is written as a template, and how it is shown.
Used to state C63.
-/

set_option linter.dupNamespace false

namespace Kajiki.Spec.Static
open Kajiki.Spec.DocSem (html void close emptyTag script)
open Kajiki.Spec.XmlText (doubled)

/-- A node, with the lines on which the parser finds it.  Text may be in several pieces. -/
inductive Static
  | elem (tag : Str) (attrs : List (Str × Str)) (ln : Nat) (kids : List Static)
  | text (t : Str) (ln : Nat)
  | cdata (pieces : List (Str × Nat)) (ln ln' : Nat)
  | comment (t : Str) (ln : Nat)

mutual
/-- What the parser reports when the node is written in a template: every dollar sign is doubled. -/
def events : Static → List Event
  | .elem tag attrs ln kids =>
    .startElement tag (attrs.map fun kv => (kv.1, doubled kv.2)) ln :: (eventsAll kids ++ [.endElement tag])
  | .text t ln => [.characters (doubled t) ln]
  | .cdata ts ln ln' => .startCDATA ln :: (ts.map (fun p => .characters (doubled p.1) p.2) ++ [.endCDATA ln'])
  | .comment t ln => [.comment t ln]

/-- The same for several nodes. -/
def eventsAll : List Static → List Event
  | [] => []
  | x :: xs => events x ++ eventsAll xs
end

/-! ## How it is shown -/

/-- `&`, `<` and `>` are written as references. -/
def reference (c : Char) : Str :=
  if c = '&' then "&amp;".toList else if c = '<' then "&lt;".toList else if c = '>' then "&gt;".toList else [c]

/-- Character data. -/
def shown (t : Str) : Str := t.flatMap reference

/-- The value of an attribute. -/
def quoted (t : Str) : Str := t.flatMap fun c => if c = '"' then "&quot;".toList else reference c

/-- Attributes that have no value in html. -/
def flags : List Str :=
  ["checked", "disabled", "readonly", "multiple", "selected", "nohref", "ismap", "declare", "defer"].map String.toList

/-- An attribute. -/
def attrText (mode : Str) (kv : Str × Str) : Str :=
  if html mode && flags.contains kv.1 then ' ' :: kv.1
  else ' ' :: kv.1 ++ "=\"".toList ++ quoted kv.2 ++ "\"".toList

/-- The attributes in alphabetical order. -/
def sorted (attrs : List (Str × Str)) : List (Str × Str) := attrs.insertionSort fun a b => a.1 ≤ b.1

/-- The text of a node of a script. -/
def scriptText : Static → Str
  | .text t _ => t
  | .cdata ts _ _ => (ts.map (·.1)).flatten
  | _ => []

/-- The content of a script as it is, in a CDATA section in xml mode. -/
def scriptContent (mode : Str) (kids : List Static) : Str :=
  if mode = "xml".toList then "/*<![CDATA[*/".toList ++ kids.flatMap scriptText ++ "/*]]>*/".toList
  else kids.flatMap scriptText

mutual
/-- A node as it is shown. -/
def serialize (o : Opts) (mode : Str) : Static → Str
  | .elem tag attrs _ kids =>
    '<' :: tag ++ (sorted attrs).flatMap (attrText mode) ++
      if kids.isEmpty then emptyTag mode tag
      else ">".toList ++ (if script o tag then scriptContent mode kids else serializeAll o mode kids) ++
        if html mode && void tag then [] else close tag
  | .text t _ => shown t
  | .cdata ts _ _ => "<![CDATA[".toList ++ (ts.map (·.1)).flatten ++ "]]>".toList
  | .comment t _ => if ['!'].isPrefixOf t then [] else "<!-- ".toList ++ t ++ " -->".toList

/-- Several nodes as they are shown. -/
def serializeAll (o : Opts) (mode : Str) : List Static → Str
  | [] => []
  | x :: xs => serialize o mode x ++ serializeAll o mode xs
end

/-! ## Whole documents -/

/-- Text or a CDATA section. -/
def isText : Static → Bool
  | .text _ _ => true
  | .cdata _ _ _ => true
  | _ => false

/-- The name belongs to the template language. -/
def reserved (name : Str) : Bool := "py:".toList.isPrefixOf name

mutual
/-- No element or attribute belongs to the template language, no element has an attribute twice, no element is
an automatic block, and there is only text in scripts. -/
def plain (o : Opts) : Static → Bool
  | .elem tag attrs _ kids =>
    !reserved tag && attrs.all (fun kv => !reserved kv.1) && decide (attrs.map (·.1)).Nodup &&
    !o.autoblocks.contains tag && (!script o tag || kids.all isText) && plainAll o kids
  | _ => true

/-- The same for several nodes. -/
def plainAll (o : Opts) : List Static → Bool
  | [] => true
  | x :: xs => plain o x && plainAll o xs
end

/-- A document: a root element with comments before and after it. -/
structure Page where
  before : List (Str × Nat)
  tag : Str
  attrs : List (Str × Str)
  ln : Nat
  kids : List Static
  after : List (Str × Nat)

/-- The root element. -/
def Page.root (d : Page) : Static := .elem d.tag d.attrs d.ln d.kids

/-- What the parser reports. -/
def Page.events (d : Page) : List Event :=
  d.before.map (fun c => .comment c.1 c.2) ++ Static.events d.root ++ d.after.map (fun c => .comment c.1 c.2)

/-- The DOCTYPE: that of the template, or that of html5; a fragment has none. -/
def doctype (o : Opts) (mode dtd : Str) : Str :=
  if o.isFragment then []
  else if !dtd.isEmpty then strip dtd ++ ['\n']
  else if mode = "html5".toList then "<!DOCTYPE html>\n".toList
  else []

/-- The document as it is shown.  The comments around the root element are not. -/
def Page.serialize (o : Opts) (mode dtd : Str) (d : Page) : Str :=
  doctype o mode dtd ++ Static.serialize o mode d.root

/-- The node is the other one, or somewhere in it. -/
inductive Within (s : Static) : Static → Prop
  | here : Within s s
  | inside {tag : Str} {attrs : List (Str × Str)} {ln : Nat} {kids : List Static} {x : Static} :
      x ∈ kids → Within s x → Within s (.elem tag attrs ln kids)

/-! ## Translation -/

/-- The messages of a text: every dollar sign is one, and so is the text between dollar signs. -/
def messages : Str → List Str
  | [] => []
  | c :: s =>
    if c = '$' then ['$'] :: messages s
    else match messages s with
      | [] => [[c]]
      | m :: ms => if m = ['$'] then [c] :: m :: ms else (c :: m) :: ms

/-- Only whitespace. -/
def blank (t : Str) : Bool := t.all isSpace

/-- A message is translated by `tr`, unless it is blank. -/
def message (tr : Str → Str) (t : Str) : Str := if blank t then t else tr t

/-- The whitespace a text starts with. -/
def leading (t : Str) : Str := t.takeWhile isSpace

/-- The whitespace a text ends with. -/
def trailing (t : Str) : Str := (t.reverse.takeWhile isSpace).reverse

/-- A text in an element, already with references: what is inside the whitespace around it is translated, but
not in a script or style sheet. -/
def translatedText (tr : Str → Str) (tag t : Str) : Str :=
  if DocSem.scriptTag tag || blank t then t
  else leading t ++ (messages (strip t)).flatMap (message tr) ++ trailing t

mutual
/-- A node in an element `tag` as it is shown with a translation. -/
def translated (tr : Str → Str) (o : Opts) (mode tag : Str) : Static → Str
  | .elem t attrs _ kids =>
    '<' :: t ++ (sorted attrs).flatMap (attrText mode) ++
      if kids.isEmpty then emptyTag mode t
      else ">".toList ++ (if script o t then scriptContent mode kids else translatedAll tr o mode t kids) ++
        if html mode && void t then [] else close t
  | .text t _ => translatedText tr tag (shown t)
  | .cdata ts _ _ => "<![CDATA[".toList ++ translatedText tr tag (ts.map (·.1)).flatten ++ "]]>".toList
  | .comment t _ => if ['!'].isPrefixOf t then [] else "<!-- ".toList ++ t ++ " -->".toList

/-- The same for several nodes. -/
def translatedAll (tr : Str → Str) (o : Opts) (mode tag : Str) : List Static → Str
  | [] => []
  | x :: xs => translated tr o mode tag x ++ translatedAll tr o mode tag xs
end

/-- Character data, not a CDATA section. -/
def chars : Static → Bool
  | .text _ _ => true
  | _ => false

mutual
/-- Text is in one piece. -/
def whole : Static → Bool
  | .elem _ _ _ kids => wholeAll kids
  | .cdata ts _ _ => decide (ts.length ≤ 1)
  | _ => true

/-- The same for several nodes. -/
def wholeAll : List Static → Bool
  | [] => true
  | [x] => whole x
  | x :: y :: xs => whole x && !(chars x && chars y) && wholeAll (y :: xs)
end

/-- The document as it is shown with a translation. -/
def Page.translated (tr : Str → Str) (o : Opts) (mode dtd : Str) (d : Page) : Str :=
  doctype o mode dtd ++ Static.translated tr o mode [] d.root

end Kajiki.Spec.Static

import Verif.Spec.Fill

/-!
# Reading XML

A small reader of XML content, one character at a time, and the tree that a document with expressions should be
read as.  Used to state C72.  The reader has nothing to do with Kajiki: it follows the XML recommendation, for
content with the five predefined entities, attributes in double quotes and a DOCTYPE without internal subset.
(Simplified: it allows more characters in names than XML does, and `]]>` in text.)
-/

namespace Kajiki.Spec.Reader

/-- What a reader reports: elements with attributes in the order of the source, text and comments. -/
inductive Tree
  | elem (tag : Str) (attrs : List (Str × Str)) (kids : List Tree)
  | text (t : Str)
  | comment (t : Str)

/-- Text next to text is one text, and empty text is none. -/
def joined : List Tree → List Tree
  | [] => []
  | .text t :: xs =>
    match joined xs with
    | .text u :: ys => .text (t ++ u) :: ys
    | ys => if t = [] then ys else .text t :: ys
  | x :: xs => x :: joined xs

/-- Characters of names. -/
def nameChar (c : Char) : Bool := !(" \t\r\n<>&\"'/=!".toList.contains c)

/-- Whitespace in tags. -/
def space (c : Char) : Bool := c = ' ' || c = '\t' || c = '\n'

/-- The predefined entities. -/
def entity (n : Str) : Option Char :=
  [("amp".toList, '&'), ("lt".toList, '<'), ("gt".toList, '>'), ("quot".toList, '"'), ("apos".toList, '\'')].lookup n

/-- Where the reader is. -/
inductive Mode
  | content
  /-- in a reference in content -/
  | ref (n : Str)
  /-- after `<` -/
  | lt
  /-- in the name of a start tag -/
  | name (tag : Str)
  /-- after the name or an attribute -/
  | tag (tag : Str) (attrs : List (Str × Str))
  /-- after whitespace in a tag -/
  | space (tag : Str) (attrs : List (Str × Str))
  /-- in the name of an attribute -/
  | attr (tag : Str) (attrs : List (Str × Str)) (n : Str)
  /-- after the equals sign -/
  | eq (tag : Str) (attrs : List (Str × Str)) (n : Str)
  /-- in the value of an attribute -/
  | value (tag : Str) (attrs : List (Str × Str)) (n v : Str)
  /-- in a reference there -/
  | valueRef (tag : Str) (attrs : List (Str × Str)) (n v r : Str)
  /-- after the slash of an empty tag -/
  | slash (tag : Str) (attrs : List (Str × Str))
  /-- in an end tag -/
  | close (tag : Str)
  /-- after `<!` -/
  | bang (s : Str)
  | comment (t : Str)
  | cdata (t : Str)
  | doctype

/-- The reader: where it is, what it has read in this element (last first), and the elements that are open
(innermost first), each with its attributes and what was before it. -/
structure State where
  mode : Mode
  here : List Tree
  up : List (Str × List (Str × Str) × List Tree)

/-- Read a node. -/
def State.add (s : State) (x : Tree) : State := { s with mode := .content, here := x :: s.here }

/-- After the name or an attribute: whitespace or the end of the tag.  No attribute is given twice. -/
def State.tagEnd (s : State) (tag : Str) (attrs : List (Str × Str)) (c : Char) : Option State :=
  if space c then some { s with mode := .space tag attrs }
  else if c = '/' then some { s with mode := .slash tag attrs }
  else if c = '>' ∧ (attrs.map (·.1)).Nodup then some ⟨.content, [], (tag, attrs, s.here) :: s.up⟩
  else none

/-- What may come after `<!`. -/
def declarations : List (Str × Mode) :=
  [("--".toList, .comment []), ("[CDATA[".toList, .cdata []), ("DOCTYPE".toList, .doctype)]

/-- Read a character.  `none`: not well-formed. -/
def State.step (s : State) (c : Char) : Option State :=
  match s.mode with
  | .content =>
    if c = '<' then some { s with mode := .lt }
    else if c = '&' then some { s with mode := .ref [] }
    else some (s.add (.text [c]))
  | .ref n =>
    if c = ';' then (entity n).map fun x => s.add (.text [x]) else some { s with mode := .ref (n ++ [c]) }
  | .lt =>
    if c = '/' then some { s with mode := .close [] }
    else if c = '!' then some { s with mode := .bang [] }
    else if nameChar c then some { s with mode := .name [c] } else none
  | .name t => if nameChar c then some { s with mode := .name (t ++ [c]) } else s.tagEnd t [] c
  | .tag t as => s.tagEnd t as c
  | .space t as => if nameChar c then some { s with mode := .attr t as [c] } else s.tagEnd t as c
  | .attr t as n =>
    if nameChar c then some { s with mode := .attr t as (n ++ [c]) }
    else if c = '=' then some { s with mode := .eq t as n } else none
  | .eq t as n => if c = '"' then some { s with mode := .value t as n [] } else none
  | .value t as n v =>
    if c = '"' then some { s with mode := .tag t (as ++ [(n, v)]) }
    else if c = '&' then some { s with mode := .valueRef t as n v [] }
    else if c = '<' then none
    else some { s with mode := .value t as n (v ++ [if space c then ' ' else c]) }
  | .valueRef t as n v r =>
    if c = ';' then (entity r).map fun x => { s with mode := .value t as n (v ++ [x]) }
    else some { s with mode := .valueRef t as n v (r ++ [c]) }
  | .slash t as =>
    if c = '>' ∧ (as.map (·.1)).Nodup then some (s.add (.elem t as [])) else none
  | .close t =>
    if nameChar c then some { s with mode := .close (t ++ [c]) }
    else match s.up with
      | (t', as, before) :: up =>
        if c = '>' ∧ t = t' then some ⟨.content, .elem t as (joined s.here.reverse) :: before, up⟩ else none
      | [] => none
  | .bang b =>
    match declarations.lookup (b ++ [c]) with
    | some m => some { s with mode := m }
    | none => if declarations.any fun d => (b ++ [c]).isPrefixOf d.1 then some { s with mode := .bang (b ++ [c]) } else none
  | .comment t =>
    if "--".toList.isSuffixOf t then if c = '>' then some (s.add (.comment (t.take (t.length - 2)))) else none
    else some { s with mode := .comment (t ++ [c]) }
  | .cdata t =>
    if c = '>' ∧ "]]".toList <:+ t then some (s.add (.text (t.take (t.length - 2))))
    else some { s with mode := .cdata (t ++ [c]) }
  | .doctype => if c = '>' then some { s with mode := .content } else some s

/-- Read a text. -/
def State.feed (s : State) : Str → Option State
  | [] => some s
  | c :: cs => (s.step c).bind fun s' => s'.feed cs

/-- Characters that XML allows. -/
def legal (c : Char) : Bool :=
  c = '\t' || c = '\n' || c = '\r' || (' ' ≤ c && c ≠ '￾' && c ≠ '￿')

/-- Line ends are read as `\n`. -/
def lineEnds : Str → Str
  | [] => []
  | '\r' :: '\n' :: s => '\n' :: lineEnds s
  | c :: s => (if c = '\r' then '\n' else c) :: lineEnds s

/-- Read content. -/
def read (s : Str) : Option (List Tree) :=
  if s.all legal then
    match (State.mk .content [] []).feed (lineEnds s) with
    | some ⟨.content, here, []⟩ => some (joined here.reverse)
    | _ => none
  else none

/-! ## What a document should be read as -/

open Kajiki.Spec.Fill
open Kajiki.Spec.DocSem (script)

variable (val : Str → Val)

/-- A text in an element: the characters, and the strings of the values. -/
def textOf (ts : List Item) : Str := attrValue val ts

/-- In an attribute, whitespace is read as spaces. -/
def normal (s : Str) : Str := s.map fun c => if space c then ' ' else c

/-- An attribute, unless it consists of expressions that are all `None`. -/
def attrOf (kv : Str × List Item) : Option (Str × Str) :=
  if !kv.2.isEmpty && kv.2.all (absent val) then none else some (kv.1, normal (attrValue val kv.2))

/-- The text of a script, in which the values are escaped. -/
def scriptOf (kids : List Node) : Str := "/**/".toList ++ kids.flatMap (scriptText val) ++ "/**/".toList

mutual
/-- A node of the template as it should be read. -/
def meant (o : Opts) : Node → List Tree
  | .elem tag attrs _ kids =>
    [.elem tag ((sorted attrs).filterMap (attrOf val))
      (if kids.isEmpty then [] else if script o tag then [.text (scriptOf val kids)] else joined (meantAll o kids))]
  | .text ts _ => [.text (textOf val ts)]
  | .cdata ps _ _ => [.text (ps.flatMap fun p => rawShown val p.1)]
  | .comment t _ => if ['!'].isPrefixOf t then [] else [.comment (' ' :: t ++ [' '])]

/-- Several nodes. -/
def meantAll (o : Opts) : List Node → List Tree
  | [] => []
  | x :: xs => meant o x ++ meantAll o xs
end

/-- The whole document; after the DOCTYPE there is a line end. -/
def meantPage (o : Opts) (mode dtd : Str) (d : Page) : List Tree :=
  (if Static.doctype o mode dtd = [] then [] else [.text ['\n']]) ++ meant val o d.root

/-! ## Which documents -/

/-- A name of an element or attribute. -/
def Name (n : Str) : Prop := n ≠ [] ∧ ∀ c ∈ n, nameChar c = true

mutual
/-- Names are names, and comments have no `--` in them, as in every XML document. -/
def Proper : Node → Prop
  | .elem tag attrs _ kids => Name tag ∧ (∀ kv ∈ attrs, Name kv.1) ∧ ProperAll kids
  | .comment t _ => ¬ "--".toList <:+: t
  | _ => True

/-- The same for several nodes. -/
def ProperAll : List Node → Prop
  | [] => True
  | x :: xs => Proper x ∧ ProperAll xs
end

mutual
/-- There is no `]]>` in a CDATA section or in a script, also not when the values are filled in. -/
def Closed (o : Opts) : Node → Prop
  | .elem tag _ _ kids =>
    if script o tag then ¬ "]]>".toList <:+: kids.flatMap (scriptText val) else ClosedAll o kids
  | .cdata ps _ _ => ¬ "]]>".toList <:+: ps.flatMap fun p => rawShown val p.1
  | _ => True

/-- The same for several nodes. -/
def ClosedAll (o : Opts) : List Node → Prop
  | [] => True
  | x :: xs => Closed o x ∧ ClosedAll o xs
end

/-- A DOCTYPE without internal subset. -/
def Doctype (s : Str) : Prop := ∃ r, s = "<!DOCTYPE".toList ++ r ++ ">".toList ∧ '>' ∉ r

/-- Not markup: neither a literal nor an object with `__html__`. -/
def noMarkup : Val → Bool
  | .html _ _ _ => false
  | _ => true

mutual
/-- Elements and names of attributes, without text and comments. -/
def skeleton : Tree → List Tree
  | .elem tag attrs kids => [.elem tag (attrs.map fun kv => (kv.1, [])) (skeletonAll kids)]
  | _ => []

/-- The same for several nodes. -/
def skeletonAll : List Tree → List Tree
  | [] => []
  | x :: xs => skeleton x ++ skeletonAll xs
end

end Kajiki.Spec.Reader

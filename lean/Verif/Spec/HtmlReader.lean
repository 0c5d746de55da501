import Verif.Spec.Reader

/-!
# Reading HTML

A tokenizer of HTML, one character at a time, and the tokens that a document with expressions should be read as.
Used to state C73.  It follows the HTML standard, but gives up (`none`) on what a careful author does not write:
attributes without double quotes (other than those without value), elements like `iframe` whose content is not HTML,
tags in `title` and `textarea`.  References are only the four of Kajiki's output; a script is
read up to the first `</` (the standard says: of `</script`).
-/

namespace Kajiki.Spec.HtmlReader
open Kajiki.Spec.Reader (entity space lineEnds legal)

/-- What a tokenizer reports. -/
inductive Token
  | start (tag : Str) (attrs : List (Str × Str))
  | stop (tag : Str)
  | chars (t : Str)
  | comment (t : Str)
deriving DecidableEq

/-- Text next to text is one text, and empty text is none. -/
def joined : List Token → List Token
  | [] => []
  | .chars t :: xs =>
    match joined xs with
    | .chars u :: ys => .chars (t ++ u) :: ys
    | ys => if t = [] then ys else .chars t :: ys
  | x :: xs => x :: joined xs

/-- Characters of names; the names of HTML have no capital letters when they are read. -/
def nameChar (c : Char) : Bool := !(" \t\r\n<>&\"'/=!".toList.contains c) && !('A' ≤ c && c ≤ 'Z')

/-- Elements in which only their own end tag is a tag. -/
def rawTags : List Str := ["script", "style"].map String.toList

/-- Elements in which only their own end tag is a tag, and references are references. -/
def textTags : List Str := ["title", "textarea"].map String.toList

/-- Elements the reader does not know how to read. -/
def strange : List Str := ["iframe", "noembed", "noframes", "noscript", "xmp", "plaintext"].map String.toList

/-- Where the tokenizer is. -/
inductive Mode
  | content
  /-- in a script or style sheet -/
  | raw (t : Str)
  /-- in a reference in content -/
  | ref (n : Str)
  /-- after `<` -/
  | lt
  /-- in the name of a start tag -/
  | name (tag : Str)
  /-- after an attribute with a value -/
  | tag (tag : Str) (attrs : List (Str × Str))
  /-- after whitespace in a tag -/
  | space (tag : Str) (attrs : List (Str × Str))
  /-- in the name of an attribute -/
  | attr (tag : Str) (attrs : List (Str × Str)) (n : Str)
  /-- after the equals sign -/
  | eq (tag : Str) (attrs : List (Str × Str)) (n : Str)
  /-- in the value of an attribute -/
  | value (tag : Str) (attrs : List (Str × Str)) (n v : Str)
  /-- in a reference there -/
  | valueRef (tag : Str) (attrs : List (Str × Str)) (n v r : Str)
  /-- in an end tag -/
  | close (tag : Str)
  /-- after `<!` -/
  | bang (s : Str)
  | comment (t : Str)
  /-- in something else that begins with `<!`, which is a comment up to `>` -/
  | bogus (t : Str)
  | doctype

/-- The tokenizer: where it is, whether it is in an element in which there are no tags, and the tokens, last
first. -/
structure State where
  mode : Mode
  inText : Bool
  out : List Token

/-- A token. -/
def State.add (s : State) (x : Token) : State := { s with mode := .content, out := x :: s.out }

/-- After the name or an attribute: whitespace or the end of the tag.  No attribute is given twice. -/
def State.tagEnd (s : State) (tag : Str) (attrs : List (Str × Str)) (c : Char) : Option State :=
  if space c then some { s with mode := .space tag attrs }
  else if c = '>' ∧ (attrs.map (·.1)).Nodup ∧ tag ∉ strange then
    some ⟨if tag ∈ rawTags then .raw [] else .content, decide (tag ∈ textTags), .start tag attrs :: s.out⟩
  else none

/-- What may come after `<!`. -/
def declarations : List (Str × Mode) := [("--".toList, .comment []), ("DOCTYPE".toList, .doctype)]

/-- Read a character.  `none`: the tokenizer gives up. -/
def State.step (s : State) (c : Char) : Option State :=
  match s.mode with
  | .content =>
    if c = '<' then some { s with mode := .lt }
    else if c = '&' then some { s with mode := .ref [] }
    else some (s.add (.chars [c]))
  | .raw t =>
    if c = '/' ∧ ['<'] <:+ t then some { s with mode := .close [], out := .chars t.dropLast :: s.out }
    else some { s with mode := .raw (t ++ [c]) }
  | .ref n =>
    if c = ';' then (entity n).map fun x => s.add (.chars [x]) else some { s with mode := .ref (n ++ [c]) }
  | .lt =>
    if c = '/' then some { s with mode := .close [] }
    else if s.inText then none
    else if c = '!' then some { s with mode := .bang [] }
    else if nameChar c then some { s with mode := .name [c] } else none
  | .name t => if nameChar c then some { s with mode := .name (t ++ [c]) } else s.tagEnd t [] c
  | .tag t as => s.tagEnd t as c
  | .space t as => if nameChar c then some { s with mode := .attr t as [c] } else s.tagEnd t as c
  | .attr t as n =>
    if nameChar c then some { s with mode := .attr t as (n ++ [c]) }
    else if c = '=' then some { s with mode := .eq t as n } else s.tagEnd t (as ++ [(n, [])]) c
  | .eq t as n => if c = '"' then some { s with mode := .value t as n [] } else none
  | .value t as n v =>
    if c = '"' then some { s with mode := .tag t (as ++ [(n, v)]) }
    else if c = '&' then some { s with mode := .valueRef t as n v [] }
    else some { s with mode := .value t as n (v ++ [c]) }
  | .valueRef t as n v r =>
    if c = ';' then (entity r).map fun x => { s with mode := .value t as n (v ++ [x]) }
    else some { s with mode := .valueRef t as n v (r ++ [c]) }
  | .close t =>
    if nameChar c then some { s with mode := .close (t ++ [c]) }
    else if c = '>' then some ⟨.content, false, .stop t :: s.out⟩ else none
  | .bang b =>
    match declarations.lookup (b ++ [c]) with
    | some m => some { s with mode := m }
    | none =>
      if declarations.any fun d => (b ++ [c]).isPrefixOf d.1 then some { s with mode := .bang (b ++ [c]) }
      else if c = '>' then some (s.add (.comment b)) else some { s with mode := .bogus (b ++ [c]) }
  | .bogus t => if c = '>' then some (s.add (.comment t)) else some { s with mode := .bogus (t ++ [c]) }
  | .comment t =>
    if "--".toList.isSuffixOf t then if c = '>' then some (s.add (.comment (t.take (t.length - 2)))) else none
    else some { s with mode := .comment (t ++ [c]) }
  | .doctype => if c = '>' then some { s with mode := .content } else some s

/-- Read a text. -/
def State.feed (s : State) : Str → Option State
  | [] => some s
  | c :: cs => (s.step c).bind fun s' => s'.feed cs

/-- Read content. -/
def tokens (s : Str) : Option (List Token) :=
  if s.all legal then
    match (State.mk .content false []).feed (lineEnds s) with
    | some ⟨.content, _, out⟩ => some (joined out.reverse)
    | _ => none
  else none

/-! ## What a document should be read as -/

open Kajiki.Spec.Fill
open Kajiki.Spec.Static (flags)
open Kajiki.Spec.DocSem (void)

variable (val : Str → Val)

/-- An attribute, unless it consists of expressions that are all `None`.  Some have no value in HTML. -/
def attrOf (kv : Str × List Item) : Option (Str × Str) :=
  if !kv.2.isEmpty && kv.2.all (absent val) then none
  else some (kv.1, if flags.contains kv.1 then [] else attrValue val kv.2)

mutual
/-- A node of the template as it should be read.  In scripts the values are escaped. -/
def meant : Node → List Token
  | .elem tag attrs _ kids =>
    .start tag ((sorted attrs).filterMap (attrOf val)) ::
      ((if rawTags.contains tag then [.chars (kids.flatMap (scriptText val))] else meantAll kids) ++
        if void tag then [] else [.stop tag])
  | .text ts _ => [.chars (attrValue val ts)]
  | .cdata _ _ _ => []
  | .comment t _ => if ['!'].isPrefixOf t then [] else [.comment (' ' :: t ++ [' '])]

/-- Several nodes. -/
def meantAll : List Node → List Token
  | [] => []
  | x :: xs => meant x ++ meantAll xs
end

/-- The whole document; after the DOCTYPE there is a line end. -/
def meantPage (o : Opts) (mode dtd : Str) (d : Page) : List Token :=
  (if Static.doctype o mode dtd = [] then [] else [.chars ['\n']]) ++ meant val d.root

/-! ## Which documents -/

/-- A name of an element or attribute. -/
def Name (n : Str) : Prop := n ≠ [] ∧ ∀ c ∈ n, nameChar c = true

/-- Character data, not in a CDATA section. -/
def isChars : Node → Bool
  | .text _ _ => true
  | _ => false

mutual
/-- Names are names without capital letters, comments have no `--` in them, there are no CDATA sections outside of
scripts and none of the elements the reader does not know, and there is only text in `title` and `textarea`. -/
def Proper : Node → Prop
  | .elem tag attrs _ kids => Name tag ∧ tag ∉ strange ∧ (∀ kv ∈ attrs, Name kv.1) ∧
      (tag ∈ textTags → ∀ x ∈ kids, isChars x = true) ∧ (tag ∉ rawTags → ProperAll kids)
  | .comment t _ => ¬ "--".toList <:+: t
  | .cdata _ _ _ => False
  | .text _ _ => True

/-- The same for several nodes. -/
def ProperAll : List Node → Prop
  | [] => True
  | x :: xs => Proper x ∧ ProperAll xs
end

mutual
/-- There is no `</` in a script or style sheet, also not when the values are filled in. -/
def Closed : Node → Prop
  | .elem tag _ _ kids =>
    if tag ∈ rawTags then ¬ "</".toList <:+: kids.flatMap (scriptText val) else ClosedAll kids
  | _ => True

/-- The same for several nodes. -/
def ClosedAll : List Node → Prop
  | [] => True
  | x :: xs => Closed x ∧ ClosedAll xs
end

/-- Tags and names of attributes, without text and comments. -/
def skeleton (ts : List Token) : List Token := ts.filterMap fun
  | .start tag attrs => some (.start tag (attrs.map fun kv => (kv.1, [])))
  | .stop tag => some (.stop tag)
  | _ => none

end Kajiki.Spec.HtmlReader

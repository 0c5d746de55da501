import Verif.Spec.Static

/-!
# Documents with expressions and without directives

A tree of elements, text, CDATA sections and comments, with expressions in texts and attributes; how it is
written as a template, and how it is shown when the expressions have given values.  Used to state C66.
-/

set_option linter.dupNamespace false

namespace Kajiki.Spec.Fill
open Kajiki.Spec.DocSem (html void close emptyTag script)
open Kajiki.Spec.Static (reference quoted attrText reserved doctype)
open Kajiki.Spec.XmlText (nameStart nameChar ErrorAtBrace)

/-- A character, or an expression: `$name`, or `${expr}` with whitespace after the brace. -/
inductive Item
  | ch (c : Char)
  | name (n : Str)
  | expr (ws e : Str)
deriving DecidableEq

/-- How it is written.  Dollar signs are doubled. -/
def Item.written : Item → Str
  | .ch c => if c = '$' then ['$', '$'] else [c]
  | .name n => '$' :: n
  | .expr ws e => '$' :: '{' :: ws ++ e ++ ['}']

/-- How a text with expressions is written. -/
def written (ts : List Item) : Str := ts.flatMap Item.written

/-- A node, with the lines on which the parser finds it.  Text may be in several pieces. -/
inductive Node
  | elem (tag : Str) (attrs : List (Str × List Item)) (ln : Nat) (kids : List Node)
  | text (ts : List Item) (ln : Nat)
  | cdata (pieces : List (List Item × Nat)) (ln ln' : Nat)
  | comment (t : Str) (ln : Nat)

mutual
/-- What the parser reports when the node is written in a template. -/
def events : Node → List Event
  | .elem tag attrs ln kids =>
    .startElement tag (attrs.map fun kv => (kv.1, written kv.2)) ln :: (eventsAll kids ++ [.endElement tag])
  | .text ts ln => [.characters (written ts) ln]
  | .cdata ps ln ln' => .startCDATA ln :: (ps.map (fun p => .characters (written p.1) p.2) ++ [.endCDATA ln'])
  | .comment t ln => [.comment t ln]

/-- The same for several nodes. -/
def eventsAll : List Node → List Event
  | [] => []
  | x :: xs => events x ++ eventsAll xs
end

/-! ## How it is shown -/

/-- A value in a text: nothing for `None`, the markup of a literal or an object with `__html__`, and otherwise
its string with special characters as references. -/
def escapedValue : Val → Str
  | .none => []
  | .html _ h _ => h
  | v => quoted (toStr v)

/-- A value in an attribute, before special characters are replaced. -/
def plainValue : Val → Str
  | .none => []
  | v => toStr v

/-- `None`. -/
def isNone : Val → Bool
  | .none => true
  | _ => false

variable (val : Str → Val)

/-- A text in an element. -/
def textShown (ts : List Item) : Str := ts.flatMap fun
  | .ch c => reference c
  | .name e => escapedValue (val e)
  | .expr _ e => escapedValue (val e)

/-- A text in a CDATA section or in a script: the characters stay as they are, the values do not. -/
def rawShown (ts : List Item) : Str := ts.flatMap fun
  | .ch c => [c]
  | .name e => escapedValue (val e)
  | .expr _ e => escapedValue (val e)

/-- The text of an attribute. -/
def attrValue (ts : List Item) : Str := ts.flatMap fun
  | .ch c => [c]
  | .name e => plainValue (val e)
  | .expr _ e => plainValue (val e)

/-- An expression that is `None`. -/
def absent : Item → Bool
  | .ch _ => false
  | .name e => isNone (val e)
  | .expr _ e => isNone (val e)

/-- An attribute.  It is left out when it consists of expressions that are all `None`. -/
def attrShown (mode : Str) (kv : Str × List Item) : Str :=
  if !kv.2.isEmpty && kv.2.all (absent val) then [] else attrText mode (kv.1, attrValue val kv.2)

/-- The attributes in alphabetical order. -/
def sorted (attrs : List (Str × List Item)) : List (Str × List Item) := attrs.insertionSort fun a b => a.1 ≤ b.1

/-- The text of a node of a script. -/
def scriptText : Node → Str
  | .text ts _ => rawShown val ts
  | .cdata ps _ _ => ps.flatMap fun p => rawShown val p.1
  | _ => []

/-- The content of a script, in a CDATA section in xml mode. -/
def scriptContent (mode : Str) (kids : List Node) : Str :=
  if mode = "xml".toList then "/*<![CDATA[*/".toList ++ kids.flatMap (scriptText val) ++ "/*]]>*/".toList
  else kids.flatMap (scriptText val)

mutual
/-- A node as it is shown. -/
def shown (o : Opts) (mode : Str) : Node → Str
  | .elem tag attrs _ kids =>
    '<' :: tag ++ (sorted attrs).flatMap (attrShown val mode) ++
      if kids.isEmpty then emptyTag mode tag
      else ">".toList ++ (if script o tag then scriptContent val mode kids else shownAll o mode kids) ++
        if html mode && void tag then [] else close tag
  | .text ts _ => textShown val ts
  | .cdata ps _ _ => "<![CDATA[".toList ++ (ps.flatMap fun p => rawShown val p.1) ++ "]]>".toList
  | .comment t _ => if ['!'].isPrefixOf t then [] else "<!-- ".toList ++ t ++ " -->".toList

/-- Several nodes as they are shown. -/
def shownAll (o : Opts) (mode : Str) : List Node → Str
  | [] => []
  | x :: xs => shown o mode x ++ shownAll o mode xs
end

/-! ## Which documents -/

variable (py : PyCompile)

/-- The expressions are ones: Python accepts them without a dollar sign, and finds the error in what follows the
closing brace there.  In a text that is not in a CDATA section (`esc`), they contain no `&`, `<` and `>`. -/
def Item.ok (esc : Bool) : Item → Prop
  | .ch _ => True
  | .name n => ∃ c cs, n = c :: cs ∧ nameStart c = true ∧ ∀ x ∈ cs, nameChar x = true
  | .expr ws e => (∀ x ∈ ws, isSpace x = true) ∧ (∀ x, (e ++ ['}']).head? = some x → isSpace x = false) ∧
      '$' ∉ e ∧ py e = none ∧ (∀ rest, ErrorAtBrace py e rest) ∧ (esc = true → '&' ∉ e ∧ '<' ∉ e ∧ '>' ∉ e)

/-- A character after a `$name` does not belong to the name. -/
def apart : Item → Item → Prop
  | .name _, .ch c => nameChar c = false
  | _, _ => True

/-- A text whose expressions are ones and whose names end where they end. -/
def Text (esc : Bool) (ts : List Item) : Prop := (∀ t ∈ ts, t.ok py esc) ∧ ts.IsChain apart

/-- A text that goes on in another piece does not do so within a name. -/
def goesOn (ts us : List Item) : Prop := us ≠ [] ∧ ∀ a ∈ ts.getLast?, ∀ b ∈ us.head?, apart a b

/-- The same for texts next to each other. -/
def next : Node → Node → Prop
  | .text ts _, .text us _ => goesOn ts us
  | _, _ => True

/-- Text or a CDATA section. -/
def isText : Node → Bool
  | .text _ _ => true
  | .cdata _ _ _ => true
  | _ => false

mutual
/-- No element or attribute belongs to the template language, no element has an attribute twice, no element is
an automatic block, there is only text in scripts, and the expressions are ones. -/
def Plain (o : Opts) : Node → Prop
  | .elem tag attrs _ kids =>
    reserved tag = false ∧ (∀ kv ∈ attrs, reserved kv.1 = false ∧ Text py false kv.2) ∧ (attrs.map (·.1)).Nodup ∧
    o.autoblocks.contains tag = false ∧ (script o tag = true → ∀ x ∈ kids, isText x = true) ∧
    kids.IsChain next ∧ PlainAll o kids
  | .text ts _ => Text py true ts
  | .cdata ps _ _ => (∀ p ∈ ps, Text py false p.1) ∧ (ps.map (·.1)).IsChain goesOn
  | .comment _ _ => True

/-- The same for several nodes. -/
def PlainAll (o : Opts) : List Node → Prop
  | [] => True
  | x :: xs => Plain o x ∧ PlainAll o xs
end

/-- A document: a root element with comments before and after it. -/
structure Page where
  before : List (Str × Nat)
  tag : Str
  attrs : List (Str × List Item)
  ln : Nat
  kids : List Node
  after : List (Str × Nat)

/-- The root element. -/
def Page.root (d : Page) : Node := .elem d.tag d.attrs d.ln d.kids

/-- What the parser reports. -/
def Page.events (d : Page) : List Event :=
  d.before.map (fun c => .comment c.1 c.2) ++ Fill.events d.root ++ d.after.map (fun c => .comment c.1 c.2)

/-- The document as it is shown.  The comments around the root element are not. -/
def Page.shown (o : Opts) (mode dtd : Str) (d : Page) : Str :=
  doctype o mode dtd ++ Fill.shown val o mode d.root

/-! ## Where the values come from -/

/-- The expression. -/
def Item.expression : Item → Option Str
  | .ch _ => none
  | .name e => some e
  | .expr _ e => some e

/-- The expressions of a text. -/
def expressions (ts : List Item) : List Str := ts.filterMap Item.expression

mutual
/-- The expressions of a node. -/
def Node.expressions : Node → List Str
  | .elem _ attrs _ kids => attrs.flatMap (fun kv => Fill.expressions kv.2) ++ expressionsAll kids
  | .text ts _ => Fill.expressions ts
  | .cdata ps _ _ => ps.flatMap fun p => Fill.expressions p.1
  | .comment _ _ => []

/-- The expressions of several nodes. -/
def expressionsAll : List Node → List Str
  | [] => []
  | x :: xs => x.expressions ++ expressionsAll xs
end

/-- Not a template function that was called: those produce their text when they are shown. -/
def settled : Val → Bool
  | .flatItems _ _ => false
  | .flatCall _ _ _ => false
  | _ => true

/-- A value that is shown as its string: not `None`, not markup, not a template function that was called. -/
def ordinary : Val → Bool
  | .none => false
  | .html _ _ _ => false
  | v => settled v

/-- A text with blanks, when they are filled in: in the blank of an expression is the string of its value, with
special characters as references. -/
def fillIn (val : Str → Val) (blanks : List (Str ⊕ Str)) : Str := blanks.flatMap fun
  | .inl t => t
  | .inr e => quoted (toStr (val e))

/-- The expressions of the blanks. -/
def blankFor (blanks : List (Str ⊕ Str)) : List Str := blanks.filterMap Sum.getRight?

/-- An expression sees no local variables, and the variables of the context by their names. -/
def sees (context : Dict Val) (v : Run.View) : Prop :=
  (∀ d ∈ v.locals, d = []) ∧
  ∃ i, v.insts[v.inst]? = some i ∧ ∀ k x, Dict.get context k = some x → k ≠ "_".toList → k ≠ "value_of".toList →
    Dict.get i.globals k = some x

/-- Python gives the expressions of the document the values `val` in the context, without side effects.  No
variable is called `local` (C63), and messages are not translated. -/
structure Gives {W : Type} (O : Run.Oracle W) (w : W) (context : Dict Val) (d : Page) (val : Str → Val) : Prop where
  values : ∀ e ∈ d.root.expressions, settled (val e) = true ∧ ∀ v w, sees context v → O.eval e v w = (.ok (val e), w)
  distinct : (context.map (·.1)).Nodup
  free : Dict.get context "local".toList = none
  messages : ∀ g s w, O.gettext g s w = (.ok (.str s), w)
  main : O.args "__main__()".toList [] w = (.ok [], w)

end Kajiki.Spec.Fill

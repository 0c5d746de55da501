import Verif.Model.Dict
import Verif.Model.Entities

/-!
# Documents: from parser events to the transformed tree (`kajiki/xml_template.py` 575-900)

Expat itself is not modelled: its output is a list of SAX events.  Sibling and parent pointers of
minidom are replaced by positions in the tree.  (The only place where they differ is the first child
after an inserted `py:extends`, whose `previousSibling` stays `None`; the code only asks whether the
previous sibling is a `py:if`, which is false either way.)
-/

namespace Kajiki

/-- DOM nodes.  `cdata` is a `Text` node with `_cdata = True`, that is a section marker
(`kajiki/xml_template.py` 701-713); `escaped` and `ln` are the attributes `escaped` and `lineno`. -/
inductive DNode
  | elem (tag : Str) (attrs : Dict Str) (ln : Nat) (kids : List DNode)
  | text (data : Str) (escaped : Bool) (ln : Nat)
  | cdata (data : Str) (ln : Nat)
  | comment (data : Str) (ln : Nat)
  | pi (target data : Str) (ln : Nat)
deriving Inhabited

/-- A document: `_dtd` and the child nodes. -/
structure Doc where
  dtd : Str
  kids : List DNode

/-- `element.getAttribute(k)`: the empty string when absent. -/
def getAttr (attrs : Dict Str) (k : Str) : Str := (attrs.get k).getD []

/-! ## Building the tree -/

/-- SAX events with the parser's line number.  Events without effect on the tree (`startDTD`, …) are
left out. -/
inductive Event
  | startElement (name : Str) (attrs : Dict Str) (ln : Nat)
  | endElement (name : Str)
  | characters (content : Str) (ln : Nat)
  | pi (target data : Str) (ln : Nat)
  | skippedEntity (name : Str) (ln : Nat)
  | comment (text : Str) (ln : Nat)
  | startCDATA (ln : Nat)
  | endCDATA (ln : Nat)

/-- An open element with the children it has so far. -/
structure Open where
  tag : Str
  attrs : Dict Str
  ln : Nat
  kids : List DNode

/-- The parser's state: `_els` without the document (innermost first), the document's children, and
the length of `_cdata_stack`. -/
structure PState where
  els : List Open
  doc : List DNode
  cdata : Nat

/-- `self._els[-1].appendChild(node)` -/
def PState.append (p : PState) (x : DNode) : PState :=
  match p.els with
  | [] => { p with doc := p.doc ++ [x] }
  | o :: os => { p with els := { o with kids := o.kids ++ [x] } :: os }

/-- `characters` (`kajiki/xml_template.py` 655-662). -/
def PState.characters (p : PState) (content : Str) (ln : Nat) : PState :=
  let esc := p.cdata == 0
  p.append (.text (if esc then saxEscape content else content) esc ln)

/-- One event (`kajiki/xml_template.py` 640-713).  An element is attached to its parent when it ends;
the code attaches it when it starts.  The document has no `tagName`. -/
def PState.event (p : PState) : Event → Except Err PState
  | .startElement name attrs ln => .ok { p with els := ⟨name, Dict.update [] attrs, ln, []⟩ :: p.els }
  | .endElement name =>
    match p.els with
    | [] => .error .attr
    | o :: os =>
      if name = o.tag then .ok ({ p with els := os }.append (.elem o.tag o.attrs o.ln o.kids))
      else .error .assertion
  | .characters content ln => .ok (p.characters content ln)
  | .pi target data ln => .ok (p.append (.pi target data ln))
  | .skippedEntity name ln =>
    match skippedEntity name with
    | .ok s => .ok (p.characters s ln)
    | .error e => .error e
  | .comment text ln => .ok (p.append (.comment text ln))
  | .startCDATA ln =>
    let p' := p.append (.cdata "<![CDATA[".toList ln)
    .ok { p' with cdata := p'.cdata + 1 }
  | .endCDATA ln =>
    let p' := p.append (.cdata "]]>".toList ln)
    if p'.cdata = 0 then .error .index else .ok { p' with cdata := p'.cdata - 1 }

/-- All events. -/
def PState.events (p : PState) : List Event → Except Err PState
  | [] => .ok p
  | e :: es =>
    match p.event e with
    | .ok p' => p'.events es
    | .error err => .error err

/-- `_Parser.parse` (`kajiki/xml_template.py` 609-637) on the events expat reports.  Expat only
succeeds when all elements are closed. -/
def parseEvents (dtd : Str) (es : List Event) : Except Err Doc :=
  match PState.events ⟨[], [], 0⟩ es with
  | .error e => .error e
  | .ok p => if p.els.isEmpty then .ok ⟨dtd, p.doc⟩ else .error .syntax

/-! ## Expanding directives -/

/-- `QDIRECTIVES` (`kajiki/markup_template.py` 6-21): directives and their attribute in element form,
outermost first. -/
def directives : Dict Str :=
  [("py:def".toList, "function".toList), ("py:call".toList, "function".toList),
   ("py:case".toList, "value".toList), ("py:else".toList, []), ("py:for".toList, "each".toList),
   ("py:if".toList, "test".toList), ("py:switch".toList, "test".toList),
   ("py:with".toList, "vars".toList), ("py:replace".toList, "value".toList),
   ("py:block".toList, "name".toList), ("py:extends".toList, "href".toList)]

/-- `py:nop` -/
def nopTag : Str := "py:nop".toList

/-- `py:extends` -/
def extendsTag : Str := "py:extends".toList

/-- A directive element becomes a `py:nop` with a directive attribute
(`kajiki/xml_template.py` 871-875). -/
def normTag (tag : Str) (attrs : Dict Str) : Str × Dict Str :=
  match directives.get tag with
  | some a => (nopTag, attrs.set tag (getAttr attrs a))
  | none => (tag, attrs)

/-- What becomes of the `<py:extends href="v">` inserted as first child
(`kajiki/xml_template.py` 876-882) when it is expanded with the other children. -/
def extendsChild (v : Str) (ln : Nat) : DNode :=
  .elem extendsTag [("href".toList, v)] ln [.elem nopTag [("href".toList, v)] ln []]

/-- `py:extends` on a tag moves to a new first child (`kajiki/xml_template.py` 876-882). -/
def pullExtends (tag : Str) (attrs : Dict Str) (ln : Nat) : Dict Str × List DNode :=
  if tag = nopTag then (attrs, [])
  else match attrs.get extendsTag with
    | none => (attrs, [])
    | some v => (attrs.del extendsTag, [extendsChild v ln])

/-- The attributes of the element made for a directive (`kajiki/xml_template.py` 891-892). -/
def directiveAttrs (a v : Str) : Dict Str := if a.isEmpty then [] else [(a, v)]

/-- The loop over directives (`kajiki/xml_template.py` 883-897).  After wrapping, the code calls itself
on the element without the attribute; the directives before this one are absent, so it goes on with
the next ones (`expand_unfold` in `Verif/Props/Dom.lean`). -/
def wrapAll (ln : Nat) (inner : Dict Str → DNode) : List (Str × Str) → Dict Str → DNode
  | [], attrs => inner attrs
  | (d, a) :: ds, attrs =>
    match attrs.get d with
    | none => wrapAll ln inner ds attrs
    | some v => .elem d (directiveAttrs a v) ln [wrapAll ln inner ds (attrs.del d)]

mutual
/-- `_DomTransformer._expand_directives` (`kajiki/xml_template.py` 846-900) on a node. -/
def expand : DNode → DNode
  | .elem tag attrs ln kids =>
    let t := (normTag tag attrs).1
    let px := pullExtends t (normTag tag attrs).2 ln
    wrapAll ln (fun attrs => .elem t attrs ln (px.2 ++ expandList kids)) directives px.1
  | .text d e l => .text d e l
  | .cdata d l => .cdata d l
  | .comment d l => .comment d l
  | .pi t d l => .pi t d l

/-- All children. -/
def expandList : List DNode → List DNode
  | [] => []
  | x :: xs => expand x :: expandList xs
end

/-- Apply to `doc.firstChild` only, as `_expand_directives` and `_merge_text_nodes` do
(`kajiki/xml_template.py` 762-764, 866-868). -/
def onFirst (f : DNode → DNode) : List DNode → List DNode
  | [] => []
  | x :: xs => f x :: xs

/-! ## Merging text -/

/-- Squash successive text nodes (`kajiki/xml_template.py` 768-781); the first argument is
`merge_node`. -/
def squash : Option (Str × Bool × Nat) → List DNode → List DNode
  | none, [] => []
  | some (d, e, l), [] => [.text d e l]
  | none, .text d e l :: xs => squash (some (d, e, l)) xs
  | some (d, e, l), .text d' _ _ :: xs => squash (some (d ++ d', e, l)) xs
  | none, x :: xs => x :: squash none xs
  | some (d, e, l), x :: xs => .text d e l :: x :: squash none xs

mutual
/-- `_merge_text_nodes` (`kajiki/xml_template.py` 754-788) on a node.  The code squashes the children
before it descends; descending does not touch text nodes, so the order does not matter. -/
def merge : DNode → DNode
  | .elem tag attrs ln kids => .elem tag attrs ln (squash none (mergeList kids))
  | .text d e l => .text d e l
  | .cdata d l => .cdata d l
  | .comment d l => .comment d l
  | .pi t d l => .pi t d l

/-- All children. -/
def mergeList : List DNode → List DNode
  | [] => []
  | x :: xs => merge x :: mergeList xs
end

/-! ## Splitting off whitespace -/

/-- A text node, if there is text. -/
def textUnlessEmpty (d : Str) (e : Bool) (l : Nat) : List DNode :=
  if d.isEmpty then [] else [.text d e l]

/-- One text node (`kajiki/xml_template.py` 801-827). -/
def splitText (d : Str) (e : Bool) (l : Nat) : List DNode :=
  if (strip d).isEmpty then [.text d e l]
  else
    let lead := d.take (d.length - (lstrip d).length)
    let l' := l + countNL lead
    let body := lstrip d
    let core := rstrip body
    let tailLen := body.length - core.length
    textUnlessEmpty lead e l ++
      (.text core e l' :: textUnlessEmpty (body.drop (body.length - tailLen)) e
        (l' + countNL (body.take (body.length - tailLen))))

mutual
/-- `_extract_nodes_leading_and_trailing_spaces` (`kajiki/xml_template.py` 790-830) below a node. -/
def extract : DNode → List DNode
  | .elem tag attrs ln kids => [.elem tag attrs ln (extractList kids)]
  | .text d e l => splitText d e l
  | .cdata d l => [.cdata d l]
  | .comment d l => [.comment d l]
  | .pi t d l => [.pi t d l]

/-- All children. -/
def extractList : List DNode → List DNode
  | [] => []
  | x :: xs => extract x ++ extractList xs
end

mutual
/-- `_strip_text_nodes` (`kajiki/xml_template.py` 832-844) below a node. -/
def stripNode : DNode → DNode
  | .elem tag attrs ln kids => .elem tag attrs ln (stripList kids)
  | .text d e l => .text (strip d) e (l + countNL (d.take (d.length - (lstrip d).length)))
  | .cdata d l => .cdata d l
  | .comment d l => .comment d l
  | .pi t d l => .pi t d l

/-- All children. -/
def stripList : List DNode → List DNode
  | [] => []
  | x :: xs => stripNode x :: stripList xs
end

/-- `_DomTransformer.transform` (`kajiki/xml_template.py` 739-752). -/
def transform (stripText : Bool) (doc : Doc) : Doc :=
  let ks := onFirst merge (onFirst expand doc.kids)
  let ks := extractList ks
  { doc with kids := if stripText then stripList ks else ks }

end Kajiki

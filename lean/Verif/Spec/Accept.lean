import Verif.Spec.DocSem

/-!
# Which documents are accepted

Used to state C62, together with `placed` of `Verif/Spec/DocSem.lean`.
-/

namespace Kajiki.Spec.Accept
open Kajiki.Spec.DocSem

/-- It is not an exception. -/
def fine {α : Type} : Except Err α → Bool
  | .ok _ => true
  | .error _ => false

/-- The expressions in a text are complete (C29). -/
def scans (py : PyCompile) (src : Str) : Bool := fine (compileTextSrc py ⟨false, false⟩ src 0)

/-- A part of a text is blank text. -/
def blankPiece : Str ⊕ Str → Bool
  | .inl t => (strip t).isEmpty
  | .inr _ => false

/-- A part of a text of which references can be resolved (a number may be too large). -/
def resolvable : Str ⊕ Str → Bool
  | .inl t => fine (unescape t)
  | .inr e => fine (unescape e)

/-- The content of a script: only text, of which references can be resolved. -/
def scriptAccepted (c : CEnv) : List DNode → Bool
  | [] => true
  | .cdata _ _ :: xs => scriptAccepted c xs
  | .text d e _ :: xs => scans c.py d && (!e || (cut c.py d).all resolvable) && scriptAccepted c xs
  | _ => false

/-- `py:autoblock` is true or false. -/
def markAccepted (o : Opts) (tag : Str) (attrs : Dict Str) : Bool :=
  !o.autoblocks.contains tag ||
    match Dict.get attrs "py:autoblock".toList with
    | none => true
    | some v => lowerAscii v = "true".toList ∨ lowerAscii v = "false".toList

/-- A block of a child template has a name that fits into a line of Python. -/
def nameAccepted (p : Place) (name : Str) : Bool :=
  !p.child || fine (pythonNode ("parent_block=parent.".toList ++ blockName name))

/-- A `py:else` is inside a `py:nop` or a `py:switch`, or directly after a `py:if`. -/
def elseAccepted (parent : Option Str) (switch : Bool) (prev : Str) : Bool :=
  match parent with
  | none => false
  | some q => q = "py:nop".toList ∨ switch = true ∨ prev = "py:if".toList

/-- The first child is an element. -/
def startsWithElement : List DNode → Bool
  | .elem .. :: _ => true
  | _ => false

mutual
/-- The node can be in a `py:switch`: a `py:case`, a `py:else`, blank text, or something that leaves nothing. -/
def choiceOnly (c : CEnv) (p : Place) : DNode → Bool
  | .text d _ _ => (cut c.py d).all blankPiece
  | .cdata d _ => (cut c.py d).all blankPiece
  | .comment d _ => ['!'].isPrefixOf d
  | .pi _ d _ => (pyLines (strip d)).1
  | .elem tag attrs _ kids =>
    if auto c.opts tag attrs then (afterAll c.opts p kids).child
    else match dirOf tag with
      | some .caseD => true
      | some .elseD => true
      | some .nop => choicesOnly c p kids
      | some .block => (afterAll c.opts p kids).child
      | some .defn => !p.inDef
      | _ => false

/-- All of them can. -/
def choicesOnly (c : CEnv) (p : Place) : List DNode → Bool
  | [] => true
  | x :: xs => choiceOnly c p x && choicesOnly c (after c.opts p x) xs
end

mutual
/-- The node is accepted by the template compiler.  `parent` is the tag of the parent (`none` for the document),
`switch` tells that the parent has an attribute `py:switch`, `prev` is the tag of the previous sibling. -/
def accepted (c : CEnv) (p : Place) (parent : Option Str) (switch : Bool) (prev : Str) : DNode → Bool
  | .text d _ _ => parent.isSome && scans c.py d
  | .cdata d _ => parent.isSome && scans c.py d
  | .comment _ _ => true
  | .pi _ d _ => fine (pythonNode (strip d))
  | .elem tag attrs _ kids =>
    markAccepted c.opts tag attrs &&
    let inside := Dict.has attrs "py:switch".toList
    if auto c.opts tag attrs then
      acceptedAll c p false (some tag) inside [] kids && nameAccepted (afterAll c.opts p kids) tag
    else match dirOf tag with
      | none =>
        (plainAttrs c.opts tag attrs).all (fun kv => kv.1 = "py:strip".toList || scans c.py kv.2) &&
        (!(attr attrs "py:content").isEmpty ||
          if script c.opts tag then scriptAccepted c kids else acceptedAll c p true (some tag) inside [] kids)
      | some .replace => true
      | some .imp => true
      | some .incl => true
      | some .ext => acceptedAll c p.ext false (some tag) inside [] kids
      | some .block =>
        acceptedAll c p false (some tag) inside [] kids && nameAccepted (afterAll c.opts p kids) (attr attrs "name")
      | some .defn => acceptedAll c p.fn false (some tag) inside [] kids
      | some .call => startsWithElement kids && acceptedAll c p false (some tag) inside [] kids
      | some .withD =>
        acceptedAll c p false (some tag) inside [] kids && fine (withAssignments (attr attrs "vars"))
      | some .switchD => acceptedAll c p false (some tag) inside [] kids && choicesOnly c p kids
      | some .elseD => elseAccepted parent switch prev && acceptedAll c p false (some tag) inside [] kids
      | some _ => acceptedAll c p false (some tag) inside [] kids

/-- All of them are accepted.  The markers of a CDATA section in an ordinary element (`raw`) always are. -/
def acceptedAll (c : CEnv) (p : Place) (raw : Bool) (parent : Option Str) (switch : Bool) (prev : Str) :
    List DNode → Bool
  | [] => true
  | x :: xs =>
    (match raw, x with
      | true, .cdata _ _ => true
      | _, x => accepted c p parent switch prev x) &&
    acceptedAll c (after c.opts p x) raw parent switch (tagOf x) xs
end

mutual
/-- No `py:for`, `py:if`, `py:else`, `py:case` or `py:call` without anything in it.  The functions that are
defined in the node are not looked at. -/
def filled (c : CEnv) (p : Place) : DNode → Bool
  | .elem tag attrs _ kids =>
    auto c.opts tag attrs ||
    match dirOf tag with
    | none => ownContent c.opts tag attrs || filledAll c p kids
    | some .replace => true
    | some .imp => true
    | some .incl => true
    | some .block => true
    | some .ext => filledAll c p.ext kids
    | some .defn => !p.inDef || filledAll c p.fn kids
    | some .withD => filledAll c p kids
    | some .switchD => filledAll c p kids
    | some .nop => filledAll c p kids
    | some _ => !silentAll c p kids && filledAll c p kids
  | _ => true

/-- The same for several nodes. -/
def filledAll (c : CEnv) (p : Place) : List DNode → Bool
  | [] => true
  | x :: xs => filled c p x && filledAll c (after c.opts p x) xs
end

/-- The same for the body of a function. -/
def partFilled : Part → Bool
  | .main c _ root => filled c .root root
  | .body c p _ kids => filledAll c p kids
  | .block c p _ _ kids => filledAll c p kids

mutual
/-- There are no elements of unknown directives. -/
def known (o : Opts) : DNode → Bool
  | .elem tag attrs _ kids =>
    (auto o tag attrs || (dirOf tag).isSome || !"py:".toList.isPrefixOf tag) && knownAll o kids
  | _ => true

/-- The same for several nodes. -/
def knownAll (o : Opts) : List DNode → Bool
  | [] => true
  | x :: xs => known o x && knownAll o xs
end

/-- The document has a root element that is accepted. -/
def Template.accepted (t : Template) : Bool :=
  match t.root? with
  | none => false
  | some root => Accept.accepted t.conf .root none false [] root

/-- In no function there is a directive without content. -/
def Template.filled (t : Template) : Bool := t.functions.all fun f => partFilled f.2

/-- There are no elements of unknown directives. -/
def Template.known (t : Template) : Bool :=
  match t.root? with
  | none => false
  | some root => Accept.known t.conf.opts root

end Kajiki.Spec.Accept

import Verif.Model.Program
import Verif.Model.XmlCompile

/-!
# What an XML document means

The meaning of a transformed document (directives are elements, C20-C22), read directly from its nodes:
no intermediate representation, no generated code, no registries and no runtime stacks.  Used to state C61.

Python is what it is for the interpreter (`Verif/Model/Interp.lean`): expressions, scopes, instances and
function objects.  A function object has a part of a document as its body.  Texts are cut into literal text
and expressions by the scanner (C28, C29), `py:with` is cut into assignments as in C55, and Python blocks are
dedented as in C56.
-/

namespace Kajiki.Spec.DocSem
open Kajiki.Run

/-! ## Elements -/

/-- The directives. -/
inductive Dir
  | replace | imp | ext | incl | block | defn | call | forD | withD | switchD | caseD | ifD | elseD | nop
deriving DecidableEq, Repr

/-- Their elements. -/
def directives : List (Str × Dir) :=
  [("py:replace".toList, .replace), ("py:import".toList, .imp), ("py:extends".toList, .ext),
   ("py:include".toList, .incl), ("py:block".toList, .block), ("py:def".toList, .defn),
   ("py:call".toList, .call), ("py:for".toList, .forD), ("py:with".toList, .withD),
   ("py:switch".toList, .switchD), ("py:case".toList, .caseD), ("py:if".toList, .ifD),
   ("py:else".toList, .elseD), ("py:nop".toList, .nop)]

/-- The directive an element is. -/
def dirOf (tag : Str) : Option Dir := Dict.get directives tag

/-- The value of an attribute, empty if it is absent. -/
def attr (attrs : Dict Str) (k : String) : Str := (Dict.get attrs k.toList).getD []

/-- The element is an automatic block. -/
def auto (o : Opts) (tag : Str) (attrs : Dict Str) : Bool :=
  o.autoblocks.contains tag && decide (lowerAscii (attr attrs "py:autoblock") ≠ "false".toList)

/-- A script or style sheet. -/
def scriptTag (tag : Str) : Bool := tag = "script".toList ∨ tag = "style".toList

/-- The element is a script or style sheet, and these are treated specially. -/
def script (o : Opts) (tag : Str) : Bool := o.cdataScripts && scriptTag tag

/-- The content of an ordinary element is not used: there is a `py:content`, or it is a script. -/
def ownContent (o : Opts) (tag : Str) (attrs : Dict Str) : Bool :=
  !(attr attrs "py:content").isEmpty || script o tag

/-- `<?py %…?>` is for the module. -/
def pyLines (src : Str) : Bool × List Str :=
  match pythonNode src with
  | .ok p => p
  | .error _ => (false, [])

/-! ## Places

What the meaning of a node depends on besides its content: whether it is inside a function, whether a
`py:extends` came before, and how many `py:call`s ended before (they name the functions made for `py:call`). -/

/-- A place in a document. -/
structure Place where
  inDef : Bool
  child : Bool
  calls : Nat

/-- Inside a function. -/
def Place.fn (p : Place) : Place := { p with inDef := true }

/-- Inside a `py:extends`. -/
def Place.ext (p : Place) : Place := { p with child := true }

mutual
/-- The place after a node. -/
def after (o : Opts) (p : Place) : DNode → Place
  | .elem tag attrs _ kids =>
    if auto o tag attrs then afterAll o p kids
    else match dirOf tag with
      | none => if ownContent o tag attrs then p else afterAll o p kids
      | some .replace => p
      | some .imp => p
      | some .incl => p
      | some .ext => afterAll o p.ext kids
      | some .defn => { afterAll o p.fn kids with inDef := p.inDef }
      | some .call => let q := afterAll o p kids; { q with calls := q.calls + 1 }
      | some _ => afterAll o p kids
  | _ => p

/-- The place after several nodes. -/
def afterAll (o : Opts) (p : Place) : List DNode → Place
  | [] => p
  | x :: xs => afterAll o (after o p x) xs
end

/-! ## Functions -/

/-- The body of a function: the whole template with its DOCTYPE, the content of a `py:def` or `py:call`, or
the content of a block called `name`. -/
inductive Part
  | main (c : CEnv) (doctype : Str) (root : DNode)
  | body (c : CEnv) (p : Place) (tag : Str) (kids : List DNode)
  | block (c : CEnv) (p : Place) (tag name : Str) (kids : List DNode)

/-- `_kj_block_name` -/
def blockName (name : Str) : Str := "_kj_block_".toList ++ name

/-- `_kj_block_name()` -/
def blockDecl (name : Str) : Str := blockName name ++ "()".toList

mutual
/-- The functions of the template that a node defines. -/
def defs (c : CEnv) (p : Place) : DNode → List (Str × Part)
  | .elem tag attrs _ kids =>
    if auto c.opts tag attrs then defsAll c p kids ++ [(blockDecl tag, .block c p tag tag kids)]
    else match dirOf tag with
      | none => if ownContent c.opts tag attrs then [] else defsAll c p kids
      | some .replace => []
      | some .imp => []
      | some .incl => []
      | some .ext => defsAll c p.ext kids
      | some .block =>
        defsAll c p kids ++ [(blockDecl (attr attrs "name"), .block c p tag (attr attrs "name") kids)]
      | some .defn =>
        defsAll c p.fn kids ++ if p.inDef then [] else [(attr attrs "function", .body c p.fn tag kids)]
      | some _ => defsAll c p kids
  | _ => []

/-- The functions of the template that several nodes define. -/
def defsAll (c : CEnv) (p : Place) : List DNode → List (Str × Part)
  | [] => []
  | x :: xs => defs c p x ++ defsAll c (after c.opts p x) xs
end

/-! ## Text -/

/-- A text cut into literal text and expressions. -/
def cut (py : PyCompile) (src : Str) : List (Str ⊕ Str) :=
  match compileTextSrc py ⟨false, false⟩ src 0 with
  | .ok xs => xs.filterMap fun
    | .text t _ _ => some (.inl t)
    | .expr e _ _ => some (.inr e)
    | _ => none
  | .error _ => []

mutual
/-- The node stands for nothing at all (and not just for empty text). -/
def silent (c : CEnv) (p : Place) : DNode → Bool
  | .text d _ _ => (cut c.py d).isEmpty
  | .cdata d _ => (cut c.py d).isEmpty
  | .comment d _ => ['!'].isPrefixOf d
  | .pi _ d _ => (pyLines (strip d)).1
  | .elem tag attrs _ kids =>
    if auto c.opts tag attrs then (afterAll c.opts p kids).child
    else match dirOf tag with
      | some .block => (afterAll c.opts p kids).child
      | some .defn => !p.inDef
      | some .nop => silentAll c p kids
      | _ => false

/-- All of them do. -/
def silentAll (c : CEnv) (p : Place) : List DNode → Bool
  | [] => true
  | x :: xs => silent c p x && silentAll c (after c.opts p x) xs
end

mutual
/-- The node shows something under some circumstances (and not only by defining a function). -/
def speaks (c : CEnv) (p : Place) : DNode → Bool
  | .text d _ _ => !(cut c.py d).isEmpty
  | .cdata d _ => !(cut c.py d).isEmpty
  | .comment d _ => !['!'].isPrefixOf d
  | .pi _ _ _ => false
  | .elem tag attrs _ kids =>
    if auto c.opts tag attrs then !(afterAll c.opts p kids).child
    else match dirOf tag with
      | some .block => !(afterAll c.opts p kids).child
      | some .defn => false
      | some .imp => false
      | some .forD => speaksAny c p kids
      | some .withD => speaksAny c p kids
      | some .switchD => speaksChoices c p kids
      | some .caseD => speaksAny c p kids
      | some .ifD => speaksAny c p kids
      | some .elseD => speaksAny c p kids
      | some .nop => speaksAny c p kids
      | _ => true

/-- Some of the nodes do. -/
def speaksAny (c : CEnv) (p : Place) : List DNode → Bool
  | [] => false
  | x :: xs => speaks c p x || speaksAny c (after c.opts p x) xs

/-- A choice of a `py:switch` shows something under some circumstances. -/
def speaksChoice (c : CEnv) (p : Place) : DNode → Bool
  | .elem tag _ _ kids =>
    match dirOf tag with
    | some .caseD => speaksAny c p kids
    | some .elseD => speaksAny c p kids
    | some .nop => speaksChoices c p kids
    | _ => false
  | _ => false

/-- Some of the choices do. -/
def speaksChoices (c : CEnv) (p : Place) : List DNode → Bool
  | [] => false
  | x :: xs => speaksChoice c p x || speaksChoices c (after c.opts p x) xs
end

section
variable {W : Type}

/-- Computations. -/
abbrev MD (W α : Type) : Type := MS Part W α

variable (P : Prog Part) (O : Oracle W) (call : Mode → Nat → List Val → MD W Unit)

/-- Evaluate a test. -/
def test (env : Env) (e : Str) : MD W Bool :=
  M.bind (evalM O env e) fun v => M.pure (truthy v)

/-- Evaluate an expression and show its value escaped. -/
def escaped (env : Env) (e : Str) : MD W Unit :=
  M.bind (evalM O env e) fun v => emit call env.mode (escape v)

/-- Evaluate an expression and show its value as it is. -/
def unescaped (env : Env) (e : Str) : MD W Unit :=
  M.bind (evalM O env e) fun v => emit call env.mode v

/-- Literal text. -/
def say (t : Str) : MD W Unit := M.tell (.chunk t)

/-- Literal text that is translated unless it is blank. -/
def saying (env : Env) (t : Str) : MD W Unit :=
  if (strip t).isEmpty then say t else M.bind (gettextM O env t) fun v => emit call env.mode v

/-- A text in an element: translated, except in a script or style sheet. -/
def text (c : CEnv) (env : Env) (tag d : Str) : MD W Unit :=
  M.each (fun
    | .inl t => if scriptTag tag then say t else saying O call env t
    | .inr e => escaped O call env e) (cut c.py d)

/-- A Python block. -/
def python (env : Env) (ls : List Str) : MD W Unit :=
  if ls.isEmpty then M.pure () else M.bind (ask env (O.py ls)) fun b => setVars env b

/-- References in the text of a script are resolved, since browsers do not. -/
def resolve (t : Str) : Str :=
  match unescape t with
  | .ok t => t
  | .error _ => t

/-- A text in a script; `esc` tells that it was not in a CDATA section. -/
def scriptText (c : CEnv) (env : Env) (esc : Bool) (d : Str) : MD W Unit :=
  M.each (fun
    | .inl t => say (if esc then resolve t else t)
    | .inr e => escaped O call env (if esc then resolve e else e)) (cut c.py d)

/-- A script is put into a CDATA section in xml mode. -/
def scriptContent (c : CEnv) (env : Env) (kids : List DNode) : MD W Unit :=
  M.bind (if c.mode = "xml".toList then say "/*<![CDATA[*/".toList else M.pure ()) fun _ =>
  M.bind (M.each (fun
    | .text d e _ => scriptText O call c env e d
    | _ => M.pure ()) kids) fun _ =>
  if c.mode = "xml".toList then say "/*]]>*/".toList else M.pure ()

/-! ## Tags -/

/-- The condition of the tags of an element with `py:strip`. -/
def keepTag (attrs : Dict Str) : Option Str :=
  (Dict.get attrs "py:strip".toList).map fun e =>
    if e.isEmpty then "False".toList else "not (".toList ++ e ++ ")".toList

/-- Something that is there under a condition. -/
def under (env : Env) (cond : Option Str) (m : MD W Unit) : MD W Unit :=
  match cond with
  | none => m
  | some e => M.bind (test O env e) fun b => if b then m else M.pure ()

/-- The value of an attribute: the text as it is, and the values of the expressions. -/
def attrValue (c : CEnv) (env : Env) (v : Str) : MD W Unit :=
  if (cut c.py v).isEmpty then say []
  else M.each (fun
    | .inl t => say t
    | .inr e => unescaped O call env e) (cut c.py v)

/-- An attribute: the value is collected and then rendered (C04-C06). -/
def attrPart (c : CEnv) (env : Env) (cond : Option Str) (k v : Str) : MD W Unit :=
  under O env cond (M.bind (collectM env fun env => attrValue O call c env v) fun _ => attrM env k c.mode)

/-- Attributes with a meaning of their own. -/
def special (k : Str) : Bool :=
  k = "py:content".toList ∨ k = "py:attrs".toList ∨ k = "py:strip".toList

/-- The start of the start tag: the name, the attributes in alphabetical order, and `py:attrs`. -/
def startTag (c : CEnv) (env : Env) (tag : Str) (attrs : Dict Str) : MD W Unit :=
  M.bind (under O env (keepTag attrs) (say ('<' :: tag))) fun _ =>
  M.bind (M.each (fun kv => attrPart O call c env (keepTag attrs) kv.1 kv.2)
    (sortItems (attrs.filter fun kv => !special kv.1))) fun _ =>
  if (attr attrs "py:attrs").isEmpty then M.pure ()
  else under O env (keepTag attrs) (attrsM O env (attr attrs "py:attrs") c.mode)

/-- An html mode. -/
def html (mode : Str) : Bool := "html".toList.isPrefixOf mode

/-- Elements that have no end tag in html. -/
def void (tag : Str) : Bool :=
  (["area", "base", "br", "col", "hr", "img", "input", "link", "meta", "param"].map String.toList).contains tag

/-- `</tag>` -/
def close (tag : Str) : Str := "</".toList ++ tag ++ ">".toList

/-- The end of an element without content. -/
def emptyTag (mode tag : Str) : Str :=
  if html mode && void tag then ">".toList
  else if html mode || tag = "script".toList then ">".toList ++ close tag
  else "/>".toList

/-- The attributes without the mark of automatic blocks. -/
def plainAttrs (o : Opts) (tag : Str) (attrs : Dict Str) : Dict Str :=
  if o.autoblocks.contains tag then attrs.filter (·.1 ≠ "py:autoblock".toList) else attrs

/-- The parameters of the function made for a `py:call`: `args` of its first child, if that is an element. -/
def callArgs : List DNode → Str
  | .elem _ bs _ _ :: _ => attr bs "args"
  | _ => []

/-! ## Nodes -/

mutual
/-- A node in an element `tag`; `els` is the meaning of a directly following `py:else`. -/
def node (c : CEnv) (env : Env) (p : Place) (els : MD W Unit) (tag : Str) : DNode → MD W Unit
  | .text d _ _ => text O call c env tag d
  | .cdata d _ => text O call c env tag d
  | .comment d _ =>
    if ['!'].isPrefixOf d then M.pure () else say ("<!-- ".toList ++ d ++ " -->".toList)
  | .pi _ d _ =>
    if (pyLines (strip d)).1 then M.pure () else python O env (pyLines (strip d)).2
  | .elem t as _ kids =>
    if auto c.opts t as then
      if (afterAll c.opts p kids).child then M.pure () else escaped O call env (blockDecl t)
    else match dirOf t with
      | none =>
        let attrs := plainAttrs c.opts t as
        let tag := fun s => under O env (keepTag attrs) (say s)
        M.bind (startTag O call c env t attrs) fun _ =>
          if !(attr attrs "py:content").isEmpty then
            M.bind (tag ">".toList) fun _ =>
            M.bind (escaped O call env (attr attrs "py:content")) fun _ => tag (close t)
          else if kids.isEmpty then tag (emptyTag c.mode t)
          else
            M.bind (tag ">".toList) fun _ =>
            M.bind (if script c.opts t then scriptContent O call c env kids
              else nodes c env p true t kids) fun _ =>
            if html c.mode && void t then M.pure () else tag (close t)
      | some .replace => escaped O call env (attr as "value")
      | some .imp => M.bind (importM P env (attr as "href") (Dict.get as "alias".toList)) fun _ => M.pure ()
      | some .incl => M.bind (importM P env (attr as "href") none) fun i => emitMain call env.mode i
      | some .ext =>
        M.bind (M.bind (extendM P env (attr as "href")) fun i => emitMain call env.mode i) fun _ =>
        nodes c env p.ext false t kids
      | some .block =>
        if (afterAll c.opts p kids).child then M.pure ()
        else escaped O call env (blockDecl (attr as "name"))
      | some .defn =>
        if p.inDef then fdefM env (attr as "function") (.body c p.fn t kids) else M.pure ()
      | some .call =>
        let name := c.gen (afterAll c.opts p kids).calls
        M.bind (fdefM env (replace "$caller".toList name ("$caller(".toList ++ callArgs kids ++ ")".toList))
          (.body c p t kids)) fun _ =>
        unescaped O call env
          (replace "$caller".toList name (replace "%caller".toList "$caller".toList (attr as "function")))
      | some .forD =>
        M.bind (ask env (O.iter (attr as "each"))) fun bs =>
        M.each (fun vars => M.bind (setVars env vars) fun _ => nodes c env p false t kids) bs
      | some .withD =>
        let vs := (withAssignments (attr as "vars")).toOption.getD []
        M.bind (kjInst env) fun _ =>
        M.bind M.get fun s =>
        M.bind (M.each (fun kv => M.bind (evalM O env kv.2) fun v => setVars env [(kv.1, v)]) vs) fun _ =>
        M.bind (nodes c env p false t kids) fun _ =>
        setVars env ((vs.map (·.1)).zip
          ((vs.map (·.1)).map fun k => ((localVars env s).get k).getD .unit))
      | some .switchD =>
        M.bind (kjInst env) fun _ =>
        M.bind (evalM O env (attr as "test")) fun v => choices c env p v (M.pure ()) kids
      | some .caseD => M.pure ()
      | some .ifD =>
        M.bind (test O env (attr as "test")) fun b => if b then nodes c env p false t kids else els
      | some .elseD => M.pure ()
      | some .nop => nodes c env p false t kids

/-- Nodes in order.  The markers of a CDATA section are kept in ordinary elements (`raw`); in the element of a
directive they are text. -/
def nodes (c : CEnv) (env : Env) (p : Place) (raw : Bool) (tag : Str) : List DNode → MD W Unit
  | [] => M.pure ()
  | x :: xs =>
    M.bind (match raw, x with
      | true, .cdata d _ => say d
      | _, x => node c env p (otherwise c env (after c.opts p x) xs) tag x) fun _ =>
    nodes c env (after c.opts p x) raw tag xs

/-- The `py:else` a list of nodes starts with, or nothing. -/
def otherwise (c : CEnv) (env : Env) (p : Place) : List DNode → MD W Unit
  | .elem t _ _ kids :: _ =>
    if dirOf t = some .elseD then nodes c env p false t kids else M.pure ()
  | _ => M.pure ()

/-- The first `py:case` equal to `v`, or the `py:else`, or `rest`. -/
def choice (c : CEnv) (env : Env) (p : Place) (v : Val) (rest : MD W Unit) : DNode → MD W Unit
  | .elem t as _ kids =>
    match dirOf t with
    | some .caseD =>
      M.bind (evalM O env (attr as "value")) fun u =>
        if pyEq u v then nodes c env p false t kids else rest
    | some .elseD => nodes c env p false t kids
    | some .nop => choices c env p v rest kids
    | _ => rest
  | _ => rest

/-- The same for several nodes. -/
def choices (c : CEnv) (env : Env) (p : Place) (v : Val) (rest : MD W Unit) : List DNode → MD W Unit
  | [] => rest
  | x :: xs => choice c env p v (choices c env (after c.opts p x) v rest xs) x
end

/-! ## Templates -/

/-- The place of the root. -/
def Place.root : Place := ⟨false, false, 0⟩

/-- The body of a function.  One without anything in it yields the empty string, but reading another one that
never shows anything is an error. -/
def part (env : Env) : Part → MD W Unit
  | .main c doctype root =>
    if doctype.isEmpty && silent c .root root then say []
    else reading (!doctype.isEmpty || speaks c .root root)
      (M.bind (if doctype.isEmpty then M.pure () else say doctype) fun _ =>
        node P O call c env .root (M.pure ()) [] root)
  | .body c p tag kids =>
    if silentAll c p kids then say [] else reading (speaksAny c p kids) (nodes P O call c env p false tag kids)
  | .block c p tag name kids =>
    M.bind (if (afterAll c.opts p kids).child
      then python O env (pyLines ("parent_block=parent.".toList ++ blockName name)).2 else M.pure ()) fun _ =>
    if silentAll c p kids then say [] else reading (speaksAny c p kids) (nodes P O call c env p false tag kids)

end

/-- A template: how it is compiled, the transformed document, and the global names its module defines. -/
structure Template where
  conf : CEnv
  doc : Doc
  base : Dict Val

/-- A template source: how it is compiled, the events expat reports for it with its DOCTYPE, and the global
names its module defines. -/
structure SourceFile where
  py : PyCompile
  gen : Nat → Str
  opts : Opts
  stripText : Bool
  dtd : Str
  events : List Event
  base : Dict Val

/-- The template of a source, if it is well-formed. -/
def SourceFile.template (x : SourceFile) : Option Template :=
  match parseEvents x.dtd x.events with
  | .error _ => none
  | .ok doc =>
    let doc := transform x.stripText doc
    some ⟨⟨x.py, selectMode x.opts.mode doc.dtd, x.opts, x.gen⟩, doc, x.base⟩

/-- The root element: comments beside it are ignored. -/
def Template.root? (t : Template) : Option DNode :=
  match t.doc.kids.filter fun | .comment _ _ => false | _ => true with
  | [root] => some root
  | _ => none

/-- The DOCTYPE that is shown. -/
def Template.doctype (t : Template) (root : DNode) : Str :=
  if t.conf.opts.isFragment || (after t.conf.opts .root root).child then []
  else if !t.doc.dtd.isEmpty then strip t.doc.dtd ++ ['\n']
  else if t.conf.mode = "html5".toList then "<!DOCTYPE html>".toList ++ ['\n']
  else []

/-- The functions of a template: the main one and those defined in it.  Of two with the same declaration the
last one counts. -/
def Template.functions (t : Template) : Dict Part :=
  match t.root? with
  | none => []
  | some root =>
    let main := "__main__()".toList
    let body := Part.main t.conf (t.doctype root) root
    Dict.set (Dict.update [(main, body)] (defs t.conf .root root)) main body

/-- The templates as a program. -/
def program (ts : List Template) (load : Str → Option Nat) (aliasFor : Str → Str) : Prog Part :=
  ⟨ts.map fun t => classOf t.functions t.base, load, aliasFor⟩

section
variable {W : Type}

/-- Calls nested at most `n` deep. -/
def callDoc (P : Prog Part) (O : Oracle W) : Nat → Mode → Nat → List Val → MD W Unit
  | 0, _, _, _ => M.throw .recursion
  | n + 1, mode, f, as => callWith O (fun env b => part P O (callDoc P O n) env b) (callDoc P O n) mode f as

/-- Template number `i` with a context, rendered in a new process. -/
def rendered (P : Prog Part) (O : Oracle W) (n i : Nat) (context : Dict Val) (w : W) : Res (Store Part W) Unit :=
  M.bind (newInst P i context) (fun j => emitMain (callDoc P O n) .stream j) (emptyStore _ w)

end

/-! ## Documents with the directives in the right places -/

/-- Where cases of a `py:switch` can be. -/
inductive Sw
  | no | cases | done
deriving DecidableEq

mutual
/-- A `py:case` is directly inside a `py:switch` (except for `py:nop`), a `py:else` follows directly on a
`py:if` or is the last choice of a `py:switch`, and there are no elements of unknown directives. -/
def placed (o : Opts) (sw : Sw) (prev : Str) : DNode → Option Sw
  | .elem tag attrs _ kids =>
    if auto o tag attrs then
      if !"py:".toList.isPrefixOf tag && (placedAll o .no [] kids).isSome then some sw else none
    else match dirOf tag with
      | none =>
        if !"py:".toList.isPrefixOf tag && (ownContent o tag attrs || (placedAll o .no [] kids).isSome)
        then some sw else none
      | some .replace => some sw
      | some .imp => some sw
      | some .incl => some sw
      | some .caseD => if sw = .cases && (placedAll o .no [] kids).isSome then some .cases else none
      | some .elseD =>
        if (placedAll o .no [] kids).isSome then
          match sw with
          | .no => if prev = "py:if".toList then some .no else none
          | .cases => some .done
          | .done => none
        else none
      | some .switchD => if (placedAll o .cases [] kids).isSome then some sw else none
      | some .nop => placedAll o sw [] kids
      | some _ => if (placedAll o .no [] kids).isSome then some sw else none
  | _ => some sw

/-- The same for several nodes; `prev` is the tag before them. -/
def placedAll (o : Opts) (sw : Sw) (prev : Str) : List DNode → Option Sw
  | [] => some sw
  | x :: xs => (placed o sw prev x).bind fun sw => placedAll o sw (tagOf x) xs
end

/-- The whole document. -/
def Template.placed (t : Template) : Bool :=
  t.doc.kids.all fun x => (DocSem.placed t.conf.opts .no [] x).isSome

/-! ## Conditions of py:strip -/

mutual
/-- The conditions of the tags below a node. -/
def tagConds (o : Opts) : DNode → List Str
  | .elem tag attrs _ kids => (keepTag (plainAttrs o tag attrs)).toList ++ tagCondsAll o kids
  | _ => []

/-- The same for several nodes. -/
def tagCondsAll (o : Opts) : List DNode → List Str
  | [] => []
  | x :: xs => tagConds o x ++ tagCondsAll o xs
end

end Kajiki.Spec.DocSem

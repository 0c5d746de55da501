import Verif.Model.Dom
import Verif.Model.XmlText
import Verif.Model.Doctype

/-!
# From the transformed document to the intermediate representation (`kajiki/xml_template.py` 68-454)

All compile methods are generators that are consumed at once and in order, so they are modelled as
functions returning the list of nodes.  When a template has several mistakes, Python may report
another one of them than the model (in a `py:switch` the children are checked while they are compiled).
-/

namespace Kajiki

/-- Options of `XMLTemplate` (`kajiki/xml_template.py` 30-32); an empty `mode` is `None`. -/
structure Opts where
  mode : Str
  isFragment : Bool
  autoblocks : List Str
  cdataScripts : Bool

/-- What compiling needs besides the document: Python's `compile`, the effective mode, the options, and
the names `gen_name` makes (`kajiki/util.py` 90-111; distinct, C54) for the callers of `py:call`. -/
structure CEnv where
  py : PyCompile
  mode : Str
  opts : Opts
  gen : Nat → Str

/-- The compiler's registries (`kajiki/xml_template.py` 79-86) and the number of names generated. -/
structure CState where
  funs : Dict (List Ir)
  modPy : List (List Str × Nat)
  inDef : Bool
  isChild : Bool
  fresh : Nat

/-- Compilations. -/
def CM (α : Type) : Type := CState → Except Err (α × CState)

namespace CM
variable {α β : Type}

/-- A value. -/
def pure (a : α) : CM α := fun s => .ok (a, s)

/-- One after the other. -/
def bind (m : CM α) (f : α → CM β) : CM β := fun s =>
  match m s with
  | .error e => .error e
  | .ok (a, s') => f a s'

/-- `raise` -/
def throw (e : Err) : CM α := fun _ => .error e

/-- A computation without state. -/
def lift (x : Except Err α) : CM α := fun s =>
  match x with
  | .error e => .error e
  | .ok a => .ok (a, s)

/-- Read the registries. -/
def get : CM CState := fun s => .ok (s, s)

/-- Change the registries. -/
def modify (f : CState → CState) : CM Unit := fun s => .ok ((), f s)

end CM

/-! ## Line numbers -/

/-- `node.lineno` -/
def Ir.ln : Ir → Nat
  | .text _ _ l | .trans _ l | .expr _ _ l | .attr _ _ _ _ l | .attrs _ _ _ l | .python _ l | .imp _ _ l
  | .incl _ l | .ext _ l | .innerDef _ _ l | .call _ _ _ l | .forN _ _ l | .withN _ _ l | .switchN _ _ l
  | .caseN _ _ l | .ifN _ _ l | .elseN _ l | .pass l => l

/-- `node.lineno = l` -/
def Ir.setLn (l : Nat) : Ir → Ir
  | .text t g _ => .text t g l
  | .trans t _ => .trans t l
  | .expr c s _ => .expr c s l
  | .attr n m g v _ => .attr n m g v l
  | .attrs c m g _ => .attrs c m g l
  | .python ls _ => .python ls l
  | .imp n a _ => .imp n a l
  | .incl n _ => .incl n l
  | .ext n _ => .ext n l
  | .innerDef d b _ => .innerDef d b l
  | .call d c b _ => .call d c b l
  | .forN d b _ => .forN d b l
  | .withN v b _ => .withN v b l
  | .switchN e b _ => .switchN e b l
  | .caseN e b _ => .caseN e b l
  | .ifN e b _ => .ifN e b l
  | .elseN b _ => .elseN b l
  | .pass _ => .pass l

/-- `_anno` (`kajiki/xml_template.py` 148-152). -/
def anno (l : Nat) (x : Ir) : Ir := if x.ln = 0 then x.setLn l else x

/-- The decorator `annotate` (`kajiki/xml_template.py` 60-65). -/
def annotate (l : Nat) (m : CM (List Ir)) : CM (List Ir) := CM.bind m fun xs => CM.pure (xs.map (anno l))

/-! ## Tables -/

/-- `HTML_OPTIONAL_END_TAGS` (`kajiki/html_utils.py` 17-28) -/
def voidTags : List Str :=
  ["area", "base", "br", "col", "hr", "img", "input", "link", "meta", "param"].map String.toList

/-- `HTML_REQUIRED_END_TAGS` (`kajiki/html_utils.py` 29) -/
def requiredEndTags : List Str := ["script".toList]

/-- `HTML_CDATA_TAGS` (`kajiki/html_utils.py` 30) -/
def cdataTags : List Str := ["script", "style"].map String.toList

/-- `self.mode.startswith('html')` -/
def isHtml (mode : Str) : Bool := "html".toList.isPrefixOf mode

/-- Which method compiles an element (`kajiki/xml_template.py` 189-196). -/
inductive Kind
  | replace | imp | ext | incl | block | defn | call | forK | withK | switchK | caseK | ifK | elseK | nop
  | xml
  /-- `py:pi`, `py:text`, `py:comment`: the method reads `node.data`, an `AttributeError` -/
  | broken
  /-- `py:node`: endless recursion -/
  | endless
deriving DecidableEq, Repr

/-- The methods by the last part of the name. -/
def kinds : Dict Kind :=
  [("replace".toList, .replace), ("import".toList, .imp), ("extends".toList, .ext),
   ("include".toList, .incl), ("block".toList, .block), ("def".toList, .defn), ("call".toList, .call),
   ("for".toList, .forK), ("with".toList, .withK), ("switch".toList, .switchK), ("case".toList, .caseK),
   ("if".toList, .ifK), ("else".toList, .elseK), ("nop".toList, .nop), ("pi".toList, .broken),
   ("text".toList, .broken), ("comment".toList, .broken), ("node".toList, .endless)]

/-- `tagName.split(':')[-1]` -/
def lastPart (tag : Str) : Str := (tag.reverse.takeWhile (· != ':')).reverse

/-- `_compile_node` for elements (`kajiki/xml_template.py` 189-196). -/
def kindOf (tag : Str) : Kind :=
  if "py:".toList.isPrefixOf tag then (kinds.get (lastPart tag)).getD .xml else .xml

/-! ## Pieces -/

/-- Where a node is: tag of the parent (`none` for the document), whether the parent has an attribute
`py:switch`, and the tag of the previous sibling. -/
structure Ctx where
  parent : Option Str
  switch : Bool
  prev : Str

/-- `getattr(node, 'tagName', '')` -/
def tagOf : DNode → Str
  | .elem tag _ _ _ => tag
  | _ => []

/-- `sorted(node.attributes.items())` (`kajiki/xml_template.py` 225); the names are distinct. -/
def insertAttr (kv : Str × Str) : List (Str × Str) → List (Str × Str)
  | [] => [kv]
  | x :: xs => if strLt x.1 kv.1 then x :: insertAttr kv xs else kv :: x :: xs

/-- `sorted(node.attributes.items())` -/
def sortItems (as : Dict Str) : List (Str × Str) := as.foldr insertAttr []

/-- The guard of `py:strip` (`kajiki/xml_template.py` 217-222). -/
def stripGuard (attrs : Dict Str) : Option Str :=
  (attrs.get "py:strip".toList).map fun g =>
    if g.isEmpty then "False".toList else "not (".toList ++ g ++ ")".toList

/-- Attributes that are not rendered (`kajiki/xml_template.py` 229-234). -/
def specialAttrs : List Str := ["py:content", "py:attrs"].map String.toList

/-- The loop over attributes (`kajiki/xml_template.py` 225-235); all are compiled, even those that are
not rendered. -/
def compileAttrs (env : CEnv) (guard : Option Str) (ln : Nat) : List (Str × Str) → Except Err (List Ir)
  | [] => .ok []
  | (k, v) :: as =>
    match compileTextSrc env.py ⟨false, true⟩ v ln with
    | .error e => .error e
    | .ok vs => prepend (if specialAttrs.contains k then [] else [.attr k env.mode guard vs 0])
        (compileAttrs env guard ln as)

/-- `if attrs: yield AttrsNode(…)` (`kajiki/xml_template.py` 236-237). -/
def attrsNode (env : CEnv) (guard : Option Str) (attrs : Dict Str) : List Ir :=
  let a := getAttr attrs "py:attrs".toList
  if a.isEmpty then [] else [.attrs a env.mode guard 0]

/-- `'</%s>'` -/
def endTag (tag : Str) : Str := "</".toList ++ tag ++ ">".toList

/-- The end of an element without children (`kajiki/xml_template.py` 272-281). -/
def emptyEnd (mode tag : Str) : Str :=
  if requiredEndTags.contains tag then '>' :: endTag tag
  else if isHtml mode then
    if voidTags.contains tag then ">".toList else '>' :: endTag tag
  else "/>".toList

/-- The end of an element with children (`kajiki/xml_template.py` 269-271). -/
def fullEnd (mode tag : Str) (guard : Option Str) : List Ir :=
  if isHtml mode && voidTags.contains tag then [] else [.text (endTag tag) guard 0]

/-- `_compile_text` (`kajiki/xml_template.py` 374-384); a document has no `tagName`. -/
def compileText (env : CEnv) (parent : Option Str) (data : Str) (ln : Nat) : CM (List Ir) :=
  match parent with
  | none => CM.throw .attr
  | some p => annotate ln (CM.lift (compileTextSrc env.py ⟨!cdataTags.contains p, false⟩ data ln))

/-- `x.text = unescape(x.text)` (`kajiki/xml_template.py` 256-257) for a text or expression. -/
def unescapeNode : Ir → Except Err Ir
  | .text t g l => (unescape t).map fun t => .text t g l
  | .trans t l => (unescape t).map fun t => .trans t l
  | .expr c s l => (unescape c).map fun c => .expr c s l
  | x => .ok x

/-- All of them. -/
def unescapeNodes : List Ir → Except Err (List Ir)
  | [] => .ok []
  | x :: xs =>
    match unescapeNode x with
    | .error e => .error e
    | .ok y => prepend [y] (unescapeNodes xs)

/-- The children of a script or style (`kajiki/xml_template.py` 250-258). -/
def compileScript (env : CEnv) (tag : Str) : List DNode → CM (List Ir)
  | [] => CM.pure []
  | .cdata _ _ :: xs => compileScript env tag xs
  | .text d e l :: xs =>
    CM.bind (compileText env (some tag) d l) fun ys =>
    CM.bind (CM.lift (if e then unescapeNodes ys else .ok ys)) fun ys =>
    CM.bind (compileScript env tag xs) fun zs => CM.pure (ys ++ zs)
  | _ => CM.throw .assertion

/-- The markers around a script in xml mode (`kajiki/xml_template.py` 247-248, 259-260). -/
def scriptMark (mode : Str) (s : String) : List Ir :=
  if mode = "xml".toList then [.text s.toList none 0] else []

/-- `_is_autoblock` (`kajiki/xml_template.py` 154-168): the answer, and the attributes afterwards. -/
def isAutoblock (env : CEnv) (tag : Str) (attrs : Dict Str) : Except Err (Bool × Dict Str) :=
  if env.opts.autoblocks.contains tag then
    match attrs.get "py:autoblock".toList with
    | none => .ok (true, attrs)
    | some v =>
      let g := lowerAscii v
      if g = "false".toList then .ok (false, attrs.del "py:autoblock".toList)
      else if g = "true".toList then .ok (true, attrs)
      else .error .value
  else .ok (false, attrs)

/-- `_compile_pi` (`kajiki/xml_template.py` 288-301). -/
def compilePi (data : Str) : CM (List Ir) :=
  CM.bind (CM.lift (pythonNode (strip data))) fun p =>
    if p.1 then CM.bind (CM.modify fun s => { s with modPy := s.modPy ++ [(p.2, 0)] }) fun _ => CM.pure []
    else CM.pure [.python p.2 0]

/-- `_compile_comment` (`kajiki/xml_template.py` 386-390). -/
def compileComment (data : Str) : List Ir :=
  if ['!'].isPrefixOf data then [] else [.text ("<!-- ".toList ++ data ++ " -->".toList) none 0]

/-- `_compile_block` (`kajiki/xml_template.py` 327-345) after its body was compiled. -/
def finishBlock (name : Str) (body : List Ir) : CM (List Ir) :=
  let fname := "_kj_block_".toList ++ name
  let decl := fname ++ "()".toList
  let body := if body.isEmpty then [.pass 0] else body
  CM.bind (CM.modify fun s => { s with funs := s.funs.set decl body }) fun _ =>
  CM.bind CM.get fun s =>
    if s.isChild then
      CM.bind (CM.lift (pythonNode ("parent_block=parent.".toList ++ fname))) fun p =>
      CM.bind (CM.modify fun s => { s with funs := s.funs.set decl (.python p.2 0 :: body) }) fun _ =>
      CM.pure []
    else CM.pure [.expr decl false 0]

/-- `_compile_def` (`kajiki/xml_template.py` 347-360) around the compilation of its body. -/
def compileDef (decl : Str) (body : CM (List Ir)) : CM (List Ir) :=
  CM.bind CM.get fun s =>
  CM.bind (CM.modify fun s => { s with inDef := true }) fun _ =>
  CM.bind body fun b =>
  CM.bind (CM.modify fun s' => { s' with inDef := s.inDef }) fun _ =>
    if s.inDef then CM.pure [.innerDef decl b 0]
    else CM.bind (CM.modify fun s => { s with funs := s.funs.set decl b }) fun _ => CM.pure []

/-- The `args` of the first child (`kajiki/xml_template.py` 365-368). -/
def callerDecl : List DNode → Except Err Str
  | [] => .error .index
  | .elem _ attrs _ _ :: _ => .ok ("$caller(".toList ++ getAttr attrs "args".toList ++ ")".toList)
  | _ => .error .attr

/-- `_compile_call` (`kajiki/xml_template.py` 362-372) and `CallNode.__init__` (`kajiki/ir.py` 176-180). -/
def compileCall (env : CEnv) (function : Str) (kids : List DNode) (body : CM (List Ir)) : CM (List Ir) :=
  CM.bind (CM.lift (callerDecl kids)) fun defn =>
  CM.bind body fun b =>
  CM.bind CM.get fun s =>
  CM.bind (CM.modify fun s => { s with fresh := s.fresh + 1 }) fun _ =>
    let fname := env.gen s.fresh
    CM.pure [.call (replace "$caller".toList fname defn)
      (replace "$caller".toList fname (replace "%caller".toList "$caller".toList function)) b 0]

/-- The check of `_compile_switch` (`kajiki/xml_template.py` 410-419). -/
def switchBody : List Ir → Except Err (List Ir)
  | [] => .ok []
  | .text t _ _ :: xs =>
    if (strip t).isEmpty then switchBody xs
    else .error (.compile "py:switch".toList)
  | .caseN e b l :: xs => prepend [.caseN e b l] (switchBody xs)
  | .elseN b l :: xs => prepend [.elseN b l] (switchBody xs)
  | _ => .error (.compile "py:switch".toList)

/-- The check of `_compile_else` (`kajiki/xml_template.py` 438-445). -/
def elseAllowed (ctx : Ctx) : Except Err Unit :=
  match ctx.parent with
  | none => .error .attr
  | some p =>
    if p ≠ nopTag ∧ ctx.switch = false ∧ ctx.prev ≠ "py:if".toList then .error (.compile "py:else".toList)
    else .ok ()

/-- `_compile_import` (`kajiki/xml_template.py` 303-310). -/
def importNode (attrs : Dict Str) : Ir := .imp (getAttr attrs "href".toList) (attrs.get "alias".toList) 0

/-- The middle of an element (`kajiki/xml_template.py` 236-281), given its compiled children. -/
def compileBody (env : CEnv) (tag : Str) (attrs : Dict Str) (guard : Option Str) (isEmpty : Bool)
    (kids : CM (List Ir)) : CM (List Ir) :=
  let content := getAttr attrs "py:content".toList
  if content.isEmpty then
    if isEmpty then CM.pure [.text (emptyEnd env.mode tag) guard 0]
    else CM.bind kids fun ks => CM.pure (.text ">".toList guard 0 :: ks ++ fullEnd env.mode tag guard)
  else CM.pure [.text ">".toList guard 0, .expr content false 0, .text (endTag tag) guard 0]

/-- `_compile_xml` (`kajiki/xml_template.py` 198-281), given its children. -/
def compileXml (env : CEnv) (tag : Str) (attrs : Dict Str) (ln : Nat) (isEmpty : Bool)
    (kids : CM (List Ir)) : CM (List Ir) :=
  let guard := stripGuard attrs
  CM.bind (CM.lift (compileAttrs env guard ln (sortItems (attrs.del "py:strip".toList)))) fun as =>
  CM.bind (compileBody env tag attrs guard isEmpty kids) fun ks =>
  CM.pure (.text ('<' :: tag) guard 0 :: as ++ attrsNode env guard attrs ++ ks)

/-- `self.cdata_scripts and node.tagName in HTML_CDATA_TAGS` -/
def isScript (env : CEnv) (tag : Str) : Bool := env.opts.cdataScripts && cdataTags.contains tag

/-- The children of a script with the markers around them (`kajiki/xml_template.py` 246-260). -/
def scriptKids (env : CEnv) (tag : Str) (kids : List DNode) : CM (List Ir) :=
  CM.bind (compileScript env tag kids) fun ks =>
  CM.pure (scriptMark env.mode "/*<![CDATA[*/" ++ ks ++ scriptMark env.mode "/*]]>*/")

/-- A directive (`kajiki/xml_template.py` 283-448), given its compiled children (`nop`). -/
def compileKind (env : CEnv) (ctx : Ctx) (attrs : Dict Str) (kids : List DNode) (nop : CM (List Ir)) :
    Kind → CM (List Ir)
  | .replace => CM.pure [.expr (getAttr attrs "value".toList) false 0]
  | .imp => CM.pure [importNode attrs]
  | .ext =>
    CM.bind (CM.modify fun s => { s with isChild := true }) fun _ =>
    CM.bind nop fun b => CM.pure (.ext (getAttr attrs "href".toList) 0 :: b)
  | .incl => CM.pure [.incl (getAttr attrs "href".toList) 0]
  | .block => CM.bind nop fun b => finishBlock (getAttr attrs "name".toList) b
  | .defn => compileDef (getAttr attrs "function".toList) nop
  | .call => compileCall env (getAttr attrs "function".toList) kids nop
  | .forK => CM.bind nop fun b => CM.pure [.forN (getAttr attrs "each".toList) b 0]
  | .withK =>
    CM.bind nop fun b =>
    CM.bind (CM.lift (withAssignments (getAttr attrs "vars".toList))) fun vs => CM.pure [.withN vs b 0]
  | .switchK =>
    CM.bind nop fun b =>
    CM.bind (CM.lift (switchBody b)) fun b => CM.pure [.switchN (getAttr attrs "test".toList) b 0]
  | .caseK => CM.bind nop fun b => CM.pure [.caseN (getAttr attrs "value".toList) b 0]
  | .ifK => CM.bind nop fun b => CM.pure [.ifN (getAttr attrs "test".toList) b 0]
  | .elseK => CM.bind (CM.lift (elseAllowed ctx)) fun _ => CM.bind nop fun b => CM.pure [.elseN b 0]
  | .nop => nop
  | .xml => CM.pure []
  | .broken => CM.throw .attr
  | .endless => CM.throw .recursion

/-! ## Nodes -/

mutual
/-- `_compile_node` (`kajiki/xml_template.py` 170-196). -/
def compileNode (env : CEnv) (ctx : Ctx) : DNode → CM (List Ir)
  | .comment d ln => annotate ln (CM.pure (compileComment d))
  | .text d _ ln => compileText env ctx.parent d ln
  | .cdata d ln => compileText env ctx.parent d ln
  | .pi _ d ln => annotate ln (compilePi d)
  | .elem tag attrs ln kids =>
    CM.bind (CM.lift (isAutoblock env tag attrs)) fun auto =>
    let attrs := auto.2
    let sw := attrs.has "py:switch".toList
    if auto.1 then
      annotate ln (CM.bind (annotate ln (compileKids env false (some tag) sw [] kids)) fun b =>
        finishBlock tag b)
    else match kindOf tag with
      | .xml =>
        annotate ln (compileXml env tag attrs ln kids.isEmpty
          (if isScript env tag then scriptKids env tag kids
           else compileKids env true (some tag) sw [] kids))
      | k =>
        annotate ln (compileKind env ctx attrs kids
          (annotate ln (compileKids env false (some tag) sw [] kids)) k)

/-- The children of a node in order.  `raw` tells that the markers of a CDATA section are kept as they are
(`kajiki/xml_template.py` 262-268); otherwise they are compiled as text (450-454).  `prev` is the tag of
the previous sibling. -/
def compileKids (env : CEnv) (raw : Bool) (parent : Option Str) (sw : Bool) (prev : Str) :
    List DNode → CM (List Ir)
  | [] => CM.pure []
  | .cdata d ln :: xs =>
    CM.bind (if raw then CM.pure [.text d none 0] else compileText env parent d ln) fun ys =>
    CM.bind (compileKids env raw parent sw [] xs) fun zs => CM.pure (ys ++ zs)
  | x :: xs =>
    CM.bind (compileNode env ⟨parent, sw, prev⟩ x) fun ys =>
    CM.bind (compileKids env raw parent sw (tagOf x) xs) fun zs => CM.pure (ys ++ zs)
end

/-! ## Documents -/

/-- `isinstance(n, dom.Comment)` -/
def isComment : DNode → Bool
  | .comment _ _ => true
  | _ => false

/-- The DOCTYPE to emit (`kajiki/xml_template.py` 125-136). -/
def doctypeNode (mode dtd : Str) : List Ir :=
  if !dtd.isEmpty then [.text (strip dtd ++ ['\n']) none 1]
  else if mode = "html5".toList then [.text ("<!DOCTYPE html>".toList ++ ['\n']) none 1]
  else []

/-- `__main__()` -/
def mainDecl : Str := "__main__()".toList

/-- The registries at the start (`kajiki/xml_template.py` 79-86). -/
def CState.start : CState := ⟨[(mainDecl, [])], [], false, false, 0⟩

/-- `_Compiler.compile` (`kajiki/xml_template.py` 97-146). -/
def compileDoc (env : CEnv) (doc : Doc) : Except Err Tmpl :=
  match doc.kids.filter fun n => !isComment n with
  | [root] =>
    match compileNode env ⟨none, false, []⟩ root .start with
    | .error e => .error e
    | .ok (body, s) =>
      let body := if !env.opts.isFragment && !s.isChild then doctypeNode env.mode doc.dtd ++ body else body
      .ok ⟨s.modPy, (s.funs.set mainDecl body).map fun f => ⟨f.1, f.2, 0⟩⟩
  | _ => .error (.compile "expected a single root node in document".toList)

/-- `_Compiler(…).compile()` with the mode chosen by `__init__` (`kajiki/xml_template.py` 87-95). -/
def compileXmlDoc (py : PyCompile) (gen : Nat → Str) (o : Opts) (doc : Doc) : Except Err Tmpl :=
  compileDoc ⟨py, selectMode o.mode doc.dtd, o, gen⟩ doc

/-- `XMLTemplate` (`kajiki/xml_template.py` 30-57) up to the intermediate representation, from the events
expat reports for the source. -/
def xmlTemplate (py : PyCompile) (gen : Nat → Str) (o : Opts) (stripText : Bool) (dtd : Str)
    (es : List Event) : Except Err Tmpl :=
  match parseEvents dtd es with
  | .error e => .error e
  | .ok doc => compileXmlDoc py gen o (transform stripText doc)

end Kajiki

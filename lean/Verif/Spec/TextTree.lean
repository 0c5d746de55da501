import Verif.Model.Text

/-!
# The block structure of text templates (C39)

A template is a tree of directives.  `Written false` says how such a tree is written as tokens (`Written true` is
the part of it the parser reads as the tree, with one exception), `nodes` says what it
means: its nodes and the functions and module level blocks it adds.  Neither mentions the parser.
-/

namespace Kajiki.Spec.TextTree

/-- A directive with its contents. -/
inductive Dir
  | text (t : Str) (ln : Nat)
  | expr (code : Str) (ln : Nat)
  /-- `%if … %end` -/
  | ifD (test : Str) (body : List Dir)
  /-- `%if … %else … %end` -/
  | ifElse (test : Str) (body els : List Dir)
  | forD (decl : Str) (body : List Dir)
  | switchD (test : Str) (items : List Dir)
  | caseD (value : Str) (body : List Dir)
  /-- the `%else` of a switch -/
  | elseD (body : List Dir)
  | defD (decl : Str) (body : List Dir)
  | callD (args callee : Str) (body : List Dir)
  | blockD (name : Str) (body : List Dir)
  | py (moduleLevel : Bool) (lines : List Str)
  | extendsD (file : Str)
  | importD (file : Str) (alias : Option Str)
  | includeD (file : Str)

/-- Where directives stand. -/
inductive Place
  /-- a place closed by `%end` only, or by the end of the source -/
  | free
  /-- the body of a `%case`, or of a `%if` before its `%else` -/
  | beforeElse
  /-- directly in a `%switch` -/
  | cases
deriving DecidableEq

/-- Text tokens that say `code` once the backslashes are removed. -/
inductive PyText : List TTok → Str → Prop
  | nil : PyText [] []
  | cons {t w ln ts o} : unescapeNewlines t = .ok w → PyText ts o → PyText (.text t ln :: ts) (w ++ o)

/-- The tokens begin with a tag that closes a `%case`. -/
def ClosesCase : List TTok → Prop
  | .tag n _ _ :: _ => n = "case".toList ∨ n = "else".toList ∨ n = "end".toList
  | _ => False

/-- The tokens `toks` spell the directives `ds` at a place.  The text of `%else` and `%end` tags and all line
numbers of tags are free.  A `%case` has no `%end` of its own.

With `asParsed` two clauses are not what an author of templates would write:
* a `%if … %else` is not allowed directly in another `%if` before its `%else`, nor in a `%case`;
* the `%else` of a `%switch` has an `%end` of its own, before the `%end` of the switch. -/
inductive Written (asParsed : Bool) : Place → List Dir → List TTok → Prop
  | nil {p} : Written asParsed p [] []
  | text {p t u ln ds ts} : unescapeNewlines t = .ok u → Written asParsed p ds ts →
      Written asParsed p (.text u ln :: ds) (.text t ln :: ts)
  | expr {p c ln ds ts} : Written asParsed p ds ts → Written asParsed p (.expr c ln :: ds) (.expr c ln :: ts)
  | ifD {p test body tb ds ts l b l'} : Written asParsed .beforeElse body tb → Written asParsed p ds ts →
      Written asParsed p (.ifD test body :: ds)
        (.tag "if".toList test l :: (tb ++ .tag "end".toList b l' :: ts))
  | ifElse {p test body tb els te ds ts l b l' b' l''} : (asParsed = true → p ≠ .beforeElse) →
      Written asParsed .beforeElse body tb → Written asParsed .free els te → Written asParsed p ds ts →
      Written asParsed p (.ifElse test body els :: ds)
        (.tag "if".toList test l :: (tb ++ .tag "else".toList b l' :: (te ++ .tag "end".toList b' l'' :: ts)))
  | forD {p decl body tb ds ts l b l'} : Written asParsed .free body tb → Written asParsed p ds ts →
      Written asParsed p (.forD decl body :: ds)
        (.tag "for".toList decl l :: (tb ++ .tag "end".toList b l' :: ts))
  | switchD {p test items tb ds ts l b l'} : Written asParsed .cases items tb → Written asParsed p ds ts →
      Written asParsed p (.switchD test items :: ds)
        (.tag "switch".toList test l :: (tb ++ .tag "end".toList b l' :: ts))
  | caseD {value body tb ds ts l} : Written asParsed .beforeElse body tb → Written asParsed .cases ds ts →
      (ds = [] ∨ ClosesCase ts) →
      Written asParsed .cases (.caseD value body :: ds) (.tag "case".toList value l :: (tb ++ ts))
  | elseD {body tb l b b' l'} : Written asParsed .free body tb →
      Written asParsed .cases [.elseD body]
        (.tag "else".toList b l :: (tb ++ if asParsed then [.tag "end".toList b' l'] else []))
  | defD {p decl body tb ds ts l b l'} : Written asParsed .free body tb → Written asParsed p ds ts →
      Written asParsed p (.defD decl body :: ds)
        (.tag "def".toList decl l :: (tb ++ .tag "end".toList b l' :: ts))
  | callD {p pre args callee body tb ds ts l b l'} : '(' ∉ pre → ')' ∉ args →
      Written asParsed .free body tb → Written asParsed p ds ts →
      Written asParsed p (.callD args callee body :: ds)
        (.tag "call".toList (pre ++ '(' :: (args ++ ')' :: callee)) l :: (tb ++ .tag "end".toList b l' :: ts))
  | blockD {p name body tb ds ts l b l'} :
      pythonNode ("parent_block=parent._kj_block_".toList ++ strip name) =
        .ok (false, ["parent_block=parent._kj_block_".toList ++ strip name]) →
      Written asParsed .free body tb → Written asParsed p ds ts →
      Written asParsed p (.blockD name body :: ds)
        (.tag "block".toList name l :: (tb ++ .tag "end".toList b l' :: ts))
  | pyBlock {p blank code tb ml lines ds ts l b l'} : strip blank = [] → PyText tb code →
      pythonNode code = .ok (ml, lines) → Written asParsed p ds ts →
      Written asParsed p (.py ml lines :: ds) (.tag "py".toList blank l :: (tb ++ .tag "end".toList b l' :: ts))
  | pyLine {p code ml lines ds ts l} : strip code ≠ [] → pythonNode (strip code) = .ok (ml, lines) →
      Written asParsed p ds ts → Written asParsed p (.py ml lines :: ds) (.tag "py".toList code l :: ts)
  | extendsD {p b w ds ts l} : shlexSplit b = .ok [w] → Written asParsed p ds ts →
      Written asParsed p (.extendsD w :: ds) (.tag "extends".toList b l :: ts)
  | importD {p b w ds ts l} : shlexSplit b = .ok [w] → Written asParsed p ds ts →
      Written asParsed p (.importD w none :: ds) (.tag "import".toList b l :: ts)
  | importAs {p b w a ds ts l} : shlexSplit b = .ok [w, "as".toList, a] → Written asParsed p ds ts →
      Written asParsed p (.importD w (some a) :: ds) (.tag "import".toList b l :: ts)
  | includeD {p b w ds ts l} : shlexSplit b = .ok [w] → Written asParsed p ds ts →
      Written asParsed p (.includeD w :: ds) (.tag "include".toList b l :: ts)

/-- What a template has declared so far: functions, module level Python, whether a `%def` is open, whether
there was an `%extends`, and the number of calls. -/
abbrev Reg := TState

mutual
/-- The nodes of one directive, and what it declares. -/
def node (autoescape : Bool) (gen : Nat → Str) : Dir → Reg → List Ir × Reg
  | .text t ln, r => ([.text t none ln], r)
  | .expr c ln, r => ([.expr c (!autoescape) ln], r)
  | .ifD test body, r => let b := nodes autoescape gen body r; ([.ifN test b.1 0], b.2)
  | .ifElse test body els, r =>
    let b := nodes autoescape gen body r
    let e := nodes autoescape gen els b.2
    ([.ifN test b.1 0, .elseN e.1 0], e.2)
  | .forD decl body, r => let b := nodes autoescape gen body r; ([.forN decl b.1 0], b.2)
  | .switchD test items, r => let b := nodes autoescape gen items r; ([.switchN test b.1 0], b.2)
  | .caseD value body, r => let b := nodes autoescape gen body r; ([.caseN value b.1 0], b.2)
  | .elseD body, r => let b := nodes autoescape gen body r; ([.elseN b.1 0], b.2)
  | .defD decl body, r =>
    let b := nodes autoescape gen body { r with inDef := true }
    if r.inDef then ([.innerDef decl b.1 0], { b.2 with inDef := true })
    else ([], { b.2 with inDef := false, funs := b.2.funs.set (strip decl) b.1 })
  | .callD args callee body, r =>
    let b := nodes autoescape gen body r
    let name := gen b.2.fresh
    ([.call (replace "$caller".toList name ("$caller(".toList ++ (args ++ ")".toList)))
        (replace "$caller".toList name (replace "%caller".toList "$caller".toList (strip callee))) b.1 0],
      { b.2 with fresh := b.2.fresh + 1 })
  | .blockD name body, r =>
    let b := nodes autoescape gen body r
    let decl := "_kj_block_".toList ++ (strip name ++ "()".toList)
    let start : Ir := .python ["parent_block=parent._kj_block_".toList ++ strip name] 0
    if b.2.isChild then ([], { b.2 with funs := b.2.funs.set decl (start :: b.1) })
    else ([.expr decl false 0], { b.2 with funs := b.2.funs.set decl b.1 })
  | .py ml lines, r =>
    if ml then ([], { r with modPy := r.modPy ++ [(lines, 0)] }) else ([.python lines 0], r)
  | .extendsD file, r => ([.ext file 0], { r with isChild := true })
  | .importD file as, r => ([.imp file as 0], r)
  | .includeD file, r => ([.incl file 0], r)

/-- The nodes of several directives, in document order. -/
def nodes (autoescape : Bool) (gen : Nat → Str) : List Dir → Reg → List Ir × Reg
  | [], r => ([], r)
  | d :: ds, r =>
    let a := node autoescape gen d r
    let b := nodes autoescape gen ds a.2
    (a.1 ++ b.1, b.2)
end

/-- The template of a tree: the functions it declares, with its nodes as the main function. -/
def template (autoescape : Bool) (gen : Nat → Str) (ds : List Dir) : Tmpl :=
  let b := nodes autoescape gen ds ⟨[("__main__()".toList, [])], [], false, false, 0⟩
  ⟨b.2.modPy, (b.2.funs.set "__main__()".toList b.1).map fun f => ⟨f.1, f.2, 0⟩⟩

end Kajiki.Spec.TextTree

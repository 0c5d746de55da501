import Verif.Spec.Fill

/-!
# What a template with directives shows

The text a document shows, as a function of the values of variables: no state, no scopes, no instances, no calls.
Documents may have expressions, `py:if`, `py:else`, `py:for`, `py:switch`, `py:case`, `py:with`, `py:replace`,
`py:content`, `py:attrs`, `py:strip`, Python blocks and `py:block`, but no other functions (`py:def`, `py:call`) and
no other templates (`py:import`, `py:include`, `py:extends`; for `py:extends` see `Verif/Spec/Layout.lean`, and for
`py:include` see `Verif/Spec/Include.lean`).  Used to state C67 and C70.

As in `Verif/Spec/DocSem.lean`, the document is the transformed one (directives are elements, C20-C22), texts are cut
into literal text and expressions (C28, C29), and `py:with` into assignments (C55).
-/

namespace Kajiki.Spec.Pure
open Kajiki.Spec.DocSem
open Kajiki.Spec.Static (attrText)
open Kajiki.Spec.Fill (escapedValue plainValue isNone settled)

/-- The values of the variables, by name. -/
abbrev Look : Type := Str → Option Val

/-! ## Showing -/

/-- What was shown, and how it ended: with a result, or with an exception. -/
structure Shown (α : Type) where
  text : Str
  res : Except Err α

namespace Shown
variable {α β : Type}

/-- Nothing. -/
def done (a : α) : Shown α := ⟨[], .ok a⟩

/-- An exception. -/
def raise (e : Err) : Shown α := ⟨[], .error e⟩

/-- A text. -/
def put (t : Str) : Shown Unit := ⟨t, .ok ()⟩

/-- The value, or the exception. -/
def get : Except Err α → Shown α
  | .ok a => done a
  | .error e => raise e

/-- One after the other. -/
def next (m : Shown α) (f : α → Shown β) : Shown β :=
  match m.res with
  | .ok a => ⟨m.text ++ (f a).text, (f a).res⟩
  | .error e => ⟨m.text, .error e⟩

/-- The second after the first. -/
def seq (m : Shown Unit) (m' : Shown β) : Shown β := m.next fun _ => m'

/-- For all of a list. -/
def each {γ : Type} (f : γ → Shown Unit) : List γ → Shown Unit
  | [] => done ()
  | a :: as => (f a).seq (each f as)

end Shown
open Shown

/-- Python: expressions, the bindings of the iterations of `for`, and blocks (which bind variables) as functions of
the variables; the translation; what expressions show that call functions of templates; and what included templates
show. -/
structure Py where
  eval : Str → Look → Except Err Val
  iter : Str → Look → Except Err (List (Dict Val))
  block : List Str → Look → Except Err (Dict Val)
  tr : Str → Str
  call : Str → Option (Look → Shown Unit) := fun _ => none
  incl : Str → Shown Unit := fun _ => done ()

section
variable (py : Py)

/-! ## Text -/

/-- An expression in a text: a call of a function of a template, or something else. -/
def value (look : Look) (e : Str) : Shown Unit :=
  match py.call e with
  | some m => m look
  | none => (get (py.eval e look)).next fun v => put (escapedValue v)

/-- A text in an element: translated unless it is blank or in a script. -/
def text (c : CEnv) (look : Look) (tag d : Str) : Shown Unit :=
  each (fun
    | .inl t => put (if scriptTag tag || (strip t).isEmpty then t else py.tr t)
    | .inr e => value py look e) (cut c.py d)

/-- A text in a script; `esc` tells that it was not in a CDATA section. -/
def scriptText (c : CEnv) (look : Look) (esc : Bool) (d : Str) : Shown Unit :=
  each (fun
    | .inl t => put (if esc then resolve t else t)
    | .inr e => value py look (if esc then resolve e else e)) (cut c.py d)

/-- The content of a script, in a CDATA section in xml mode. -/
def scriptContent (c : CEnv) (look : Look) (kids : List DNode) : Shown Unit :=
  (put (if c.mode = "xml".toList then "/*<![CDATA[*/".toList else [])).seq <|
  (each (fun
    | .text d e _ => scriptText py c look e d
    | _ => done ()) kids).seq <|
  put (if c.mode = "xml".toList then "/*]]>*/".toList else [])

/-! ## Tags -/

/-- The tags of the element are shown: there is no `py:strip`, or it has a value that is false. -/
def kept (look : Look) (attrs : Dict Str) : Shown Bool :=
  match Dict.get attrs "py:strip".toList with
  | none => done true
  | some [] => done false
  | some e => (get (py.eval e look)).next fun v => done (!truthy v)

/-- A part of a tag. -/
def tagPart (look : Look) (attrs : Dict Str) (m : Shown Unit) : Shown Unit :=
  (kept py look attrs).next fun b => if b then m else done ()

/-- The parts of the value of an attribute; those that are `None` are missing. -/
def parts (look : Look) : List (Str ⊕ Str) → Except Err (List (Option Str))
  | [] => .ok []
  | .inl t :: xs => (parts look xs).map (some t :: ·)
  | .inr e :: xs =>
    match py.eval e look with
    | .error x => .error x
    | .ok v => (parts look xs).map ((if isNone v then none else some (plainValue v)) :: ·)

/-- An attribute.  It is left out if it has parts and all are missing. -/
def oneAttribute (c : CEnv) (look : Look) (kv : Str × Str) : Shown Unit :=
  (get (parts py look (cut c.py kv.2))).next fun ps =>
    put (if !ps.isEmpty && ps.all (·.isNone) then [] else attrText c.mode (kv.1, (ps.filterMap id).flatten))

/-- `py:attrs` (C06, C07). -/
def moreAttributes (c : CEnv) (look : Look) (e : Str) : Shown Unit :=
  (get (py.eval e look)).next fun v => (get (renderAttrs v c.mode)).next fun ts => put ts.flatten

/-- The start tag up to its end: the name, the attributes in alphabetical order, and `py:attrs`. -/
def startTag (c : CEnv) (look : Look) (tag : Str) (attrs : Dict Str) : Shown Unit :=
  (tagPart py look attrs (put ('<' :: tag))).seq <|
  (each (fun kv => tagPart py look attrs (oneAttribute py c look kv))
    (sortItems (attrs.filter fun kv => !special kv.1))).seq <|
  if (attr attrs "py:attrs").isEmpty then done ()
  else tagPart py look attrs (moreAttributes py c look (attr attrs "py:attrs"))

/-! ## Nodes

Local variables are those of `py:for`, `py:with` and Python blocks.  What is shown depends on them, and on the
global ones; and after it there may be others.

A block shows what `over` says for its name.  If that is nothing, it shows its content, which does not see the local
variables of the place where the block is. -/

/-- The local variables. -/
abbrev Vars : Type := Dict Val

/-- Do it for the bindings one after the other. -/
def loop (f : Vars → Shown Vars) : List (Dict Val) → Vars → Shown Vars
  | [], ρ => done ρ
  | b :: bs, ρ => (f (ρ.update b)).next fun ρ => loop f bs ρ

variable (G : Look)

/-- Local variables hide global ones. -/
def look (ρ : Vars) : Look := fun k => (Dict.get ρ k).or (G k)

/-- Nothing happens to the local variables. -/
def keeping (ρ : Vars) (m : Shown Unit) : Shown Vars := m.next fun _ => done ρ

/-- The assignments of a `py:with`. -/
def assign : List (Str × Str) → Vars → Shown Vars
  | [], ρ => done ρ
  | (k, e) :: vs, ρ => (get (py.eval e (look G ρ))).next fun v => assign vs (ρ.update [(k, v)])

/-- The local variables after a `py:with`: those it set have the values they had before, and if there was none, `()`. -/
def restore (ks : List Str) (before after : Vars) : Vars :=
  after.update (ks.zip (ks.map fun k => (Dict.get before k).getD .unit))

variable (over : Str → Option (Shown Unit))

mutual
/-- A node in an element `tag`; `els` is the meaning of a directly following `py:else`. -/
def node (c : CEnv) (els : Vars → Shown Vars) (tag : Str) : DNode → Vars → Shown Vars
  | .text d _ _ => fun ρ => keeping ρ (text py c (look G ρ) tag d)
  | .cdata d _ => fun ρ => keeping ρ (text py c (look G ρ) tag d)
  | .comment d _ => fun ρ =>
    keeping ρ (put (if ['!'].isPrefixOf d then [] else "<!-- ".toList ++ d ++ " -->".toList))
  | .pi _ d _ => fun ρ =>
    if (pyLines (strip d)).1 || (pyLines (strip d)).2.isEmpty then done ρ
    else (get (py.block (pyLines (strip d)).2 (look G ρ))).next fun b => done (ρ.update b)
  | .elem t as _ kids => fun ρ =>
    match dirOf t with
    | none =>
      let attrs := plainAttrs c.opts t as
      let tag := fun ρ s => keeping ρ (tagPart py (look G ρ) attrs (put s))
      (startTag py c (look G ρ) t attrs).seq <|
        if !(attr attrs "py:content").isEmpty then
          (tag ρ ">".toList).next fun ρ =>
          (keeping ρ (value py (look G ρ) (attr attrs "py:content"))).next fun ρ => tag ρ (close t)
        else if kids.isEmpty then tag ρ (emptyTag c.mode t)
        else
          (tag ρ ">".toList).next fun ρ =>
          (if script c.opts t then keeping ρ (scriptContent py c (look G ρ) kids) else nodes c true t kids ρ).next fun ρ =>
          if html c.mode && void t then done ρ else tag ρ (close t)
    | some .replace => keeping ρ (value py (look G ρ) (attr as "value"))
    | some .forD => (get (py.iter (attr as "each") (look G ρ))).next fun bs => loop (fun ρ => nodes c false t kids ρ) bs ρ
    | some .withD =>
      let vs := (withAssignments (attr as "vars")).toOption.getD []
      (assign py G vs ρ).next fun σ => (nodes c false t kids σ).next fun τ => done (restore (vs.map (·.1)) ρ τ)
    | some .switchD =>
      (get (py.eval (attr as "test") (look G ρ))).next fun v => choices c v (fun ρ => done ρ) kids ρ
    | some .ifD =>
      (get (py.eval (attr as "test") (look G ρ))).next fun v => if truthy v then nodes c false t kids ρ else els ρ
    | some .nop => nodes c false t kids ρ
    | some .block =>
      keeping ρ (match over (attr as "name") with
        | some m => m
        | none => (nodes c false t kids []).next fun _ => done ())
    | some .incl => keeping ρ (py.incl (attr as "href"))
    | _ => done ρ

/-- Nodes in order.  The markers of a CDATA section are kept in ordinary elements (`raw`); in the element of a
directive they are text. -/
def nodes (c : CEnv) (raw : Bool) (tag : Str) : List DNode → Vars → Shown Vars
  | [] => fun ρ => done ρ
  | x :: xs => fun ρ =>
    (match raw, x with
      | true, .cdata d _ => keeping ρ (put d)
      | _, x => node c (fun ρ => otherwise c xs ρ) tag x ρ).next fun ρ => nodes c raw tag xs ρ

/-- The `py:else` a list of nodes starts with, or nothing. -/
def otherwise (c : CEnv) : List DNode → Vars → Shown Vars
  | .elem t _ _ kids :: _ => fun ρ => if dirOf t = some .elseD then nodes c false t kids ρ else done ρ
  | _ => fun ρ => done ρ

/-- The first `py:case` equal to `v`, or the `py:else`, or `rest`. -/
def choice (c : CEnv) (v : Val) (rest : Vars → Shown Vars) : DNode → Vars → Shown Vars
  | .elem t as _ kids => fun ρ =>
    match dirOf t with
    | some .caseD =>
      (get (py.eval (attr as "value") (look G ρ))).next fun u => if pyEq u v then nodes c false t kids ρ else rest ρ
    | some .elseD => nodes c false t kids ρ
    | some .nop => choices c v rest kids ρ
    | _ => rest ρ
  | _ => fun ρ => rest ρ

/-- The same for several nodes. -/
def choices (c : CEnv) (v : Val) (rest : Vars → Shown Vars) : List DNode → Vars → Shown Vars
  | [] => fun ρ => rest ρ
  | x :: xs => fun ρ => choice c v (fun ρ => choices c v rest xs ρ) x ρ
end

/-- A template with global variables `G`: the DOCTYPE, and the root element. -/
def shown (t : Template) (root : DNode) : Shown Vars :=
  (put (t.doctype root)).seq (node py G (fun _ => none) t.conf (fun ρ => done ρ) [] root [])

end

/-! ## Which documents, and which Python -/

/-- The variables an expression sees: those of the local scopes, innermost first, and then the global ones. -/
def visible (v : Run.View) : Look := fun k =>
  (v.locals.findSome? fun d => Dict.get d k).or ((v.insts[v.inst]?).bind fun i => Dict.get i.globals k)

mutual
/-- The blocks in a node, with their names and contents. -/
def blocks (o : Opts) : DNode → List (Str × List DNode)
  | .elem t as _ kids =>
    match dirOf t with
    | none => if ownContent o t as then [] else blocksAll o kids
    | some .replace => []
    | some .block => blocksAll o kids ++ [(attr as "name", kids)]
    | some _ => blocksAll o kids
  | _ => []

/-- The blocks in several nodes. -/
def blocksAll (o : Opts) : List DNode → List (Str × List DNode)
  | [] => []
  | x :: xs => blocks o x ++ blocksAll o xs
end

section
variable {W : Type} (O : Run.Oracle W) (py : Py)

/-- Python evaluates the expression as `py` does, without side effects, and not to a call of a template function. -/
def Evals (e : Str) : Prop :=
  (∀ v w, O.eval e v w = (py.eval e (visible v), w)) ∧ ∀ look v, py.eval e look = .ok v → settled v = true

/-- Python negates. -/
def Negates (e : Str) : Prop :=
  Evals O py (if e.isEmpty then "False".toList else "not (".toList ++ e ++ ")".toList) ∧
  if e.isEmpty then ∀ look, py.eval "False".toList look = .ok (.bool false)
  else ∀ look, py.eval ("not (".toList ++ e ++ ")".toList) look = (py.eval e look).map fun v => .bool (!truthy v)

/-- What is allowed in a document: functions (`py:def`), expressions that call functions, where we are, inside of
blocks, and inside of functions, and templates that are included (`py:include`). -/
structure Allowed where
  defs : Bool
  calls : Str → Bool
  inBlock : Str → Bool
  inDef : Str → Bool
  incls : Str → Bool := fun _ => false

namespace Allowed

/-- None of these. -/
def no : Allowed := ⟨false, fun _ => false, fun _ => false, fun _ => false, fun _ => false⟩

/-- Inside a directive. -/
def under (A : Allowed) : Option Dir → Allowed
  | some .block => { A with calls := A.inBlock }
  | some .defn => ⟨false, A.inDef, A.inDef, A.inDef, A.incls⟩
  | _ => A

end Allowed

/-- Python evaluates the expression, or it calls a function. -/
def Prints (A : Allowed) (e : Str) : Prop := A.calls e = false → Evals O py e

/-- Python evaluates the expressions of a text. -/
def EvalsText (A : Allowed) (c : CEnv) (d : Str) : Prop :=
  ∀ e, .inr e ∈ cut c.py d → Prints O py A e ∧ Prints O py A (resolve e)

/-- Python evaluates the expressions of an attribute. -/
def EvalsAttr (c : CEnv) (d : Str) : Prop := ∀ e, .inr e ∈ cut c.py d → Evals O py e

mutual
/-- There are no functions other than blocks and no other templates in the document (unless they are allowed), and Python
evaluates its expressions. -/
def Ok (A : Allowed) (c : CEnv) : DNode → Prop
  | .text d _ _ => EvalsText O py A c d
  | .cdata d _ => EvalsText O py A c d
  | .comment _ _ => True
  | .pi _ d _ => ∀ v w, O.py (pyLines (strip d)).2 v w = (py.block (pyLines (strip d)).2 (visible v), w)
  | .elem t as _ kids =>
    let attrs := plainAttrs c.opts t as
    auto c.opts t as = false ∧ (∀ e, Dict.get attrs "py:strip".toList = some e → Negates O py e) ∧
    (match dirOf t with
      | none =>
        (∀ kv ∈ attrs, special kv.1 = false → EvalsAttr O py c kv.2) ∧
        (attr attrs "py:attrs" ≠ [] → Evals O py (attr attrs "py:attrs")) ∧
        (attr attrs "py:content" ≠ [] → Prints O py A (attr attrs "py:content"))
      | some .replace => Prints O py A (attr as "value")
      | some .forD => ∀ v w, O.iter (attr as "each") v w = (py.iter (attr as "each") (visible v), w)
      | some .withD => ∀ kv ∈ (withAssignments (attr as "vars")).toOption.getD [], Evals O py kv.2
      | some .switchD => Evals O py (attr as "test")
      | some .caseD => Evals O py (attr as "value")
      | some .ifD => Evals O py (attr as "test")
      | some .elseD => True
      | some .nop => True
      | some .block => True
      | some .defn => A.defs = true ∧ blocksAll c.opts kids = []
      | some .incl => A.incls (attr as "href") = true ∧ blocksAll c.opts kids = []
      | _ => False) ∧
    OkAll (A.under (dirOf t)) c kids

/-- The same for several nodes. -/
def OkAll (A : Allowed) (c : CEnv) : List DNode → Prop
  | [] => True
  | x :: xs => Ok A c x ∧ OkAll A c xs
end

mutual
/-- The variables set by `py:with` in a node. -/
def bound (o : Opts) : DNode → List Str
  | .elem t as _ kids =>
    match dirOf t with
    | none => if ownContent o t as then [] else boundAll o kids
    | some .replace => []
    | some .withD => ((withAssignments (attr as "vars")).toOption.getD []).map (·.1) ++ boundAll o kids
    | some _ => boundAll o kids
  | _ => []

/-- The variables set by `py:with` in several nodes. -/
def boundAll (o : Opts) : List DNode → List Str
  | [] => []
  | x :: xs => bound o x ++ boundAll o xs
end

/-- No variable has a name of this kind. -/
def Clean (R : Str → Prop) (ρ : Vars) : Prop := ∀ k, R k → Dict.get ρ k = none

/-- Python does not bind local variables of this kind. -/
structure Tidy (R : Str → Prop) (py : Py) : Prop where
  iter : ∀ e L bs, py.iter e L = .ok bs → ∀ b ∈ bs, Clean R b
  block : ∀ ls L b, py.block ls L = .ok b → Clean R b

/-- Python does not look at variables of this kind. -/
class Blind (hid : Str → Prop) (py : Py) : Prop where
  eval : ∀ e L L', (∀ k, ¬hid k → L k = L' k) → py.eval e L = py.eval e L'
  iter : ∀ e L L', (∀ k, ¬hid k → L k = L' k) → py.iter e L = py.iter e L'
  block : ∀ ls L L', (∀ k, ¬hid k → L k = L' k) → py.block ls L = py.block ls L'

/-- What a template that is rendered with a context needs: there are no functions and no other templates in it,
Python evaluates its expressions as `py` does, messages are translated as `py` does, and no variable is called
`local` (C63). -/
structure Runs (w : W) (context : Dict Val) (t : Template) (root : DNode) : Prop where
  isRoot : t.root? = some root
  ok : Ok O py .no t.conf root
  noCalls : ∀ e, py.call e = none
  noBlocks : blocks t.conf.opts root = []
  speaks : speaks t.conf .root root = true
  messages : ∀ g s w, O.gettext g s w = (.ok (.str (py.tr s)), w)
  main : O.args "__main__()".toList [] w = (.ok [], w)
  free : Dict.get context "local".toList = none
  base : Dict.get t.base "local".toList = none

end

/-- Names that are always there. -/
def ownNames : List Str :=
  ["local", "self", "defined", "literal", "Markup", "gettext", "__builtins__", "__kj__", "__main__", "_",
   "value_of"].map String.toList

/-- The global variables of a template: the context is there (except for two names), and nothing else but what the
module of the template defines and the names that are always there. -/
def Globals (base context : Dict Val) (G : Look) : Prop :=
  (∀ k x, Dict.get context k = some x → k ∉ ["_".toList, "value_of".toList] → G k = some x) ∧
  (∀ k, Dict.get context k = none → Dict.get base k = none → k ∉ ownNames → G k = none)

end Kajiki.Spec.Pure

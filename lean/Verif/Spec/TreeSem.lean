import Verif.Spec.Pure
import Verif.Spec.HtmlReader

/-!
# The tree of a template with directives

What a document with directives is read as: not text as in `Verif/Spec/Pure.lean`, but a tree, as a function of the
values of variables.  An element of the template becomes an element of the tree, with its attributes filled in; the
directives choose, repeat, replace and leave out trees; the string of a value becomes a text.  No text is put together
from pieces of markup here, and nothing is escaped.  Used to state C74.

Some documents have no tree (`none`): an element with a name that is not one, or with an attribute twice; a comment
with `--` in it; literal text that is not text; a script that contains its own end; CDATA sections outside of scripts;
an element whose `py:strip` has another value after its content than before it; markup in `py:attrs`.
-/

namespace Kajiki.Spec.TreeSem
open Kajiki.Spec.DocSem
open Kajiki.Spec.Reader (Tree joined entity)
open Kajiki.Spec.Fill (plainValue isNone ordinary)
open Kajiki.Spec.Pure (Look Py Vars look)

/-! ## Trees that grow -/

/-- What has grown, if it is a tree, and how it ended: with a result, or with an exception. -/
structure Grown (α : Type) where
  trees : Option (List Tree)
  res : Except Err α

namespace Grown
variable {α β : Type}

/-- Nothing. -/
def done (a : α) : Grown α := ⟨some [], .ok a⟩

/-- A value, or an exception. -/
def get (r : Except Err α) : Grown α := ⟨some [], r⟩

/-- These trees, or none. -/
def put (ts : Option (List Tree)) : Grown Unit := ⟨ts, .ok ()⟩

/-- One after the other. -/
def next (m : Grown α) (f : α → Grown β) : Grown β :=
  match m.res with
  | .ok a => ⟨m.trees.bind fun ts => (f a).trees.map (ts ++ ·), (f a).res⟩
  | .error e => ⟨m.trees, .error e⟩

/-- For all of a list. -/
def each {γ : Type} (f : γ → Grown Unit) : List γ → Grown Unit
  | [] => done ()
  | a :: as => (f a).next fun _ => each f as

/-- Only if there is nothing wrong. -/
def only (ok : Bool) (m : Grown α) : Grown α := ⟨if ok then m.trees else none, m.res⟩

end Grown
open Grown

/-! ## Formats -/

/-- What is different in XML and HTML: names of elements and attributes; how the value of an attribute is read, and the
content of a script; which content an element can have; and how markup is read that comes from values. -/
structure Format where
  name : Str → Bool
  attr : Str → Str → Str
  script : Str → Option Str
  fits : Str → List Tree → Bool
  markup : Str → Option (List Tree)

/-- XML: whitespace in attributes is read as spaces, and scripts are in CDATA sections between comments.  Markup from
values is read too (if it has no carriage returns). -/
def xml : Format where
  name n := !n.isEmpty && n.all Reader.nameChar
  attr _ v := Reader.normal v
  script x := if "]]>".toList <:+: x then none else some ("/**/".toList ++ x ++ "/**/".toList)
  fits _ _ := true
  markup h := if h.contains '\r' then none else Reader.read h

/-- Text. -/
def isText : Tree → Bool
  | .text _ => true
  | _ => false

/-- HTML: some attributes have no value, scripts are as they are, and only text is allowed in some elements.  Markup
from values is left out here. -/
def html : Format where
  name n := !n.isEmpty && n.all HtmlReader.nameChar
  attr n v := if Static.flags.contains n then [] else v
  script x := if "</".toList <:+: x then none else some x
  fits tag ts := !HtmlReader.strange.contains tag && (!HtmlReader.rawTags.contains tag || ts.isEmpty) &&
    (!HtmlReader.textTags.contains tag || ts.all isText)
  markup _ := none

/-! ## Text -/

/-- Text with references; `r` is the part of a reference that was read.  `none` if it is not text. -/
def decodeFrom (r : Option Str) : Str → Option Str
  | [] => if r.isSome then none else some []
  | c :: s =>
    match r with
    | none =>
      if c = '<' then none else if c = '&' then decodeFrom (some []) s else (decodeFrom none s).map (c :: ·)
    | some n =>
      if c = ';' then (entity n).bind fun x => (decodeFrom none s).map (x :: ·) else decodeFrom (some (n ++ [c])) s

/-- What a text with references is read as. -/
def decode (s : Str) : Option Str := decodeFrom none s

section
variable (F : Format) (py : Py) (calls : Str → Option (Look → Grown Unit))

/-- The tree of a value: its string as text, unless it is markup. -/
def ofValue : Val → Option (List Tree)
  | .html _ h _ => F.markup h
  | v => some [.text (plainValue v)]

/-- An expression in a text: a call of a function of a template, or something else. -/
def value (look : Look) (e : Str) : Grown Unit :=
  match calls e with
  | some m => m look
  | none => (get (py.eval e look)).next fun v => put (ofValue F v)

/-- A text in an element. -/
def text (c : CEnv) (look : Look) (tag d : Str) : Grown Unit :=
  each (fun
    | .inl t => put ((decode (if scriptTag tag || (strip t).isEmpty then t else py.tr t)).map fun u => [.text u])
    | .inr e => value F py calls look e) (cut c.py d)

/-- The text of a script, in which values are escaped. -/
def scriptSource (c : CEnv) (look : Look) (kids : List DNode) : Pure.Shown Unit :=
  Pure.Shown.each (fun
    | .text d e _ => Pure.scriptText py c look e d
    | _ => Pure.Shown.done ()) kids

/-- The content of a script. -/
def scriptContent (c : CEnv) (look : Look) (kids : List DNode) : Grown Unit :=
  ⟨(F.script (scriptSource py c look kids).text).map fun s => [.text s], (scriptSource py c look kids).res⟩

/-! ## Elements -/

/-- The attributes of an element with their values.  An attribute is left out if it has parts and all are missing. -/
def attributes (c : CEnv) (look : Look) : List (Str × Str) → Except Err (List (Str × Str))
  | [] => .ok []
  | kv :: kvs =>
    match Pure.parts py look (cut c.py kv.2) with
    | .error e => .error e
    | .ok ps => (attributes c look kvs).map
        ((if !ps.isEmpty && ps.all (·.isNone) then [] else [(kv.1, (ps.filterMap id).flatten)]) ++ ·)

/-- An attribute given by `py:attrs`.  It is left out if its value is `None`, or false and the attribute is a flag; a flag
that is true has its name as value.  A value that is markup cannot be read. -/
def given (kv : Str × Val) : Option (List (Str × Str)) :=
  if isNone kv.2 then some []
  else if !ordinary kv.2 then none
  else if Static.flags.contains kv.1 && boolLike kv.2 then some (if truthy kv.2 then [(kv.1, kv.1)] else [])
  else some [(kv.1, toStr kv.2)]

/-- Attributes given by `py:attrs`. -/
def allGiven : List (Str × Val) → Option (List (Str × Str))
  | [] => some []
  | kv :: kvs => (given kv).bind fun a => (allGiven kvs).map (a ++ ·)

/-- The attributes of a `py:attrs`: a mapping in alphabetical order, or `None`. -/
def moreAttributes (look : Look) (e : Str) : Except Err (Option (List (Str × Str))) :=
  match py.eval e look with
  | .error x => .error x
  | .ok (.pairs _ l) => (sortAttrs l).map allGiven
  | .ok .none => .ok (some [])
  | .ok _ => .error .type

/-- The attributes of an element: its own in alphabetical order, and those of `py:attrs`. -/
def startTag (c : CEnv) (look : Look) (attrs : Dict Str) : Except Err (Option (List (Str × Str))) :=
  match attributes py c look (sortItems (attrs.filter fun kv => !special kv.1)) with
  | .error x => .error x
  | .ok as =>
    if (attr attrs "py:attrs").isEmpty then .ok (some as)
    else (moreAttributes py look (attr attrs "py:attrs")).map fun m => m.map (as ++ ·)

/-- An element with these attributes. -/
def wrap {α : Type} (script : Bool) (tag : Str) (as : Option (List (Str × Str))) (g : Grown α) : Grown α :=
  ⟨as.bind fun as => g.trees.bind fun ts =>
    if F.name tag && as.all (fun kv => F.name kv.1) && decide (as.map (·.1)).Nodup && (script || F.fits tag ts) then
      some [.elem tag (as.map fun kv => (kv.1, F.attr kv.1 kv.2)) (joined ts)]
    else none, g.res⟩

/-! ## Nodes -/

/-- Do it for the bindings one after the other. -/
def loop (f : Vars → Grown Vars) : List (Dict Val) → Vars → Grown Vars
  | [], ρ => done ρ
  | b :: bs, ρ => (f (ρ.update b)).next fun ρ => loop f bs ρ

/-- Nothing happens to the local variables. -/
def keeping (ρ : Vars) (m : Grown Unit) : Grown Vars := m.next fun _ => done ρ

variable (G : Look)

/-- The assignments of a `py:with`. -/
def assign : List (Str × Str) → Vars → Grown Vars
  | [], ρ => done ρ
  | (k, e) :: vs, ρ => (get (py.eval e (look G ρ))).next fun v => assign vs (ρ.update [(k, v)])

/-- The tags of the element are still shown or not, as before. -/
def steady (attrs : Dict Str) (b : Bool) (ρ : Vars) : Grown Vars :=
  (get (Pure.kept py (look G ρ) attrs).res).next fun b' => only (b' == b) (done ρ)

variable (over : Str → Option (Grown Unit))

mutual
/-- A node in an element `tag`; `els` is the tree of a directly following `py:else`.  (Included templates are not read
here.) -/
def node (c : CEnv) (els : Vars → Grown Vars) (tag : Str) : DNode → Vars → Grown Vars
  | .text d _ _ => fun ρ => keeping ρ (text F py calls c (look G ρ) tag d)
  | .cdata d _ => fun ρ => keeping ρ (only false (text F py calls c (look G ρ) tag d))
  | .comment d _ => fun ρ =>
    keeping ρ (put (if ['!'].isPrefixOf d then some []
      else if "--".toList <:+: d then none else some [.comment (' ' :: d ++ [' '])]))
  | .pi _ d _ => fun ρ =>
    if (pyLines (strip d)).1 || (pyLines (strip d)).2.isEmpty then done ρ
    else (get (py.block (pyLines (strip d)).2 (look G ρ))).next fun b => done (ρ.update b)
  | .elem t as _ kids => fun ρ =>
    match dirOf t with
    | none =>
      let attrs := plainAttrs c.opts t as
      let own := !(attr attrs "py:content").isEmpty
      let script := script c.opts t && !own && !kids.isEmpty
      (get (Pure.kept py (look G ρ) attrs).res).next fun b =>
      let content :=
        (if own then keeping ρ (value F py calls (look G ρ) (attr attrs "py:content"))
        else if script then keeping ρ (scriptContent F py c (look G ρ) kids)
        else nodes c true t kids ρ).next fun ρ =>
          if DocSem.html c.mode && void t && !own then done ρ else steady py G attrs b ρ
      if b then
        (get (startTag py c (look G ρ) attrs)).next fun as =>
          only (!(own && DocSem.html c.mode && void t)) (wrap F script t as content)
      else only (!script) content
    | some .replace => keeping ρ (value F py calls (look G ρ) (attr as "value"))
    | some .forD => (get (py.iter (attr as "each") (look G ρ))).next fun bs => loop (fun ρ => nodes c false t kids ρ) bs ρ
    | some .withD =>
      let vs := (withAssignments (attr as "vars")).toOption.getD []
      (assign py G vs ρ).next fun σ => (nodes c false t kids σ).next fun τ => done (Pure.restore (vs.map (·.1)) ρ τ)
    | some .switchD =>
      (get (py.eval (attr as "test") (look G ρ))).next fun v => choices c v (fun ρ => done ρ) kids ρ
    | some .ifD =>
      (get (py.eval (attr as "test") (look G ρ))).next fun v => if truthy v then nodes c false t kids ρ else els ρ
    | some .nop => nodes c false t kids ρ
    | some .block =>
      keeping ρ (match over (attr as "name") with
        | some m => m
        | none => (nodes c false t kids []).next fun _ => done ())
    | some .incl => keeping ρ (only false (get (py.incl (attr as "href")).res))
    | _ => done ρ

/-- Nodes in order. -/
def nodes (c : CEnv) (raw : Bool) (tag : Str) : List DNode → Vars → Grown Vars
  | [] => fun ρ => done ρ
  | x :: xs => fun ρ =>
    (match raw, x with
      | true, .cdata _ _ => only false (done ρ)
      | _, x => node c (fun ρ => otherwise c xs ρ) tag x ρ).next fun ρ => nodes c raw tag xs ρ

/-- The `py:else` a list of nodes starts with, or nothing. -/
def otherwise (c : CEnv) : List DNode → Vars → Grown Vars
  | .elem t _ _ kids :: _ => fun ρ => if dirOf t = some .elseD then nodes c false t kids ρ else done ρ
  | _ => fun ρ => done ρ

/-- The first `py:case` equal to `v`, or the `py:else`, or `rest`. -/
def choice (c : CEnv) (v : Val) (rest : Vars → Grown Vars) : DNode → Vars → Grown Vars
  | .elem t as _ kids => fun ρ =>
    match dirOf t with
    | some .caseD =>
      (get (py.eval (attr as "value") (look G ρ))).next fun u => if pyEq u v then nodes c false t kids ρ else rest ρ
    | some .elseD => nodes c false t kids ρ
    | some .nop => choices c v rest kids ρ
    | _ => rest ρ
  | _ => fun ρ => rest ρ

/-- The same for several nodes. -/
def choices (c : CEnv) (v : Val) (rest : Vars → Grown Vars) : List DNode → Vars → Grown Vars
  | [] => fun ρ => rest ρ
  | x :: xs => fun ρ => choice c v (fun ρ => choices c v rest xs ρ) x ρ
end

end

/-! ## Documents -/

open HtmlReader (Token) in
mutual
/-- The tags and texts of a tree, as in HTML. -/
def flatten : Tree → List Token
  | .elem tag as kids => .start tag as :: (flattenAll kids ++ if void tag then [] else [.stop tag])
  | .text t => [.chars t]
  | .comment t => [.comment t]

/-- The same for several trees. -/
def flattenAll : List Tree → List Token
  | [] => []
  | x :: xs => flatten x ++ flattenAll xs
end

/-- The tree of a template with global variables `G`; after the DOCTYPE there is a line end. -/
def grown (F : Format) (py : Py) (G : Look) (t : Template) (root : DNode) : Grown Vars :=
  (put (some (if t.doctype root = [] then [] else [.text ['\n']]))).next fun _ =>
    node F py (fun _ => none) G (fun _ => none) t.conf (fun ρ => done ρ) [] root []

end Kajiki.Spec.TreeSem

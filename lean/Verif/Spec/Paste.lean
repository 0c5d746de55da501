import Verif.Spec.Include

/-!
# Pasting included templates

The templates in which some `py:include`s are replaced by the root elements of the templates they include.  Used to state
C83.

An included template does not see the local variables of the place where it is (those of `py:for`, `py:with` and Python
blocks), and its own are gone afterwards; when it is pasted it does see them, and its own stay.  So it must not look at
such variables before it sets them, and what comes after it must not look at those it may leave.
-/

namespace Kajiki.Spec.Paste
open Kajiki.Spec.DocSem Kajiki.Spec.Pure

mutual
/-- The node with the `py:include`s of some files replaced: `f` says by what. -/
def paste (f : Str → Option DNode) : DNode → DNode
  | .elem t as l kids =>
    if dirOf t = some .incl then (f (attr as "href")).getD (.elem t as l kids) else .elem t as l (pasteAll f kids)
  | x => x

/-- The same for several nodes. -/
def pasteAll (f : Str → Option DNode) : List DNode → List DNode
  | [] => []
  | x :: xs => paste f x :: pasteAll f xs
end

/-- The template with the `py:include`s of some files replaced. -/
def pasted (f : Str → Option DNode) (t : Template) : Template := { t with doc := { t.doc with kids := pasteAll f t.doc.kids } }

section
variable (py : Py)

/-- Python does not look at these variables. -/
def Ignores {α : Type} (hid : Str → Prop) (m : Look → α) : Prop := ∀ L L' : Look, (∀ k, ¬hid k → L k = L' k) → m L = m L'

/-- The assignments do not look at these variables, except for those that were assigned before. -/
def ignoresAssignments (hid : Str → Prop) : List (Str × Str) → Prop
  | [] => True
  | (k, e) :: vs => Ignores hid (py.eval e) ∧ ignoresAssignments (fun x => hid x ∧ x ≠ k) vs

mutual
/-- The node does not look at these variables, except inside of a `py:for` or `py:with` that sets them.  Where another
template is included, all of those it leaves (`left`) are among them; and so are those called `glob` where there is a
block, which does not see what was set outside of it. -/
def Careful (left glob : Str → Prop) (c : CEnv) : (Str → Prop) → DNode → Prop
  | hid, .text d _ _ => ∀ e, .inr e ∈ cut c.py d → Ignores hid (py.eval e) ∧ Ignores hid (py.eval (resolve e))
  | hid, .cdata d _ => ∀ e, .inr e ∈ cut c.py d → Ignores hid (py.eval e) ∧ Ignores hid (py.eval (resolve e))
  | _, .comment _ _ => True
  | hid, .pi _ d _ => Ignores hid (py.block (pyLines (strip d)).2)
  | hid, .elem t as _ kids =>
    match dirOf t with
    | none =>
      let attrs := plainAttrs c.opts t as
      (∀ e, Dict.get attrs "py:strip".toList = some e → e ≠ [] → Ignores hid (py.eval e)) ∧
      (∀ kv ∈ attrs, special kv.1 = false → ∀ e, .inr e ∈ cut c.py kv.2 → Ignores hid (py.eval e)) ∧
      (attr attrs "py:attrs" ≠ [] → Ignores hid (py.eval (attr attrs "py:attrs"))) ∧
      (attr attrs "py:content" ≠ [] → Ignores hid (py.eval (attr attrs "py:content"))) ∧
      CarefulAll left glob c hid kids
    | some .replace => Ignores hid (py.eval (attr as "value"))
    | some .forD =>
      Ignores hid (py.iter (attr as "each")) ∧
      ∃ sets : Str → Prop,
        (∀ L bs, py.iter (attr as "each") L = .ok bs → ∀ b ∈ bs, ∀ k, sets k → Dict.get b k ≠ none) ∧
        CarefulAll left glob c (fun k => hid k ∧ ¬sets k) kids
    | some .withD =>
      let vs := (withAssignments (attr as "vars")).toOption.getD []
      ignoresAssignments py hid vs ∧ CarefulAll left glob c (fun k => hid k ∧ k ∉ vs.map (·.1)) kids
    | some .switchD => Ignores hid (py.eval (attr as "test")) ∧ CarefulAll left glob c hid kids
    | some .caseD => Ignores hid (py.eval (attr as "value")) ∧ CarefulAll left glob c hid kids
    | some .ifD => Ignores hid (py.eval (attr as "test")) ∧ CarefulAll left glob c hid kids
    | some .elseD => CarefulAll left glob c hid kids
    | some .nop => CarefulAll left glob c hid kids
    | some .block => (∀ k, glob k → hid k) ∧ CarefulAll left glob c hid kids
    | some .incl => ∀ k, left k → hid k
    | _ => True

/-- The same for several nodes. -/
def CarefulAll (left glob : Str → Prop) (c : CEnv) : (Str → Prop) → List DNode → Prop
  | _, [] => True
  | hid, x :: xs => Careful left glob c hid x ∧ CarefulAll left glob c hid xs
end

mutual
/-- The node sets no other local variables than these. -/
def Sets (names : Str → Prop) : DNode → Prop
  | .pi _ d _ => ∀ L b, py.block (pyLines (strip d)).2 L = .ok b → ∀ k, ¬names k → Dict.get b k = none
  | .elem t as _ kids =>
    (dirOf t = some .forD → ∀ L bs, py.iter (attr as "each") L = .ok bs → ∀ b ∈ bs, ∀ k, ¬names k → Dict.get b k = none) ∧
    (dirOf t = some .withD → ∀ kv ∈ (withAssignments (attr as "vars")).toOption.getD [], names kv.1) ∧
    SetsAll names kids
  | _ => True

/-- The same for several nodes. -/
def SetsAll (names : Str → Prop) : List DNode → Prop
  | [] => True
  | x :: xs => Sets names x ∧ SetsAll names xs
end

/-- The options that matter for what a node shows are the same. -/
def SameOptions (c c' : CEnv) : Prop :=
  c.py = c'.py ∧ c.mode = c'.mode ∧ c.opts.autoblocks = c'.opts.autoblocks ∧ c.opts.cdataScripts = c'.opts.cdataScripts

/-- The root element `r` of template `u` may be pasted into template `t`: it is not a directive, there is no DOCTYPE (as
is the case for fragments), `t` has the same options and defines the same names in its module, and it sets the variables
`left` only, and looks at no local variables (`names`) it has not set. -/
structure Fitting (names left : Str → Prop) (t u : Template) (r : DNode) : Prop where
  isRoot : u.root? = some r
  plain : ∃ tag as l kids, r = .elem tag as l kids ∧ dirOf tag = none
  noDoctype : u.doctype r = []
  options : SameOptions u.conf t.conf
  module : ∀ k, Dict.get u.base k = Dict.get t.base k
  careful : Careful py (fun _ => False) (fun _ => False) u.conf names r
  sets : Sets py left r

/-- The second template is the first one with some `py:include`s replaced by the root elements of the templates they
include.  `names` are the local variables of both, and `left` are those the included ones may leave; the first template
does not look at them. -/
structure Pasted (ts : List Template) (load : Str → Option Nat) (t t' : Template) : Prop where
  ok : ∃ (f : Str → Option DNode) (names left : Str → Prop),
    t' = pasted f t ∧ (∀ k, left k → names k) ∧
    (∀ root, t.root? = some root → Careful py left (fun _ => False) t.conf left root ∧ Sets py names root) ∧
    ∀ href r, f href = some r → ∃ i u, load href = some i ∧ ts[i]? = some u ∧ Fitting py names left t u r

end

end Kajiki.Spec.Paste

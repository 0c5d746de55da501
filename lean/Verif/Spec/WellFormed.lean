import Verif.Props.Escaping
import Verif.Model.Interp
import Verif.Model.Dom
import Verif.Spec.Scope

/-!
# Well-formed markup

The grammar used to state C23, and what it takes for a value not to inject markup.
-/

namespace Kajiki.Spec.WellFormed
open Kajiki.Run

/-- Characters that cannot be in a name. -/
def notInNames : Str := " \t\r\n<>&\"'/=".toList

/-- A name of an element or attribute. -/
def Name (n : Str) : Prop := n ≠ [] ∧ ∀ c ∈ n, c ∉ notInNames

/-- Character data: no `<`, no `>`, and `&` only in a reference. -/
def Chars (s : Str) : Prop :=
  (∀ c ∈ s, c ≠ '<' ∧ c ≠ '>') ∧
  ∀ pre post, s = pre ++ '&' :: post →
    "amp;".toList <+: post ∨ "lt;".toList <+: post ∨ "gt;".toList <+: post ∨ "quot;".toList <+: post

/-- ` name="value"` for each of the names. -/
inductive Attrs : List Str → Str → Prop
  | nil : Attrs [] []
  | cons {n v s : Str} {ns : List Str} : Name n → Inert v → Attrs ns s →
      Attrs (n :: ns) (' ' :: n ++ "=\"".toList ++ v ++ ['"'] ++ s)

/-- A DOCTYPE declaration without an internal subset. -/
def Doctype (s : Str) : Prop :=
  ∃ r, s = "<!DOCTYPE".toList ++ r ++ ">".toList ∧ ∀ c ∈ r, c ≠ '<' ∧ c ≠ '>'

/-- Well-formed content: elements are closed in the right place, no element has an attribute twice,
everything else is character data, a comment or a DOCTYPE.  (Simplified: the grammar allows a DOCTYPE
everywhere, since a template with one may be included in another.) -/
inductive Content : Str → Prop
  | chars {s : Str} : Chars s → Content s
  | append {s t : Str} : Content s → Content t → Content (s ++ t)
  | empty {tag as : Str} {ns : List Str} : Name tag → Attrs ns as → ns.Nodup →
      Content ('<' :: tag ++ as ++ "/>".toList)
  | elem {tag as c : Str} {ns : List Str} : Name tag → Attrs ns as → ns.Nodup → Content c →
      Content ('<' :: tag ++ as ++ ">".toList ++ c ++ "</".toList ++ tag ++ ">".toList)
  | comment {s : Str} : ¬ "--".toList <:+: s → Content ("<!-- ".toList ++ s ++ " -->".toList)
  | doctype {s : Str} : Doctype s → Content s

/-! ## Values -/

mutual
/-- The value cannot inject markup where it is escaped: what it declares to be markup is well-formed. -/
inductive Tame : Val → Prop
  | none : Tame .none
  | bool (b : Bool) : Tame (.bool b)
  | int (i : Int) : Tame (.int i)
  | str (s : Str) : Tame (.str s)
  | html {s h : Str} {t : Bool} : Content h → Tame (.html s h t)
  | obj (i : Nat) (s : Str) (t : Bool) : Tame (.obj i s t)
  | unit : Tame .unit
  | pairs {s : Str} {l : List (Str × Val)} : (∀ kv ∈ l, Tame kv.2) → Tame (.pairs s l)
  | inst (i : Nat) : Tame (.inst i)
  | meth (n : Str) (i : Nat) : Tame (.meth n i)
  | fn (f : Nat) : Tame (.fn f)
  | flatItems {i : Nat} {vs : List Val} : (∀ v ∈ vs, Raw v) → Tame (.flatItems i vs)
  | flatCall {i f : Nat} {as : List Val} : (∀ v ∈ as, Tame v) → Tame (.flatCall i f as)

/-- The value cannot inject markup even where it is not escaped. -/
inductive Raw : Val → Prop
  | none : Raw .none
  | flatItems {i : Nat} {vs : List Val} : (∀ v ∈ vs, Raw v) → Raw (.flatItems i vs)
  | flatCall {i f : Nat} {as : List Val} : (∀ v ∈ as, Tame v) → Raw (.flatCall i f as)
  | other {v : Val} : isFlat v = false → v ≠ .none → Content (toStr v) → Raw v
end

/-- All values of a mapping. -/
def TameDict (d : Dict Val) : Prop := ∀ kv ∈ d, Tame kv.2

/-- Everything an expression sees. -/
structure TameView (v : View) : Prop where
  locals : ∀ d ∈ v.locals, TameDict d
  insts : ∀ i ∈ v.insts, TameDict i.context ∧ TameDict i.globals ∧ TameDict i.attrs

variable {W : Type}

/-- Expressions only make harmless values from harmless values, and translations of character data are
well-formed. -/
structure TameOracle (O : Oracle W) : Prop where
  eval : ∀ e v w x w', TameView v → O.eval e v w = (.ok x, w') → Tame x
  iter : ∀ d v w bs w', TameView v → O.iter d v w = (.ok bs, w') → ∀ b ∈ bs, TameDict b
  py : ∀ ls v w b w', TameView v → O.py ls v w = (.ok b, w') → TameDict b
  args : ∀ d as w b w', (∀ a ∈ as, Tame a) → O.args d as w = (.ok b, w') → TameDict b
  gettext : ∀ g s w x w', Chars s → O.gettext g s w = (.ok x, w') → Raw x

/-- The result of the expression may be inserted without escaping. -/
def RawExpr (O : Oracle W) (e : Str) : Prop :=
  ∀ v w x w', TameView v → O.eval e v w = (.ok x, w') → Raw x

/-- The value can be the value of an attribute: it is not a generator, and if it declares itself to be
markup there is no markup in it. -/
def AttrVal (v : Val) : Prop := isFlat v = false ∧ ∀ s h t, v = .html s h t → Inert h

/-- The expression is good for the `py:attrs` of an element with attributes `ns`: the keys of the mapping
are names, distinct, not in `ns`, and not those of directives. -/
def AttrsExpr (O : Oracle W) (e : Str) (ns : List Str) : Prop :=
  ∀ v w r l w', TameView v → O.eval e v w = (.ok (.pairs r l), w') →
    (l.map (·.1)).Nodup ∧ ∀ kv ∈ l, Name kv.1 ∧ kv.1 ∉ ns ∧ ¬ "py:".toList <+: kv.1 ∧ AttrVal kv.2

/-! ## Templates -/

mutual
/-- The lists of nodes inside a node, except in attributes. -/
def nested : Ir → List (List Ir)
  | .innerDef _ b _ => b :: nestedList b
  | .call _ _ b _ => b :: nestedList b
  | .forN _ b _ => b :: nestedList b
  | .withN _ b _ => b :: nestedList b
  | .switchN _ b _ => b :: nestedList b
  | .caseN _ b _ => b :: nestedList b
  | .ifN _ b _ => b :: nestedList b
  | .elseN b _ => b :: nestedList b
  | _ => []

/-- The same for several nodes. -/
def nestedList : List Ir → List (List Ir)
  | [] => []
  | x :: xs => nested x ++ nestedList xs
end

/-- The conditions of `py:strip` cannot change between a start tag and its end tag: of two texts with the
same guard in a list of nodes (such as the start tag and the end tag of an element), the nodes between
them do not bind the names the guard depends on, and these names are not reserved. -/
def SteadyGuards (O : Oracle W) (reserved : Str → Prop) (body : List Ir) : Prop :=
  ∀ xs ∈ body :: nestedList body, ∀ pre mid post t t' g g' l l' e,
    xs = pre ++ .text t g l :: (mid ++ .text t' g' l' :: post) →
    activeGuard g = some e → activeGuard g' = some e →
    ∃ ns, Scope.Reads O e ns ∧ Scope.NoBinds O ns mid ∧ ∀ n ∈ ns, ¬ reserved n

mutual
/-- The expressions of the `py:call`s below a node; their results are not escaped. -/
def callees : Ir → List Str
  | .attr _ _ _ v _ => calleesList v
  | .innerDef _ b _ => calleesList b
  | .call _ c b _ => c :: calleesList b
  | .forN _ b _ => calleesList b
  | .withN _ b _ => calleesList b
  | .switchN _ b _ => calleesList b
  | .caseN _ b _ => calleesList b
  | .ifN _ b _ => calleesList b
  | .elseN b _ => calleesList b
  | _ => []

/-- The same for several nodes. -/
def calleesList : List Ir → List Str
  | [] => []
  | x :: xs => callees x ++ calleesList xs
end

/-- What the source may contain: everything except CDATA sections and (if `scripts`) the elements whose
content is put into a CDATA section.  The names are what XML allows, and a comment has no `--` in it. -/
def EventOk (O : Oracle W) (scripts : Bool) : Event → Prop
  | .startElement tag attrs _ => Name tag ∧ (∀ kv ∈ attrs, Name kv.1) ∧
      (∀ e, ("py:attrs".toList, e) ∈ attrs → AttrsExpr O e (attrs.map (·.1))) ∧
      (scripts = true → tag ≠ "script".toList ∧ tag ≠ "style".toList)
  | .comment text _ => ¬ "--".toList <:+: text
  | .startCDATA _ => False
  | .endCDATA _ => False
  | _ => True

end Kajiki.Spec.WellFormed

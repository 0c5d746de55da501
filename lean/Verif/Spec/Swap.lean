import Verif.Spec.Pure

/-!
# Exchanging parts of a template

When two parts of templates show the same (`Alike`), and when two documents are the same but for such parts
(`Swapped`).  Used to state C79.
-/

namespace Kajiki.Spec.Swap
open Kajiki.Spec.DocSem Kajiki.Spec.Pure

/-- The nodes start with a `py:else`, which belongs to what is before it. -/
def startsElse : List DNode → Bool
  | .elem t _ _ _ :: _ => decide (dirOf t = some .elseD)
  | _ => false

/-- A CDATA section is one of the nodes. -/
def sections : List DNode → Bool
  | [] => false
  | .cdata _ _ :: _ => true
  | _ :: xs => sections xs

variable (py : Py) (c : CEnv)

/-- In an element `tag`, `xs` shows what `ys` shows and leaves the same variables, whatever the variables are.
`raw` tells that the element is an ordinary one, not that of a directive. -/
def Alike (raw : Bool) (tag : Str) (xs ys : List DNode) : Prop :=
  ∀ G over ρ, nodes py G over c raw tag xs ρ = nodes py G over c raw tag ys ρ

mutual
/-- The second node is the first with some parts exchanged for others that show the same.  `sw` tells that it is a
direct child of a `py:switch`, where only `py:case` and `py:else` count. -/
inductive Swapped : Bool → DNode → DNode → Prop
  | same (sw : Bool) (x : DNode) : Swapped sw x x
  | elem {sw : Bool} {t : Str} {as : Dict Str} {l l' : Nat} {xs ys : List DNode}
      (hs : dirOf t = none → script c.opts t = false) (he : dirOf t = none → xs.isEmpty = ys.isEmpty)
      (h : SwappedAll (decide (dirOf t = some .switchD) || (sw && decide (dirOf t = some .nop))) (dirOf t).isNone t xs ys) :
      Swapped sw (.elem t as l xs) (.elem t as l' ys)

/-- The same for the nodes in an element `tag`. -/
inductive SwappedAll : Bool → Bool → Str → List DNode → List DNode → Prop
  | nil {sw raw : Bool} {tag : Str} : SwappedAll sw raw tag [] []
  | cons {sw raw : Bool} {tag : Str} {x y : DNode} {xs ys : List DNode} (h : Swapped sw x y)
      (hs : SwappedAll sw raw tag xs ys) : SwappedAll sw raw tag (x :: xs) (y :: ys)
  | part {raw : Bool} {tag : Str} {us vs xs ys : List DNode} (h : Alike py c raw tag us vs)
      (hu : startsElse us = false) (hv : startsElse vs = false)
      (hx : startsElse xs = false) (hy : startsElse ys = false)
      (hs : SwappedAll false raw tag xs ys) : SwappedAll false raw tag (us ++ xs) (vs ++ ys)
end

/-- The second template is the first with some parts exchanged for others that show the same, whatever included templates
show. -/
structure SameShow (py : Py) (t t' : Template) : Prop where
  conf : t'.conf = t.conf
  base : t'.base = t.base
  roots : ∃ root root', t.root? = some root ∧ t'.root? = some root' ∧ t'.doctype root' = t.doctype root ∧
    ∀ incl, Swapped { py with incl := incl } t.conf false root root'

end Kajiki.Spec.Swap

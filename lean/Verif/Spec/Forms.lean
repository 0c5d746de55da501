import Verif.Spec.Dom
import Verif.Model.XmlCompile

/-!
# Vocabulary for C20: attribute form and element form of directives
-/

namespace Kajiki.Spec.Forms
open Kajiki.Spec.Dom

mutual
/-- The second tree is the first one with any number of directives written as elements instead of as
attributes.  Left out: `py:extends` (see `C20_extends_differs`); a directive that is not the outermost one of its
element; `py:else` together with another directive; `py:call` on an element with an attribute `args`. -/
inductive Forms : DNode → DNode → Prop
  | leaf {x : DNode} (h : isElem x = false) : Forms x x
  | same {tag : Str} {attrs : Dict Str} {ln : Nat} {ks ks' : List DNode} (h : FormsList ks ks') :
      Forms (.elem tag attrs ln ks) (.elem tag attrs ln ks')
  | directive {tag : Str} {attrs : Dict Str} {ln : Nat} {ks : List DNode} {y : DNode} {d a v : Str}
      (hd : (d, a) ∈ directives) (hx : d ≠ extendsTag) (hv : attrs.get d = some v)
      (ht : tag ∉ order) (hk : kindOf tag ≠ .elseK)
      (first : ∀ e ∈ order.takeWhile (· ≠ d), attrs.get e = none)
      (helse : d ≠ "py:else".toList → attrs.get "py:else".toList = none)
      (hcall : d = "py:call".toList → attrs.get "args".toList = none)
      (h : Forms (.elem tag (attrs.del d) ln ks) y) :
      Forms (.elem tag attrs ln ks) (.elem d (directiveAttrs a v) ln [y])

/-- The same for lists of trees. -/
inductive FormsList : List DNode → List DNode → Prop
  | nil : FormsList [] []
  | cons {x y : DNode} {xs ys : List DNode} (h : Forms x y) (hs : FormsList xs ys) :
      FormsList (x :: xs) (y :: ys)
end

end Kajiki.Spec.Forms

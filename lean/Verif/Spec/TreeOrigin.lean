import Verif.Spec.TreeFuns

/-!
# Where elements come from

When all elements, attributes and comments of a tree are those of a template.  Used to state C74.
-/

namespace Kajiki.Spec.TreeOrigin
open Kajiki.Spec.Reader (Tree)
open Kajiki.Spec.HtmlReader (Token)

mutual
/-- All nodes of a document that are in a node, and the node. -/
def inside : DNode → List DNode
  | .elem t as ln kids => .elem t as ln kids :: insideAll kids
  | x => [x]

/-- The same for several nodes. -/
def insideAll : List DNode → List DNode
  | [] => []
  | x :: xs => inside x ++ insideAll xs
end

/-- The nodes have an element with this name, which has these attributes, or a `py:attrs`. -/
def HasElem (L : List DNode) (tag : Str) (as : List (Str × Str)) : Prop :=
  ∃ attrs ln kids, DNode.elem tag attrs ln kids ∈ L ∧
    ("py:attrs".toList ∈ attrs.map (·.1) ∨ ∀ kv ∈ as, kv.1 ∈ attrs.map (·.1))

/-- The nodes have this comment. -/
def HasComment (L : List DNode) (t : Str) : Prop := ∃ d ln, DNode.comment d ln ∈ L ∧ t = ' ' :: d ++ [' ']

mutual
/-- All elements, attributes and comments of a tree are from these nodes. -/
def Made (L : List DNode) : Tree → Prop
  | .elem tag as kids => HasElem L tag as ∧ MadeAll L kids
  | .text _ => True
  | .comment t => HasComment L t

/-- The same for several trees. -/
def MadeAll (L : List DNode) : List Tree → Prop
  | [] => True
  | x :: xs => Made L x ∧ MadeAll L xs
end

/-- The tag or comment is from these nodes. -/
def MadeToken (L : List DNode) : Token → Prop
  | .start tag as => HasElem L tag as
  | .stop tag => ∃ attrs ln kids, DNode.elem tag attrs ln kids ∈ L
  | .chars _ => True
  | .comment t => HasComment L t

/-- Without markup that comes from values. -/
def unmarked (F : TreeSem.Format) : TreeSem.Format := { F with markup := fun _ => none }

end Kajiki.Spec.TreeOrigin

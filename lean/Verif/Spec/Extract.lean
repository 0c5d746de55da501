import Verif.Spec.DocSem
import Verif.Model.I18n

/-!
# The texts and expressions of a document

What extraction of messages should look at, read from the nodes of a transformed document. Used to state C85.
-/

namespace Kajiki.Spec.Extract
open Kajiki.Spec.DocSem

/-- A text in an element: literal text is a message unless it is blank or in a script or style sheet. -/
def ofText (c : CEnv) (tag d : Str) : List Read :=
  (cut c.py d).flatMap fun
    | .inl t => if scriptTag tag || (strip t).isEmpty then [] else [.message t]
    | .inr e => [.expression e]

/-- The value of an attribute: only its expressions. -/
def ofAttr (c : CEnv) (v : Str) : List Read :=
  (cut c.py v).flatMap fun
    | .inl _ => []
    | .inr e => [.expression e]

/-- The content of a script: only its expressions. -/
def ofScript (c : CEnv) : List DNode → List Read
  | .text d esc _ :: xs =>
    ((cut c.py d).flatMap fun
      | .inl _ => []
      | .inr e => [.expression (if esc then resolve e else e)]) ++ ofScript c xs
  | _ :: xs => ofScript c xs
  | [] => []

mutual
/-- The texts and shown expressions of a node in an element `tag`: those of texts, of ordinary attributes, of `py:content`
and of `py:replace`.  Other directives only contribute what is inside of them. -/
def wanted (c : CEnv) (tag : Str) : DNode → List Read
  | .text d _ _ => ofText c tag d
  | .cdata d _ => ofText c tag d
  | .comment .. => []
  | .pi .. => []
  | .elem t as _ kids =>
    if auto c.opts t as then wantedAll c false t kids
    else match dirOf t with
      | none =>
        ((plainAttrs c.opts t as).filter fun kv => !special kv.1).flatMap (fun kv => ofAttr c kv.2) ++
          if (attr (plainAttrs c.opts t as) "py:content").isEmpty then
            if script c.opts t then ofScript c kids else wantedAll c true t kids
          else [.expression (attr (plainAttrs c.opts t as) "py:content")]
      | some .replace => [.expression (attr as "value")]
      | some .imp => []
      | some .incl => []
      | some _ => wantedAll c false t kids

/-- Several nodes; `raw` tells that the markers of CDATA sections are not text. -/
def wantedAll (c : CEnv) (raw : Bool) (tag : Str) : List DNode → List Read
  | [] => []
  | .cdata d ln :: xs => (if raw then [] else wanted c tag (.cdata d ln)) ++ wantedAll c raw tag xs
  | x :: xs => wanted c tag x ++ wantedAll c raw tag xs
end

/-- The call of a block in the place where it is defined is an expression, too. -/
def isCall : Read → Prop
  | .message _ => False
  | .expression e => ∃ name, e = blockDecl name

/-- The functions of a template have different names. -/
def Distinct (t : Template) : Prop :=
  ∀ root, t.root? = some root → ("__main__()".toList :: (defs t.conf .root root).map (·.1)).Nodup

end Kajiki.Spec.Extract

import Verif.Model.XmlCompile

/-!
# Vocabulary for compiled documents

Used to state C17, C18, C20, C24, C31 and C34-C36.
-/

namespace Kajiki.Spec.XmlCompile

/-! ## Messages -/

mutual
/-- The texts below a node that are passed to gettext, in order. -/
def messages : Ir → List Str
  | .trans t _ => if (strip t).isEmpty then [] else [t]
  | .attr _ _ _ v _ => messagesList v
  | .innerDef _ b _ => messagesList b
  | .call _ _ b _ => messagesList b
  | .forN _ b _ => messagesList b
  | .withN _ b _ => messagesList b
  | .switchN _ b _ => messagesList b
  | .caseN _ b _ => messagesList b
  | .ifN _ b _ => messagesList b
  | .elseN b _ => messagesList b
  | _ => []

/-- The same for several nodes. -/
def messagesList : List Ir → List Str
  | [] => []
  | x :: xs => messages x ++ messagesList xs
end

/-- All messages of a template. -/
def messagesTmpl (t : Tmpl) : List Str := t.defs.flatMap fun d => messagesList d.body

mutual
/-- No attribute below the node contains a message. -/
def attrsPlain : Ir → Bool
  | .attr _ _ _ v _ => (messagesList v).isEmpty
  | .innerDef _ b _ => attrsPlainList b
  | .call _ _ b _ => attrsPlainList b
  | .forN _ b _ => attrsPlainList b
  | .withN _ b _ => attrsPlainList b
  | .switchN _ b _ => attrsPlainList b
  | .caseN _ b _ => attrsPlainList b
  | .ifN _ b _ => attrsPlainList b
  | .elseN b _ => attrsPlainList b
  | _ => true

/-- The same for several nodes. -/
def attrsPlainList : List Ir → Bool
  | [] => true
  | x :: xs => attrsPlain x && attrsPlainList xs
end

mutual
/-- The texts below a node (CDATA markers included), each with the tag of the element directly around
it; `p` is the tag around the node. -/
def parentTexts (p : Str) : DNode → List (Str × Str)
  | .elem tag _ _ kids => parentTextsList tag kids
  | .text d _ _ => [(p, d)]
  | .cdata d _ => [(p, d)]
  | _ => []

/-- The same for several nodes. -/
def parentTextsList (p : Str) : List DNode → List (Str × Str)
  | [] => []
  | x :: xs => parentTexts p x ++ parentTextsList p xs
end

/-- The character data directly inside an element with these children. -/
def ownText : List DNode → Str
  | [] => []
  | .text d _ _ :: xs => d ++ ownText xs
  | .cdata d _ :: xs => d ++ ownText xs
  | _ :: xs => ownText xs

mutual
/-- All elements of a tree, each with its tag and the character data directly inside it. -/
def ownTexts : DNode → List (Str × Str)
  | .elem tag _ _ kids => (tag, ownText kids) :: ownTextsList kids
  | _ => []

/-- The same for several trees. -/
def ownTextsList : List DNode → List (Str × Str)
  | [] => []
  | x :: xs => ownTexts x ++ ownTextsList xs
end

/-! ## Inheritance -/

/-- The element is an automatic block. -/
def isAuto (o : Opts) (tag : Str) (attrs : Dict Str) : Bool :=
  o.autoblocks.contains tag && decide (lowerAscii (getAttr attrs "py:autoblock".toList) ≠ "false".toList)

/-- The children of the element are part of the template: they are not with `py:replace`, `py:import`,
`py:include`, `py:content`, or inside a script. -/
def usesKids (o : Opts) (tag : Str) (attrs : Dict Str) : Bool :=
  isAuto o tag attrs ||
    match kindOf tag with
    | .replace | .imp | .incl => false
    | .xml => (getAttr attrs "py:content".toList).isEmpty && !(o.cdataScripts && cdataTags.contains tag)
    | _ => true

mutual
/-- The tree has a `py:extends` element (in a part that is used). -/
def extendsIn (o : Opts) : DNode → Bool
  | .elem tag attrs _ kids =>
    (!isAuto o tag attrs && decide (kindOf tag = .ext)) || (usesKids o tag attrs && extendsInList o kids)
  | _ => false

/-- The same for several trees. -/
def extendsInList (o : Opts) : List DNode → Bool
  | [] => false
  | x :: xs => extendsIn o x || extendsInList o xs
end

/-! ## Parts of an element -/

/-- Compiling the children of an ordinary element. -/
def contentOf (env : CEnv) (tag : Str) (attrs : Dict Str) (kids : List DNode) : CM (List Ir) :=
  if isScript env tag then scriptKids env tag kids
  else compileKids env true (some tag) (attrs.has "py:switch".toList) [] kids

/-- An attribute or a `py:attrs`, with the given guard. -/
def isAttrNode (g : Option Str) : Ir → Bool
  | .attr _ _ g' _ _ => g' == g
  | .attrs _ _ g' _ => g' == g
  | _ => false

/-- The node with a guard, if it can have one. -/
def guarded (g : Str) : Ir → Ir
  | .text t _ l => .text t (some g) l
  | .attr n m _ v l => .attr n m (some g) v l
  | .attrs c m _ l => .attrs c m (some g) l
  | x => x

/-- Part of a tag: a text or attribute without guard. -/
def isTagPart : Ir → Bool
  | .text _ none _ => true
  | .attr _ _ none _ _ => true
  | .attrs _ _ none _ => true
  | _ => false

/-- The node is a `py:else`, or nothing before one. -/
def startsElse : List Ir → Bool
  | .elseN _ _ :: _ => true
  | .python [] _ :: xs => startsElse xs
  | _ => false

end Kajiki.Spec.XmlCompile

import Verif.Model.Dom

/-!
# Vocabulary for documents

Used to state C20-C22, C25-C27 and C52.
-/

namespace Kajiki.Spec.Dom

/-- The directives in documented order, outermost first. -/
def order : List Str :=
  ["py:def", "py:call", "py:case", "py:else", "py:for", "py:if", "py:switch", "py:with", "py:replace",
   "py:block", "py:extends"].map String.toList

mutual
/-- All elements of a tree: tag and attributes. -/
def elements : DNode → List (Str × Dict Str)
  | .elem tag attrs _ kids => (tag, attrs) :: elementsList kids
  | _ => []

/-- All elements of several trees. -/
def elementsList : List DNode → List (Str × Dict Str)
  | [] => []
  | x :: xs => elements x ++ elementsList xs
end

mutual
/-- The text nodes of a tree in document order: text and line. -/
def leaves : DNode → List (Str × Nat)
  | .elem _ _ _ kids => leavesList kids
  | .text d _ l => [(d, l)]
  | _ => []

/-- The text nodes of several trees. -/
def leavesList : List DNode → List (Str × Nat)
  | [] => []
  | x :: xs => leaves x ++ leavesList xs
end

/-- The text of several trees. -/
def textOf (xs : List DNode) : Str := ((leavesList xs).map (·.1)).flatten

mutual
/-- The text inside each element of a tree, in document order. -/
def elementTexts : DNode → List Str
  | .elem _ _ _ kids => textOf kids :: elementTextsList kids
  | _ => []

/-- The same for several trees. -/
def elementTextsList : List DNode → List Str
  | [] => []
  | x :: xs => elementTexts x ++ elementTextsList xs
end

mutual
/-- The tree without the contents and lines of its text nodes. -/
def skeleton : DNode → DNode
  | .elem tag attrs ln kids => .elem tag attrs ln (skeletonList kids)
  | .text _ e _ => .text [] e 0
  | .cdata d l => .cdata d l
  | .comment d l => .comment d l
  | .pi t d l => .pi t d l

/-- The same for several trees. -/
def skeletonList : List DNode → List DNode
  | [] => []
  | x :: xs => skeleton x :: skeletonList xs
end

/-- An element. -/
def isElem : DNode → Bool
  | .elem _ _ _ _ => true
  | _ => false

/-- A comment or processing instruction: what can follow the root element of a document. -/
def isMisc : DNode → Bool
  | .comment _ _ => true
  | .pi _ _ _ => true
  | _ => false

/-- Two descriptions of the same characters: the XML parser may cut character data anywhere. -/
inductive SameEvents : List Event → List Event → Prop
  | refl (es) : SameEvents es es
  | split (a b : Str) (l l' : Nat) (es) :
      SameEvents (.characters (a ++ b) l :: es) (.characters a l :: .characters b l' :: es)
  | cons (e) {es es'} : SameEvents es es' → SameEvents (e :: es) (e :: es')
  | symm {es es'} : SameEvents es es' → SameEvents es' es
  | trans {es es' es''} : SameEvents es es' → SameEvents es' es'' → SameEvents es es''

/-- The character data reported by the parser; `n` is the number of open CDATA sections, outside of which
`&`, `<` and `>` are written as references. -/
def charData (n : Nat) : List Event → Str
  | [] => []
  | .characters c _ :: es => (if n = 0 then saxEscape c else c) ++ charData n es
  | .skippedEntity name _ :: es =>
    match skippedEntity name with
    | .ok c => (if n = 0 then saxEscape c else c) ++ charData n es
    | .error _ => charData n es
  | .startCDATA _ :: es => charData (n + 1) es
  | .endCDATA _ :: es => charData (n - 1) es
  | _ :: es => charData n es

/-- Wrap a node into directive elements, given outermost first: tag and attributes. -/
def nest (ln : Nat) (ws : List (Str × Dict Str)) (x : DNode) : DNode :=
  ws.foldr (fun w x => .elem w.1 w.2 ln [x]) x

/-- A text cut into pieces: the pieces make up the text, and each carries the line of its first
character when the text starts at line `l`. -/
def CutAt (whole : Str × Nat) (pieces : List (Str × Nat)) : Prop :=
  (pieces.map (·.1)).flatten = whole.1 ∧
  ∀ before p after, pieces = before ++ p :: after →
    p.2 = whole.2 + countNL ((before.map (·.1)).flatten)

/-- `p` is what remains of the text `whole` after removing whitespace at both ends; its line is that of
its first character. -/
def TrimmedFrom (whole p : Str × Nat) : Prop :=
  ∃ before after : Str, whole.1 = before ++ p.1 ++ after ∧ p.2 = whole.2 + countNL before ∧
    (∀ c ∈ before ++ after, isSpace c = true) ∧
    (∀ c, p.1.head? = some c → isSpace c = false) ∧ (∀ c, p.1.getLast? = some c → isSpace c = false)

end Kajiki.Spec.Dom

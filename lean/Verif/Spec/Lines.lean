import Verif.Spec.XmlText
import Verif.Model.Dom

/-!
# Vocabulary for the lines of extracted messages and of expressions

Used to state C90 and C92.
-/

namespace Kajiki.Spec.Lines
open Kajiki.Spec.XmlText

mutual
/-- The texts and CDATA sections of a tree in document order, each with its line. -/
def texts : DNode → List (Str × Nat)
  | .elem _ _ _ kids => textsList kids
  | .text d _ l => [(d, l)]
  | .cdata d l => [(d, l)]
  | _ => []

/-- Those of several trees. -/
def textsList : List DNode → List (Str × Nat)
  | [] => []
  | x :: xs => texts x ++ textsList xs
end

mutual
/-- The texts of a tree, where texts next to each other count as one, with the line of the first; and the CDATA
sections. -/
def joined : DNode → List (Str × Nat)
  | .elem _ _ _ kids => joinedKids none kids
  | .text d _ l => [(d, l)]
  | .cdata d l => [(d, l)]
  | _ => []

/-- Those of several nodes next to each other, after some text. -/
def joinedKids : Option (Str × Nat) → List DNode → List (Str × Nat)
  | open?, [] => open?.toList
  | none, .text d _ l :: xs => joinedKids (some (d, l)) xs
  | some (t, l), .text d _ _ :: xs => joinedKids (some (t ++ d, l)) xs
  | open?, x :: xs => open?.toList ++ joined x ++ joinedKids none xs
end

mutual
/-- The attributes of the elements of a tree, with the line of the element. -/
def elems : DNode → List (Dict Str × Nat)
  | .elem _ attrs l kids => (attrs, l) :: elemsList kids
  | _ => []

/-- Those of several trees. -/
def elemsList : List DNode → List (Dict Str × Nat)
  | [] => []
  | x :: xs => elems x ++ elemsList xs
end

/-- `part` is inside of the text `whole` and has the line it has there. -/
def Within (whole part : Str × Nat) : Prop :=
  ∃ before after, whole.1 = before ++ part.1 ++ after ∧ part.2 = whole.2 + countNL before

/-- The line breaks between `${` and the expression after it. -/
def lost : List Piece → Nat
  | [] => 0
  | .expr ws _ :: ps => countNL ws + lost ps
  | _ :: ps => lost ps

/-- The expression `e` is written in the text `d` that begins in line `l`, and `ln` is the line of its dollar sign, where
line breaks between a `${` and its expression do not count. -/
def WrittenIn (py : PyCompile) (d : Str) (l : Nat) (e : Str) (ln : Nat) : Prop :=
  ∃ before p after, source (before ++ p :: after) = d ∧ WellCut py (before ++ p :: after) ∧ p.value = .inr e ∧
    ln + lost before = l + countNL (source before)

/-- In the text no `${` is followed by a line break (or by other white space and then a line break). -/
def StartAtOnce (d : Str) : Prop :=
  ∀ before ws after, d = before ++ "${".toList ++ ws ++ after → (∀ c ∈ ws, isSpace c = true) → '\n' ∉ ws

end Kajiki.Spec.Lines

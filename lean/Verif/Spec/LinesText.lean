import Verif.Spec.TextSource

/-!
# Vocabulary for the lines of expressions in text templates

Used to state C91.
-/

namespace Kajiki.Spec.LinesText
open Kajiki.Spec.Text Kajiki.Spec.TextSource

/-- A directive is here: `%name` or `{%-name`, which remove the white space before them. -/
def Directive (s : Str) : Prop :=
  ∃ c r, letter c = true ∧ (s = '%' :: c :: r ∨ s = '{' :: '%' :: '-' :: c :: r)

/-- There are no blank lines before such directives.  `bol` tells whether a line starts before `s`. -/
def NoBlankLines (bol : Bool) (s : Str) : Prop :=
  ∀ before ws after, s = before ++ (ws ++ after) → lineStart bol before = true → Spaces ws → Directive after → '\n' ∉ ws

/-- How an expression is written: `$e` or `${e}`. -/
def Spelling (e piece : Str) : Prop := piece = '$' :: e ∨ piece = '$' :: '{' :: (e ++ ['}'])

end Kajiki.Spec.LinesText

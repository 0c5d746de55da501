import Verif.Spec.Raises
import Verif.Spec.IncludeText

/-!
# Where exceptions of text templates that include others come from (C82)
-/

namespace Kajiki.Spec.RaisesText
open Kajiki.Spec.TextTree (Dir)
open Kajiki.Spec.TextSem (Template)

mutual
/-- The templates that a directive includes. -/
def includes : Dir → List Str
  | .includeD file => [file]
  | .ifD _ b => includesAll b
  | .ifElse _ b b' => includesAll b ++ includesAll b'
  | .forD _ b => includesAll b
  | .switchD _ b => includesAll b
  | .caseD _ b => includesAll b
  | .elseD b => includesAll b
  | _ => []

/-- The same for several directives. -/
def includesAll : List Dir → List Str
  | [] => []
  | d :: ds => includes d ++ includesAll ds
end

/-- A template includes one that is not there. -/
def Missing (ts : List Template) (load : Str → Option Nat) : Prop :=
  ∃ t ∈ ts, ∃ file ∈ includesAll t.tree, load file = none

/-- Templates do not include each other in circles: what a template includes has a smaller number. -/
def NoCircles (ts : List Template) (load : Str → Option Nat) (rank : Nat → Nat) : Prop :=
  ∀ i t file j, ts[i]? = some t → file ∈ includesAll t.tree → load file = some j → rank j < rank i

end Kajiki.Spec.RaisesText

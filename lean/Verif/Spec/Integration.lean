import Verif.Model.Integration

/-!
# Specification: words, and the events of an application
-/

namespace Kajiki.Spec.Integration
open Kajiki.Pyramid

/-- The words of a text: what is between white space. -/
inductive Words : Str → List Str → Prop
  | none {s : Str} : (∀ c ∈ s, isSpace c = true) → Words s []
  | word {blank w rest : Str} {ws : List Str} : (∀ c ∈ blank, isSpace c = true) → w ≠ [] →
      (∀ c ∈ w, isSpace c = false) → (∀ c, rest.head? = some c → isSpace c = true) → Words rest ws →
      Words (blank ++ w ++ rest) (w :: ws)

/-- Kajiki is included in an application. -/
def including : Event → Bool
  | .incl _ => true
  | _ => false

/-- What the other events gave. -/
def others : List Event → List (Except Err (Option Str)) → List (Except Err (Option Str))
  | e :: es, r :: rs => if including e then others es rs else r :: others es rs
  | _, _ => []

/-- What including Kajiki gave. -/
def inclusions : List Event → List (Except Err (Option Str)) → List (Except Err (Option Str))
  | e :: es, r :: rs => if including e then r :: inclusions es rs else inclusions es rs
  | _, _ => []

end Kajiki.Spec.Integration

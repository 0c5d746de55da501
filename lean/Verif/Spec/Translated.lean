import Verif.Spec.Include

/-!
# A translated template

The template in which all texts are replaced by their translations.  Used to state C88.
-/

namespace Kajiki.Spec.Language
open Kajiki.Spec.DocSem Kajiki.Spec.Pure

/-- Literal text and expressions in turn: neighbouring literal texts are put together, and empty ones left out. -/
def joined : List (Str ⊕ Str) → List (Str ⊕ Str)
  | [] => []
  | .inr e :: xs => .inr e :: joined xs
  | .inl s :: xs =>
    match joined xs with
    | .inl t :: ys => .inl (s ++ t) :: ys
    | ys => if s.isEmpty then ys else .inl s :: ys

/-- What a text in an element `tag` says in another language: its messages are translated. Blank texts, and those in
scripts, are no messages. -/
def said (tr : Str → Str) (tag : Str) : Str ⊕ Str → Str ⊕ Str
  | .inl t => .inl (if scriptTag tag || (strip t).isEmpty then t else tr t)
  | .inr e => .inr e

variable (tr : Str → Str) (c : CEnv)

/-- The text `d'` says what the text `d` says in another language; its expressions are the same. -/
def SaysSame (tag d d' : Str) : Prop := joined (cut c.py d') = joined ((cut c.py d).map (said tr tag))

mutual
/-- The second node is the translation of the first one, in an element `tag`.  `raw` tells that this is an ordinary
element, in which the markers of CDATA sections are no text. -/
inductive Translated : Bool → Str → DNode → DNode → Prop
  | text {raw : Bool} {tag d d' : Str} {e e' : Bool} {l l' : Nat} (h : SaysSame tr c tag d d') :
      Translated raw tag (.text d e l) (.text d' e' l')
  | cdata {tag d d' : Str} {l l' : Nat} (h : SaysSame tr c tag d d') : Translated false tag (.cdata d l) (.cdata d' l')
  | marker {tag d : Str} {l l' : Nat} : Translated true tag (.cdata d l) (.cdata d l')
  | comment {raw : Bool} {tag d : Str} {l l' : Nat} : Translated raw tag (.comment d l) (.comment d l')
  | pi {raw : Bool} {tag t d : Str} {l l' : Nat} : Translated raw tag (.pi t d l) (.pi t d l')
  | script {raw : Bool} {tag t : Str} {as : Dict Str} {l l' : Nat} {kids : List DNode} (hd : dirOf t = none)
      (hs : script c.opts t = true) : Translated raw tag (.elem t as l kids) (.elem t as l' kids)
  | elem {raw : Bool} {tag t : Str} {as : Dict Str} {l l' : Nat} {kids kids' : List DNode}
      (hs : dirOf t = none → script c.opts t = false) (h : TranslatedAll (dirOf t).isNone t kids kids') :
      Translated raw tag (.elem t as l kids) (.elem t as l' kids')

/-- The same for several nodes. -/
inductive TranslatedAll : Bool → Str → List DNode → List DNode → Prop
  | nil {raw : Bool} {tag : Str} : TranslatedAll raw tag [] []
  | cons {raw : Bool} {tag : Str} {x y : DNode} {xs ys : List DNode} (h : Translated raw tag x y)
      (hs : TranslatedAll raw tag xs ys) : TranslatedAll raw tag (x :: xs) (y :: ys)
end

/-- The second template is the translation of the first one. -/
structure IsTranslation (t t' : Template) : Prop where
  conf : t'.conf = t.conf
  base : t'.base = t.base
  roots : ∃ root root', t.root? = some root ∧ t'.root? = some root' ∧ t'.doctype root' = t.doctype root ∧
    Translated tr t.conf false [] root root'

/-- Nothing is translated. -/
def untranslated (py : Py) : Py := { py with tr := id }

end Kajiki.Spec.Language

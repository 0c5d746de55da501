import Verif.Spec.Pure

/-!
# What a template shows that includes others

`py:include` shows another template at its place.  That one does not see the local variables of the place (those of
`py:for`, `py:with` and Python blocks), only the global ones: the variables of the context, and what the first template
and it itself have in their modules; and its local variables are gone afterwards.  Templates may include themselves.  Used
to state C76.

`load` gives the template with a name.  Those that are included are compiled as fragments, so there is no DOCTYPE
(`Template.doctype` says what there is).
-/

namespace Kajiki.Spec.Include
open Kajiki.Spec.DocSem Kajiki.Spec.Pure
open Kajiki.Spec.Pure.Shown (done raise)

/-- The global variables of an included template. -/
def inherited (G : Look) (base : Dict Val) : Look := fun k => (G k).or (Dict.get base k)

section
variable (ts : List Template) (load : Str → Option Nat) (py : Py) (G : Look)

/-- What template `i` shows in which templates may be nested less than `n` deep, where the first has global variables
`G`. -/
def shownIn : Nat → Nat → Shown Unit
  | 0, _ => raise .recursion
  | n + 1, i =>
    match ts[i]? with
    | none => raise .name
    | some t =>
      match t.root? with
      | none => raise .name
      | some root =>
        (shown { py with incl := fun href => match load href with
            | none => raise .ioError
            | some j => shownIn n j } (inherited G t.base) t root).next fun _ => done ()

end

/-- Names in the global variables that are different in each template: the function `value_of`, and the names under
which included templates are there. -/
def Own (aliasFor : Str → Str) (H : Str → Bool) (k : Str) : Prop :=
  k = "value_of".toList ∨ ∃ href, H href = true ∧ k = aliasFor href

/-- What a template needs that may include those called `H`: there are no functions in it and no other templates, and
Python evaluates its expressions as `py` does. -/
structure Fits {W : Type} (O : Run.Oracle W) (py : Py) (H : Str → Bool) (t : Template) (root : DNode) : Prop where
  isRoot : t.root? = some root
  ok : Ok O py { Allowed.no with incls := H } t.conf root
  noBlocks : blocks t.conf.opts root = []
  speaks : speaks t.conf .root root = true
  base : (t.base.map (·.1)).Nodup
  free : ∀ k ∈ ["local".toList, "self".toList], Dict.get t.base k = none

/-- What templates need that are rendered with a context: the loader finds them or nothing, messages are translated as `py` does, no variable is called
`local` or `self`, and Python does not use names that are different in each template. -/
structure Runs {W : Type} (O : Run.Oracle W) (py : Py) (load : Str → Option Nat) (aliasFor : Str → Str) (H : Str → Bool)
    (context : Dict Val) (ts : List Template) : Prop where
  fits : ∀ t ∈ ts, ∃ root, Fits O py H t root
  loads : ∀ href i, load href = some i → i < ts.length
  noCalls : ∀ e, py.call e = none
  messages : ∀ g s w, O.gettext g s w = (.ok (.str (py.tr s)), w)
  main : ∀ w, O.args "__main__()".toList [] w = (.ok [], w)
  free : ∀ k ∈ ["local".toList, "self".toList], Dict.get context k = none
  names : ∀ href, H href = true → aliasFor href ∉ ["local".toList, "self".toList, "gettext".toList]
  blind : Blind (Own aliasFor H) py

end Kajiki.Spec.Include

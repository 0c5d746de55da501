import Verif.Spec.TextSem

/-!
# Exchanging parts of a text template

When two parts of text templates are alike, and when a template is another one with some parts exchanged for others that are
alike.  The templates may be any (functions, blocks, `%call`, `%extends`, `%import`, `%include`), and Python may have side
effects.  Used to state C89.
-/

namespace Kajiki.Spec.SwapText
open Kajiki.Spec.TextTree (Dir)
open Kajiki.Spec.TextSem

section
variable {W : Type} (O : Run.Oracle W) (c : Conf)

/-- At this place, `xs` does what `ys` does in every program and every state, and defines the same functions, and it is as
much or as little (C65) as `ys`. -/
structure Alike (p : Spot) (xs ys : List Dir) : Prop where
  does : ∀ P call env, dirs P O call c env p xs = dirs P O call c env p ys
  defines : defsAll c p xs = defsAll c p ys
  after : afterAll p xs = afterAll p ys
  silent : silentAll p xs = silentAll p ys
  speaks : speaksAny p xs = speaksAny p ys

mutual
/-- The second directive is the first with some parts exchanged for others that are alike. -/
inductive Swapped : Spot → Dir → Dir → Prop
  | same {p : Spot} (x : Dir) : Swapped p x x
  | ifD {p : Spot} {e : Str} {xs ys : List Dir} (h : SwappedAll p false xs ys) : Swapped p (.ifD e xs) (.ifD e ys)
  | ifElse {p : Spot} {e : Str} {xs ys us vs : List Dir} (h : SwappedAll p false xs ys)
      (h' : SwappedAll (afterAll p xs) false us vs) : Swapped p (.ifElse e xs us) (.ifElse e ys vs)
  | forD {p : Spot} {e : Str} {xs ys : List Dir} (h : SwappedAll p false xs ys) : Swapped p (.forD e xs) (.forD e ys)
  | switchD {p : Spot} {e : Str} {xs ys : List Dir} (h : SwappedAll p true xs ys) :
      Swapped p (.switchD e xs) (.switchD e ys)
  | caseD {p : Spot} {e : Str} {xs ys : List Dir} (h : SwappedAll p false xs ys) : Swapped p (.caseD e xs) (.caseD e ys)
  | elseD {p : Spot} {xs ys : List Dir} (h : SwappedAll p false xs ys) : Swapped p (.elseD xs) (.elseD ys)
  | defD {p : Spot} {e : Str} {xs ys : List Dir} (h : SwappedAll p.fn false xs ys) : Swapped p (.defD e xs) (.defD e ys)
  | callD {p : Spot} {a e : Str} {xs ys : List Dir} (h : SwappedAll p false xs ys) :
      Swapped p (.callD a e xs) (.callD a e ys)
  | blockD {p : Spot} {e : Str} {xs ys : List Dir} (h : SwappedAll p false xs ys) :
      Swapped p (.blockD e xs) (.blockD e ys)

/-- The same for several directives.  The flag tells that they are directly in a `%switch`, where choices are not exchanged
(but what is in them may be). -/
inductive SwappedAll : Spot → Bool → List Dir → List Dir → Prop
  | nil {p : Spot} {sw : Bool} : SwappedAll p sw [] []
  | cons {p : Spot} {sw : Bool} {x y : Dir} {xs ys : List Dir} (h : Swapped p x y)
      (hs : SwappedAll (after p x) sw xs ys) : SwappedAll p sw (x :: xs) (y :: ys)
  | part {p : Spot} {us vs xs ys : List Dir} (h : Alike O c p us vs) (hs : SwappedAll (afterAll p us) false xs ys) :
      SwappedAll p false (us ++ xs) (vs ++ ys)
end

end

/-- The second template is the first with some parts exchanged for others that are alike. -/
structure Exchanged {W : Type} (O : Run.Oracle W) (t t' : Template) : Prop where
  conf : t'.conf = t.conf
  base : t'.base = t.base
  tree : SwappedAll O t.conf .start false t.tree t'.tree

end Kajiki.Spec.SwapText

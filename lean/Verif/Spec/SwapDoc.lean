import Verif.Spec.Swap

/-!
# Exchanging parts of any template

As `Verif/Spec/Swap.lean`, for all templates: they may have functions and blocks, extend, import and include others, and
Python may have side effects.  Two parts are alike if they do the same in every state (`Verif/Spec/DocSem.lean`) and define
the same functions.  Used to state C79.
-/

namespace Kajiki.Spec.SwapDoc
open Kajiki.Spec.DocSem
open Kajiki.Spec.Swap (startsElse)

/-- An ordinary element, not a directive and not an automatic block. -/
def ordinary (o : Opts) (t : Str) (as : Dict Str) : Bool := !auto o t as && (dirOf t).isNone

/-- Choices of a `py:switch` are in this element, if `sw` tells whether there are some beside it. -/
def choosing (o : Opts) (sw : Bool) (t : Str) (as : Dict Str) : Bool :=
  !auto o t as && (decide (dirOf t = some .switchD) || (sw && decide (dirOf t = some .nop)))

/-- The place of the content of an element at the place `p`. -/
def inside (o : Opts) (p : Place) (t : Str) (as : Dict Str) : Place :=
  if auto o t as then p
  else match dirOf t with
    | some .ext => p.ext
    | some .defn => p.fn
    | _ => p

section
variable {W : Type} (O : Run.Oracle W) (c : CEnv)

/-- At this place in an element `tag`, `xs` does what `ys` does in every program and every state, and defines the same
functions, and it is as much or as little (C65) as `ys`. -/
structure Alike (p : Place) (raw : Bool) (tag : Str) (xs ys : List DNode) : Prop where
  does : ∀ P call env, nodes P O call c env p raw tag xs = nodes P O call c env p raw tag ys
  defines : defsAll c p xs = defsAll c p ys
  after : afterAll c.opts p xs = afterAll c.opts p ys
  silent : silentAll c p xs = silentAll c p ys
  speaks : speaksAny c p xs = speaksAny c p ys

mutual
/-- The second node is the first with some parts exchanged for others that are alike.  `sw` tells that it is a direct child
of a `py:switch`, where only `py:case` and `py:else` count. -/
inductive Swapped : Place → Bool → DNode → DNode → Prop
  | same {p : Place} {sw : Bool} (x : DNode) : Swapped p sw x x
  | elem {p : Place} {sw : Bool} {t : Str} {as : Dict Str} {l l' : Nat} {xs ys : List DNode}
      (hd : auto c.opts t as = true → dirOf t = none)
      (he : ordinary c.opts t as = true → xs.isEmpty = ys.isEmpty ∧ script c.opts t = false)
      (ha : dirOf t = some .call → callArgs xs = callArgs ys)
      (h : SwappedAll (inside c.opts p t as) (choosing c.opts sw t as) (ordinary c.opts t as) t xs ys) :
      Swapped p sw (.elem t as l xs) (.elem t as l' ys)

/-- The same for the nodes in an element `tag`. -/
inductive SwappedAll : Place → Bool → Bool → Str → List DNode → List DNode → Prop
  | nil {p : Place} {sw raw : Bool} {tag : Str} : SwappedAll p sw raw tag [] []
  | cons {p : Place} {sw raw : Bool} {tag : Str} {x y : DNode} {xs ys : List DNode} (h : Swapped p sw x y)
      (hs : SwappedAll (after c.opts p x) sw raw tag xs ys) : SwappedAll p sw raw tag (x :: xs) (y :: ys)
  | part {p : Place} {raw : Bool} {tag : Str} {us vs xs ys : List DNode} (h : Alike O c p raw tag us vs)
      (hu : startsElse us = false) (hv : startsElse vs = false)
      (hx : startsElse xs = false) (hy : startsElse ys = false)
      (hs : SwappedAll (afterAll c.opts p us) false raw tag xs ys) : SwappedAll p false raw tag (us ++ xs) (vs ++ ys)
end

end

/-- The second template is the first with some parts exchanged for others that are alike. -/
structure Exchanged {W : Type} (O : Run.Oracle W) (t t' : Template) : Prop where
  conf : t'.conf = t.conf
  base : t'.base = t.base
  dtd : t'.doc.dtd = t.doc.dtd
  roots : ∃ root root', t.root? = some root ∧ t'.root? = some root' ∧ Swapped O t.conf .root false root root'

end Kajiki.Spec.SwapDoc

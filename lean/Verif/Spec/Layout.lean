import Verif.Spec.Pure

/-!
# Pages with a layout

What a template shows that extends a layout, directly or through other templates: the layout, with its blocks replaced
by those of the templates that extend it.  As in `Verif/Spec/Pure.lean` this is a function of the values of variables.
Used to state C70.
-/

namespace Kajiki.Spec.Layout
open Kajiki.Spec.DocSem Kajiki.Spec.Pure
open Kajiki.Spec.Pure.Shown (done put get)

/-- A template that extends another one: its root is a `py:extends` with the given content. -/
structure Child where
  t : Template
  kids : List DNode

namespace Child

/-- The blocks of the template. -/
def blocks (x : Child) : Dict (List DNode) := blocksAll x.t.conf.opts x.kids

/-- The variables it sets with `py:with`. -/
def bound (x : Child) : List Str := boundAll x.t.conf.opts x.kids

end Child

/-- Template number `i` extends another one, that one extends another one, and so on until the layout. -/
inductive Extends (ts : List Template) (load : Str → Option Nat) : Nat → List Child → Template → DNode → Prop
  | layout {i t root} : ts[i]? = some t → t.root? = some root → Extends ts load i [] t root
  | child {i t as ln kids j rest layout root} : ts[i]? = some t →
    t.root? = some (.elem "py:extends".toList as ln kids) → auto t.conf.opts "py:extends".toList as = false →
    load (attr as "href") = some j → Extends ts load j rest layout root →
    Extends ts load i (⟨t, kids⟩ :: rest) layout root

/-! ## What it shows -/

section
variable (py : Py)

/-- What blocks show where they are in a template that extends another one: nothing. -/
def elsewhere : Str → Option (Shown Unit) := fun _ => some (done ())

/-- `parent_block=parent._kj_block_name` -/
def parentBlock (name : Str) : Str := "parent_block=parent.".toList ++ blockName name

/-- The content of a block that replaces one of the layout; `G` are the global variables of its own template.  It may
use `parent_block`. -/
def replacement (G : Look) (c : CEnv) (name : Str) (kids : List DNode) : Shown Unit :=
  (get (py.block [parentBlock name] (look G []))).next fun b =>
    (nodes py G elsewhere c false "py:block".toList kids (Dict.update [] b)).next fun _ => done ()

/-- The block that replaces a block of the layout: that of the first template that has one of this name, starting
with the template that is rendered. -/
def over : List (Child × Look) → Str → Option (Shown Unit)
  | [], _ => none
  | (x, G) :: xs, name =>
    match Dict.get x.blocks name with
    | some kids => some (replacement py G x.t.conf name kids)
    | none => over xs name

/-- The layout, followed by what the templates have beside their blocks. -/
def parts (layout : Shown Unit) : List (Child × Look) → Shown Unit
  | [] => layout
  | (x, G) :: xs =>
    (parts layout xs).seq
      ((nodes py G elsewhere x.t.conf false "py:extends".toList x.kids []).next fun _ => done ())

/-- The layout with some of its blocks replaced. -/
def layout (G : Look) (over : Str → Option (Shown Unit)) (t : Template) (root : DNode) : Shown Unit :=
  (put (t.doctype root)).seq ((node py G over t.conf (fun ρ => done ρ) [] root []).next fun _ => done ())

/-- The whole page.  `xs` are the templates that extend the layout with their global variables, starting with the
one that is rendered, and `G` are the global variables of the layout. -/
def page (xs : List (Child × Look)) (G : Look) (t : Template) (root : DNode) : Shown Unit :=
  parts py (layout py G (over py xs) t root) xs

end

/-! ## Which templates, and which Python -/

/-- Names of the functions made for blocks. -/
def BlockName (k : Str) : Prop := "_kj_block_".toList.isPrefixOf k = true

/-- The name of a block has no blanks and no parentheses. -/
def plainName (name : Str) : Bool := name.all fun c => c != '(' && !isSpace c

/-- The content of a block is either nothing at all, or it shows something under some circumstances (C65). -/
def readable (c : CEnv) (p : Place) (kids : List DNode) : Bool := silentAll c p kids || speaksAny c p kids

/-- The names of the blocks of a template are plain and distinct, and their contents are readable. -/
def goodBlocks (c : CEnv) (p : Place) (bs : Dict (List DNode)) : Prop :=
  (bs.map (·.1)).Nodup ∧ ∀ b ∈ bs, plainName b.1 = true ∧ readable c p b.2 = true

section
variable {W : Type} (O : Run.Oracle W) (py : Py)

/-- Calling a block gives a new generator for the function that the name of the block means. -/
def CallsBlocks : Prop :=
  ∃ next : W → Nat, ∀ name v w f, visible v (blockName name) = some (.fn f) →
    ∃ w', O.eval (blockDecl name) v w = (.ok (.flatCall (next w) f []), w') ∧ next w < next w'

/-- What a page needs: besides blocks there are no functions in the templates and no other templates, Python evaluates
their expressions as `py` does, messages are translated as `py` does, blocks can be called, and no variable has the name
of a function made for a block or is called `local` (C63). -/
structure Runs (context : Dict Val) (xs : List Child) (t : Template) (root : DNode) : Prop where
  okKids : ∀ x ∈ xs, OkAll O py .no x.t.conf x.kids
  okRoot : Ok O py .no t.conf root
  noCalls : ∀ e, py.call e = none
  speaks : speaks t.conf .root root = true
  childBlocks : ∀ x ∈ xs, goodBlocks x.t.conf Place.root.ext x.blocks
  layoutBlocks : goodBlocks t.conf .root (Pure.blocks t.conf.opts root)
  messages : ∀ g s w, O.gettext g s w = (.ok (.str (py.tr s)), w)
  args : ∀ name w, O.args (blockDecl name) [] w = (.ok [], w)
  main : ∀ w, O.args "__main__()".toList [] w = (.ok [], w)
  calls : CallsBlocks O
  parent : ∀ name v w, O.py [parentBlock name] v w = (py.block [parentBlock name] (visible v), w)
  tidy : Tidy BlockName py
  withs : ∀ x ∈ xs, ∀ k ∈ x.bound, ¬BlockName k
  layoutWiths : ∀ k ∈ bound t.conf.opts root, ¬BlockName k
  free : ∀ k, k = "local".toList ∨ BlockName k → Dict.get context k = none
  bases : ∀ x ∈ t :: xs.map (·.t), (x.base.map (·.1)).Nodup ∧
    ∀ k, k = "local".toList ∨ BlockName k → Dict.get x.base k = none

end

/-- Names that may be there. -/
def names : List Str := ownNames ++ ["child", "parent"].map String.toList

/-- The global variables of a template: the context is there (except for some names), and nothing else but what the
modules of the templates define, the names that are always there, and functions made for blocks. -/
def Globals (bases : List (Dict Val)) (context : Dict Val) (G : Look) : Prop :=
  (∀ k x, Dict.get context k = some x → k ∉ ["_", "value_of", "self", "child", "parent"].map String.toList →
    G k = some x) ∧
  (∀ k, Dict.get context k = none → (∀ b ∈ bases, Dict.get b k = none) → k ∉ names → ¬BlockName k → G k = none)

mutual
/-- How deep blocks are nested. -/
def depth : DNode → Nat
  | .elem t _ _ kids => if dirOf t = some .block then depthAll kids + 1 else depthAll kids
  | _ => 0

/-- How deep blocks are nested in several nodes. -/
def depthAll : List DNode → Nat
  | [] => 0
  | x :: xs => max (depth x) (depthAll xs)
end

end Kajiki.Spec.Layout

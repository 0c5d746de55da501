import Verif.Spec.TreeSem
import Verif.Spec.Funs

/-!
# The trees of templates with functions

`Verif/Spec/Funs.lean` with trees in the place of text: what a template with functions and blocks, which may extend
another one, and so on, is read as.  Used to state C74.
-/

namespace Kajiki.Spec.TreeFuns
open Kajiki.Spec.DocSem Kajiki.Spec.TreeSem
open Kajiki.Spec.TreeSem.Grown (done get put)
open Kajiki.Spec.Pure (Look Py)
open Kajiki.Spec.Funs (Fn Level Calls means fnAt)

/-- The trees of functions: of a given one, and for `parent_block()` of the one with a given name. -/
structure Meaning where
  fn : Nat → Fn → List Val → Grown Unit
  above : Nat → Str → List Val → Grown Unit

section
variable (F : Format) (ls : List Level) (C : Calls) (py : Py) (G : Nat → Look) (up : Nat → Str → Val)

/-- Calls in template `a`, in the given block of it. -/
def calls (m : Meaning) (a : Nat) (block : Option Str) (e : Str) : Option (Look → Grown Unit) :=
  (C.callee e).bind fun (f, args) =>
    if block.isSome && f == "parent_block".toList then
      some fun look => (get (args look)).next (m.above (a + 1) (blockName (block.getD [])))
    else if "_kj_block_".toList.isPrefixOf f then none
    else (means ls a f).map fun d look => (get (args look)).next (m.fn d.1 d.2)

/-- The tree of a block where it is: nothing if its template extends another one. -/
def inPlace (m : Meaning) (a : Nat) (l : Level) (name : Str) : Option (Grown Unit) :=
  if l.child then some (done ()) else (means ls a (blockName name)).map fun d => m.fn d.1 d.2 []

/-- The tree of content of template `a`.  (Scripts are text, so functions called in them show text: `p`.) -/
def content (p : Funs.Meaning) (m : Meaning) (a : Nat) (l : Level) (block : Option Str)
    (over : Str → Option (Grown Unit)) (tag : Str) (kids : List DNode) (ρ : Pure.Vars) : Grown Unit :=
  (nodes F (Funs.pyAt ls C py p a block) (calls ls C m a block) (G a) over l.t.conf false tag kids ρ).next
    fun _ => done ()

/-- The tree of a function of template `a`. -/
def body (p : Funs.Meaning) (m : Meaning) (a : Nat) (d : Fn) (args : List Val) : Grown Unit :=
  match ls[a]? with
  | none => done ()
  | some l =>
    (get (C.bind d.decl args)).next fun ρ =>
    match d with
    | .defn _ kids => content F ls C py G p m a l none (inPlace ls m a l) "py:def".toList kids ρ
    | .block name kids =>
      if l.child then
        content F ls C py G p m a l (some name) (fun _ => some (done ())) "py:block".toList kids
          [("parent_block".toList, up a name)]
      else content F ls C py G p m a l none (inPlace ls m a l) "py:block".toList kids []

/-- The trees of functions if calls can be nested so deep. -/
def meaning : Nat → Meaning
  | 0 => ⟨fun _ _ _ => get (.error .recursion), fun _ _ _ => get (.error .recursion)⟩
  | n + 1 =>
    let p := Funs.meaning ls C py G up n
    ⟨body F ls C py G up p (meaning n), fun a f args =>
      match fnAt ls a f with
      | some d => body F ls C py G up p (meaning n) a d args
      | none => (meaning n).above (a + 1) f args⟩

/-- The tree of template `a`: that of the one it extends, and then what it has beside its functions. -/
def grownAt : Nat → Nat → Grown Unit
  | 0, _ => get (.error .recursion)
  | n + 1, a =>
    match ls[a]? with
    | none => done ()
    | some l =>
      (if l.child then grownAt n (a + 1)
        else put (some (if (l.t.root?.map l.t.doctype).getD [] = [] then [] else [.text ['\n']]))).next fun _ =>
      content F ls C py G (Funs.meaning ls C py G up n) (meaning F ls C py G up n) a l none
        (inPlace ls (meaning F ls C py G up n) a l) (if l.child then "py:extends".toList else []) l.kids []

end

end Kajiki.Spec.TreeFuns

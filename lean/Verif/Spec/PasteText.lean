import Verif.Spec.IncludeText
import Verif.Spec.Paste

/-!
# Pasting included text templates

The text templates in which some `%include`s are replaced by the content of the templates they include.  Used to state C83
for text templates, and C84 for those that include others.  See `Verif/Spec/Paste.lean` for what it needs.
-/

namespace Kajiki.Spec.PasteText
open Kajiki.Spec.TextTree (Dir)
open Kajiki.Spec.TextSem (Template)
open Kajiki.Spec.Pure (Py)
open Kajiki.Spec.Paste (Ignores)

mutual
/-- What a directive becomes if the `%include`s of some files are replaced: `f` says by what. -/
def paste (f : Str → Option (List Dir)) : Dir → List Dir
  | .includeD file => (f file).getD [.includeD file]
  | .ifD e b => [.ifD e (pasteAll f b)]
  | .ifElse e b b' => [.ifElse e (pasteAll f b) (pasteAll f b')]
  | .forD e b => [.forD e (pasteAll f b)]
  | .switchD e b => [.switchD e (pasteAll f b)]
  | .caseD e b => [.caseD e (pasteAll f b)]
  | .elseD b => [.elseD (pasteAll f b)]
  | d => [d]

/-- The same for several directives. -/
def pasteAll (f : Str → Option (List Dir)) : List Dir → List Dir
  | [] => []
  | d :: ds => paste f d ++ pasteAll f ds
end

/-- The template with the `%include`s of some files replaced. -/
def pasted (f : Str → Option (List Dir)) (t : Template) : Template := { t with tree := pasteAll f t.tree }

section
variable (py : Py)

mutual
/-- The directive does not look at these variables, except inside of a `%for` that sets them.  Where another template is
included, all of those it leaves (`left`) are among them. -/
def Careful (left : Str → Prop) : (Str → Prop) → Dir → Prop
  | hid, .expr e _ => Ignores hid (py.eval e)
  | hid, .ifD e b => Ignores hid (py.eval e) ∧ CarefulAll left hid b
  | hid, .ifElse e b b' => Ignores hid (py.eval e) ∧ CarefulAll left hid b ∧ CarefulAll left hid b'
  | hid, .forD e b =>
    Ignores hid (py.iter e) ∧
    ∃ sets : Str → Prop,
      (∀ L bs, py.iter e L = .ok bs → ∀ b ∈ bs, ∀ k, sets k → Dict.get b k ≠ none) ∧
      CarefulAll left (fun k => hid k ∧ ¬sets k) b
  | hid, .switchD e b => Ignores hid (py.eval e) ∧ CarefulAll left hid b
  | hid, .caseD e b => Ignores hid (py.eval e) ∧ CarefulAll left hid b
  | hid, .elseD b => CarefulAll left hid b
  | hid, .py _ ls => Ignores hid (py.block ls)
  | hid, .includeD _ => ∀ k, left k → hid k
  | _, _ => True

/-- The same for several directives. -/
def CarefulAll (left : Str → Prop) : (Str → Prop) → List Dir → Prop
  | _, [] => True
  | hid, d :: ds => Careful left hid d ∧ CarefulAll left hid ds
end

mutual
/-- The directive sets no other local variables than these. -/
def Sets (names : Str → Prop) : Dir → Prop
  | .ifD _ b => SetsAll names b
  | .ifElse _ b b' => SetsAll names b ∧ SetsAll names b'
  | .forD e b =>
    (∀ L bs, py.iter e L = .ok bs → ∀ b ∈ bs, ∀ k, ¬names k → Dict.get b k = none) ∧ SetsAll names b
  | .switchD _ b => SetsAll names b
  | .caseD _ b => SetsAll names b
  | .elseD b => SetsAll names b
  | .py _ ls => ∀ L b, py.block ls L = .ok b → ∀ k, ¬names k → Dict.get b k = none
  | _ => True

/-- The same for several directives. -/
def SetsAll (names : Str → Prop) : List Dir → Prop
  | [] => True
  | d :: ds => Sets names d ∧ SetsAll names ds
end

/-- Template `u` may be pasted into template `t`: there is something in it, values are escaped in both or in none, `t`
defines the same names in its module, and `u` sets the variables `left` only, and looks at no local variables (`names`) it
has not set. -/
structure Fitting (names left : Str → Prop) (t u : Template) : Prop where
  something : u.tree ≠ []
  escapes : u.conf.autoescape = t.conf.autoescape
  module : ∀ k, Dict.get u.base k = Dict.get t.base k
  careful : CarefulAll py (fun _ => False) names u.tree
  sets : SetsAll py left u.tree

/-- The second template is the first one with some `%include`s replaced by the templates they include.  `names` are the
local variables of both, and `left` are those the included ones may leave; the first template does not look at them. -/
structure Pasted (ts : List Template) (load : Str → Option Nat) (t t' : Template) : Prop where
  ok : ∃ (f : Str → Option (List Dir)) (names left : Str → Prop),
    t' = pasted f t ∧ (∀ k, left k → names k) ∧ CarefulAll py left left t.tree ∧ SetsAll py names t.tree ∧
    ∀ file r, f file = some r → ∃ i u, load file = some i ∧ ts[i]? = some u ∧ u.tree = r ∧ Fitting py names left t u

end

end Kajiki.Spec.PasteText

import Verif.Spec.PureText
import Verif.Spec.Paste

/-!
# Text templates that set variables before they look at them

Used to state C84 for text templates.
-/

namespace Kajiki.Spec.HideText
open Kajiki.Spec.TextTree (Dir)
open Kajiki.Spec.Pure (Py)
open Kajiki.Spec.Paste (Ignores)
open Kajiki.Spec.Funs (Calls)

section
variable (py : Py) (C : Calls)

mutual
/-- The directive does not look at the variables `hid`, except where it has set them; those in `hid'` may still be unset
after it.  Blocks and functions are left out: they see no local variables but their parameters. -/
inductive Careful : (hid : Str → Prop) → Dir → (hid' : Str → Prop) → Prop
  | text {hid : Str → Prop} {t : Str} {l : Nat} : Careful hid (.text t l) hid
  | expr {hid : Str → Prop} {e : Str} {l : Nat} (h : Ignores hid (py.eval e))
      (ha : ∀ f args, C.callee e = some (f, args) → Ignores hid args) : Careful hid (.expr e l) hid
  | ifD {hid hid₁ : Str → Prop} {e : Str} {b : List Dir} (h : Ignores hid (py.eval e)) (hb : CarefulAll hid b hid₁) :
      Careful hid (.ifD e b) hid
  | ifElse {hid hid₁ hid₂ : Str → Prop} {e : Str} {b b' : List Dir} (h : Ignores hid (py.eval e))
      (hb : CarefulAll hid b hid₁) (hb' : CarefulAll hid b' hid₂) :
      Careful hid (.ifElse e b b') (fun k => hid₁ k ∨ hid₂ k)
  | forD {hid hid₁ : Str → Prop} {e : Str} {b : List Dir} (sets : Str → Prop) (h : Ignores hid (py.iter e))
      (hs : ∀ L bs, py.iter e L = .ok bs → ∀ x ∈ bs, ∀ k, sets k → Dict.get x k ≠ none)
      (hb : CarefulAll (fun k => hid k ∧ ¬sets k) b hid₁) : Careful hid (.forD e b) hid
  | switchD {hid hid₁ : Str → Prop} {e : Str} {b : List Dir} (h : Ignores hid (py.eval e)) (hc : CarefulChoices hid b)
      (hb : CarefulAll hid b hid₁) : Careful hid (.switchD e b) hid₁
  | caseD {hid : Str → Prop} {e : Str} {b : List Dir} : Careful hid (.caseD e b) hid
  | elseD {hid : Str → Prop} {b : List Dir} : Careful hid (.elseD b) hid
  | defD {hid : Str → Prop} {e : Str} {b : List Dir} : Careful hid (.defD e b) hid
  | blockD {hid : Str → Prop} {e : Str} {b : List Dir} : Careful hid (.blockD e b) hid
  | module {hid : Str → Prop} {ls : List Str} : Careful hid (.py true ls) hid
  | py {hid : Str → Prop} {ls : List Str} (sets : Str → Prop) (h : Ignores hid (py.block ls))
      (hs : ∀ L b, py.block ls L = .ok b → ∀ k, sets k → Dict.get b k ≠ none) (hn : ls ≠ []) :
      Careful hid (.py false ls) (fun k => hid k ∧ ¬sets k)

/-- The same for several directives. -/
inductive CarefulAll : (Str → Prop) → List Dir → (Str → Prop) → Prop
  | nil {hid : Str → Prop} : CarefulAll hid [] hid
  | cons {hid hid₁ hid₂ : Str → Prop} {d : Dir} {ds : List Dir} (h : Careful hid d hid₁) (hs : CarefulAll hid₁ ds hid₂) :
      CarefulAll hid (d :: ds) hid₂

/-- The same for the choices of a `%switch`. -/
inductive CarefulChoices : (Str → Prop) → List Dir → Prop
  | nil {hid : Str → Prop} : CarefulChoices hid []
  | case {hid hid₁ : Str → Prop} {e : Str} {b ds : List Dir} (h : Ignores hid (py.eval e)) (hb : CarefulAll hid b hid₁)
      (hs : CarefulChoices hid ds) : CarefulChoices hid (.caseD e b :: ds)
  | els {hid hid₁ : Str → Prop} {b ds : List Dir} (hb : CarefulAll hid b hid₁) : CarefulChoices hid (.elseD b :: ds)
  | other {hid : Str → Prop} {d : Dir} {ds : List Dir} (h : ∀ e b, d ≠ .caseD e b) (h' : ∀ b, d ≠ .elseD b) :
      CarefulChoices hid (d :: ds)
end

/-- The whole template does not look at the variables `hid`, except where it has set them.  In functions they are hidden
unless they are parameters. -/
structure CarefulTemplate (hid : Str → Prop) (t : TextSem.Template) : Prop where
  tree : ∃ hid', CarefulAll py C hid t.tree hid'
  functions : ∀ d ∈ PureText.fnsAll false t.tree, ∃ (sets hid' : Str → Prop),
    (∀ vs ρ, C.bind d.decl vs = .ok ρ → ∀ k, sets k → Dict.get ρ k ≠ none) ∧
    CarefulAll py C (fun k => hid k ∧ ¬sets k) d.body hid'

end

end Kajiki.Spec.HideText

import Verif.Model.Interp

/-!
# Vocabulary for C35: which texts a program passes to gettext
-/

namespace Kajiki.Spec.Gettext
open Kajiki.Run

mutual
/-- The texts given to gettext by a statement. -/
def ofStmt : Stmt → List Str
  | .yieldGettext s => [s]
  | .fdef _ b => ofStmts b
  | .collect b => ofStmts b
  | .attrS _ _ e => ofStmts e
  | .attrsS _ _ e => ofStmts e
  | .forS _ b e => ofStmts b ++ ofStmts e
  | .ifS _ b e => ofStmts b ++ ofStmts e
  | _ => []

/-- The same for several statements. -/
def ofStmts : List Stmt → List Str
  | [] => []
  | x :: xs => ofStmt x ++ ofStmts xs
end

/-- The texts given to gettext by a module. -/
def ofModule (m : Module) : List Str := m.defs.flatMap fun d => ofStmts d.2

variable {W : Type}

/-- The same answers except for gettext, which may differ outside `L`. -/
structure SameButGettext (L : Str → Prop) (O O' : Oracle W) : Prop where
  eval : O.eval = O'.eval
  iter : O.iter = O'.iter
  py : O.py = O'.py
  args : O.args = O'.args
  gettext : ∀ g s w, L s → O.gettext g s w = O'.gettext g s w

end Kajiki.Spec.Gettext

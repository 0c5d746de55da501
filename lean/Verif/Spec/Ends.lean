import Verif.Model.Interp

/-!
# Ending with an exception

Used to state C77.
-/

namespace Kajiki.Spec.Ends
open Kajiki.Run

/-- The first of two executions is the second, or it ends earlier, with the exception `x`, having shown the beginning of
what the second shows. -/
def Earlier {S α : Type} (x : Err) (a b : Res S α) : Prop :=
  a = b ∨ a.val = .error x ∧ a.out.txt <+: b.out.txt

/-- The first of two answers is the second, or the exception `x`. -/
def Raises {α W : Type} (x : Err) (a b : Except Err α × W) : Prop := a = b ∨ a.1 = .error x

/-- Python is as in `O'`, but in some places it raises `x`. -/
structure Stops {W : Type} (x : Err) (O O' : Oracle W) : Prop where
  eval : ∀ e v w, Raises x (O.eval e v w) (O'.eval e v w)
  iter : ∀ d v w, Raises x (O.iter d v w) (O'.iter d v w)
  py : ∀ ls v w, Raises x (O.py ls v w) (O'.py ls v w)
  args : ∀ d as w, Raises x (O.args d as w) (O'.args d as w)
  gettext : ∀ f s w, Raises x (O.gettext f s w) (O'.gettext f s w)

/-- An answer of Python: if it was well so far, it is well, or the answer is the exception that `failed` says. -/
def Records {α W : Type} (failed : W → Option Err) (w : W) (a : Except Err α × W) : Prop :=
  failed w = none → failed a.2 = none ∨ ∃ x, failed a.2 = some x ∧ a.1 = .error x

/-- The world records in `failed` exceptions that Python raises (not necessarily all). -/
structure Recorded {W : Type} (failed : W → Option Err) (O : Oracle W) : Prop where
  eval : ∀ e v w, Records failed w (O.eval e v w)
  iter : ∀ d v w, Records failed w (O.iter d v w)
  py : ∀ ls v w, Records failed w (O.py ls v w)
  args : ∀ d as w, Records failed w (O.args d as w)
  gettext : ∀ f s w, Records failed w (O.gettext f s w)

end Kajiki.Spec.Ends

import Verif.Lemmas.Rel
import Verif.Spec.XmlCompile

/-!
# The meaning of lists of nodes
-/

namespace Kajiki.Run
open Kajiki.Spec.XmlCompile Kajiki.Spec.Sem

variable {W : Type} (P : Prog (List Ir)) (O : Oracle W) (call : Mode → Nat → List Val → MT W Unit) (env : Env)

theorem shows_append (a b : List Ir) : showsAny (a ++ b) = (showsAny a || showsAny b) := by
  induction a with
  | nil => simp [showsAny]
  | cons x a ih => simp [showsAny, ih, Bool.or_assoc]

theorem shows_one (x : Ir) : showsAny [x] = shows x := by simp [showsAny]

theorem semElse_of_not {xs : List Ir} (h : startsElse xs = false) :
    semElse P O call env xs = M.pure () := by
  induction xs with
  | nil => rw [semElse]; all_goals simp
  | cons x xs ih =>
    cases x
    case elseN => simp [startsElse] at h
    case python ls l =>
      cases ls with
      | nil => rw [semElse]; exact ih (by simpa [startsElse] using h)
      | cons _ _ => rw [semElse]; all_goals simp
    all_goals rw [semElse] <;> simp

theorem semElse_append {b : List Ir} (h : startsElse b = false) (a : List Ir) :
    semElse P O call env (a ++ b) = semElse P O call env a := by
  induction a with
  | nil =>
    rw [List.nil_append, semElse_of_not P O call env h, semElse_of_not P O call env (xs := []) rfl]
  | cons x xs ih =>
    cases x
    case elseN => simp only [List.cons_append, semElse]
    case python ls l =>
      cases ls with
      | nil => rw [List.cons_append, semElse, semElse, ih]
      | cons _ _ =>
        rw [semElse_of_not P O call env (by rfl), semElse_of_not P O call env (by rfl)]
    all_goals rw [semElse_of_not P O call env (by rfl), semElse_of_not P O call env (by rfl)]

theorem semList_append {b : List Ir} (h : startsElse b = false) (a : List Ir) :
    semList P O call env (a ++ b) = M.bind (semList P O call env a) fun _ => semList P O call env b := by
  induction a with
  | nil => rw [semList, M.pure_bind]; rfl
  | cons x xs ih => rw [List.cons_append, semList, semList, M.bind_assoc, ih, semElse_append P O call env h]

end Kajiki.Run

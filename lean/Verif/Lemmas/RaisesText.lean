import Verif.Spec.RaisesText
import Verif.Lemmas.Raises
import Verif.Lemmas.PasteText

/-! Lemmas for C80 and C82 for text templates that include others; see `Verif/Lemmas/Raises.lean`. -/

namespace Kajiki.RaisesTextL
open Kajiki.Spec.TextTree (Dir)
open Kajiki.Spec.TextSem (Template)
open Kajiki.Spec.Pure (Py Look Vars Shown)
open Kajiki.Spec.Pure.Shown (done raise put get next)
open Kajiki.Spec.Raises (Raised)
open Kajiki.Spec.RaisesText Kajiki.RaisesL
open Kajiki.Spec.IncludeText (dir dirs choice value shownIn)

variable {X : Err → Prop}

section
variable {py : Py} (hX : ∀ x, Raised py x → X x) {G : Look} {esc : Bool}
include hX

set_option linter.unusedSectionVars false in
mutual
theorem only_dir : ∀ (d : Dir) ρ, (∀ file ∈ includes d, Only X (py.incl file)) → Only X (dir py G esc d ρ)
  | .text .., _, _ => by rw [dir]; exact only_keeping (only_put _)
  | .expr e _, _, _ => by
    rw [dir]
    exact only_keeping (only_next (only_eval hX _ _) fun _ => only_put _)
  | .ifD e b, _, h => by
    rw [includes] at h
    rw [dir]
    exact only_next (only_eval hX _ _) fun _ => only_ite (only_dirs b _ h) (only_done _)
  | .ifElse e b b', _, h => by
    rw [includes] at h
    rw [dir]
    exact only_next (only_eval hX _ _) fun _ => only_ite (only_dirs b _ fun f hf => h f (List.mem_append_left _ hf))
      (only_dirs b' _ fun f hf => h f (List.mem_append_right _ hf))
  | .forD e b, _, h => by
    rw [includes] at h
    rw [dir]
    exact only_next (only_get fun x h => hX x (.iter _ _ h)) fun _ => only_loop (fun ρ => only_dirs b ρ h) _ _
  | .switchD e b, _, h => by
    rw [includes] at h
    rw [dir]
    exact only_next (only_eval hX _ _) fun _ => only_next (only_choice _ b _ h) fun _ => only_dirs b _ h
  | .py .., _, _ => by
    rw [dir]
    exact only_ite (only_done _) (only_next (only_get fun x h => hX x (.block _ _ h)) fun _ => only_done _)
  | .includeD file, _, h => by
    rw [includes] at h
    rw [dir]
    exact only_keeping (h file (List.mem_singleton.2 rfl))
  | .blockD .., _, _ | .caseD .., _, _ | .elseD .., _, _ | .defD .., _, _ | .callD .., _, _ | .extendsD .., _, _
  | .importD .., _, _ => by
    rw [dir] <;> first | exact only_done _ | nofun
theorem only_dirs : ∀ (ds : List Dir) ρ, (∀ file ∈ includesAll ds, Only X (py.incl file)) → Only X (dirs py G esc ds ρ)
  | [], _, _ => by rw [dirs]; exact only_done _
  | d :: ds, _, h => by
    rw [includesAll] at h
    rw [dirs]
    exact only_next (only_dir d _ fun f hf => h f (List.mem_append_left _ hf)) fun _ =>
      only_dirs ds _ fun f hf => h f (List.mem_append_right _ hf)
theorem only_choice (v : Val) : ∀ (ds : List Dir) ρ, (∀ file ∈ includesAll ds, Only X (py.incl file)) →
    Only X (choice py G esc v ds ρ)
  | [], _, _ => by rw [choice] <;> first | exact only_done _ | nofun
  | .caseD e b :: ds, _, h => by
    rw [includesAll, includes] at h
    rw [choice]
    exact only_next (only_eval hX _ _) fun _ => only_ite (only_dirs b _ fun f hf => h f (List.mem_append_left _ hf))
      (only_choice v ds _ fun f hf => h f (List.mem_append_right _ hf))
  | .elseD b :: _, _, h => by
    rw [includesAll, includes] at h
    rw [choice]
    exact only_dirs b _ fun f hf => h f (List.mem_append_left _ hf)
  | .text .. :: _, _, _ | .expr .. :: _, _, _ | .ifD .. :: _, _, _ | .ifElse .. :: _, _, _ | .forD .. :: _, _, _
  | .switchD .. :: _, _, _ | .defD .. :: _, _, _ | .callD .. :: _, _, _ | .blockD .. :: _, _, _ | .py .. :: _, _, _
  | .extendsD .. :: _, _, _ | .importD .. :: _, _, _ | .includeD .. :: _, _, _ => by
    rw [choice] <;> first | exact only_done _ | nofun
end

end

section
variable {ts : List Template} {load : Str → Option Nat} {py : Py} {G : Look} {rank : Nat → Nat}

/-- Templates that include each other, not in circles unless the exception of too deep recursion is in `X`. -/
theorem only_shownIn (hX : ∀ x, Raised py x → X x)
    (hr : ∀ i (h : i < ts.length), ∀ file ∈ includesAll (ts[i]).tree, match load file with
        | none => X .ioError
        | some j => j < ts.length ∧ (rank j < rank i ∨ X .recursion)) :
    ∀ n i, i < ts.length → rank i < n ∨ X .recursion → Only X (shownIn ts load py G n i)
  | 0, i, _, h => only_raise (h.resolve_left (Nat.not_lt_zero _))
  | n + 1, i, hi, h => by
    rw [shownIn, List.getElem?_eq_getElem hi]
    dsimp only
    refine only_next (only_dirs (py := { py with incl := _ }) (fun x hx => hX x ?_) _ _ fun file hh => ?_)
      fun _ => only_done _
    · cases hx with
      | eval e L h => exact .eval e L h
      | iter e L h => exact .iter e L h
      | block e L h => exact .block e L h
      | attrs e L h => exact .attrs e L h
    · have := hr i hi file hh
      dsimp only
      cases hl : load file with
      | none => rw [hl] at this; exact only_raise this
      | some j =>
        rw [hl] at this
        refine only_shownIn hX hr n j this.1 (this.2.elim (fun a => h.imp_left fun b => ?_) .inr)
        omega

end

/-! ## Variables that are not used -/

section
open Kajiki.Spec.PasteText
variable {py : Py} {hid : Str → Prop} (hb : Spec.Pure.Blind hid py)

omit hb in
theorem hid_more : (fun k => hid k ∧ ¬False) = hid := funext fun k => by simp

include hb

set_option linter.unusedSectionVars false in
mutual
theorem careful_blind : ∀ d, Careful py (fun _ => False) hid d
  | .ifD _ b => by unfold Careful; exact ⟨hb.eval _, carefulAll_blind b⟩
  | .ifElse _ b b' => by unfold Careful; exact ⟨hb.eval _, carefulAll_blind b, carefulAll_blind b'⟩
  | .forD _ b => by
    unfold Careful
    exact ⟨hb.iter _, fun _ => False, fun _ _ _ _ _ _ h => h.elim, by rw [hid_more]; exact carefulAll_blind b⟩
  | .switchD _ b => by unfold Careful; exact ⟨hb.eval _, carefulAll_blind b⟩
  | .caseD _ b => by unfold Careful; exact ⟨hb.eval _, carefulAll_blind b⟩
  | .elseD b => by unfold Careful; exact carefulAll_blind b
  | .py _ _ => by unfold Careful; exact hb.block _
  | .includeD _ => by unfold Careful; exact fun _ h => h.elim
  | .text _ _ => by unfold Careful; trivial
  | .expr _ _ => by unfold Careful; exact hb.eval _
  | .blockD _ _ => by unfold Careful; trivial
  | .defD _ _ => by unfold Careful; trivial
  | .callD _ _ _ => by unfold Careful; trivial
  | .extendsD _ => by unfold Careful; trivial
  | .importD _ _ => by unfold Careful; trivial
theorem carefulAll_blind : ∀ ds, CarefulAll py (fun _ => False) hid ds
  | [] => by unfold CarefulAll; trivial
  | d :: ds => by unfold CarefulAll; exact ⟨careful_blind d, carefulAll_blind ds⟩
end

end

end Kajiki.RaisesTextL

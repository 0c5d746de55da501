import Verif.Lemmas.ShareOps
import Verif.Lemmas.Sched

/-!
# A rendering in company does the steps it does alone
-/

namespace Kajiki.Spec.Share
open Kajiki Kajiki.Run

variable {C W α β γ δ : Type} {fl : Nat → Nat} {k : Nat} {ρ σ τ : Ren}

/-- The same steps, whatever others do between them. -/
def PRel (fl : Nat → Nat) (k : Nat) (R : Ren → α → β → Prop) : PS C W α → PS C (Nat → W) β → Ren → Prop
  | .done r, .done r', ρ => ExceptR (R ρ) r r'
  | .step o n c, .step o' n' c', ρ => ∀ σ a s, Le ρ σ → StoreR fl k σ a s →
      o a = o' s ∧ ∃ τ, Le σ τ ∧ StoreR fl k τ (n a) (n' s) ∧ Moves fl k σ τ s (n' s) ∧ PRel fl k R (c a) (c' s) τ
  | _, _, _ => False

theorem PRel.pure {R : Ren → α → β → Prop} {x : α} {y : β} (h : R ρ x y) :
    PRel (C := C) (W := W) fl k R (Proc.pure x) (Proc.pure y) ρ := h

theorem PRel.atomic {R : Ren → α → β → Prop} {m : MS C W α} {m' : MS C (Nat → W) β} (h : MRel fl k ρ R m m') :
    PRel fl k R (Proc.atomic m) (Proc.atomic m') ρ := by
  intro σ a s hle hs
  obtain ⟨ho, τ, h1, h2, h3, h4⟩ := h σ a s hle hs
  exact ⟨ho, τ, h1, h2, h3, h4⟩

theorem PRel.bind {R : Ren → α → β → Prop} {R2 : Ren → γ → δ → Prop} {p : PS C W α} {p' : PS C (Nat → W) β}
    {f : α → PS C W γ} {f' : β → PS C (Nat → W) δ} (h : PRel fl k R p p' ρ)
    (h2 : ∀ σ x y, Le ρ σ → R σ x y → PRel fl k R2 (f x) (f' y) σ) :
    PRel fl k R2 (Proc.bind p f) (Proc.bind p' f') ρ := by
  induction p generalizing p' ρ with
  | done r =>
    cases p' with
    | step o' n' c' => exact h.elim
    | done r' =>
      cases r with
      | ok x =>
        cases r' with
        | ok y => exact h2 ρ x y (Le.refl _) h
        | error e => exact h.elim
      | error e =>
        cases r' with
        | ok y => exact h.elim
        | error e' => exact h
  | step o n c ih =>
    cases p' with
    | done r' => exact h.elim
    | step o' n' c' =>
      intro σ a s hle hs
      obtain ⟨ho, τ, h1, h3, h4, h5⟩ := h σ a s hle hs
      exact ⟨ho, τ, h1, h3, h4, ih a h5 fun υ x y hu => h2 υ x y (hle.trans (h1.trans hu))⟩

theorem PRel.captureFrom {acc : Out} {p : PS C W Unit} {p' : PS C (Nat → W) Unit} (h : PRel fl k UnitR p p' ρ) :
    PRel fl k (fun _ => Eq) (Proc.captureFrom acc p) (Proc.captureFrom acc p') ρ := by
  induction p generalizing p' ρ acc with
  | done r =>
    cases p' with
    | step o' n' c' => exact h.elim
    | done r' =>
      cases r with
      | ok x =>
        cases r' with
        | ok y => exact rfl
        | error e => exact h.elim
      | error e =>
        cases r' with
        | ok y => exact h.elim
        | error e' => exact h
  | step o n c ih =>
    cases p' with
    | done r' => exact h.elim
    | step o' n' c' =>
      intro σ a s hle hs
      obtain ⟨ho, τ, h1, h3, h4, h5⟩ := h σ a s hle hs
      refine ⟨rfl, τ, h1, h3, h4, ?_⟩
      show PRel fl k _ (Proc.captureFrom (acc ++ o a) (c a)) (Proc.captureFrom (acc ++ o' s) (c' s)) τ
      rw [ho]
      exact ih a h5

theorem PRel.each {R : Ren → α → β → Prop} {f : α → PS C W Unit} {f' : β → PS C (Nat → W) Unit} {xs : List α}
    {ys : List β} (hmono : ∀ σ τ x y, Le σ τ → R σ x y → R τ x y)
    (h2 : ∀ σ x y, Le ρ σ → R σ x y → PRel fl k UnitR (f x) (f' y) σ) (h : List.Forall₂ (R ρ) xs ys) :
    PRel fl k UnitR (Proc.each f xs) (Proc.each f' ys) ρ := by
  suffices h3 : ∀ σ, Le ρ σ → List.Forall₂ (R σ) xs ys → PRel fl k UnitR (Proc.each f xs) (Proc.each f' ys) σ from
    h3 ρ (Le.refl _) h
  induction h with
  | nil => exact fun σ _ _ => PRel.pure trivial
  | cons a h ih =>
    intro σ hle hf
    cases hf with
    | cons a h =>
      refine PRel.bind (h2 σ _ _ hle a) fun τ _ _ ht _ => ih τ (hle.trans ht) ?_
      exact List.Forall₂.imp (fun x y => hmono σ τ x y ht) h

/-! ## Statements -/

theorem splice_rel (mode : Mode) {m : Mode → PS C W Unit} {m' : Mode → PS C (Nat → W) Unit}
    (h : ∀ mode, PRel fl k UnitR (m mode) (m' mode) ρ) : PRel fl k UnitR (spliceP mode m) (spliceP mode m') ρ := by
  cases mode with
  | stream => exact h _
  | strict => exact h _
  | collect => exact PRel.bind (h _) fun _ _ _ _ _ => PRel.atomic (MRel.tell _ fun _ _ => trivial)

/-- Related ways to run functions. -/
def CallR (fl : Nat → Nat) (k : Nat) (call : Mode → Nat → List Val → PS C W Unit)
    (call' : Mode → Nat → List Val → PS C (Nat → W) Unit) : Prop :=
  ∀ ρ mode f f' as as', ρ.fn[f]? = some f' → ValsR fl ρ as as' → PRel fl k UnitR (call mode f as) (call' mode f' as') ρ

section
variable {call : Mode → Nat → List Val → PS C W Unit} {call' : Mode → Nat → List Val → PS C (Nat → W) Unit}
  (hcall : CallR fl k call call')

theorem emitList_of {mode : Mode} {vs vs' : List Val}
    (h : List.Forall₂ (fun v v' => ∀ σ, Le ρ σ → PRel fl k UnitR (emitP call mode v) (emitP call' mode v') σ) vs vs')
    (hle : Le ρ σ) : PRel fl k UnitR (emitListP call mode vs) (emitListP call' mode vs') σ := by
  induction h generalizing σ with
  | nil => rw [emitListP, emitListP]; exact PRel.pure trivial
  | cons a h ih =>
    rw [emitListP, emitListP]
    exact PRel.bind (a σ hle) fun τ _ _ ht _ => ih (hle.trans ht)

include hcall

theorem emit_rel {v v' : Val} (h : ValR fl ρ v v') (mode : Mode) :
    PRel fl k UnitR (emitP call mode v) (emitP call' mode v') ρ := by
  suffices h2 : ∀ mode σ, Le ρ σ → PRel fl k UnitR (emitP call mode v) (emitP call' mode v') σ from
    h2 mode ρ (Le.refl _)
  clear mode
  have hch : ∀ σ, Le ρ σ → ∀ mode, PRel (C := C) (W := W) fl k UnitR (Proc.atomic (chunk mode v)) (Proc.atomic (chunk mode v')) σ :=
    fun σ hle mode => PRel.atomic (chunk_rel mode (h.mono hle))
  induction h with
  | none => intro mode σ _; rw [emitP, emitP]; exact PRel.pure trivial
  | flatItems id vs vs' len vals ih =>
    intro mode σ hle
    rw [emitP, emitP]
    refine splice_rel mode fun mode => PRel.bind (PRel.atomic (start_rel id)) ?_
    rintro τ x _ hle2 rfl
    cases x with
    | false => exact PRel.pure trivial
    | true =>
      refine emitList_of (forall₂_of_get len fun n x y hx hy => ?_) (hle.trans hle2)
      exact ih n x y hx hy (fun σ hle mode => PRel.atomic (chunk_rel mode ((vals n x y hx hy).mono hle))) mode
  | flatCall id i j hij vs vs' len vals ih =>
    intro mode σ hle
    rw [emitP, emitP]
    refine splice_rel mode fun mode => PRel.bind (PRel.atomic (start_rel id)) ?_
    rintro τ x _ hle2 rfl
    cases x with
    | false => exact PRel.pure trivial
    | true =>
      exact hcall τ mode i j vs vs' (prefix_get (hle.trans hle2).fn hij)
        (ValsR.mono (hle.trans hle2) (forall₂_of_get len vals))
  | _ => intro mode σ hle; rw [emitP, emitP] <;> first | exact hch σ hle mode | simp

theorem emitMain_rel (mode : Mode) {i j : Nat} (hij : ρ.inst[i]? = some j) :
    PRel fl k UnitR (emitMainP call mode i) (emitMainP call' mode j) ρ := by
  refine PRel.bind (PRel.atomic (attrFn_rel hij _)) fun σ f f' _ hf => splice_rel mode fun mode => ?_
  exact hcall σ mode f f' [] [] hf .nil

end

theorem collect_rel {e e' : Env} (he : EnvR ρ e e') {body : Env → PS C W Unit} {body' : Env → PS C (Nat → W) Unit}
    (h : ∀ σ e e', Le ρ σ → EnvR σ e e' → PRel fl k UnitR (body e) (body' e') σ) :
    PRel fl k UnitR (collectP e body) (collectP e' body') ρ := by
  refine PRel.bind (PRel.atomic (newFrame_rel (fl := fl) .nil (u := some e.frame) (u' := some e'.frame) he.frame))
    fun σ fr fr' hle hfr => ?_
  have he2 : EnvR σ { e with frame := fr, mode := .collect } { e' with frame := fr', mode := .collect } :=
    ⟨(he.mono hle).inst, hfr, (he.mono hle).kj, rfl⟩
  refine PRel.bind (PRel.captureFrom (h σ _ _ hle he2)) ?_
  rintro τ o _ hle2 rfl
  exact PRel.atomic (modFrame_rel (he.mono (hle.trans hle2)) fun υ x y _ hxy =>
    ⟨hxy.vars, hxy.up, rfl, hxy.old, hxy.old'⟩)

theorem reading_rel (y : Bool) {p : PS C W Unit} {p' : PS C (Nat → W) Unit} (h : PRel fl k UnitR p p' ρ) :
    PRel fl k UnitR (readingP y p) (readingP y p') ρ := by
  refine PRel.bind h fun σ _ _ _ _ => ?_
  cases y
  · exact rfl
  · exact PRel.pure trivial

section
variable {P : Prog (List Stmt)} (hP : PlainProg P) {O : Oracle W} {O' : Oracle (Nat → W)} (hO : OracleR fl k O O')
include hO

theorem cond_rel {e e' : Env} (he : EnvR ρ e e') (c : Cond) :
    PRel (C := C) fl k (fun _ => Eq) (condP O e c) (condP O' e' c) ρ := by
  cases c with
  | code x => exact PRel.bind (PRel.atomic (evalM_rel hO he x)) fun σ v v' _ h => PRel.pure h.truthy
  | case x =>
    refine PRel.bind (PRel.atomic (kjInst_rel he)) fun σ i j hle hij => ?_
    refine PRel.bind (PRel.atomic (evalM_rel hO (he.mono hle) x)) fun τ v v' hle2 h => ?_
    exact PRel.atomic (caseM_rel (prefix_get hle2.inst hij) h)
  | never => exact PRel.pure rfl

include hP

set_option linter.unusedSectionVars false in
mutual
theorem exec_rel {call : Mode → Nat → List Val → PS (List Stmt) W Unit}
    {call' : Mode → Nat → List Val → PS (List Stmt) (Nat → W) Unit} (hcall : CallR fl k call call')
    (x : Stmt) {ρ : Ren} {e e' : Env} (he : EnvR ρ e e') :
    PRel fl k UnitR (execP P O call e x) (execP P O' call' e' x) ρ := by
  cases x with
  | yieldLit s => rw [execP, execP]; exact PRel.atomic (MRel.tell _ fun _ _ => trivial)
  | yieldGettext s =>
    rw [execP, execP, he.mode]
    exact PRel.bind (PRel.atomic (gettextM_rel hO he s)) fun σ v v' _ h => emit_rel hcall h _
  | yieldCode c =>
    rw [execP, execP, he.mode]
    exact PRel.bind (PRel.atomic (evalM_rel hO he c)) fun σ v v' _ h => emit_rel hcall h _
  | yieldEscape c =>
    rw [execP, execP, he.mode]
    exact PRel.bind (PRel.atomic (evalM_rel hO he c)) fun σ v v' _ h => emit_rel hcall h.escape _
  | py ls =>
    rw [execP, execP]
    exact PRel.bind (PRel.atomic (py_rel hO he ls)) fun σ v v' hle h => PRel.atomic (setVars_rel (he.mono hle) h)
  | importS n a =>
    rw [execP, execP]
    exact PRel.bind (PRel.atomic (importM_rel hP he n a)) fun σ v v' hle h => PRel.pure trivial
  | includeS n =>
    rw [execP, execP, he.mode]
    exact PRel.bind (PRel.atomic (importM_rel hP he n none)) fun σ v v' hle h => emitMain_rel hcall _ h
  | extendS n =>
    rw [execP, execP, he.mode]
    exact PRel.bind (PRel.atomic (extendM_rel hP he n)) fun σ v v' hle h => emitMain_rel hcall _ h
  | pushWith ns =>
    rw [execP, execP]
    exact PRel.bind (PRel.atomic (kjInst_rel he)) fun σ i j hle hij => PRel.atomic (pushNames_rel (he.mono hle) hij ns)
  | assign n v =>
    rw [execP, execP]
    exact PRel.bind (PRel.atomic (evalM_rel hO he v)) fun σ v v' hle h =>
      PRel.atomic (setVars_rel (he.mono hle) (.cons ⟨rfl, h⟩ .nil))
  | popWith ns =>
    rw [execP, execP]
    exact PRel.bind (PRel.atomic (kjInst_rel he)) fun σ i j hle hij =>
      PRel.bind (PRel.atomic (popWithM_rel hij)) fun τ v v' hle2 h =>
        PRel.atomic (unpack_rel (he.mono (hle.trans hle2)) ns h)
  | pushSwitch x =>
    rw [execP, execP]
    exact PRel.bind (PRel.atomic (kjInst_rel he)) fun σ i j hle hij =>
      PRel.bind (PRel.atomic (evalM_rel hO (he.mono hle) x)) fun τ v v' hle2 h =>
        PRel.atomic (pushSwitchM_rel (prefix_get hle2.inst hij) h)
  | popSwitch =>
    rw [execP, execP]
    exact PRel.bind (PRel.atomic (kjInst_rel he)) fun σ i j hle hij => PRel.atomic (popSwitchM_rel hij)
  | fdef decl body =>
    rw [execP, execP]
    refine PRel.bind (PRel.atomic (newFn_rel (ρ := ρ) ⟨rfl, he.inst, he.frame, rfl⟩)) fun σ f f' hle hf => ?_
    exact PRel.atomic (setVars_rel (he.mono hle) (.cons ⟨rfl, .fn _ _ hf⟩ .nil))
  | collect body =>
    rw [execP, execP]
    exact collect_rel he fun σ e e' _ he => reading_rel _ (execList_rel hcall body he)
  | attrS n m els =>
    rw [execP, execP]
    exact PRel.bind (PRel.atomic (attrM_rel he n m)) fun σ _ _ hle _ => execList_rel hcall els (he.mono hle)
  | attrsS c m els =>
    rw [execP, execP]
    exact PRel.bind (PRel.atomic (attrsM_rel hO he c m)) fun σ _ _ hle _ => execList_rel hcall els (he.mono hle)
  | forS d body els =>
    rw [execP, execP]
    refine PRel.bind (PRel.atomic (iter_rel hO he d)) fun σ bs bs' hle hb => ?_
    refine PRel.bind (PRel.each (R := DictR fl) (fun _ _ _ _ h hd => DictR.mono h hd) ?_ hb) fun τ _ _ hle2 _ =>
      execList_rel hcall els (he.mono (hle.trans hle2))
    intro τ b b' hle2 hb
    have he2 := he.mono (hle.trans hle2)
    exact PRel.bind (PRel.atomic (setVars_rel he2 hb)) fun υ _ _ hle3 _ => execList_rel hcall body (he2.mono hle3)
  | ifS c body els =>
    rw [execP, execP]
    refine PRel.bind (cond_rel hO he c) ?_
    rintro σ t _ hle rfl
    cases t with
    | true => exact execList_rel hcall body (he.mono hle)
    | false => exact execList_rel hcall els (he.mono hle)

theorem execList_rel {call : Mode → Nat → List Val → PS (List Stmt) W Unit}
    {call' : Mode → Nat → List Val → PS (List Stmt) (Nat → W) Unit} (hcall : CallR fl k call call')
    (xs : List Stmt) {ρ : Ren} {e e' : Env} (he : EnvR ρ e e') :
    PRel fl k UnitR (execListP P O call e xs) (execListP P O' call' e' xs) ρ := by
  cases xs with
  | nil => rw [execListP, execListP]; exact PRel.pure trivial
  | cons x xs =>
    rw [execListP, execListP]
    exact PRel.bind (exec_rel hcall x he) fun σ _ _ hle _ => execList_rel hcall xs (he.mono hle)
end

theorem callN_rel (n : Nat) : CallR fl k (callNP P O n) (callNP P O' n) := by
  induction n with
  | zero => intro ρ mode f f' as as' _ _; exact rfl
  | succ n ih =>
    intro ρ mode f f' as as' hf has
    rw [callNP, callNP]
    unfold callWithP
    refine PRel.bind (PRel.atomic (getFn_rel hf)) fun σ fn fn' hle hfn => ?_
    have hb := hfn.body
    cases h1 : fn.body with
    | code decl body =>
      rw [h1] at hb
      rw [← hb]
      refine PRel.bind (PRel.atomic (bindArgs_rel hO decl (has.mono hle))) fun τ vars vars' hle2 hv => ?_
      refine PRel.bind (PRel.atomic (newFrame_rel hv (hfn.mono hle2).up)) fun υ fr fr' hle3 hfr => ?_
      have hfn3 := hfn.mono (hle2.trans hle3)
      refine PRel.bind (PRel.atomic (getLocal_rel hfn3.inst)) fun φ kj kj' hle4 hkj => ?_
      exact reading_rel _ <| execList_rel hP hO ih body ⟨prefix_get hle4.inst hfn3.inst, prefix_get hle4.frame hfr, hkj, rfl⟩
    | tramp x =>
      rw [h1] at hb
      rw [← hb]
      refine PRel.bind (PRel.atomic (globalInst_rel hfn.inst _)) fun τ p p' hle2 hp => ?_
      refine PRel.bind (PRel.atomic (attrFn_rel hp x)) fun υ g g' hle3 hg => ?_
      exact ih υ mode g g' as as' hg (has.mono (hle.trans (hle2.trans hle3)))

theorem render_rel (n c : Nat) {d d' : Dict Val} (hd : DictR fl ρ d d') :
    PRel fl k UnitR (renderP P O n c d) (renderP P O' n c d') ρ :=
  PRel.bind (PRel.atomic (newInst_rel hP c hd)) fun _ _ _ _ hi => emitMain_rel (callN_rel hP hO n) _ hi

end

end Kajiki.Spec.Share

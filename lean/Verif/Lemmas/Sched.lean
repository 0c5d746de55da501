import Verif.Model.Sched
import Verif.Lemmas.Rel

/-!
# Steps without interruption are the interpreter
-/

namespace Kajiki.Run

variable {S α β : Type}

namespace Proc

theorem run_pure (a : α) : run (pure a : Proc S α) = M.pure a := rfl

theorem run_atomic (m : M S α) : run (atomic m) = m := by
  funext s
  show (⟨(m s).out ++ .nil, (m s).st, (m s).val⟩ : Res S α) = m s
  rw [Out.append_nil]

theorem run_bind (p : Proc S α) (f : α → Proc S β) : run (bind p f) = M.bind (run p) fun a => run (f a) := by
  induction p with
  | done r =>
    cases r with
    | ok a => rw [bind]; funext s; simp [M.bind, run]
    | error e => rfl
  | step o n k ih =>
    funext s
    rw [bind]
    simp only [run, M.bind, ih]
    cases (run (k s) (n s)).val with
    | ok a => simp [Out.append_assoc]
    | error e => rfl

theorem run_captureFrom (acc : Out) (p : Proc S Unit) : run (captureFrom acc p) = fun s =>
    match (run p s).val with
    | .error e => ⟨.nil, (run p s).st, .error e⟩
    | .ok _ => ⟨.nil, (run p s).st, .ok (acc ++ (run p s).out)⟩ := by
  induction p generalizing acc with
  | done r =>
    funext s
    cases r with
    | ok a => simp [captureFrom, run]
    | error e => rfl
  | step o n k ih =>
    funext s
    rw [captureFrom]
    simp only [run, ih]
    cases (run (k s) (n s)).val with
    | ok a => simp [Out.append_assoc]
    | error e => rfl

theorem run_capture (p : Proc S Unit) : run (capture p) = M.capture (run p) := by
  unfold capture
  rw [run_captureFrom]
  funext s
  simp only [M.capture, Out.nil_append]
  cases (run p s).val <;> rfl

theorem run_each (f : α → Proc S Unit) (as : List α) : run (each f as) = M.each (fun a => run (f a)) as := by
  induction as with
  | nil => rfl
  | cons a as ih => rw [each, run_bind, M.each, ih]

theorem run_ite (b : Bool) (p q : Proc S α) : run (if b then p else q) = if b then run p else run q := by
  cases b <;> rfl

end Proc
open Proc

set_option linter.unusedSectionVars false

section
variable {C W : Type} (callP : Mode → Nat → List Val → PS C W Unit) (call : Mode → Nat → List Val → MS C W Unit)
  (hcall : ∀ mode f as, run (callP mode f as) = call mode f as)

theorem run_splice (mode : Mode) (m : Mode → PS C W Unit) :
    run (spliceP mode m) = splice mode fun mode => run (m mode) := by
  cases mode with
  | stream => rfl
  | strict => rfl
  | collect => rw [spliceP, run_bind, splice]; simp only [run_atomic]

include hcall in
mutual
theorem run_emit (mode : Mode) (v : Val) : run (emitP callP mode v) = emit call mode v := by
  cases v with
  | none => rw [emitP, emit]; rfl
  | flatItems id items =>
    rw [emitP, emit, run_splice]
    congr
    funext mode
    rw [run_bind, run_atomic]
    congr
    funext fresh
    rw [run_ite, run_emitList mode items]
    rfl
  | flatCall id f as =>
    rw [emitP, emit, run_splice]
    congr
    funext mode
    rw [run_bind, run_atomic]
    congr
    funext fresh
    rw [run_ite, hcall]
    rfl
  | _ => rw [emitP, emit, run_atomic] <;> simp

theorem run_emitList (mode : Mode) (vs : List Val) : run (emitListP callP mode vs) = emitList call mode vs := by
  cases vs with
  | nil => rw [emitListP, emitList]; rfl
  | cons v vs =>
    rw [emitListP, emitList, run_bind, run_emit mode v, run_emitList mode vs]
end

include hcall in
theorem run_emitMain (mode : Mode) (i : Nat) : run (emitMainP callP mode i) = emitMain call mode i := by
  unfold emitMainP emitMain
  rw [run_bind, run_atomic]
  congr
  funext f
  rw [run_splice]
  simp only [hcall]

theorem run_collect (env : Env) (body : Env → PS C W Unit) (body' : Env → MS C W Unit)
    (h : ∀ env, run (body env) = body' env) : run (collectP env body) = collectM env body' := by
  unfold collectP collectM
  simp only [run_bind, run_atomic, run_capture, h]

theorem run_reading (y : Bool) (p : PS C W Unit) : run (readingP y p) = reading y (run p) := by
  unfold readingP reading
  rw [run_bind]
  congr
  funext _
  cases y <;> rfl

theorem run_cond (O : Oracle W) (env : Env) (c : Cond) : run (condP O env c : PS C W Bool) = condM O env c := by
  cases c with
  | code e => rw [condP, condM, run_bind, run_atomic]; rfl
  | case e => rw [condP, condM]; simp only [run_bind, run_atomic]
  | never => rfl
end

section
variable {W : Type} (P : Prog (List Stmt)) (O : Oracle W) (callP : Mode → Nat → List Val → PS (List Stmt) W Unit)
  (call : Mode → Nat → List Val → MS (List Stmt) W Unit) (hcall : ∀ mode f as, run (callP mode f as) = call mode f as)

include hcall in
mutual
theorem run_exec (env : Env) (x : Stmt) : run (execP P O callP env x) = exec P O call env x := by
  cases x with
  | collect body =>
    rw [execP, exec]
    exact run_collect _ _ _ fun env => by rw [run_reading, run_execList env body]
  | attrS n m els =>
    rw [execP, exec, run_bind, run_atomic, run_execList env els]
  | attrsS n m els =>
    rw [execP, exec, run_bind, run_atomic, run_execList env els]
  | forS d body els =>
    rw [execP, exec, run_bind, run_atomic]
    simp only [run_bind, run_each, run_atomic, run_execList env body, run_execList env els]
  | ifS c body els =>
    rw [execP, exec, run_bind, run_cond]
    simp only [run_ite, run_execList env body, run_execList env els]
  | fdef decl body => rw [execP, exec, fdefM]; simp only [run_bind, run_atomic]
  | _ =>
    rw [execP, exec]
    simp only [run_bind, run_atomic, run_emit callP call hcall, run_emitMain callP call hcall, run_pure]

theorem run_execList (env : Env) (xs : List Stmt) : run (execListP P O callP env xs) = execList P O call env xs := by
  cases xs with
  | nil => rw [execListP, execList]; rfl
  | cons x xs => rw [execListP, execList, run_bind, run_exec env x, run_execList env xs]
end
end

section
variable {C W : Type}

theorem run_callWith (O : Oracle W) (r : Env → C → PS C W Unit) (r' : Env → C → MS C W Unit)
    (hr : ∀ env b, run (r env b) = r' env b)
    (callP : Mode → Nat → List Val → PS C W Unit) (call : Mode → Nat → List Val → MS C W Unit)
    (hcall : ∀ mode f as, run (callP mode f as) = call mode f as) (mode : Mode) (f : Nat) (as : List Val) :
    run (callWithP O r callP mode f as) = callWith O r' call mode f as := by
  unfold callWithP callWith
  rw [run_bind, run_atomic]
  funext s
  simp only [getFn, M.bind, M.get, M.ofOption]
  cases hf : s.fns[f]? with
  | none => rfl
  | some fn =>
    simp only [M.pure]
    cases hb : fn.body with
    | tramp k =>
      simp only [run_bind, run_atomic, hcall]
      rw [M.bind]
      simp only [Out.nil_append]
    | code decl body =>
      simp only [run_bind, run_atomic, hr, M.bind, bindArgs, newFrame, getLocal, getInst]
      cases (O.args decl as s.world).1 with
      | error e => rfl
      | ok vars =>
        simp only
        cases s.insts[fn.inst]? with
        | none => rfl
        | some i => rfl
end

theorem run_callN {W : Type} (P : Prog (List Stmt)) (O : Oracle W) (n : Nat) : ∀ (mode : Mode) (f : Nat) (as : List Val),
    run (callNP P O n mode f as) = callN P O n mode f as := by
  induction n with
  | zero => intro mode f as; rfl
  | succ n ih =>
    intro mode f as
    rw [callNP, callN]
    exact run_callWith O _ _ (fun env b => by rw [run_reading, run_execList P O _ _ ih env b]) _ _ ih mode f as

theorem run_render {W : Type} (P : Prog (List Stmt)) (O : Oracle W) (n c : Nat) (context : Dict Val) (w : W) :
    run (renderP P O n c context) (emptyStore _ w) = render P O n c context w := by
  unfold renderP render
  rw [run_bind, run_atomic]
  simp only [run_emitMain _ _ (run_callN P O n), renderInst]

end Kajiki.Run

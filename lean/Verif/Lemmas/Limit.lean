import Verif.Spec.Ends

/-!
# Computations that end earlier

A computation in which something raises an exception is the same as without it, or it ends with this exception.
-/

namespace Kajiki.Limit
open Kajiki.Run
open Kajiki.Spec.Ends (Earlier Raises Stops Records Recorded)

section
variable {C W α β : Type} {x : Err}

/-- The same for all states. -/
def Cut (x : Err) (m m' : MS C W α) : Prop := ∀ s, Earlier x (m s) (m' s)

theorem Cut.refl (m : MS C W α) : Cut x m m := fun _ => .inl rfl

theorem Cut.trans {m m' m'' : MS C W α} (h : Cut x m m') (h' : Cut x m' m'') : Cut x m m'' := by
  intro s
  rcases h s with h1 | ⟨h1, h2⟩
  · rw [h1]; exact h' s
  · rcases h' s with h3 | ⟨-, h3⟩
    · rw [← h3]; exact .inr ⟨h1, h2⟩
    · exact .inr ⟨h1, h2.trans h3⟩

theorem Cut.bind {m m' : MS C W α} (h : Cut x m m') {f f' : α → MS C W β} (hf : ∀ a, Cut x (f a) (f' a)) :
    Cut x (M.bind m f) (M.bind m' f') := by
  intro s
  rcases h s with h1 | ⟨h1, h2⟩
  · unfold M.bind
    dsimp only
    rw [h1]
    cases (m' s).val with
    | error e => exact .inl rfl
    | ok a =>
      dsimp only
      rcases hf a (m' s).st with h3 | ⟨h3, h4⟩
      · rw [h3]; exact .inl rfl
      · exact .inr ⟨h3, (List.prefix_append_right_inj _).2 h4⟩
  · right
    unfold M.bind
    dsimp only
    rw [h1]
    refine ⟨rfl, ?_⟩
    dsimp only
    cases (m' s).val with
    | error e => exact h2
    | ok a => exact h2.trans (List.prefix_append _ _)

theorem Cut.after (m : MS C W α) {f f' : α → MS C W β} (hf : ∀ a, Cut x (f a) (f' a)) : Cut x (M.bind m f) (M.bind m f') :=
  (Cut.refl m).bind hf

theorem Cut.capture {m m' : MS C W Unit} (h : Cut x m m') : Cut x (M.capture m) (M.capture m') := by
  intro s
  rcases h s with h1 | ⟨h1, -⟩
  · left
    unfold M.capture
    rw [h1]
  · right
    unfold M.capture
    dsimp only
    rw [h1]
    exact ⟨rfl, List.nil_prefix⟩

theorem Cut.each {f f' : α → MS C W Unit} (h : ∀ a, Cut x (f a) (f' a)) : ∀ l, Cut x (M.each f l) (M.each f' l)
  | [] => .refl _
  | a :: as => (h a).bind fun _ => Cut.each h as

theorem Cut.splice {m m' : Mode → MS C W Unit} (h : ∀ mode, Cut x (m mode) (m' mode)) (mode : Mode) :
    Cut x (Run.splice mode m) (Run.splice mode m') := by
  cases mode with
  | stream => exact h _
  | strict => exact h _
  | collect => exact (h _).bind fun _ => .refl _

theorem Cut.reading {m m' : MS C W Unit} (h : Cut x m m') (y : Bool) : Cut x (Run.reading y m) (Run.reading y m') :=
  h.bind fun _ => .refl _

variable {call call' : Mode → Nat → List Val → MS C W Unit} (h : ∀ mode f as, Cut x (call mode f as) (call' mode f as))
include h

set_option linter.unusedSectionVars false in
mutual
theorem emit_cut (mode : Mode) : ∀ v, Cut x (emit call mode v) (emit call' mode v)
  | .none => by unfold emit; exact .refl _
  | .flatItems id items => by
    unfold emit
    refine Cut.splice (fun mode => Cut.after _ fun fresh => ?_) mode
    split
    · exact emitList_cut mode items
    · exact .refl _
  | .flatCall id f as => by
    unfold emit
    refine Cut.splice (fun mode => Cut.after _ fun fresh => ?_) mode
    split
    · exact h mode f as
    · exact .refl _
  | .bool _ => by unfold emit; exact .refl _
  | .int _ => by unfold emit; exact .refl _
  | .str _ => by unfold emit; exact .refl _
  | .html .. => by unfold emit; exact .refl _
  | .obj .. => by unfold emit; exact .refl _
  | .unit => by unfold emit; exact .refl _
  | .pairs .. => by unfold emit; exact .refl _
  | .inst _ => by unfold emit; exact .refl _
  | .meth .. => by unfold emit; exact .refl _
  | .fn _ => by unfold emit; exact .refl _
theorem emitList_cut (mode : Mode) : ∀ vs, Cut x (emitList call mode vs) (emitList call' mode vs)
  | [] => by unfold emitList; exact .refl _
  | v :: vs => by
    unfold emitList
    exact (emit_cut mode v).bind fun _ => emitList_cut mode vs
end

theorem emitMain_cut (mode : Mode) (i : Nat) : Cut x (emitMain call mode i) (emitMain call' mode i) :=
  Cut.after _ fun f => Cut.splice (fun mode => h mode f []) mode

omit h in
theorem ask_cut {env : Env} {f f' : View → W → Except Err α × W} (hf : ∀ v w, Raises x (f v w) (f' v w)) :
    Cut x (ask env f : MS C W α) (ask env f') := by
  intro s
  unfold ask
  rcases hf (view env s) s.world with h1 | h1
  · rw [h1]; exact .inl rfl
  · exact .inr ⟨h1, List.nil_prefix⟩

omit h in
theorem Stops.refl (O : Oracle W) : Stops x O O :=
  ⟨fun _ _ _ => .inl rfl, fun _ _ _ => .inl rfl, fun _ _ _ => .inl rfl, fun _ _ _ => .inl rfl, fun _ _ _ => .inl rfl⟩

variable {O O' : Oracle W} (hO : Stops x O O')
include hO

theorem callWith_cut {run run' : Env → C → MS C W Unit} (hr : ∀ env body, Cut x (run env body) (run' env body))
    (mode : Mode) (f : Nat) (as : List Val) : Cut x (callWith O run call mode f as) (callWith O' run' call' mode f as) := by
  unfold callWith
  refine Cut.after _ fun s => Cut.after _ fun fn => ?_
  cases fn.body with
  | code decl body =>
    refine Cut.bind (fun s => ?_) fun _ => Cut.after _ fun _ => Cut.after _ fun _ => hr _ _
    rcases hO.args decl as s.world with h1 | h1
    · dsimp only; rw [h1]; exact .inl rfl
    · exact .inr ⟨h1, List.nil_prefix⟩
  | tramp k => exact Cut.after _ fun _ => Cut.after _ fun _ => h _ _ _

omit h
theorem eval_cut (env : Env) (e : Str) : Cut x (evalM O env e : MS C W Val) (evalM O' env e) := ask_cut (hO.eval e)

theorem gettext_cut (env : Env) (t : Str) : Cut x (gettextM O env t : MS C W Val) (gettextM O' env t) :=
  Cut.after _ fun _ => Cut.after _ fun _ => Cut.after _ fun g => ask_cut fun _ => hO.gettext g t

theorem cond_cut (env : Env) (c : Cond) : Cut x (condM O env c : MS C W Bool) (condM O' env c) := by
  cases c with
  | code e => exact (eval_cut hO env e).bind fun _ => .refl _
  | case e => exact Cut.after _ fun _ => (eval_cut hO env e).bind fun _ => .refl _
  | never => exact .refl _

end

section
variable {W : Type} {x : Err} (P : Prog (List Stmt)) {O O' : Oracle W} (hO : Stops x O O')
  {call call' : Mode → Nat → List Val → MS (List Stmt) W Unit} (h : ∀ mode f as, Cut x (call mode f as) (call' mode f as))
include hO h

set_option linter.unusedSectionVars false in
mutual
theorem exec_cut : ∀ (t : Stmt) (env : Env), Cut x (exec P O call env t) (exec P O' call' env t)
  | .yieldLit _, _ => by unfold exec; exact .refl _
  | .yieldGettext _, _ => by unfold exec; exact (gettext_cut hO _ _).bind fun _ => emit_cut h _ _
  | .yieldCode _, _ => by unfold exec; exact (eval_cut hO _ _).bind fun _ => emit_cut h _ _
  | .yieldEscape _, _ => by unfold exec; exact (eval_cut hO _ _).bind fun _ => emit_cut h _ _
  | .py _, _ => by unfold exec; exact (ask_cut (hO.py _)).bind fun _ => .refl _
  | .importS _ _, _ => by unfold exec; exact .refl _
  | .includeS _, _ => by unfold exec; exact Cut.after _ fun _ => emitMain_cut h _ _
  | .extendS _, _ => by unfold exec; exact Cut.after _ fun _ => emitMain_cut h _ _
  | .pushWith _, _ => by unfold exec; exact .refl _
  | .assign _ _, _ => by unfold exec; exact (eval_cut hO _ _).bind fun _ => .refl _
  | .popWith _, _ => by unfold exec; exact .refl _
  | .pushSwitch _, _ => by unfold exec; exact Cut.after _ fun _ => (eval_cut hO _ _).bind fun _ => .refl _
  | .popSwitch, _ => by unfold exec; exact .refl _
  | .fdef _ _, _ => by unfold exec; exact .refl _
  | .collect body, env => by
    unfold exec collectM
    exact Cut.after _ fun _ => ((execList_cut body _).reading _).capture.bind fun _ => .refl _
  | .attrS _ _ els, env => by unfold exec; exact Cut.after _ fun _ => execList_cut els env
  | .attrsS _ _ els, env => by
    unfold exec
    exact Cut.bind ((eval_cut hO _ _).bind fun _ => .refl _) fun _ => execList_cut els env
  | .forS _ body els, env => by
    unfold exec
    exact (ask_cut (hO.iter _)).bind fun bs =>
      (Cut.each (fun _ => Cut.after _ fun _ => execList_cut body env) bs).bind fun _ => execList_cut els env
  | .ifS _ body els, env => by
    unfold exec
    refine (cond_cut hO _ _).bind fun t => ?_
    split
    · exact execList_cut body env
    · exact execList_cut els env
theorem execList_cut : ∀ (ts : List Stmt) (env : Env), Cut x (execList P O call env ts) (execList P O' call' env ts)
  | [], _ => by unfold execList; exact .refl _
  | t :: ts, env => by
    unfold execList
    exact (exec_cut t env).bind fun _ => execList_cut ts env
end
end

section
variable {W : Type} {x : Err} (P : Prog (List Stmt))

theorem callN_step (O : Oracle W) : ∀ n mode f as, Cut .recursion (callN P O n mode f as) (callN P O (n + 1) mode f as)
  | 0, _, _, _ => fun _ => .inr ⟨rfl, List.nil_prefix⟩
  | n + 1, mode, f, as =>
    callWith_cut (callN_step O n) (Stops.refl O)
      (fun env body => (execList_cut P (Stops.refl O) (callN_step O n) body env).reading _) mode f as

theorem callN_cut (O : Oracle W) {n m : Nat} (h : n ≤ m) (mode : Mode) (f : Nat) (as : List Val) :
    Cut .recursion (callN P O n mode f as) (callN P O m mode f as) := by
  induction h with
  | refl => exact .refl _
  | step _ ih => exact ih.trans (callN_step P O _ mode f as)

theorem callN_stops {O O' : Oracle W} (hO : Stops x O O') : ∀ n mode f as, Cut x (callN P O n mode f as) (callN P O' n mode f as)
  | 0, _, _, _ => .refl _
  | n + 1, mode, f, as =>
    callWith_cut (callN_stops hO n) hO (fun env body => (execList_cut P hO (callN_stops hO n) body env).reading _) mode f as

theorem render_limit (O : Oracle W) {n m : Nat} (h : n ≤ m) (c : Nat) (context : Dict Val) (w : W) :
    Earlier .recursion (render P O n c context w) (render P O m c context w) :=
  Cut.after _ (fun i => emitMain_cut (callN_cut P O h) _ i) _

theorem render_stops {O O' : Oracle W} (hO : Stops x O O') (n c : Nat) (context : Dict Val) (w : W) :
    Earlier x (render P O n c context w) (render P O' n c context w) :=
  Cut.after _ (fun i => emitMain_cut (callN_stops P hO n) _ i) _

end

/-! ## Exceptions that were raised -/

section
variable {C W α β : Type} {failed : W → Option Err}

/-- A computation that ends with the exception that was raised. -/
def Tells (failed : W → Option Err) (m : MS C W α) : Prop :=
  ∀ s, failed s.world = none → failed (m s).st.world = none ∨ ∃ x, failed (m s).st.world = some x ∧ (m s).val = .error x

/-- It leaves the world as it is. -/
def Still (m : MS C W α) : Prop := ∀ s, (m s).st.world = s.world

theorem Still.tells {m : MS C W α} (h : Still m) : Tells failed m := fun s hs => .inl (by rw [h s]; exact hs)

theorem Tells.bind {m : MS C W α} (h : Tells failed m) {f : α → MS C W β} (hf : ∀ a, Tells failed (f a)) : Tells failed (M.bind m f) := by
  intro s hs
  unfold M.bind
  dsimp only
  rcases h s hs with h1 | ⟨x, h1, h2⟩
  · cases (m s).val with
    | error e => exact .inl h1
    | ok a => exact hf a _ h1
  · rw [h2]
    exact .inr ⟨x, h1, rfl⟩

theorem Still.bind {m : MS C W α} (h : Still m) {f : α → MS C W β} (hf : ∀ a, Still (f a)) : Still (M.bind m f) := by
  intro s
  unfold M.bind
  dsimp only
  cases (m s).val with
  | error e => exact h s
  | ok a => exact (hf a _).trans (h s)

theorem Still.then {m : MS C W α} (h : Still m) {f : α → MS C W β} (hf : ∀ a, Tells failed (f a)) : Tells failed (M.bind m f) :=
  h.tells.bind hf

theorem Tells.capture {m : MS C W Unit} (h : Tells failed m) : Tells failed (M.capture m) := by
  intro s hs
  unfold M.capture
  dsimp only
  rcases h s hs with h1 | ⟨x, h1, h2⟩
  · cases (m s).val <;> exact .inl h1
  · rw [h2]
    exact .inr ⟨x, h1, rfl⟩

theorem Tells.each {f : α → MS C W Unit} (h : ∀ a, Tells failed (f a)) : ∀ l, Tells failed (M.each f l)
  | [] => Still.tells fun _ => rfl
  | a :: as => (h a).bind fun _ => Tells.each h as

theorem still_pure (a : α) : Still (M.pure a : MS C W α) := fun _ => rfl

theorem still_throw (e : Err) : Still (M.throw e : MS C W α) := fun _ => rfl

theorem still_get : Still (M.get : MS C W (Store C W)) := fun _ => rfl

theorem still_tell (o : Out) : Still (M.tell o : MS C W Unit) := fun _ => rfl

theorem still_ofOption (e : Err) (o : Option α) : Still (M.ofOption e o : MS C W α) := by
  cases o <;> exact fun _ => rfl

theorem still_kj (env : Env) : Still (kjInst env : MS C W Nat) := still_ofOption _ _

theorem still_modFrame (env : Env) (f : Frame → Frame) : Still (modFrame env f : MS C W Unit) := fun _ => rfl

theorem still_setVars (env : Env) (b : Dict Val) : Still (setVars env b : MS C W Unit) := fun _ => rfl

theorem still_modInst (i : Nat) (f : Inst → Inst) : Still (modInst i f : MS C W Unit) := fun _ => rfl

theorem still_modStacks (j : Nat) (f : Stacks → Stacks) : Still (modStacks j f : MS C W Unit) := fun _ => rfl

theorem still_newFrame (b : Dict Val) (u : Option Nat) : Still (newFrame b u : MS C W Nat) := fun _ => rfl

theorem still_start (id : Nat) : Still (start id : MS C W Bool) := by
  intro s
  unfold start
  split <;> rfl

theorem still_chunk (mode : Mode) (v : Val) : Still (chunk mode v : MS C W Unit) := by
  unfold chunk
  split <;> exact fun _ => rfl

theorem still_getInst (i : Nat) : Still (getInst i : MS C W Inst) := by
  intro s
  unfold getInst
  split <;> rfl

theorem still_newInst (P : Prog C) (c : Nat) (g : Dict Val) : Still (newInst P c g : MS C W Nat) := by
  intro s
  unfold newInst
  split <;> rfl

theorem still_globalInst (env : Env) (k : Str) : Still (globalInst env k : MS C W Nat) :=
  (still_getInst _).bind fun i => by split <;> exact fun _ => rfl

theorem still_attrFn (i : Nat) (k : Str) : Still (attrFn i k : MS C W Nat) :=
  (still_getInst _).bind fun i => by split <;> exact fun _ => rfl

theorem still_import (P : Prog C) (env : Env) (name : Str) (al : Option Str) : Still (importM P env name al : MS C W Nat) :=
  (still_kj _).bind fun _ => (still_globalInst _ _).bind fun _ => (still_ofOption _ _).bind fun _ =>
    (still_getInst _).bind fun _ => (still_newInst _ _ _).bind fun _ => (still_modInst _ _).bind fun _ => still_pure _

theorem still_extend (P : Prog C) (env : Env) (name : Str) : Still (extendM P env name : MS C W Nat) :=
  (still_kj _).bind fun _ => (still_ofOption _ _).bind fun _ => (still_getInst _).bind fun _ =>
    (still_newInst _ _ _).bind fun _ => (still_getInst _).bind fun _ => still_get.bind fun _ =>
    Still.bind (fun _ => rfl) fun _ => (still_modInst _ _).bind fun _ => (still_modInst _ _).bind fun _ => still_pure _

theorem still_emitStrs : ∀ ss : List Str, Still (emitStrs ss : MS C W Unit)
  | [] => still_pure _
  | _ :: ss => (still_tell _).bind fun _ => still_emitStrs ss

theorem still_popSwitch (j : Nat) : Still (popSwitchM j : MS C W Unit) :=
  still_get.bind fun s => by split <;> exact fun _ => rfl

theorem still_case (j : Nat) (v : Val) : Still (caseM j v : MS C W Bool) :=
  still_get.bind fun s => by split <;> exact fun _ => rfl

theorem still_popWith (j : Nat) : Still (popWithM j : MS C W (List Val)) :=
  still_get.bind fun s => by
    split
    · exact fun _ => rfl
    · exact (still_modStacks _ _).bind fun _ => still_pure _

theorem still_unpack (env : Env) (ns : List Str) (vs : List Val) : Still (unpack env ns vs : MS C W Unit) := by
  unfold unpack
  split <;> exact fun _ => rfl

theorem Tells.splice {m : Mode → MS C W Unit} (h : ∀ mode, Tells failed (m mode)) (mode : Mode) : Tells failed (Run.splice mode m) := by
  cases mode with
  | stream => exact h _
  | strict => exact h _
  | collect => exact (h _).bind fun _ => (still_tell _).tells

theorem Tells.reading {m : MS C W Unit} (h : Tells failed m) (y : Bool) : Tells failed (Run.reading y m) :=
  h.bind fun _ => by split <;> exact Still.tells fun _ => rfl

theorem ask_tells {env : Env} {f : View → W → Except Err α × W} (hf : ∀ v w, Records failed w (f v w)) :
    Tells failed (ask env f : MS C W α) := fun s hs => hf (view env s) s.world hs

variable {call : Mode → Nat → List Val → MS C W Unit} (h : ∀ mode f as, Tells failed (call mode f as))
include h

set_option linter.unusedSectionVars false in
mutual
theorem emit_tells (mode : Mode) : ∀ v, Tells failed (emit call mode v)
  | .none => by unfold emit; exact (still_pure _).tells
  | .flatItems id items => by
    unfold emit
    refine Tells.splice (fun mode => (still_start _).then fun fresh => ?_) mode
    split
    · exact emitList_tells mode items
    · exact (still_pure _).tells
  | .flatCall id f as => by
    unfold emit
    refine Tells.splice (fun mode => (still_start _).then fun fresh => ?_) mode
    split
    · exact h mode f as
    · exact (still_pure _).tells
  | .bool _ => by unfold emit; exact (still_chunk _ _).tells
  | .int _ => by unfold emit; exact (still_chunk _ _).tells
  | .str _ => by unfold emit; exact (still_chunk _ _).tells
  | .html .. => by unfold emit; exact (still_chunk _ _).tells
  | .obj .. => by unfold emit; exact (still_chunk _ _).tells
  | .unit => by unfold emit; exact (still_chunk _ _).tells
  | .pairs .. => by unfold emit; exact (still_chunk _ _).tells
  | .inst _ => by unfold emit; exact (still_chunk _ _).tells
  | .meth .. => by unfold emit; exact (still_chunk _ _).tells
  | .fn _ => by unfold emit; exact (still_chunk _ _).tells
theorem emitList_tells (mode : Mode) : ∀ vs, Tells failed (emitList call mode vs)
  | [] => by unfold emitList; exact (still_pure _).tells
  | v :: vs => by
    unfold emitList
    exact (emit_tells mode v).bind fun _ => emitList_tells mode vs
end

theorem emitMain_tells (mode : Mode) (i : Nat) : Tells failed (emitMain call mode i) :=
  (still_attrFn _ _).then fun f => Tells.splice (fun mode => h mode f []) mode

variable {O : Oracle W} (hO : Recorded failed O)
include hO

theorem callWith_tells {run : Env → C → MS C W Unit} (hr : ∀ env body, Tells failed (run env body)) (mode : Mode) (f : Nat)
    (as : List Val) : Tells failed (callWith O run call mode f as) := by
  unfold callWith
  refine still_get.then fun s => (still_ofOption _ _).then fun fn => ?_
  cases fn.body with
  | code decl body =>
    exact Tells.bind (fun s hs => hO.args decl as s.world hs) fun _ =>
      (still_newFrame _ _).then fun _ => (still_getInst _).then fun _ => hr _ _
  | tramp k => exact (still_globalInst _ _).then fun _ => (still_attrFn _ _).then fun _ => h _ _ _

omit h
theorem eval_tells (env : Env) (e : Str) : Tells failed (evalM O env e : MS C W Val) := ask_tells (hO.eval e)

theorem gettext_tells (env : Env) (t : Str) : Tells failed (gettextM O env t : MS C W Val) :=
  (still_kj _).then fun _ => (still_getInst _).then fun _ => (still_ofOption _ _).then fun g =>
    ask_tells fun _ => hO.gettext g t

theorem cond_tells (env : Env) (c : Cond) : Tells failed (condM O env c : MS C W Bool) := by
  cases c with
  | code e => exact (eval_tells hO env e).bind fun _ => (still_pure _).tells
  | case e => exact (still_kj _).then fun _ => (eval_tells hO env e).bind fun _ => (still_case _ _).tells
  | never => exact (still_pure _).tells

end

section
variable {W : Type} {failed : W → Option Err} (P : Prog (List Stmt)) {O : Oracle W} (hO : Recorded failed O)
  {call : Mode → Nat → List Val → MS (List Stmt) W Unit} (h : ∀ mode f as, Tells failed (call mode f as))
include hO h

set_option linter.unusedSectionVars false in
mutual
theorem exec_tells : ∀ (t : Stmt) (env : Env), Tells failed (exec P O call env t)
  | .yieldLit _, _ => by unfold exec; exact (still_tell _).tells
  | .yieldGettext _, _ => by unfold exec; exact (gettext_tells hO _ _).bind fun _ => emit_tells h _ _
  | .yieldCode _, _ => by unfold exec; exact (eval_tells hO _ _).bind fun _ => emit_tells h _ _
  | .yieldEscape _, _ => by unfold exec; exact (eval_tells hO _ _).bind fun _ => emit_tells h _ _
  | .py _, _ => by unfold exec; exact (ask_tells (hO.py _)).bind fun _ => (still_setVars _ _).tells
  | .importS _ _, _ => by unfold exec; exact (still_import _ _ _ _).then fun _ => (still_pure _).tells
  | .includeS _, _ => by unfold exec; exact (still_import _ _ _ _).then fun _ => emitMain_tells h _ _
  | .extendS _, _ => by unfold exec; exact (still_extend _ _ _).then fun _ => emitMain_tells h _ _
  | .pushWith _, _ => by unfold exec; exact (still_kj _).then fun _ => still_get.then fun _ => (still_modStacks _ _).tells
  | .assign _ _, _ => by unfold exec; exact (eval_tells hO _ _).bind fun _ => (still_setVars _ _).tells
  | .popWith _, _ => by
    unfold exec
    exact (still_kj _).then fun _ => (still_popWith _).then fun _ => (still_unpack _ _ _).tells
  | .pushSwitch _, _ => by
    unfold exec
    exact (still_kj _).then fun _ => (eval_tells hO _ _).bind fun _ => (still_modStacks _ _).tells
  | .popSwitch, _ => by unfold exec; exact (still_kj _).then fun _ => (still_popSwitch _).tells
  | .fdef _ _, _ => by unfold exec; exact Still.tells fun _ => rfl
  | .collect body, env => by
    unfold exec collectM
    exact (still_newFrame _ _).then fun _ => ((execList_tells body _).reading _).capture.bind fun _ => (still_modFrame _ _).tells
  | .attrS _ _ els, env => by
    unfold exec
    exact (still_get.bind fun _ => still_emitStrs _).then fun _ => execList_tells els env
  | .attrsS _ _ els, env => by
    unfold exec
    refine Tells.bind ((eval_tells hO _ _).bind fun v => ?_) fun _ => execList_tells els env
    split
    · exact (still_throw _).tells
    · exact (still_emitStrs _).tells
  | .forS _ body els, env => by
    unfold exec
    exact (ask_tells (hO.iter _)).bind fun bs =>
      (Tells.each (fun _ => (still_setVars _ _).then fun _ => execList_tells body env) bs).bind fun _ => execList_tells els env
  | .ifS _ body els, env => by
    unfold exec
    refine (cond_tells hO _ _).bind fun t => ?_
    split
    · exact execList_tells body env
    · exact execList_tells els env
theorem execList_tells : ∀ (ts : List Stmt) (env : Env), Tells failed (execList P O call env ts)
  | [], _ => by unfold execList; exact (still_pure _).tells
  | t :: ts, env => by
    unfold execList
    exact (exec_tells t env).bind fun _ => execList_tells ts env
end
end

section
variable {W : Type} {failed : W → Option Err} (P : Prog (List Stmt)) {O : Oracle W} (hO : Recorded failed O)
include hO

theorem callN_tells : ∀ n mode f as, Tells failed (callN P O n mode f as)
  | 0, _, _, _ => (still_throw _).tells
  | n + 1, mode, f, as =>
    callWith_tells (callN_tells n) hO (fun env body => (execList_tells P hO (callN_tells n) body env).reading _) mode f as

theorem render_tells (n c : Nat) (context : Dict Val) (w : W) (hw : failed w = none) :
    failed (render P O n c context w).st.world = none ∨
      ∃ x, failed (render P O n c context w).st.world = some x ∧ (render P O n c context w).val = .error x :=
  ((still_newInst _ _ _).then fun i => emitMain_tells (callN_tells P hO n) _ i) _ hw

end

end Kajiki.Limit

import Verif.Lemmas.Messages
import Verif.Lemmas.Rel
import Verif.Lemmas.Compile

/-!
# Rendering asks gettext only for the messages of its code
-/

namespace Kajiki.Run
open Kajiki.Spec.Gettext

variable {W α β : Type}

/-- The code of the function has only messages in `L`. -/
def BodyIn (L : Str → Prop) : FnBody (List Stmt) → Prop
  | .code _ b => ∀ t ∈ ofStmts b, L t
  | .tramp _ => True

/-- All functions have only messages in `L`. -/
def FnsIn (L : Str → Prop) (s : Store (List Stmt) W) : Prop := ∀ f ∈ s.fns, BodyIn L f.body

/-- Two computations that do the same on such stores. -/
def Alike (L : Str → Prop) (m n : MS (List Stmt) W α) : Prop :=
  ∀ s, FnsIn L s → m s = n s ∧ FnsIn L (m s).st

variable {L : Str → Prop}

theorem Alike.bind {m n : MS (List Stmt) W α} {f g : α → MS (List Stmt) W β} (h : Alike L m n)
    (hf : ∀ a, Alike L (f a) (g a)) : Alike L (M.bind m f) (M.bind n g) := by
  intro s hs
  obtain ⟨h1, h2⟩ := h s hs
  unfold M.bind
  rw [← h1]
  cases hm : m s with
  | mk o st v =>
    rw [hm] at h2
    cases v with
    | error e => exact ⟨rfl, h2⟩
    | ok a =>
      obtain ⟨h3, h4⟩ := hf a st h2
      simp only
      rw [h3] at h4 ⊢
      exact ⟨rfl, h4⟩

/-- The computation does not change the functions. -/
theorem Alike.same {m : MS (List Stmt) W α} (h : ∀ s, (m s).st.fns = s.fns) : Alike L m m :=
  fun s hs => ⟨rfl, fun f hf => hs f (h s ▸ hf)⟩

theorem Alike.pure (a : α) : Alike L (M.pure a : MS (List Stmt) W α) (M.pure a) := .same fun _ => rfl
theorem Alike.throw (e : Err) : Alike L (M.throw e : MS (List Stmt) W α) (M.throw e) := .same fun _ => rfl
theorem Alike.tell (o : Out) : Alike L (M.tell o : MS (List Stmt) W Unit) (M.tell o) := .same fun _ => rfl
theorem Alike.get : Alike L (M.get : MS (List Stmt) W _) M.get := .same fun _ => rfl
theorem Alike.modify {f : Store (List Stmt) W → Store (List Stmt) W} (h : ∀ s, (f s).fns = s.fns) :
    Alike L (M.modify f : MS (List Stmt) W Unit) (M.modify f) := .same h

theorem Alike.ofOption (e : Err) (x : Option α) :
    Alike L (M.ofOption e x : MS (List Stmt) W α) (M.ofOption e x) := by
  cases x
  · exact .throw _
  · exact .pure _

theorem Alike.get_bind {f g : Store (List Stmt) W → MS (List Stmt) W α}
    (h : ∀ s, FnsIn L s → Alike L (f s) (g s)) : Alike L (M.bind M.get f) (M.bind M.get g) := by
  intro s hs
  simpa only [M.bind, M.get, Out.nil_append] using h s hs s hs

theorem Alike.option_bind {e : Err} {x : Option α} {f g : α → MS (List Stmt) W β}
    (h : ∀ a, x = some a → Alike L (f a) (g a)) :
    Alike L (M.bind (M.ofOption e x) f) (M.bind (M.ofOption e x) g) := by
  cases x with
  | none => exact fun s hs => ⟨rfl, hs⟩
  | some a =>
    intro s hs
    simpa only [M.bind, M.ofOption, M.pure, Out.nil_append] using h a rfl s hs

theorem Alike.each {γ : Type} {f g : γ → MS (List Stmt) W Unit} (h : ∀ a, Alike L (f a) (g a))
    (l : List γ) : Alike L (M.each f l) (M.each g l) := by
  induction l with
  | nil => exact .pure ()
  | cons a l ih => exact .bind (h a) fun _ => ih

theorem Alike.capture {m n : MS (List Stmt) W Unit} (h : Alike L m n) :
    Alike L (M.capture m) (M.capture n) := by
  intro s hs
  obtain ⟨h1, h2⟩ := h s hs
  unfold M.capture
  rw [← h1]
  cases hm : m s with
  | mk o st v => rw [hm] at h2; cases v <;> exact ⟨rfl, h2⟩

theorem Alike.ask (env : Env) (f : View → W → Except Err α × W) :
    Alike L (ask env f : MS (List Stmt) W α) (ask env f) := .same fun _ => rfl

theorem Alike.evalM (O : Oracle W) (env : Env) (e : Str) :
    Alike L (evalM O env e : MS (List Stmt) W Val) (evalM O env e) := .ask _ _

theorem Alike.setVars (env : Env) (b : Dict Val) :
    Alike L (setVars env b : MS (List Stmt) W Unit) (setVars env b) := .same fun _ => rfl

theorem Alike.newFrame (b : Dict Val) (up : Option Nat) :
    Alike L (newFrame b up : MS (List Stmt) W Nat) (newFrame b up) := .same fun _ => rfl

theorem Alike.newFn {f : Fn (List Stmt)} (h : BodyIn L f.body) :
    Alike L (newFn f : MS (List Stmt) W Nat) (newFn f) := by
  intro s hs
  refine ⟨rfl, fun g hg => ?_⟩
  simp only [Kajiki.Run.newFn, List.mem_append, List.mem_singleton] at hg
  rcases hg with hg | rfl
  · exact hs g hg
  · exact h

theorem Alike.start (id : Nat) : Alike L (start id : MS (List Stmt) W Bool) (start id) := by
  refine .same fun s => ?_
  unfold Kajiki.Run.start
  split <;> rfl

theorem Alike.chunk (mode : Mode) (v : Val) :
    Alike L (chunk mode v : MS (List Stmt) W Unit) (chunk mode v) := by
  unfold Kajiki.Run.chunk
  split
  · exact .tell _
  · exact .throw _
  · exact .tell _

theorem Alike.reading {m n : MS (List Stmt) W Unit} (h : Alike L m n) (y : Bool) :
    Alike L (reading y m) (reading y n) := by
  refine h.bind fun _ => ?_
  cases y
  · exact .throw _
  · exact .pure _

theorem Alike.splice {m n : Mode → MS (List Stmt) W Unit} (h : ∀ mode, Alike L (m mode) (n mode))
    (mode : Mode) : Alike L (splice mode m) (splice mode n) := by
  cases mode
  · exact h _
  · exact (h _).bind fun _ => .tell _
  · exact h _

mutual
theorem Alike.emit {c d : Mode → Nat → List Val → MS (List Stmt) W Unit}
    (h : ∀ mode f as, Alike L (c mode f as) (d mode f as)) (mode : Mode) (v : Val) :
    Alike L (emit c mode v) (emit d mode v) := by
  cases v with
  | none => simp only [Kajiki.Run.emit]; exact .pure _
  | flatItems id items =>
    simp only [Kajiki.Run.emit]
    refine Alike.splice (fun mode => (Alike.start id).bind fun b => ?_) mode
    cases b
    · exact .pure _
    · exact Alike.emitList h mode items
  | flatCall id f as =>
    simp only [Kajiki.Run.emit]
    refine Alike.splice (fun mode => (Alike.start id).bind fun b => ?_) mode
    cases b
    · exact .pure _
    · exact h mode f as
  | _ => simp only [Kajiki.Run.emit]; exact .chunk _ _

theorem Alike.emitList {c d : Mode → Nat → List Val → MS (List Stmt) W Unit}
    (h : ∀ mode f as, Alike L (c mode f as) (d mode f as)) (mode : Mode) (vs : List Val) :
    Alike L (emitList c mode vs) (emitList d mode vs) := by
  cases vs with
  | nil => simp only [Kajiki.Run.emitList]; exact .pure _
  | cons v vs =>
    simp only [Kajiki.Run.emitList]
    exact (Alike.emit h mode v).bind fun _ => Alike.emitList h mode vs
end

theorem Alike.getInst (i : Nat) : Alike L (getInst i : MS (List Stmt) W Inst) (getInst i) := by
  refine .same fun s => ?_
  unfold Kajiki.Run.getInst
  split <;> rfl

theorem Alike.modInst (i : Nat) (f : Inst → Inst) :
    Alike L (modInst i f : MS (List Stmt) W Unit) (modInst i f) := .same fun _ => rfl

/-- All functions of a program have only messages in `L`. -/
def ProgIn (L : Str → Prop) (P : Prog (List Stmt)) : Prop :=
  ∀ c ∈ P.classes, ∀ m ∈ c.methods, ∀ t ∈ ofStmts m.2.2, L t

theorem Alike.newInst {P : Prog (List Stmt)} (hP : ProgIn L P) (c : Nat) (ctx : Dict Val) :
    Alike L (newInst P c ctx : MS (List Stmt) W Nat) (newInst P c ctx) := by
  intro s hs
  refine ⟨rfl, ?_⟩
  unfold Kajiki.Run.newInst
  cases hc : P.classes[c]? with
  | none => exact hs
  | some cls =>
    intro f hf
    simp only [List.mem_append, methodFns, List.mem_map] at hf
    rcases hf with hf | ⟨m, hm, rfl⟩
    · exact hs f hf
    · exact hP cls (List.mem_of_getElem? hc) m hm

theorem Alike.extend {P : Prog (List Stmt)} (hP : ProgIn L P) (j : Nat) (name : Str) :
    Alike L (extend P j name : MS (List Stmt) W Nat) (extend P j name) := by
  unfold Kajiki.Run.extend
  refine (Alike.ofOption _ _).bind fun c => (Alike.getInst j).bind fun me =>
    (Alike.newInst hP c _).bind fun p => (Alike.getInst p).bind fun pi => Alike.get.bind fun s => ?_
  refine Alike.bind ?_ fun _ => (Alike.modInst _ _).bind fun _ => (Alike.modInst _ _).bind fun _ => .pure _
  intro s hs
  refine ⟨rfl, fun f hf => ?_⟩
  simp only [M.modify, List.mem_append, List.mem_map] at hf
  rcases hf with hf | ⟨k, _, rfl⟩
  · exact hs f hf
  · trivial

theorem Alike.kjInst (env : Env) : Alike L (kjInst env : MS (List Stmt) W Nat) (kjInst env) := .ofOption _ _

theorem Alike.globalInst (env : Env) (k : Str) :
    Alike L (globalInst env k : MS (List Stmt) W Nat) (globalInst env k) := by
  refine (Alike.getInst _).bind fun i => ?_
  split
  · exact .pure _
  · exact .throw _
  · exact .throw _

theorem Alike.importM {P : Prog (List Stmt)} (hP : ProgIn L P) (env : Env) (name : Str) (al : Option Str) :
    Alike L (importM P env name al : MS (List Stmt) W Nat) (importM P env name al) :=
  (Alike.kjInst env).bind fun _ => (Alike.globalInst env _).bind fun j =>
    (Alike.ofOption _ _).bind fun c => (Alike.getInst j).bind fun _ => (Alike.newInst hP c _).bind fun _ =>
      (Alike.modInst _ _).bind fun _ => .pure _

theorem Alike.attrFn (i : Nat) (k : Str) : Alike L (attrFn i k : MS (List Stmt) W Nat) (attrFn i k) := by
  refine (Alike.getInst _).bind fun i => ?_
  split
  · exact .pure _
  · exact .throw _

theorem Alike.emitMain {c d : Mode → Nat → List Val → MS (List Stmt) W Unit}
    (h : ∀ mode f as, Alike L (c mode f as) (d mode f as)) (mode : Mode) (i : Nat) :
    Alike L (emitMain c mode i) (emitMain d mode i) :=
  (Alike.attrFn i _).bind fun f => Alike.splice (fun mode => h mode f []) mode

theorem Alike.emitStrs (ss : List Str) : Alike L (emitStrs ss : MS (List Stmt) W Unit) (emitStrs ss) :=
  Alike.each (fun _ => .tell _) ss

theorem Alike.attrsM (O : Oracle W) (env : Env) (c m : Str) :
    Alike L (attrsM O env c m : MS (List Stmt) W Unit) (attrsM O env c m) := by
  refine (Alike.evalM O env c).bind fun v => ?_
  cases renderAttrs v m
  · exact .throw _
  · exact .emitStrs _

theorem Alike.modStacks (j : Nat) (f : Stacks → Stacks) :
    Alike L (modStacks j f : MS (List Stmt) W Unit) (modStacks j f) := .same fun _ => rfl

theorem Alike.popSwitchM (j : Nat) : Alike L (popSwitchM j : MS (List Stmt) W Unit) (popSwitchM j) := by
  refine Alike.get.bind fun s => ?_
  split
  · exact .throw _
  · exact .modStacks _ _

theorem Alike.popWithM (j : Nat) : Alike L (popWithM j : MS (List Stmt) W _) (popWithM j) := by
  refine Alike.get.bind fun s => ?_
  split
  · exact .throw _
  · exact (Alike.modStacks _ _).bind fun _ => .pure _

theorem Alike.unpack (env : Env) (ns : List Str) (vs : List Val) :
    Alike L (unpack env ns vs : MS (List Stmt) W Unit) (unpack env ns vs) := by
  unfold Kajiki.Run.unpack
  split
  · exact .setVars _ _
  · exact .throw _

theorem Alike.condM (O : Oracle W) (env : Env) (c : Cond) :
    Alike L (condM O env c : MS (List Stmt) W Bool) (condM O env c) := by
  cases c with
  | code e => exact (Alike.evalM O env e).bind fun v => .pure _
  | case e =>
    refine (Alike.kjInst env).bind fun j => (Alike.evalM O env e).bind fun v => Alike.get.bind fun s => ?_
    split
    · exact .throw _
    · exact .pure _
  | never => exact .pure _

section
variable {P : Prog (List Stmt)} {O O' : Oracle W}
  {call call' : Mode → Nat → List Val → MS (List Stmt) W Unit}

theorem evalM_eq (hO : SameButGettext L O O') (env : Env) (e : Str) :
    (evalM O env e : MS (List Stmt) W Val) = evalM O' env e := by
  unfold evalM; rw [hO.eval]

theorem condM_eq (hO : SameButGettext L O O') (env : Env) (c : Cond) :
    (condM O env c : MS (List Stmt) W Bool) = condM O' env c := by
  cases c <;> simp only [condM, evalM_eq hO]

mutual
theorem exec_alike (hP : ProgIn L P) (hO : SameButGettext L O O')
    (hc : ∀ m f as, Alike L (call m f as) (call' m f as)) (env : Env) (x : Stmt)
    (hx : ∀ t ∈ ofStmt x, L t) : Alike L (exec P O call env x) (exec P O' call' env x) := by
  cases x with
  | yieldLit s => simp only [exec]; exact .tell _
  | yieldGettext s =>
    simp only [exec]
    refine Alike.bind ?_ fun v => .emit hc _ v
    refine (Alike.kjInst env).bind fun j => (Alike.getInst j).bind fun i => (Alike.ofOption _ _).bind
      fun g => ?_
    rw [show (fun (_ : View) w => O.gettext g s w) = fun _ w => O'.gettext g s w from
      funext fun _ => funext fun w => hO.gettext g s w (hx s (by simp [ofStmt]))]
    exact .ask _ _
  | yieldCode c => simp only [exec, evalM_eq hO]; exact (Alike.evalM _ _ _).bind fun v => .emit hc _ v
  | yieldEscape c => simp only [exec, evalM_eq hO]; exact (Alike.evalM _ _ _).bind fun v => .emit hc _ _
  | py ls => simp only [exec, hO.py]; exact (Alike.ask _ _).bind fun b => .setVars _ _
  | importS n a => simp only [exec]; exact (Alike.importM hP _ _ _).bind fun _ => .pure _
  | includeS n => simp only [exec]; exact (Alike.importM hP _ _ _).bind fun _ => .emitMain hc _ _
  | extendS n =>
    simp only [exec]
    exact ((Alike.kjInst env).bind fun j => .extend hP j n).bind fun _ => .emitMain hc _ _
  | pushWith ns =>
    simp only [exec]; exact (Alike.kjInst env).bind fun j => Alike.get.bind fun s => .modStacks _ _
  | assign k v => simp only [exec, evalM_eq hO]; exact (Alike.evalM _ _ _).bind fun v => .setVars _ _
  | popWith ns =>
    simp only [exec]; exact (Alike.kjInst env).bind fun j => (Alike.popWithM j).bind fun vs => .unpack _ _ _
  | pushSwitch e =>
    simp only [exec, evalM_eq hO]
    exact (Alike.kjInst env).bind fun j => (Alike.evalM _ _ _).bind fun v => .modStacks _ _
  | popSwitch => simp only [exec]; exact (Alike.kjInst env).bind fun j => .popSwitchM j
  | fdef d b =>
    simp only [exec]
    exact (Alike.newFn (f := ⟨.code d b, env.inst, some env.frame, false⟩) hx).bind fun f => .setVars _ _
  | collect b =>
    simp only [exec]
    exact (Alike.newFrame _ _).bind fun fr => (Alike.capture ((execList_alike hP hO hc _ b hx).reading _)).bind fun o =>
      .same fun _ => rfl
  | attrS n m els =>
    simp only [exec]
    exact (Alike.get.bind fun s => .emitStrs _).bind fun _ => execList_alike hP hO hc _ els hx
  | attrsS c m els =>
    have : (attrsM O env c m : MS (List Stmt) W Unit) = attrsM O' env c m := by
      unfold attrsM; rw [evalM_eq hO]
    simp only [exec, this]
    exact (Alike.attrsM _ _ _ _).bind fun _ => execList_alike hP hO hc _ els hx
  | forS d b els =>
    simp only [exec, hO.iter]
    have h1 : ∀ t ∈ ofStmts b, L t := fun t h => hx t (by simp [ofStmt, h])
    have h2 : ∀ t ∈ ofStmts els, L t := fun t h => hx t (by simp [ofStmt, h])
    exact (Alike.ask _ _).bind fun bs => (Alike.each (fun v => (Alike.setVars _ _).bind fun _ =>
      execList_alike hP hO hc _ b h1) bs).bind fun _ => execList_alike hP hO hc _ els h2
  | ifS c b els =>
    simp only [exec, condM_eq hO]
    have h1 : ∀ t ∈ ofStmts b, L t := fun t h => hx t (by simp [ofStmt, h])
    have h2 : ∀ t ∈ ofStmts els, L t := fun t h => hx t (by simp [ofStmt, h])
    refine (Alike.condM _ _ _).bind fun t => ?_
    cases t
    · exact execList_alike hP hO hc _ els h2
    · exact execList_alike hP hO hc _ b h1

theorem execList_alike (hP : ProgIn L P) (hO : SameButGettext L O O')
    (hc : ∀ m f as, Alike L (call m f as) (call' m f as)) (env : Env) (xs : List Stmt)
    (hx : ∀ t ∈ ofStmts xs, L t) : Alike L (execList P O call env xs) (execList P O' call' env xs) := by
  cases xs with
  | nil => simp only [execList]; exact .pure _
  | cons x xs =>
    simp only [execList]
    exact (exec_alike hP hO hc env x fun t h => hx t (by simp [ofStmts, h])).bind fun _ =>
      execList_alike hP hO hc env xs fun t h => hx t (by simp [ofStmts, h])
end

theorem call_alike (hP : ProgIn L P) (hO : SameButGettext L O O') (n : Nat) (m : Mode) (f : Nat)
    (as : List Val) : Alike L (callN P O n m f as) (callN P O' n m f as) := by
  induction n generalizing m f as with
  | zero => exact .throw _
  | succ n ih =>
    simp only [callN]
    unfold callWith
    refine Alike.get_bind fun s hs => Alike.option_bind fun fn hf => ?_
    have hb := hs fn (List.mem_of_getElem? hf)
    cases hbody : fn.body with
    | code d body =>
      rw [hbody] at hb
      simp only [hO.args]
      exact (Alike.same fun _ => rfl).bind fun vars => (Alike.newFrame vars fn.up).bind fun fr =>
        (Alike.getInst fn.inst).bind fun i => (execList_alike hP hO ih _ body hb).reading _
    | tramp k =>
      exact (Alike.globalInst _ _).bind fun p => (Alike.attrFn p k).bind fun g => ih _ _ _

/-- Rendering does not depend on what gettext says about anything but the messages. -/
theorem render_alike (hP : ProgIn L P) (hO : SameButGettext L O O') (n c : Nat) (ctx : Dict Val) (w : W) :
    render P O n c ctx w = render P O' n c ctx w :=
  ((Alike.newInst hP c ctx).bind fun i => Alike.emitMain (call_alike hP hO n) .stream i) (emptyStore _ w)
    (fun _ hf => absurd hf (List.not_mem_nil)) |>.1

end

theorem act_alike {P : Prog (List Stmt)} {O O' : Oracle W} (hP : ProgIn L P) (hO : SameButGettext L O O')
    (n : Nat) (a : Act) {s : Store (List Stmt) W} (hs : FnsIn L s) :
    act P O n s a = act P O' n s a ∧ FnsIn L (act P O n s a) := by
  cases a with
  | make c ctx => exact ⟨rfl, (Alike.newInst hP c ctx s hs).2⟩
  | render i =>
    have := Alike.emitMain (call_alike hP hO n) .stream i s hs
    exact ⟨congrArg Res.st this.1, this.2⟩

theorem acts_alike {P : Prog (List Stmt)} {O O' : Oracle W} (hP : ProgIn L P) (hO : SameButGettext L O O')
    (n : Nat) (as : List Act) (s : Store (List Stmt) W) (hs : FnsIn L s) :
    as.foldl (act P O n) s = as.foldl (act P O' n) s := by
  induction as generalizing s with
  | nil => rw [List.foldl_nil, List.foldl_nil]
  | cons a as ih =>
    obtain ⟨h1, h2⟩ := act_alike hP hO n a hs
    rw [List.foldl_cons, List.foldl_cons, ih _ h2, h1]

theorem FnsIn.empty (w : W) : FnsIn L (emptyStore (List Stmt) w) := by
  intro f hf
  simp only [emptyStore] at hf
  cases hf

theorem history_alike {P : Prog (List Stmt)} {O O' : Oracle W} (hP : ProgIn L P) (hO : SameButGettext L O O')
    (n : Nat) (w : W) (as : List Act) : history P O n w as = history P O' n w as :=
  acts_alike hP hO n as _ (.empty w)

theorem mem_insertMethod {C : Type} {k : Str} {v : Str × C} {ms : List (Str × Str × C)} {m : Str × Str × C}
    (h : m ∈ insertMethod k v ms) : m.2 = v ∨ m ∈ ms := by
  induction ms with
  | nil => simp only [insertMethod, List.mem_singleton] at h; exact .inl (h ▸ rfl)
  | cons x ms ih =>
    obtain ⟨k', v'⟩ := x
    simp only [insertMethod] at h
    split at h
    · rcases List.mem_cons.1 h with rfl | h
      · exact .inl rfl
      · exact .inr (List.mem_cons_of_mem _ h)
    · split at h
      · rcases List.mem_cons.1 h with rfl | h
        · exact .inl rfl
        · exact .inr h
      · rcases List.mem_cons.1 h with rfl | h
        · exact .inr List.mem_cons_self
        · exact (ih h).imp id (List.mem_cons_of_mem _)

theorem mem_methodsOf {C : Type} {defs : List (Str × C)} {m : Str × Str × C} (h : m ∈ methodsOf defs) :
    m.2 ∈ defs := by
  unfold methodsOf at h
  have : ∀ (ds : List (Str × C)) (acc : List (Str × Str × C)),
      m ∈ ds.foldl (fun ms d => insertMethod (declName d.1) d ms) acc → m.2 ∈ ds ∨ m ∈ acc := by
    intro ds
    induction ds with
    | nil => exact fun _ h => .inr h
    | cons d ds ih =>
      intro acc h
      rcases ih _ h with h | h
      · exact .inl (List.mem_cons_of_mem _ h)
      · rcases mem_insertMethod h with h | h
        · exact .inl (h ▸ List.mem_cons_self)
        · exact .inr h
  exact (this _ _ h).resolve_right List.not_mem_nil

theorem placedTmpl_merged (t : Tmpl) :
    Spec.Code.placedTmpl (Spec.Code.mergedTmpl t) = Spec.Code.placedTmpl t := by
  simp only [Spec.Code.placedTmpl, Spec.Code.mergedTmpl, List.isEmpty_map, List.all_map,
    Function.comp_def, mergedList_isEmpty, any_mergedList, placed_mergedList]

theorem fromIr_gettext {t : Tmpl} {base : Dict Val} {c : Cls (List Stmt)} (h : fromIr t base = some c) :
    ∃ m, compilePy (generatePython t) = some m ∧ ofModule m = Spec.XmlCompile.messagesTmpl t ∧
      ∀ f ∈ c.methods, ∀ x ∈ ofStmts f.2.2, x ∈ ofModule m := by
  simp only [fromIr, Option.map_eq_some_iff] at h
  obtain ⟨m, hm, rfl⟩ := h
  refine ⟨m, hm, ?_, ?_⟩
  · rw [compilePy_generatePython] at hm
    split at hm
    · next hp =>
      cases hm
      rw [Msgs.ofModule_codeTmpl (Spec.Code.mergedTmpl t) (by rw [placedTmpl_merged]; exact hp)]
      unfold Spec.XmlCompile.messagesTmpl Spec.Code.mergedTmpl
      simp only [List.flatMap_map, Msgs.messages_mergedList]
    · cases hm
  · intro f hf x hx
    simp only [ofModule, List.mem_flatMap]
    exact ⟨f.2, mem_methodsOf hf, hx⟩

theorem compile_progIn {S : Source} {P : Prog (List Stmt)} (h : S.compile = some P)
    (hL : ∀ t ∈ S.tmpls, ∀ x ∈ Spec.XmlCompile.messagesTmpl t.1, L x) : ProgIn L P := by
  obtain ⟨ts, load, al⟩ := S
  simp only [Source.compile, Option.map_eq_some_iff] at h
  obtain ⟨cs, hcs, rfl⟩ := h
  simp only [ProgIn]
  simp only at hL hcs
  clear load al
  induction ts generalizing cs with
  | nil => simp only [compileAll, Option.some.injEq] at hcs; subst hcs; simp
  | cons t ts ih =>
    simp only [compileAll] at hcs
    split at hcs
    · next c cs' h1 h2 =>
      simp only [Option.some.injEq] at hcs
      subst hcs
      intro d hd
      rcases List.mem_cons.1 hd with rfl | hd
      · obtain ⟨m, _, h3, h4⟩ := fromIr_gettext h1
        intro f hf x hx
        exact hL t List.mem_cons_self x (h3 ▸ h4 f hf x hx)
      · exact ih (fun t ht => hL t (List.mem_cons_of_mem _ ht)) _ h2 d hd
    · simp at hcs

end Kajiki.Run

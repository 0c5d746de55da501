import Verif.Model.Interp

/-!
# A flattener that was started stays started
-/

namespace Kajiki.Run

section
variable {C W α β : Type} {call : Mode → Nat → List Val → MS C W Unit} {P : Prog C}

/-- The computation forgets no started flattener. -/
def Uses (m : MS C W α) : Prop := ∀ s, ∀ id ∈ s.used, id ∈ (m s).st.used

theorem Uses.bind {m : MS C W α} {f : α → MS C W β} (h : Uses m) (hf : ∀ a, Uses (f a)) : Uses (M.bind m f) := by
  intro s id hid
  have := h s id hid
  simp only [M.bind]
  split
  · exact this
  · exact hf _ _ id this

theorem Uses.same {m : MS C W α} (h : ∀ s, (m s).st.used = s.used) : Uses m := by
  intro s id hid; rw [h]; exact hid

theorem Uses.pure (a : α) : Uses (M.pure a : MS C W α) := .same fun _ => rfl
theorem Uses.throw (e : Err) : Uses (M.throw e : MS C W α) := .same fun _ => rfl
theorem Uses.tell (o : Out) : Uses (M.tell o : MS C W Unit) := .same fun _ => rfl
theorem Uses.get : Uses (M.get : MS C W (Store C W)) := .same fun _ => rfl

theorem Uses.ofOption (e : Err) (x : Option α) : Uses (M.ofOption e x : MS C W α) := by
  cases x <;> exact .same fun _ => rfl

theorem Uses.modify {f : Store C W → Store C W} (h : ∀ s, (f s).used = s.used) : Uses (M.modify f : MS C W Unit) :=
  .same h

theorem Uses.ask (env : Env) (f : View → W → Except Err α × W) : Uses (ask env f : MS C W α) := .same fun _ => rfl

theorem Uses.each {γ : Type} {f : γ → MS C W Unit} (h : ∀ x, Uses (f x)) (l : List γ) : Uses (M.each f l) := by
  induction l with
  | nil => exact .pure _
  | cons x l ih => exact (h x).bind fun _ => ih

theorem Uses.capture {m : MS C W Unit} (h : Uses m) : Uses (M.capture m) := by
  intro s id hid
  have := h s id hid
  simp only [M.capture]
  split <;> exact this

theorem Uses.start (id : Nat) : Uses (start id : MS C W Bool) := by
  intro s i hi
  unfold Run.start
  split
  · exact hi
  · exact List.mem_cons_of_mem _ hi

theorem Uses.getInst (i : Nat) : Uses (getInst i : MS C W Inst) := .same fun s => by
  unfold Run.getInst
  split <;> rfl

theorem Uses.modInst (i : Nat) (f : Inst → Inst) : Uses (modInst i f : MS C W Unit) := .same fun _ => rfl
theorem Uses.modFrame (env : Env) (f : Frame → Frame) : Uses (modFrame env f : MS C W Unit) := .same fun _ => rfl
theorem Uses.setVars (env : Env) (b : Dict Val) : Uses (setVars env b : MS C W Unit) := .modFrame env _
theorem Uses.modStacks (j : Nat) (f : Stacks → Stacks) : Uses (modStacks j f : MS C W Unit) := .same fun _ => rfl
theorem Uses.newFrame (b : Dict Val) (up : Option Nat) : Uses (newFrame b up : MS C W Nat) := .same fun _ => rfl
theorem Uses.newFn (f : Fn C) : Uses (newFn f : MS C W Nat) := .same fun _ => rfl
theorem Uses.kjInst (env : Env) : Uses (kjInst env : MS C W Nat) := .ofOption _ _

theorem Uses.newInst (P : Prog C) (c : Nat) (ctx : Dict Val) : Uses (newInst P c ctx : MS C W Nat) := .same fun s => by
  unfold Run.newInst
  split <;> rfl

theorem Uses.extend (P : Prog C) (j : Nat) (n : Str) : Uses (extend P j n : MS C W Nat) := by
  unfold Run.extend
  refine (Uses.ofOption _ _).bind fun c => (Uses.getInst j).bind fun me => (Uses.newInst P c _).bind fun p =>
    (Uses.getInst p).bind fun pi => Uses.get.bind fun s => ?_
  refine Uses.bind (.same fun _ => rfl) fun _ => ?_
  exact (Uses.modInst _ _).bind fun _ => (Uses.modInst _ _).bind fun _ => .pure _

theorem Uses.importT (P : Prog C) (j : Nat) (n : Str) (a : Option Str) : Uses (importT P j n a : MS C W Nat) := by
  unfold Run.importT
  exact (Uses.ofOption _ _).bind fun c => (Uses.getInst j).bind fun me => (Uses.newInst P c _).bind fun r =>
    (Uses.modInst _ _).bind fun _ => .pure _

theorem Uses.globalInst (env : Env) (k : Str) : Uses (globalInst env k : MS C W Nat) := by
  unfold Run.globalInst
  refine (Uses.getInst _).bind fun i => ?_
  split
  · exact .pure _
  · exact .throw _
  · exact .throw _

theorem Uses.importM (P : Prog C) (env : Env) (n : Str) (a : Option Str) : Uses (importM P env n a : MS C W Nat) :=
  (Uses.kjInst env).bind fun _ => (Uses.globalInst env _).bind fun j => .importT P j n a

theorem Uses.extendM (P : Prog C) (env : Env) (n : Str) : Uses (extendM P env n : MS C W Nat) :=
  (Uses.kjInst env).bind fun j => .extend P j n

theorem Uses.attrFn (i : Nat) (k : Str) : Uses (attrFn i k : MS C W Nat) := by
  unfold Run.attrFn
  refine (Uses.getInst _).bind fun x => ?_
  split
  · exact .pure _
  · exact .throw _

theorem Uses.gettextM (O : Oracle W) (env : Env) (t : Str) : Uses (gettextM O env t : MS C W Val) :=
  (Uses.kjInst env).bind fun _ => (Uses.getInst _).bind fun _ => (Uses.ofOption _ _).bind fun _ => .ask _ _

theorem Uses.emitStrs (ss : List Str) : Uses (emitStrs ss : MS C W Unit) := .each (fun _ => .tell _) ss

theorem Uses.attrsM (O : Oracle W) (env : Env) (c m : Str) : Uses (attrsM O env c m : MS C W Unit) := by
  refine (Uses.ask env _).bind fun v => ?_
  split
  · exact .throw _
  · exact .emitStrs _

theorem Uses.attrM (env : Env) (n m : Str) : Uses (attrM env n m : MS C W Unit) :=
  Uses.get.bind fun _ => .emitStrs _

theorem Uses.fdefM (env : Env) (d : Str) (b : C) : Uses (fdefM env d b : MS C W Unit) :=
  (Uses.newFn _).bind fun _ => .setVars _ _

theorem Uses.collectM (env : Env) {body : Env → MS C W Unit} (h : ∀ env, Uses (body env)) :
    Uses (collectM env body) :=
  (Uses.newFrame _ _).bind fun _ => (Uses.capture (h _)).bind fun _ => .modFrame _ _

theorem Uses.reading {m : MS C W Unit} (h : Uses m) (y : Bool) : Uses (reading y m) := by
  refine h.bind fun _ => ?_
  cases y
  · exact .throw _
  · exact .pure _

theorem Uses.splice {m : Mode → MS C W Unit} (h : ∀ mode, Uses (m mode)) (mode : Mode) : Uses (splice mode m) := by
  unfold Run.splice
  split
  · exact h _
  · exact h _
  · exact (h _).bind fun _ => .tell _

theorem Uses.chunk (mode : Mode) (v : Val) : Uses (chunk mode v : MS C W Unit) := by
  unfold Run.chunk
  split
  · exact .tell _
  · exact .throw _
  · exact .tell _

theorem Uses.popSwitch (j : Nat) : Uses (popSwitchM j : MS C W Unit) := by
  refine Uses.get.bind fun s => ?_
  split
  · exact .throw _
  · exact .modStacks _ _

theorem Uses.popWith (j : Nat) : Uses (popWithM j : MS C W (List Val)) := by
  refine Uses.get.bind fun s => ?_
  split
  · exact .throw _
  · exact (Uses.modStacks _ _).bind fun _ => .pure _

theorem Uses.case (j : Nat) (v : Val) : Uses (caseM j v : MS C W Bool) := by
  refine Uses.get.bind fun s => ?_
  split
  · exact .throw _
  · exact .pure _

theorem Uses.unpack (env : Env) (ns : List Str) (vs : List Val) : Uses (unpack env ns vs : MS C W Unit) := by
  unfold Run.unpack
  split
  · exact .setVars _ _
  · exact .throw _

theorem Uses.cond (O : Oracle W) (env : Env) (c : Cond) : Uses (condM O env c : MS C W Bool) := by
  cases c with
  | code e => exact (Uses.ask env _).bind fun v => .pure _
  | case e => exact (Uses.kjInst env).bind fun j => (Uses.ask env _).bind fun v => .case j v
  | never => exact .pure _

mutual
theorem Uses.emit (hc : ∀ mode f as, Uses (call mode f as)) (mode : Mode) (v : Val) : Uses (emit call mode v) := by
  cases v with
  | none => rw [Run.emit]; exact .pure _
  | flatItems id items =>
    rw [Run.emit]
    refine .splice (fun mode => (Uses.start id).bind fun b => ?_) mode
    split
    · exact Uses.emitList hc mode items
    · exact .pure _
  | flatCall id f as =>
    rw [Run.emit]
    refine .splice (fun mode => (Uses.start id).bind fun b => ?_) mode
    split
    · exact hc mode f as
    · exact .pure _
  | _ => rw [Run.emit]; exact .chunk _ _; all_goals (intros; contradiction)

theorem Uses.emitList (hc : ∀ mode f as, Uses (call mode f as)) (mode : Mode) (vs : List Val) :
    Uses (emitList call mode vs) := by
  cases vs with
  | nil => rw [Run.emitList]; exact .pure _
  | cons v vs => rw [Run.emitList]; exact (Uses.emit hc mode v).bind fun _ => Uses.emitList hc mode vs
end

theorem Uses.emitMain (hc : ∀ mode f as, Uses (call mode f as)) (mode : Mode) (i : Nat) :
    Uses (emitMain call mode i) :=
  (Uses.attrFn i _).bind fun f => .splice (fun mode => hc mode f []) mode

end

section
variable {W : Type} {call : Mode → Nat → List Val → MS (List Stmt) W Unit} {P : Prog (List Stmt)} {O : Oracle W}

mutual
theorem Uses.exec (hc : ∀ mode f as, Uses (call mode f as)) (env : Env) (x : Stmt) : Uses (exec P O call env x) := by
  cases x with
  | yieldLit s => rw [Run.exec]; exact .tell _
  | yieldGettext s => rw [Run.exec]; exact (Uses.gettextM O env s).bind fun v => .emit hc _ v
  | yieldCode c => rw [Run.exec]; exact (Uses.ask env _).bind fun v => .emit hc _ v
  | yieldEscape c => rw [Run.exec]; exact (Uses.ask env _).bind fun v => .emit hc _ _
  | py ls => rw [Run.exec]; exact (Uses.ask env _).bind fun b => .setVars _ _
  | importS n a => rw [Run.exec]; exact (Uses.importM P env n a).bind fun _ => .pure _
  | includeS n => rw [Run.exec]; exact (Uses.importM P env n none).bind fun i => .emitMain hc _ i
  | extendS n => rw [Run.exec]; exact (Uses.extendM P env n).bind fun i => .emitMain hc _ i
  | pushWith ns => rw [Run.exec]; exact (Uses.kjInst env).bind fun j => Uses.get.bind fun s => .modStacks _ _
  | assign k v => rw [Run.exec]; exact (Uses.ask env _).bind fun v => .setVars _ _
  | popWith ns => rw [Run.exec]; exact (Uses.kjInst env).bind fun j => (Uses.popWith j).bind fun vs => .unpack _ _ _
  | pushSwitch e => rw [Run.exec]; exact (Uses.kjInst env).bind fun j => (Uses.ask env _).bind fun v => .modStacks _ _
  | popSwitch => rw [Run.exec]; exact (Uses.kjInst env).bind fun j => .popSwitch j
  | fdef d b => rw [Run.exec]; exact .fdefM env d b
  | collect body => rw [Run.exec]; exact .collectM env fun env => (Uses.execList hc env body).reading _
  | attrS n m els => rw [Run.exec]; exact (Uses.attrM env n m).bind fun _ => Uses.execList hc env els
  | attrsS c m els => rw [Run.exec]; exact (Uses.attrsM O env c m).bind fun _ => Uses.execList hc env els
  | forS d body els =>
    rw [Run.exec]
    exact (Uses.ask env _).bind fun bs => (Uses.each (fun b => (Uses.setVars env b).bind fun _ =>
      Uses.execList hc env body) bs).bind fun _ => Uses.execList hc env els
  | ifS c body els =>
    rw [Run.exec]
    refine (Uses.cond O env c).bind fun t => ?_
    cases t
    · exact Uses.execList hc env els
    · exact Uses.execList hc env body

theorem Uses.execList (hc : ∀ mode f as, Uses (call mode f as)) (env : Env) (xs : List Stmt) :
    Uses (execList P O call env xs) := by
  cases xs with
  | nil => rw [Run.execList]; exact .pure _
  | cons x xs => rw [Run.execList]; exact (Uses.exec hc env x).bind fun _ => Uses.execList hc env xs
end

theorem Uses.callN (n : Nat) (mode : Mode) (f : Nat) (as : List Val) : Uses (callN P O n mode f as) := by
  induction n generalizing mode f as with
  | zero => exact .throw _
  | succ n ih =>
    rw [Run.callN]
    unfold callWith
    refine Uses.get.bind fun s => (Uses.ofOption _ _).bind fun fn => ?_
    split
    · exact (Uses.same fun _ => rfl).bind fun vars => (Uses.newFrame _ _).bind fun fr => (Uses.getInst _).bind fun i =>
        (Uses.execList ih _ _).reading _
    · exact (Uses.globalInst _ _).bind fun p => (Uses.attrFn _ _).bind fun g => ih _ _ _

end

end Kajiki.Run

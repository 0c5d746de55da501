import Verif.Model.Interp

/-!
# Renderings that take turns

The rendering of an instance is a generator (`kajiki/template.py` 96-106): between two steps other renderings of
the same process may run.  `Proc` is a computation cut into steps; the functions below are those of
`Verif/Model/Interp.lean`, cut at every access to the state.  Simplified: evaluating one expression, making an
instance and `_extend` or `_import` are one step each (generators cannot be suspended inside them).
-/

namespace Kajiki.Run

/-- A computation in steps: finished, or one step (its output and the state after it) and what remains; each may
depend on the state before. -/
inductive Proc (S α : Type)
  | done (r : Except Err α)
  | step (out : S → Out) (next : S → S) (rest : S → Proc S α)

namespace Proc
variable {S α β : Type}

/-- A value. -/
def pure (a : α) : Proc S α := .done (.ok a)

/-- One step. -/
def atomic (m : M S α) : Proc S α :=
  .step (fun s => (m s).out) (fun s => (m s).st) fun s => .done (m s).val

/-- One after the other; an exception stops. -/
def bind : Proc S α → (α → Proc S β) → Proc S β
  | .done (.ok a), f => f a
  | .done (.error e), _ => .done (.error e)
  | .step o n k, f => .step o n fun s => bind (k s) f

/-- Keep the output, after `acc`, instead of producing it. -/
def captureFrom (acc : Out) : Proc S Unit → Proc S Out
  | .done (.ok _) => .done (.ok acc)
  | .done (.error e) => .done (.error e)
  | .step o n k => .step (fun _ => .nil) n fun s => captureFrom (acc ++ o s) (k s)

/-- Run a computation and keep its output. -/
def capture (p : Proc S Unit) : Proc S Out := captureFrom .nil p

/-- For every element in order. -/
def each (f : α → Proc S Unit) : List α → Proc S Unit
  | [] => pure ()
  | a :: as => bind (f a) fun _ => each f as

/-- All steps without interruption. -/
def run : Proc S α → M S α
  | .done r => fun s => ⟨.nil, s, r⟩
  | .step o n k => fun s => let r := run (k s) (n s); ⟨o s ++ r.out, r.st, r.val⟩

end Proc

section
variable {C W : Type}

/-- Computations in steps on stores. -/
abbrev PS (C W α : Type) : Type := Proc (Store C W) α

/-- Reading a flattener found in the stream. -/
def spliceP (mode : Mode) (m : Mode → PS C W Unit) : PS C W Unit :=
  match mode with
  | .stream => m .stream
  | .strict => m .strict
  | .collect => Proc.bind (m .strict) fun _ => Proc.atomic (M.tell ⟨[], true⟩)

mutual
/-- `yield v` -/
def emitP (call : Mode → Nat → List Val → PS C W Unit) (mode : Mode) : Val → PS C W Unit
  | .none => Proc.pure ()
  | .flatItems id items =>
    spliceP mode fun mode => Proc.bind (Proc.atomic (start id)) fun fresh =>
      if fresh then emitListP call mode items else Proc.pure ()
  | .flatCall id f as =>
    spliceP mode fun mode => Proc.bind (Proc.atomic (start id)) fun fresh =>
      if fresh then call mode f as else Proc.pure ()
  | v => Proc.atomic (chunk mode v)

/-- Yield several values. -/
def emitListP (call : Mode → Nat → List Val → PS C W Unit) (mode : Mode) : List Val → PS C W Unit
  | [] => Proc.pure ()
  | v :: vs => Proc.bind (emitP call mode v) fun _ => emitListP call mode vs
end

/-- `yield inst.__main__()` -/
def emitMainP (call : Mode → Nat → List Val → PS C W Unit) (mode : Mode) (i : Nat) : PS C W Unit :=
  Proc.bind (Proc.atomic (attrFn i "__main__".toList)) fun f => spliceP mode fun mode => call mode f []

/-- `G = self.__kj__.collect(G())` -/
def collectP (env : Env) (body : Env → PS C W Unit) : PS C W Unit :=
  Proc.bind (Proc.atomic (newFrame [] (some env.frame))) fun fr =>
  Proc.bind (Proc.capture (body { env with frame := fr, mode := .collect })) fun o =>
  Proc.atomic (modFrame env fun f => { f with coll := if o.any then some o.txt else none })

/-- Reading the result of a function with or without a `yield`. -/
def readingP (yields : Bool) (p : PS C W Unit) : PS C W Unit :=
  Proc.bind p fun _ => if yields then Proc.pure () else .done (.error .type)

/-- A condition. -/
def condP (O : Oracle W) (env : Env) : Cond → PS C W Bool
  | .code e => Proc.bind (Proc.atomic (evalM O env e)) fun v => Proc.pure (truthy v)
  | .case e => Proc.bind (Proc.atomic (kjInst env)) fun j => Proc.bind (Proc.atomic (evalM O env e)) fun v =>
      Proc.atomic (caseM j v)
  | .never => Proc.pure false

end

section
variable {W : Type}

mutual
/-- One statement. -/
def execP (P : Prog (List Stmt)) (O : Oracle W) (call : Mode → Nat → List Val → PS (List Stmt) W Unit)
    (env : Env) : Stmt → PS (List Stmt) W Unit
  | .yieldLit s => Proc.atomic (M.tell (.chunk s))
  | .yieldGettext s => Proc.bind (Proc.atomic (gettextM O env s)) fun v => emitP call env.mode v
  | .yieldCode c => Proc.bind (Proc.atomic (evalM O env c)) fun v => emitP call env.mode v
  | .yieldEscape c => Proc.bind (Proc.atomic (evalM O env c)) fun v => emitP call env.mode (escape v)
  | .py ls => Proc.bind (Proc.atomic (ask env (O.py ls))) fun b => Proc.atomic (setVars env b)
  | .importS n a => Proc.bind (Proc.atomic (importM P env n a)) fun _ => Proc.pure ()
  | .includeS n => Proc.bind (Proc.atomic (importM P env n none)) fun i => emitMainP call env.mode i
  | .extendS n => Proc.bind (Proc.atomic (extendM P env n)) fun i => emitMainP call env.mode i
  | .pushWith ns => Proc.bind (Proc.atomic (kjInst env)) fun j => Proc.atomic (M.bind M.get fun s =>
      pushWithM j (ns.map fun k => ((localVars env s).get k).getD .unit))
  | .assign k v => Proc.bind (Proc.atomic (evalM O env v)) fun v => Proc.atomic (setVars env [(k, v)])
  | .popWith ns => Proc.bind (Proc.atomic (kjInst env)) fun j => Proc.bind (Proc.atomic (popWithM j)) fun vs =>
      Proc.atomic (unpack env ns vs)
  | .pushSwitch e => Proc.bind (Proc.atomic (kjInst env)) fun j =>
      Proc.bind (Proc.atomic (evalM O env e)) fun v => Proc.atomic (pushSwitchM j v)
  | .popSwitch => Proc.bind (Proc.atomic (kjInst env)) fun j => Proc.atomic (popSwitchM j)
  | .fdef decl body =>
    Proc.bind (Proc.atomic (newFn ⟨.code decl body, env.inst, some env.frame, false⟩)) fun f =>
    Proc.atomic (setVars env [(declName decl, .fn f)])
  | .collect body => collectP env fun env => readingP (yieldsAny body) (execListP P O call env body)
  | .attrS n m els => Proc.bind (Proc.atomic (attrM env n m)) fun _ => execListP P O call env els
  | .attrsS c m els => Proc.bind (Proc.atomic (attrsM O env c m)) fun _ => execListP P O call env els
  | .forS d body els =>
    Proc.bind (Proc.atomic (ask env (O.iter d))) fun bs =>
    Proc.bind (Proc.each (fun b => Proc.bind (Proc.atomic (setVars env b)) fun _ => execListP P O call env body) bs)
      fun _ => execListP P O call env els
  | .ifS c body els =>
    Proc.bind (condP O env c) fun t =>
      if t then execListP P O call env body else execListP P O call env els

/-- Statements in order. -/
def execListP (P : Prog (List Stmt)) (O : Oracle W)
    (call : Mode → Nat → List Val → PS (List Stmt) W Unit) (env : Env) :
    List Stmt → PS (List Stmt) W Unit
  | [] => Proc.pure ()
  | x :: xs => Proc.bind (execP P O call env x) fun _ => execListP P O call env xs
end

end

section
variable {C W : Type}

/-- The function object number `f`. -/
def getFn (f : Nat) : MS C W (Fn C) := M.bind M.get fun s => M.ofOption .type s.fns[f]?

/-- The instance that is called `local` in instance `i`. -/
def getLocal (i : Nat) : MS C W (Option Nat) := M.bind (getInst i) fun x => M.bind M.get fun s =>
  M.pure (localInst s.insts.length (Dict.get x.globals "local".toList))

/-- Binding the arguments of a call. -/
def bindArgs (O : Oracle W) (decl : Str) (as : List Val) : MS C W (Dict Val) := fun s =>
  let r := O.args decl as s.world
  ⟨.nil, { s with world := r.2 }, r.1⟩

/-- Reading the result of calling function object `f`. -/
def callWithP (O : Oracle W) (run : Env → C → PS C W Unit)
    (call : Mode → Nat → List Val → PS C W Unit) (mode : Mode) (f : Nat) (as : List Val) : PS C W Unit :=
  Proc.bind (Proc.atomic (getFn f)) fun fn =>
    match fn.body with
    | .code decl body =>
      Proc.bind (Proc.atomic (bindArgs O decl as)) fun vars =>
      Proc.bind (Proc.atomic (newFrame vars fn.up)) fun fr =>
      Proc.bind (Proc.atomic (getLocal fn.inst)) fun kj =>
        run ⟨fn.inst, fr, kj, mode⟩ body
    | .tramp k =>
      Proc.bind (Proc.atomic (globalInst ⟨fn.inst, 0, none, mode⟩ "parent".toList)) fun p =>
      Proc.bind (Proc.atomic (attrFn p k)) fun g => call mode g as

end

section
variable {W : Type}

/-- Calls nested at most `n` deep. -/
def callNP (P : Prog (List Stmt)) (O : Oracle W) : Nat → Mode → Nat → List Val → PS (List Stmt) W Unit
  | 0, _, _, _ => .done (.error .recursion)
  | n + 1, mode, f, as =>
    callWithP O (fun env body => readingP (yieldsAny body) (execListP P O (callNP P O n) env body)) (callNP P O n)
      mode f as

/-- `cls(context).render()`, in steps. -/
def renderP (P : Prog (List Stmt)) (O : Oracle W) (n : Nat) (c : Nat) (context : Dict Val) :
    PS (List Stmt) W Unit :=
  Proc.bind (Proc.atomic (newInst P c context)) fun i => emitMainP (callNP P O n) .stream i

end

/-! ## Taking turns -/

/-- A rendering on the way: what it has produced and what remains to do. -/
structure Thread (S : Type) where
  out : Out
  proc : Proc S Unit

/-- All renderings, and the state they share. -/
structure System (S : Type) where
  threads : Nat → Thread S
  store : S

/-- Rendering number `k` makes one step, if it is not finished. -/
def System.turn {S : Type} (x : System S) (k : Nat) : System S :=
  match (x.threads k).proc with
  | .done _ => x
  | .step o n rest =>
    ⟨fun j => if j = k then ⟨(x.threads k).out ++ o x.store, rest x.store⟩ else x.threads j, n x.store⟩

/-- The renderings whose turn it is, in order. -/
def System.play {S : Type} (x : System S) (turns : List Nat) : System S := turns.foldl System.turn x

end Kajiki.Run

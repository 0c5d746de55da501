import Verif.Model.Program

/-!
# What a tree means

A direct reading of the directives, without generated code and without the runtime stacks: the value
of a `py:switch` and the saved values of a `py:with` are ordinary local values of this definition.
Used as the reference for C12-C16 and C19.
-/

namespace Kajiki.Spec.Sem
open Kajiki.Run

variable {W : Type}

/-- The store with trees as function bodies. -/
abbrev MT (W α : Type) : Type := MS (List Ir) W α

/-- Evaluate a test. -/
def test (O : Oracle W) (env : Env) (e : Str) : MT W Bool :=
  M.bind (evalM O env e) fun v => M.pure (truthy v)

mutual
/-- The node shows something under some circumstances, and not only by defining a function. -/
def shows : Ir → Bool
  | .python _ _ => false
  | .imp _ _ _ => false
  | .innerDef _ _ _ => false
  | .forN _ b _ => showsAny b
  | .withN _ b _ => showsAny b
  | .switchN _ b _ => showsAny b
  | .caseN _ b _ => showsAny b
  | .ifN _ b _ => showsAny b
  | .elseN b _ => showsAny b
  | _ => true

/-- Some of the nodes do. -/
def showsAny : List Ir → Bool
  | [] => false
  | x :: xs => shows x || showsAny xs
end

mutual
/-- One node; `els` is the meaning of a directly following `py:else`. -/
def sem (P : Prog (List Ir)) (O : Oracle W) (call : Mode → Nat → List Val → MT W Unit) (env : Env)
    (els : MT W Unit) : Ir → MT W Unit
  | .text t g _ =>
    match activeGuard g with
    | some g => M.bind (test O env g) fun c => if c then M.tell (.chunk t) else els
    | none => M.tell (.chunk t)
  | .trans t _ =>
    if (strip t).isEmpty then M.tell (.chunk t)
    else M.bind (gettextM O env t) fun v => emit call env.mode v
  | .expr c safe _ =>
    M.bind (evalM O env c) fun v => emit call env.mode (if safe then v else escape v)
  | .attr n m g v _ =>
    match activeGuard g with
    | some g => M.bind (test O env g) fun c =>
        if c then
          M.bind (collectM env fun env =>
            if v.isEmpty then M.tell (.chunk []) else reading (showsAny v) (semList P O call env v)) fun _ =>
          attrM env n m
        else els
    | none =>
      M.bind (collectM env fun env =>
        if v.isEmpty then M.tell (.chunk []) else reading (showsAny v) (semList P O call env v)) fun _ =>
      M.bind (attrM env n m) fun _ => els
  | .attrs c m g _ =>
    match activeGuard g with
    | some g => M.bind (test O env g) fun t => if t then attrsM O env c m else els
    | none => M.bind (attrsM O env c m) fun _ => els
  | .python ls _ =>
    if ls.isEmpty then M.pure () else M.bind (ask env (O.py ls)) fun b => setVars env b
  | .imp n a _ => M.bind (importM P env n a) fun _ => M.pure ()
  | .incl n _ => M.bind (importM P env n none) fun i => emitMain call env.mode i
  | .ext n _ => M.bind (extendM P env n) fun i => emitMain call env.mode i
  | .innerDef d b _ => fdefM env d b
  | .call d c b _ =>
    M.bind (fdefM env d b) fun _ => M.bind (evalM O env c) fun v => emit call env.mode v
  | .forN d b _ =>
    M.bind (ask env (O.iter d)) fun bs =>
    M.bind (M.each (fun vars => M.bind (setVars env vars) fun _ => semList P O call env b) bs) fun _ =>
    els
  | .withN vs b _ =>
    M.bind (kjInst env) fun _ =>
    M.bind M.get fun s =>
    M.bind (M.each (fun kv => M.bind (evalM O env kv.2) fun v => setVars env [(kv.1, v)]) vs) fun _ =>
    M.bind (semList P O call env b) fun _ =>
    setVars env ((vs.map (·.1)).zip
      ((vs.map (·.1)).map fun k => ((localVars env s).get k).getD .unit))
  | .switchN e b _ =>
    M.bind (kjInst env) fun _ =>
    M.bind (evalM O env e) fun v =>
    M.bind (semCases P O call env v b) fun _ => semList P O call env b
  | .caseN _ _ _ => M.pure ()
  | .ifN e b _ => M.bind (test O env e) fun c => if c then semList P O call env b else els
  | .elseN _ _ => M.pure ()
  | .pass _ => M.tell (.chunk [])

/-- Nodes in order. -/
def semList (P : Prog (List Ir)) (O : Oracle W) (call : Mode → Nat → List Val → MT W Unit)
    (env : Env) : List Ir → MT W Unit
  | [] => M.pure ()
  | x :: xs => M.bind (sem P O call env (semElse P O call env xs) x) fun _ => semList P O call env xs

/-- The `py:else` a list of nodes starts with, or nothing. -/
def semElse (P : Prog (List Ir)) (O : Oracle W) (call : Mode → Nat → List Val → MT W Unit)
    (env : Env) : List Ir → MT W Unit
  | .elseN b _ :: _ => semList P O call env b
  | .python [] _ :: xs => semElse P O call env xs
  | _ => M.pure ()

/-- The first `py:case` equal to `v`, or the `py:else`, or nothing. -/
def semCases (P : Prog (List Ir)) (O : Oracle W) (call : Mode → Nat → List Val → MT W Unit)
    (env : Env) (v : Val) : List Ir → MT W Unit
  | .caseN e b _ :: xs => M.bind (evalM O env e) fun u =>
      if pyEq u v then semList P O call env b else semCases P O call env v xs
  | .elseN b _ :: _ => semList P O call env b
  | .python [] _ :: xs => semCases P O call env v xs
  | _ => M.pure ()
end

/-- A function body: an empty one yields the empty string, but reading another one without anything to show is
an error. -/
def semBody (P : Prog (List Ir)) (O : Oracle W) (call : Mode → Nat → List Val → MT W Unit)
    (env : Env) (b : List Ir) : MT W Unit :=
  if b.isEmpty then M.tell (.chunk []) else reading (showsAny b) (semList P O call env b)

/-- Calls nested at most `n` deep. -/
def semCall (P : Prog (List Ir)) (O : Oracle W) : Nat → Mode → Nat → List Val → MT W Unit
  | 0, _, _, _ => M.throw .recursion
  | n + 1, mode, f, as =>
    callWith O (fun env body => semBody P O (semCall P O n) env body) (semCall P O n) mode f as

/-- `instance.render()`. -/
def semRender (P : Prog (List Ir)) (O : Oracle W) (n : Nat) (i : Nat) : MT W Unit :=
  emitMain (semCall P O n) .stream i

/-! ## Cases belong to a switch -/

mutual
/-- Every `py:case` below the node is directly inside a `py:switch`. -/
def casesOk : Ir → Bool
  | .attr _ _ _ v _ => casesIn false v
  | .innerDef _ b _ => casesIn false b
  | .call _ _ b _ => casesIn false b
  | .forN _ b _ => casesIn false b
  | .withN _ b _ => casesIn false b
  | .switchN _ b _ => casesIn true b
  | .caseN _ b _ => casesIn false b
  | .ifN _ b _ => casesIn false b
  | .elseN b _ => casesIn false b
  | _ => true

/-- The same for a list of nodes; `inSwitch` tells that the list continues the cases of a switch. -/
def casesIn (inSwitch : Bool) : List Ir → Bool
  | [] => true
  | .caseN e b l :: xs => inSwitch && casesOk (.caseN e b l) && casesIn true xs
  | .python [] _ :: xs => casesIn inSwitch xs
  | x :: xs => casesOk x && casesIn false xs
end

/-- Every `py:case` of a template is directly inside a `py:switch`. -/
def casesTmpl (t : Tmpl) : Bool := t.defs.all fun d => casesIn false d.body

/-! ## Programs of trees -/

/-- The class of a template, with trees instead of code. -/
def treeClass (t : Tmpl × Dict Val) : Cls (List Ir) :=
  classOf (t.1.defs.map fun d => (d.decl, d.body)) t.2

/-- The program of trees. -/
def trees (S : Source) : Prog (List Ir) := ⟨S.tmpls.map treeClass, S.load, S.aliasFor⟩

/-- `cls(context).render()` in a new process, read directly from the trees. -/
def semProcess (S : Source) (O : Oracle W) (n c : Nat) (context : Dict Val) (w : W) :
    Res (Store (List Ir) W) Unit :=
  M.bind (newInst (trees S) c context) (fun i => semRender (trees S) O n i) (emptyStore _ w)

/-! ## Expressions without side effects -/

/-- Evaluating the expression does not change the world. -/
def Steady (O : Oracle W) (e : Str) : Prop := ∀ v w x w', O.eval e v w = (.ok x, w') → w' = w

mutual
/-- The active guards of the texts below a node. -/
def textGuards : Ir → List Str
  | .text _ g _ => (activeGuard g).toList
  | .attr _ _ _ v _ => textGuardsList v
  | .innerDef _ b _ => textGuardsList b
  | .call _ _ b _ => textGuardsList b
  | .forN _ b _ => textGuardsList b
  | .withN _ b _ => textGuardsList b
  | .switchN _ b _ => textGuardsList b
  | .caseN _ b _ => textGuardsList b
  | .ifN _ b _ => textGuardsList b
  | .elseN b _ => textGuardsList b
  | _ => []

/-- The active guards of the texts of several nodes. -/
def textGuardsList : List Ir → List Str
  | [] => []
  | x :: xs => textGuards x ++ textGuardsList xs
end

end Kajiki.Spec.Sem

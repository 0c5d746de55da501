import Verif.Model.Program
import Verif.Spec.TextTree
import Verif.Spec.TextSource

/-!
# What a text template means

The meaning of a directive tree (`Verif/Spec/TextTree.lean`), read directly: no intermediate representation, no
generated code, no registries and no runtime stacks.  Used to state C64.

Python is what it is for the interpreter (`Verif/Model/Interp.lean`): expressions, scopes, instances and
function objects.  A function object has a part of a tree as its body.
-/

namespace Kajiki.Spec.TextSem
open Kajiki.Run Kajiki.Spec.TextTree

/-! ## Places

What the meaning of a directive depends on besides its content: whether it is inside a `%def`, whether an
`%extends` came before, and how many `%call`s ended before (they name the functions made for `%call`). -/

/-- A place in a template. -/
structure Spot where
  inDef : Bool
  child : Bool
  calls : Nat

/-- Inside a `%def`. -/
def Spot.fn (p : Spot) : Spot := { p with inDef := true }

/-- The beginning of a template. -/
def Spot.start : Spot := ⟨false, false, 0⟩

mutual
/-- The place after a directive. -/
def after (p : Spot) : Dir → Spot
  | .ifD _ b => afterAll p b
  | .ifElse _ b e => afterAll (afterAll p b) e
  | .forD _ b => afterAll p b
  | .switchD _ b => afterAll p b
  | .caseD _ b => afterAll p b
  | .elseD b => afterAll p b
  | .blockD _ b => afterAll p b
  | .defD _ b => { afterAll p.fn b with inDef := p.inDef }
  | .callD _ _ b => { afterAll p b with calls := (afterAll p b).calls + 1 }
  | .extendsD _ => { p with child := true }
  | _ => p

/-- The place after several directives. -/
def afterAll (p : Spot) : List Dir → Spot
  | [] => p
  | d :: ds => afterAll (after p d) ds
end

/-! ## Functions -/

/-- How a template is compiled: whether the values of expressions are escaped, and the names of the functions made
for `%call`. -/
structure Conf where
  autoescape : Bool
  gen : Nat → Str

/-- The body of a function: the template itself, the content of a `%def` or `%call`, or the content of a block
called `name`. -/
inductive Part
  | body (c : Conf) (p : Spot) (ds : List Dir)
  | block (c : Conf) (p : Spot) (name : Str) (ds : List Dir)

/-- `_kj_block_name` -/
def blockName (name : Str) : Str := "_kj_block_".toList ++ strip name

/-- `_kj_block_name()` -/
def blockDecl (name : Str) : Str := blockName name ++ "()".toList

mutual
/-- The functions of the template that a directive defines. -/
def defs (c : Conf) (p : Spot) : Dir → List (Str × Part)
  | .ifD _ b => defsAll c p b
  | .ifElse _ b e => defsAll c p b ++ defsAll c (afterAll p b) e
  | .forD _ b => defsAll c p b
  | .switchD _ b => defsAll c p b
  | .caseD _ b => defsAll c p b
  | .elseD b => defsAll c p b
  | .callD _ _ b => defsAll c p b
  | .blockD name b => defsAll c p b ++ [(blockDecl name, .block c p name b)]
  | .defD decl b => defsAll c p.fn b ++ if p.inDef then [] else [(strip decl, .body c p.fn b)]
  | _ => []

/-- The functions of the template that several directives define. -/
def defsAll (c : Conf) (p : Spot) : List Dir → List (Str × Part)
  | [] => []
  | d :: ds => defs c p d ++ defsAll c (after p d) ds
end

/-- The directive only declares something. -/
def silent (p : Spot) : Dir → Bool
  | .defD _ _ => !p.inDef
  | .blockD _ b => (afterAll p b).child
  | .py moduleLevel _ => moduleLevel
  | _ => false

/-- All of them do. -/
def silentAll (p : Spot) : List Dir → Bool
  | [] => true
  | d :: ds => silent p d && silentAll (after p d) ds

mutual
/-- The directive shows something under some circumstances (and not only by defining a function). -/
def speaks (p : Spot) : Dir → Bool
  | .ifD _ b => speaksAny p b
  | .ifElse _ b e => speaksAny p b || speaksAny (afterAll p b) e
  | .forD _ b => speaksAny p b
  | .switchD _ b => speaksAny p b
  | .caseD _ b => speaksAny p b
  | .elseD b => speaksAny p b
  | .defD _ _ => false
  | .blockD _ b => !(afterAll p b).child
  | .py _ _ => false
  | .importD _ _ => false
  | _ => true

/-- Some of them do. -/
def speaksAny (p : Spot) : List Dir → Bool
  | [] => false
  | d :: ds => speaks p d || speaksAny (after p d) ds
end

/-! ## Directives -/

section
variable {W : Type}

/-- Computations. -/
abbrev MD (W α : Type) : Type := MS Part W α

variable (P : Prog Part) (O : Oracle W) (call : Mode → Nat → List Val → MD W Unit)

/-- Evaluate a test. -/
def test (env : Env) (e : Str) : MD W Bool :=
  M.bind (evalM O env e) fun v => M.pure (truthy v)

/-- Evaluate an expression and show its value, escaped or as it is. -/
def shown (env : Env) (escaped : Bool) (e : Str) : MD W Unit :=
  M.bind (evalM O env e) fun v => emit call env.mode (if escaped then escape v else v)

/-- Literal text. -/
def say (t : Str) : MD W Unit := M.tell (.chunk t)

/-- A Python block. -/
def python (env : Env) (ls : List Str) : MD W Unit :=
  if ls.isEmpty then M.pure () else M.bind (ask env (O.py ls)) fun b => setVars env b

mutual
/-- A directive. -/
def dir (c : Conf) (env : Env) (p : Spot) : Dir → MD W Unit
  | .text t _ => say t
  | .expr e _ => shown O call env c.autoescape e
  | .ifD e b => M.bind (test O env e) fun v => if v then dirs c env p b else M.pure ()
  | .ifElse e b b' => M.bind (test O env e) fun v => if v then dirs c env p b else dirs c env (afterAll p b) b'
  | .forD decl b =>
    M.bind (ask env (O.iter decl)) fun rounds =>
    M.each (fun vars => M.bind (setVars env vars) fun _ => dirs c env p b) rounds
  | .switchD e items =>
    M.bind (kjInst env) fun _ =>
    M.bind (evalM O env e) fun v =>
    M.bind (choice c env p v items) fun _ => dirs c env p items
  | .caseD _ _ => M.pure ()
  | .elseD _ => M.pure ()
  | .defD decl b => if p.inDef then fdefM env decl (.body c p.fn b) else M.pure ()
  | .callD args callee b =>
    let name := c.gen (afterAll p b).calls
    M.bind (fdefM env (replace "$caller".toList name ("$caller(".toList ++ (args ++ ")".toList)))
      (.body c p b)) fun _ =>
    shown O call env false
      (replace "$caller".toList name (replace "%caller".toList "$caller".toList (strip callee)))
  | .blockD name b =>
    if (afterAll p b).child then M.pure () else shown O call env true (blockDecl name)
  | .py moduleLevel ls => if moduleLevel then M.pure () else python O env ls
  | .extendsD file => M.bind (extendM P env file) fun i => emitMain call env.mode i
  | .importD file as => M.bind (importM P env file as) fun _ => M.pure ()
  | .includeD file => M.bind (importM P env file none) fun i => emitMain call env.mode i

/-- Directives in order. -/
def dirs (c : Conf) (env : Env) (p : Spot) : List Dir → MD W Unit
  | [] => M.pure ()
  | d :: ds => M.bind (dir c env p d) fun _ => dirs c env (after p d) ds

/-- The first `%case` equal to `v`, or the `%else`, or nothing. -/
def choice (c : Conf) (env : Env) (p : Spot) (v : Val) : List Dir → MD W Unit
  | .caseD e b :: ds =>
    M.bind (evalM O env e) fun u =>
      if pyEq u v then dirs c env p b else choice c env (afterAll p b) v ds
  | .elseD b :: _ => dirs c env p b
  | _ => M.pure ()
end

/-- The body of a function.  One without anything in it yields the empty string, but reading another one that
never shows anything is an error.  The block of a template that extends another one can use the block it
replaces. -/
def part (env : Env) : Part → MD W Unit
  | .body c p ds => if silentAll p ds then say [] else reading (speaksAny p ds) (dirs P O call c env p ds)
  | .block c p name ds =>
    if (afterAll p ds).child then
      M.bind (python O env ["parent_block=parent.".toList ++ blockName name]) fun _ =>
      reading (speaksAny p ds) (dirs P O call c env p ds)
    else if silentAll p ds then say [] else reading (speaksAny p ds) (dirs P O call c env p ds)

end

/-! ## Templates -/

/-- A text template: how it is compiled, its tree, and the global names its module defines. -/
structure Template where
  conf : Conf
  tree : List Dir
  base : Dict Val

/-- A template as given to `TextTemplate`: the behaviour of Python's `compile` and of `gen_name`, the arguments,
and the global names its module defines. -/
structure File where
  py : PyCompile
  gen : Nat → Str
  autoescape : Bool
  filename : Option Str
  src : Str
  base : Dict Val

/-- The source spells the template: its tokens spell the tree, and the rest is the same. -/
def Spelled (x : File) (t : Template) : Prop :=
  (∃ toks, TextSource.Reads x.py true 1 toks x.src ∧ Written true .free t.tree toks) ∧
    t.conf = ⟨x.autoescape, x.gen⟩ ∧ t.base = x.base

/-- The functions of a template: the main one and those defined in it.  Of two with the same declaration the
last one counts, except that the main one is always the template itself. -/
def Template.functions (t : Template) : Dict Part :=
  let main := "__main__()".toList
  let body := Part.body t.conf .start t.tree
  Dict.set (Dict.update [(main, body)] (defsAll t.conf .start t.tree)) main body

/-- The templates as a program. -/
def program (ts : List Template) (load : Str → Option Nat) (aliasFor : Str → Str) : Prog Part :=
  ⟨ts.map fun t => classOf t.functions t.base, load, aliasFor⟩

section
variable {W : Type}

/-- Calls nested at most `n` deep. -/
def callText (P : Prog Part) (O : Oracle W) : Nat → Mode → Nat → List Val → MD W Unit
  | 0, _, _, _ => M.throw .recursion
  | n + 1, mode, f, as => callWith O (fun env b => part P O (callText P O n) env b) (callText P O n) mode f as

/-- Template number `i` with a context, rendered in a new process. -/
def rendered (P : Prog Part) (O : Oracle W) (n i : Nat) (context : Dict Val) (w : W) : Res (Store Part W) Unit :=
  M.bind (newInst P i context) (fun j => emitMain (callText P O n) .stream j) (emptyStore _ w)

end

/-! ## Choices come first -/

mutual
/-- The choices of every `%switch` come first in it, the `%else` last, and there are no others. -/
def tidy : Dir → Bool
  | .ifD _ b => tidyAll b
  | .ifElse _ b e => tidyAll b && tidyAll e
  | .forD _ b => tidyAll b
  | .switchD _ items => tidyChoices items
  | .caseD _ _ => false
  | .elseD _ => false
  | .callD _ _ b => tidyAll b
  | .blockD _ b => tidyAll b
  | .defD _ b => tidyAll b
  | _ => true

/-- The same for several directives. -/
def tidyAll : List Dir → Bool
  | [] => true
  | d :: ds => tidy d && tidyAll ds

/-- The same for the contents of a `%switch`. -/
def tidyChoices : List Dir → Bool
  | .caseD _ b :: ds => tidyAll b && tidyChoices ds
  | .elseD b :: ds => tidyAll b && tidyAll ds
  | [] => true
  | d :: ds => tidy d && tidyAll ds
end

end Kajiki.Spec.TextSem

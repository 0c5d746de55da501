import Verif.Spec.Funs
import Verif.Spec.TextSem

/-!
# What a text template shows

The text a text template shows, as a function of the values of variables: no state, no scopes, no instances.  The
template may have expressions, `%if`, `%else`, `%for`, `%switch`, `%case`, Python blocks, blocks and functions (`%def`),
which can call each other and themselves, but no functions in functions, no `%call`, and no other templates (`%extends`,
`%import`, `%include`).  Used to state C75.
-/

namespace Kajiki.Spec.PureText
open Kajiki.Spec.TextTree (Dir)
open Kajiki.Spec.TextSem (Conf Template blockName blockDecl silentAll speaksAny)
open Kajiki.Spec.Pure (Look Shown Py Vars look keeping visible Evals Clean Tidy ownNames)
open Kajiki.Spec.Pure.Shown (done raise put get)
open Kajiki.Spec.Fill (escapedValue plainValue)
open Kajiki.Spec.Funs (Calls CallsFunctions)

/-! ## Functions -/

/-- A function of a template: a block (in a `%def`, or not), or one of a `%def`. -/
inductive Fn
  | block (inDef : Bool) (name : Str) (body : List Dir)
  | defn (decl : Str) (body : List Dir)

namespace Fn

/-- Its declaration: name and parameters. -/
def decl : Fn → Str
  | block _ name _ => blockDecl name
  | defn decl _ => strip decl

/-- Its content. -/
def body : Fn → List Dir
  | block _ _ body => body
  | defn _ body => body

/-- Its content is in a `%def`. -/
def inDef : Fn → Bool
  | block q _ _ => q
  | defn _ _ => true

/-- Its name: what is before the parenthesis. -/
def name (d : Fn) : Str := strip (d.decl.takeWhile (· != '('))

end Fn

mutual
/-- The functions in a directive. -/
def fns (q : Bool) : Dir → List Fn
  | .ifD _ b => fnsAll q b
  | .ifElse _ b e => fnsAll q b ++ fnsAll q e
  | .forD _ b => fnsAll q b
  | .switchD _ b => fnsAll q b
  | .caseD _ b => fnsAll q b
  | .elseD b => fnsAll q b
  | .blockD name b => fnsAll q b ++ [.block q name b]
  | .defD decl b => fnsAll true b ++ [.defn decl b]
  | _ => []

/-- The functions in several directives. -/
def fnsAll (q : Bool) : List Dir → List Fn
  | [] => []
  | d :: ds => fns q d ++ fnsAll q ds
end

/-! ## What is shown -/

section
variable (py : Py) (G : Look) (esc : Bool) (m : Str → List Val → Shown Unit)

/-- An expression: a call of a function of the template, or something else, which is escaped if `esc` is set. -/
def value (look : Look) (e : Str) : Shown Unit :=
  match py.call e with
  | some q => q look
  | none => (get (py.eval e look)).next fun v => put (if esc then escapedValue v else plainValue v)

mutual
/-- A directive.  Blocks are functions that are called where they are; `m` is what functions show, by name. -/
def dir : Dir → Vars → Shown Vars
  | .text t _ => fun ρ => keeping ρ (put t)
  | .expr e _ => fun ρ => keeping ρ (value py esc (look G ρ) e)
  | .ifD e b => fun ρ => (get (py.eval e (look G ρ))).next fun v => if truthy v then dirs b ρ else done ρ
  | .ifElse e b b' => fun ρ => (get (py.eval e (look G ρ))).next fun v => if truthy v then dirs b ρ else dirs b' ρ
  | .forD e b => fun ρ => (get (py.iter e (look G ρ))).next fun bs => Spec.Pure.loop (fun ρ => dirs b ρ) bs ρ
  | .switchD e items => fun ρ =>
    (get (py.eval e (look G ρ))).next fun v => (choice v items ρ).next fun ρ => dirs items ρ
  | .blockD name _ => fun ρ => keeping ρ (m (blockName name) [])
  | .py moduleLevel ls => fun ρ =>
    if moduleLevel || ls.isEmpty then done ρ
    else (get (py.block ls (look G ρ))).next fun b => done (ρ.update b)
  | _ => fun ρ => done ρ

/-- Directives in order. -/
def dirs : List Dir → Vars → Shown Vars
  | [] => fun ρ => done ρ
  | d :: ds => fun ρ => (dir d ρ).next fun ρ => dirs ds ρ

/-- The first `%case` equal to `v`, or the `%else`, or nothing. -/
def choice (v : Val) : List Dir → Vars → Shown Vars
  | .caseD e b :: ds => fun ρ =>
    (get (py.eval e (look G ρ))).next fun u => if pyEq u v then dirs b ρ else choice v ds ρ
  | .elseD b :: _ => fun ρ => dirs b ρ
  | _ => fun ρ => done ρ
end

end

section
variable (fs : List Fn) (C : Calls) (py : Py) (G : Look) (esc : Bool)

/-- The function with the given name. -/
def fn (f : Str) : Option Fn := fs.find? fun d => d.name == f

/-- The expression calls a function of the template. -/
def mayCall (e : Str) : Bool :=
  match C.callee e with
  | none => false
  | some (f, _) => (fn fs f).isSome

/-- Python, with functions that show what `m` says. -/
def pyWith (m : Str → List Val → Shown Unit) : Py :=
  { py with call := fun e => (C.callee e).bind fun (f, args) =>
      (fn fs f).map fun _ look => (get (args look)).next (m f) }

/-- What functions show if calls can be nested so deep. -/
def meaning : Nat → Str → List Val → Shown Unit
  | 0, _, _ => raise .recursion
  | n + 1, f, args =>
    match fn fs f with
    | none => done ()
    | some d => (get (C.bind d.decl args)).next fun ρ =>
      (dirs (pyWith fs C py (meaning n)) G esc (meaning n) d.body ρ).next fun _ => done ()

end

/-- What a template with global variables `G` shows if calls can be nested so deep. -/
def shown (C : Calls) (py : Py) (G : Look) (t : Template) : Nat → Shown Unit
  | 0 => raise .recursion
  | n + 1 =>
    let fs := fnsAll false t.tree
    let m := meaning fs C py G t.conf.autoescape n
    (dirs (pyWith fs C py m) G t.conf.autoescape m t.tree []).next fun _ => done ()

/-! ## Which templates, and which Python -/

section
variable {W : Type} (O : Run.Oracle W) (py : Py)

section
variable (calls : Str → Bool)

mutual
/-- There are no functions in functions, no `%call`s and no other templates, and Python evaluates the expressions, except
those that call functions. -/
def Ok (q : Bool) : Dir → Prop
  | .text _ _ => True
  | .expr e _ => calls e = false → Evals O py e
  | .ifD e b => Evals O py e ∧ OkAll q b
  | .ifElse e b b' => Evals O py e ∧ OkAll q b ∧ OkAll q b'
  | .forD e b => (∀ v w, O.iter e v w = (py.iter e (visible v), w)) ∧ OkAll q b
  | .switchD e b => Evals O py e ∧ OkAll q b
  | .caseD e b => Evals O py e ∧ OkAll q b
  | .elseD b => OkAll q b
  | .blockD _ b => OkAll q b
  | .defD _ b => q = false ∧ OkAll true b
  | .py _ ls => ∀ v w, O.py ls v w = (py.block ls (visible v), w)
  | _ => False

/-- The same for several directives. -/
def OkAll (q : Bool) : List Dir → Prop
  | [] => True
  | d :: ds => Ok q d ∧ OkAll q ds
end

end

/-- There is nothing in it at all, or something that is shown under some circumstances (C65). -/
def readable (q : Bool) (ds : List Dir) : Bool := silentAll ⟨q, false, 0⟩ ds || speaksAny ⟨q, false, 0⟩ ds

/-- Names of functions. -/
def Reserved (fs : List Fn) (k : Str) : Prop := ∃ d ∈ fs, d.name = k

/-- What a template needs: Python evaluates its expressions as `py` does and calls functions as `C` says, functions have
different names which no variable has (and there is no parenthesis in the name of a block), and no variable is called
`local` (C63). -/
structure Runs (C : Calls) (context : Dict Val) (t : Template) : Prop where
  ok : OkAll O py (mayCall (fnsAll false t.tree) C) false t.tree
  reads : readable false t.tree = true
  distinct : ((fnsAll false t.tree).map (·.name)).Nodup
  names : ∀ d ∈ fnsAll false t.tree, d.name ∉ ownNames ∧ readable d.inDef d.body = true
  blockCalls : ∀ q name b, .block q name b ∈ fnsAll false t.tree →
    (Fn.block q name b).name = blockName name ∧ C.callee (blockDecl name) = some (blockName name, fun _ => .ok [])
  main : ∀ w, O.args "__main__()".toList [] w = (.ok [], w)
  args : ∀ d ∈ fnsAll false t.tree, ∀ vs w, O.args d.decl vs w = (C.bind d.decl vs, w)
  params : ∀ d ∈ fnsAll false t.tree, ∀ vs ρ, C.bind d.decl vs = .ok ρ → Clean (Reserved (fnsAll false t.tree)) ρ
  calls : CallsFunctions O C
  tidy : Tidy (Reserved (fnsAll false t.tree)) py
  free : ∀ k, k = "local".toList ∨ Reserved (fnsAll false t.tree) k → Dict.get context k = none
  base : Dict.get t.base "local".toList = none

end

/-- The global variables of a template: the context is there (except for two names), and nothing else but what the module
of the template defines, the names that are always there, and functions. -/
def Globals (t : Template) (context : Dict Val) (G : Look) : Prop :=
  (∀ k x, Dict.get context k = some x → k ∉ ["_".toList, "value_of".toList] → G k = some x) ∧
  (∀ k, Dict.get context k = none → Dict.get t.base k = none → k ∉ ownNames → ¬Reserved (fnsAll false t.tree) k →
    G k = none)

end Kajiki.Spec.PureText

import Verif.Spec.Layout

/-!
# Templates with functions

What a template shows that has functions (`py:def`) and blocks and may extend another template, which may extend another
one, and so on.  Functions can call each other, and themselves; blocks can call the blocks they replace
(`parent_block()`).  As in `Verif/Spec/Pure.lean` what is shown is a function of the values of variables: there are no
instances, no scopes, and no generators.  Used to state C71.
-/

namespace Kajiki.Spec.Funs
open Kajiki.Spec.DocSem Kajiki.Spec.Pure
open Kajiki.Spec.Pure.Shown (done raise put get)
open Kajiki.Spec.Layout (Child elsewhere parentBlock BlockName plainName readable names)

/-! ## Functions -/

/-- A function of a template: a block, or one of a `py:def`. -/
inductive Fn
  | block (name : Str) (kids : List DNode)
  | defn (decl : Str) (kids : List DNode)

namespace Fn

/-- Its declaration: name and parameters. -/
def decl : Fn → Str
  | block name _ => blockDecl name
  | defn decl _ => decl

/-- Its content. -/
def kids : Fn → List DNode
  | block _ kids => kids
  | defn _ kids => kids

/-- Its name: what is before the parenthesis. -/
def name (d : Fn) : Str := strip (d.decl.takeWhile (· != '('))

end Fn

mutual
/-- The functions in a node. -/
def fns (o : Opts) : DNode → List Fn
  | .elem t as _ kids =>
    match dirOf t with
    | none => if ownContent o t as then [] else fnsAll o kids
    | some .replace => []
    | some .block => fnsAll o kids ++ [.block (attr as "name") kids]
    | some .defn => [.defn (attr as "function") kids]
    | some _ => fnsAll o kids
  | _ => []

/-- The functions in several nodes. -/
def fnsAll (o : Opts) : List DNode → List Fn
  | [] => []
  | x :: xs => fns o x ++ fnsAll o xs
end

/-- A template of a chain in which each extends the next one: one that extends another one, with the content of its
`py:extends`, or the last one, with its root element. -/
structure Level where
  t : Template
  child : Bool
  kids : List DNode

namespace Level

/-- Its functions. -/
def fns (l : Level) : List Fn := fnsAll l.t.conf.opts l.kids

/-- The function with the given name. -/
def fn (l : Level) (f : Str) : Option Fn := l.fns.find? fun d => d.name == f

end Level

/-- The templates from the one that is rendered to the last one. -/
def levels (cs : List Child) (t : Template) (root : DNode) : List Level :=
  cs.map (fun x => ⟨x.t, true, x.kids⟩) ++ [⟨t, false, [root]⟩]

/-- Calls: which function an expression calls and with which arguments, and which variables the parameters of a
function are. -/
structure Calls where
  callee : Str → Option (Str × (Look → Except Err (List Val)))
  bind : Str → List Val → Except Err Vars

/-! ## What it shows -/

section
variable (ls : List Level)

/-- The function with the given name of template `a`. -/
def fnAt (a : Nat) (f : Str) : Option Fn := (ls[a]?).bind (·.fn f)

/-- The function a name means in template `a`, and the template it is from: that of the first template with a function
of this name, starting with the one that is rendered.  It may be in the template that `a` extends, but not further. -/
def means (a : Nat) (f : Str) : Option (Nat × Fn) :=
  (List.range (a + 2)).findSome? fun b => (fnAt ls b f).map fun d => (b, d)

/-- What functions of template `a` show: a given one, and for `parent_block()` the one with a given name, of `a` or of
the next template that has one. -/
structure Meaning where
  fn : Nat → Fn → List Val → Shown Unit
  above : Nat → Str → List Val → Shown Unit

variable (C : Calls)

/-- A function that may be called in an expression of template `a`: not a block, unless `parent_block` in a block. -/
def mayCall (a : Nat) (inBlock : Bool) (e : Str) : Bool :=
  match C.callee e with
  | none => false
  | some (f, _) =>
    inBlock && f == "parent_block".toList || !"_kj_block_".toList.isPrefixOf f && (means ls a f).isSome

variable (py : Py) (G : Nat → Look) (up : Nat → Str → Val)

/-- Python in template `a`, in the given block of it. -/
def pyAt (m : Meaning) (a : Nat) (block : Option Str) : Py :=
  { py with call := fun e => (C.callee e).bind fun (f, args) =>
      if block.isSome && f == "parent_block".toList then
        some fun look => (get (args look)).next (m.above (a + 1) (blockName (block.getD [])))
      else if "_kj_block_".toList.isPrefixOf f then none
      else (means ls a f).map fun d look => (get (args look)).next (m.fn d.1 d.2) }

/-- What a block shows where it is: nothing if its template extends another one. -/
def inPlace (m : Meaning) (a : Nat) (l : Level) : Str → Option (Shown Unit) :=
  if l.child then elsewhere else fun name => (means ls a (blockName name)).map fun d => m.fn d.1 d.2 []

/-- What a function of template `a` shows.  Blocks of templates that extend another one see `parent_block`. -/
def body (m : Meaning) (a : Nat) (d : Fn) (args : List Val) : Shown Unit :=
  match ls[a]? with
  | none => done ()
  | some l =>
    (get (C.bind d.decl args)).next fun ρ =>
    (match d with
      | .defn _ kids => nodes (pyAt ls C py m a none) (G a) (inPlace ls m a l) l.t.conf false "py:def".toList kids ρ
      | .block name kids =>
        if l.child then
          nodes (pyAt ls C py m a (some name)) (G a) elsewhere l.t.conf false "py:block".toList kids
            [("parent_block".toList, up a name)]
        else nodes (pyAt ls C py m a none) (G a) (inPlace ls m a l) l.t.conf false "py:block".toList kids []).next
      fun _ => done ()

/-- What functions show if calls can be nested so deep. -/
def meaning : Nat → Meaning
  | 0 => ⟨fun _ _ _ => raise .recursion, fun _ _ _ => raise .recursion⟩
  | n + 1 => ⟨body ls C py G up (meaning n), fun a f args =>
      match fnAt ls a f with
      | some d => body ls C py G up (meaning n) a d args
      | none => (meaning n).above (a + 1) f args⟩

/-- What template `a` shows: the one it extends, and then what it has beside its functions; the last one shows its
DOCTYPE and its root element. -/
def shownAt : Nat → Nat → Shown Unit
  | 0, _ => raise .recursion
  | n + 1, a =>
    match ls[a]? with
    | none => done ()
    | some l =>
      (if l.child then shownAt n (a + 1) else put ((l.t.root?.map l.t.doctype).getD [])).seq
        ((nodes (pyAt ls C py (meaning ls C py G up n) a none) (G a) (inPlace ls (meaning ls C py G up n) a l) l.t.conf false
          (if l.child then "py:extends".toList else []) l.kids []).next fun _ => done ())

end

/-! ## Which templates, and which Python -/

/-- Names of functions, and `parent_block`. -/
def Reserved (ls : List Level) (k : Str) : Prop := k = "parent_block".toList ∨ ∃ l ∈ ls, ∃ d ∈ l.fns, d.name = k

/-- Where the content of a template is. -/
def Level.place (l : Level) : Place := if l.child then Place.root.ext else .root

/-- The name of a function is plain and not one that has another meaning, and its content is readable (C65). -/
def goodFn (l : Level) : Fn → Prop
  | .block name kids => plainName name = true ∧ readable l.t.conf l.place kids = true
  | .defn decl kids => (Fn.defn decl kids).name ∉ "parent_block".toList :: names ∧ ¬BlockName (Fn.defn decl kids).name ∧
    readable l.t.conf l.place.fn kids = true

/-- Allowed in template `a`. -/
def allowed (C : Calls) (ls : List Level) (a : Nat) (l : Level) : Allowed :=
  ⟨true, mayCall ls C a false, mayCall ls C a l.child, mayCall ls C a false, fun _ => false⟩

section
variable {W : Type} (O : Run.Oracle W) (py : Py) (C : Calls)

/-- Calling a function gives a new generator for what its name means. -/
def CallsFunctions : Prop :=
  ∃ next : W → Nat, ∀ e f args v w g, C.callee e = some (f, args) → visible v f = some (.fn g) →
    match args (visible v) with
    | .error x => O.eval e v w = (.error x, w)
    | .ok vs => ∃ w', O.eval e v w = (.ok (.flatCall (next w) g vs), w') ∧ next w < next w'

/-- What the templates need: there are no other templates in them, Python evaluates their expressions as `py` does and
calls functions as `C` says, messages are translated as `py` does, and no variable has the name of a function or is called
`local` (C63). -/
structure Runs (context : Dict Val) (ls : List Level) : Prop where
  ok : ∀ a l, ls[a]? = some l → OkAll O py (allowed C ls a l) l.t.conf l.kids
  speaks : ∀ l ∈ ls, l.child = false → ∀ x ∈ l.kids, speaks l.t.conf .root x = true
  distinct : ∀ l ∈ ls, (l.fns.map (·.name)).Nodup
  good : ∀ l ∈ ls, ∀ d ∈ l.fns, goodFn l d
  messages : ∀ g s w, O.gettext g s w = (.ok (.str (py.tr s)), w)
  main : ∀ w, O.args "__main__()".toList [] w = (.ok [], w)
  args : ∀ l ∈ ls, ∀ d ∈ l.fns, ∀ vs w, O.args d.decl vs w = (C.bind d.decl vs, w)
  params : ∀ l ∈ ls, ∀ d ∈ l.fns, ∀ vs ρ, C.bind d.decl vs = .ok ρ → Clean (Reserved ls) ρ
  noParams : ∀ name vs ρ, C.bind (blockDecl name) vs = .ok ρ → ρ = []
  calls : CallsFunctions O C
  blockCalls : ∀ name, C.callee (blockDecl name) = some (blockName name, fun _ => .ok [])
  parent : ∀ name v w p i x, visible v "parent".toList = some (.inst p) → v.insts[p]? = some i →
    Dict.get i.attrs (blockName name) = some x → O.py [parentBlock name] v w = (.ok [("parent_block".toList, x)], w)
  tidy : Tidy (Reserved ls) py
  withs : ∀ l ∈ ls, ∀ k ∈ boundAll l.t.conf.opts l.kids, ¬Reserved ls k
  free : ∀ k, k = "local".toList ∨ Reserved ls k → Dict.get context k = none
  bases : ∀ l ∈ ls, (l.t.base.map (·.1)).Nodup ∧ ∀ k, k = "local".toList ∨ Reserved ls k → Dict.get l.t.base k = none

end

/-- The global variables of a template: the context is there (except for some names), and nothing else but what the
modules of the templates define, the names that are always there, and functions. -/
def Globals (ls : List Level) (context : Dict Val) (G : Look) : Prop :=
  (∀ k x, Dict.get context k = some x → k ∉ ["_", "value_of", "self", "child", "parent"].map String.toList →
    G k = some x) ∧
  (∀ k, Dict.get context k = none → (∀ l ∈ ls, Dict.get l.t.base k = none) → k ∉ names → ¬Reserved ls k → G k = none)

end Kajiki.Spec.Funs

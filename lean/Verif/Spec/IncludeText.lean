import Verif.Spec.Include
import Verif.Spec.TextSem

/-!
# What a text template shows that includes others

`%include` shows another text template at its place, as `py:include` does for XML templates (`Verif/Spec/Include.lean`):
that one does not see the local variables of the place, only the global ones.  Templates may include themselves.  They may
have expressions, conditions, loops, choices and Python blocks, but no functions and blocks.  Used to state C76 for text
templates.
-/

namespace Kajiki.Spec.IncludeText
open Kajiki.Spec.TextTree (Dir)
open Kajiki.Spec.TextSem (Template silentAll speaksAny)
open Kajiki.Spec.Pure (Look Shown Py Vars look keeping visible Evals Blind)
open Kajiki.Spec.Pure.Shown (done raise put get)
open Kajiki.Spec.Fill (escapedValue plainValue)
open Kajiki.Spec.Include (inherited Own)

/-! ## What is shown -/

section
variable (py : Py) (G : Look) (esc : Bool)

/-- The value of an expression, which is escaped if `esc` is set. -/
def value (look : Look) (e : Str) : Shown Unit :=
  (get (py.eval e look)).next fun v => put (if esc then escapedValue v else plainValue v)

mutual
/-- A directive, where `G` are the global variables; `py.incl` is what other templates show. -/
def dir : Dir → Vars → Shown Vars
  | .text t _ => fun ρ => keeping ρ (put t)
  | .expr e _ => fun ρ => keeping ρ (value py esc (look G ρ) e)
  | .ifD e b => fun ρ => (get (py.eval e (look G ρ))).next fun v => if truthy v then dirs b ρ else done ρ
  | .ifElse e b b' => fun ρ => (get (py.eval e (look G ρ))).next fun v => if truthy v then dirs b ρ else dirs b' ρ
  | .forD e b => fun ρ => (get (py.iter e (look G ρ))).next fun bs => Spec.Pure.loop (fun ρ => dirs b ρ) bs ρ
  | .switchD e items => fun ρ =>
    (get (py.eval e (look G ρ))).next fun v => (choice v items ρ).next fun ρ => dirs items ρ
  | .py moduleLevel ls => fun ρ =>
    if moduleLevel || ls.isEmpty then done ρ
    else (get (py.block ls (look G ρ))).next fun b => done (ρ.update b)
  | .includeD file => fun ρ => keeping ρ (py.incl file)
  | _ => fun ρ => done ρ

/-- Directives in order. -/
def dirs : List Dir → Vars → Shown Vars
  | [] => fun ρ => done ρ
  | d :: ds => fun ρ => (dir d ρ).next fun ρ => dirs ds ρ

/-- The first `%case` equal to `v`, or the `%else`, or nothing. -/
def choice (v : Val) : List Dir → Vars → Shown Vars
  | .caseD e b :: ds => fun ρ =>
    (get (py.eval e (look G ρ))).next fun u => if pyEq u v then dirs b ρ else choice v ds ρ
  | .elseD b :: _ => fun ρ => dirs b ρ
  | _ => fun ρ => done ρ
end

end

section
variable (ts : List Template) (load : Str → Option Nat) (py : Py) (G : Look)

/-- What template `i` shows in which templates may be nested less than `n` deep, where the first has global variables
`G`. -/
def shownIn : Nat → Nat → Shown Unit
  | 0, _ => raise .recursion
  | n + 1, i =>
    match ts[i]? with
    | none => raise .name
    | some t =>
      (dirs { py with incl := fun file => match load file with
          | none => raise .ioError
          | some j => shownIn n j } (inherited G t.base) t.conf.autoescape t.tree []).next fun _ => done ()

end

/-! ## Which templates, and which Python -/

section
variable {W : Type} (O : Run.Oracle W) (py : Py) (H : Str → Bool)

mutual
/-- There are no functions and no other templates than those called `H`, and Python evaluates the expressions. -/
def Ok : Dir → Prop
  | .text _ _ => True
  | .expr e _ => Evals O py e
  | .ifD e b => Evals O py e ∧ OkAll b
  | .ifElse e b b' => Evals O py e ∧ OkAll b ∧ OkAll b'
  | .forD e b => (∀ v w, O.iter e v w = (py.iter e (visible v), w)) ∧ OkAll b
  | .switchD e b => Evals O py e ∧ OkAll b
  | .caseD e b => Evals O py e ∧ OkAll b
  | .elseD b => OkAll b
  | .py _ ls => ∀ v w, O.py ls v w = (py.block ls (visible v), w)
  | .includeD file => H file = true
  | _ => False

/-- The same for several directives. -/
def OkAll : List Dir → Prop
  | [] => True
  | d :: ds => Ok d ∧ OkAll ds
end

/-- What a template needs that may include those called `H`: there are no functions in it, Python evaluates its expressions
as `py` does, and there is nothing in it at all or something that is shown under some circumstances (C65). -/
structure Fits (t : Template) : Prop where
  ok : OkAll O py H t.tree
  reads : silentAll ⟨false, false, 0⟩ t.tree = true ∨ speaksAny ⟨false, false, 0⟩ t.tree = true
  base : (t.base.map (·.1)).Nodup
  free : ∀ k ∈ ["local".toList, "self".toList], Dict.get t.base k = none

/-- What templates need that are rendered with a context: the loader finds them or nothing, no variable is called `local` or
`self`, and Python does not use names that are different in each template. -/
structure Runs (load : Str → Option Nat) (aliasFor : Str → Str) (context : Dict Val) (ts : List Template) : Prop where
  fits : ∀ t ∈ ts, Fits O py H t
  loads : ∀ file i, load file = some i → i < ts.length
  main : ∀ w, O.args "__main__()".toList [] w = (.ok [], w)
  free : ∀ k ∈ ["local".toList, "self".toList], Dict.get context k = none
  names : ∀ file, H file = true → aliasFor file ∉ ["local".toList, "self".toList, "gettext".toList]
  blind : Blind (Own aliasFor H) py

end

end Kajiki.Spec.IncludeText

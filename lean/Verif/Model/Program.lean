import Verif.Model.Interp

/-!
# From modules to template classes (`kajiki/template.py` 272-332)
-/

namespace Kajiki.Run

/-- `dir(ns)` is sorted and a later function of the same name replaces an earlier one. -/
def insertMethod {C : Type} (k : Str) (v : Str × C) : List (Str × Str × C) → List (Str × Str × C)
  | [] => [(k, v)]
  | (k', v') :: ms =>
    if k = k' then (k, v) :: ms
    else if strLt k k' then (k, v) :: (k', v') :: ms
    else (k', v') :: insertMethod k v ms

/-- The `__methods__` of a class with the given functions (`kajiki/template.py` 290-297). -/
def methodsOf {C : Type} (defs : List (Str × C)) : List (Str × Str × C) :=
  defs.foldl (fun ms d => insertMethod (declName d.1) d ms) []

/-- The class (`kajiki/template.py` 272-332).  `base` stands for `base_globals` after the module-level
code was executed. -/
def classOf {C : Type} (defs : List (Str × C)) (base : Dict Val) : Cls C := ⟨methodsOf defs, base⟩

/-- `from_ir` (`kajiki/template.py` 301-332): generate, compile, make the class; `none` is a
`KajikiSyntaxError`. -/
def fromIr (t : Tmpl) (base : Dict Val) : Option (Cls (List Stmt)) :=
  (compilePy (generatePython t)).map fun m => classOf m.defs base

/-- Several templates and a loader for them. -/
structure Source where
  tmpls : List (Tmpl × Dict Val)
  load : Str → Option Nat
  aliasFor : Str → Str

/-- Compile all of them. -/
def compileAll : List (Tmpl × Dict Val) → Option (List (Cls (List Stmt)))
  | [] => some []
  | t :: ts =>
    match fromIr t.1 t.2, compileAll ts with
    | some c, some cs => some (c :: cs)
    | _, _ => none

/-- The running program. -/
def Source.compile (S : Source) : Option (Prog (List Stmt)) :=
  (compileAll S.tmpls).map fun cs => ⟨cs, S.load, S.aliasFor⟩

/-- The same state with other runtime stacks. -/
def Store.withStacks {C W : Type} (s : Store C W) (k : Nat → Stacks) : Store C W :=
  { s with stacks := k }

/-! ## A process

Instances are made and rendered in any order; a rendering that fails with an exception is caught by
the caller. -/

/-- What the application does. -/
inductive Act
  | make (cls : Nat) (context : Dict Val)
  | render (inst : Nat)

/-- One action. -/
def act {W : Type} (P : Prog (List Stmt)) (O : Oracle W) (n : Nat) (s : Store (List Stmt) W) :
    Act → Store (List Stmt) W
  | .make c context => (newInst P c context s).st
  | .render i => (renderInst P O n i s).st

/-- A sequence of actions. -/
def history {W : Type} (P : Prog (List Stmt)) (O : Oracle W) (n : Nat) (w : W) (as : List Act) :
    Store (List Stmt) W :=
  as.foldl (act P O n) (emptyStore _ w)

end Kajiki.Run

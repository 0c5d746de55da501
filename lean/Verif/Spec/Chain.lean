import Verif.Model.Program

/-!
# Chains of templates

Used as the reference for C40-C42.
-/

namespace Kajiki.Spec.Chain
open Kajiki.Run

variable {C W : Type}

/-- Template `j` extends the first name, that template the second, and so on; gives the last one. -/
def extendAll (P : Prog C) : Nat → List Str → MS C W Nat
  | j, [] => M.pure j
  | j, nm :: nms => M.bind (extend P j nm) fun p => extendAll P p nms

/-- `cls(context)` and then a chain of `py:extends`. -/
def buildChain (P : Prog C) (c : Nat) (context : Dict Val) (nms : List Str) : MS C W Nat :=
  M.bind (newInst P c context) fun j => extendAll P j nms

/-- The class has a function of this name. -/
def hasMethod (cl : Cls C) (f : Str) : Prop := ∃ d b, (f, d, b) ∈ cl.methods

/-- The names Kajiki itself binds in every instance, and `__main__`. -/
def reserved : List Str :=
  ["local", "self", "parent", "child", "_", "value_of", "__main__"].map String.toList

/-- The value is a function object: declaration `d` and body `b`, bound to instance `i`. -/
def BoundTo (s : Store C W) (v : Option Val) (i : Nat) (d : Str) (b : C) : Prop :=
  ∃ id, v = some (.fn id) ∧ s.fns[id]? = some ⟨.code d b, i, none, true⟩

/-- The template of instance `i` defines the function `f`. -/
def Defines (P : Prog C) (s : Store C W) (i : Nat) (f d : Str) (b : C) : Prop :=
  ∃ x cl, s.insts[i]? = some x ∧ P.classes[x.cls]? = some cl ∧ (f, d, b) ∈ cl.methods

/-- What the global name `f` means in the code of instance `i`. -/
def globalOf (s : Store C W) (i : Nat) (f : Str) : Option Val :=
  (s.insts[i]?).bind fun x => x.globals.get f

/-- What `instance.f` means. -/
def attrOf (s : Store C W) (i : Nat) (f : Str) : Option Val :=
  (s.insts[i]?).bind fun x => x.attrs.get f

/-- Functions have distinct names within a template, and `base_globals` is a dictionary. -/
def WellFormed (P : Prog C) : Prop :=
  ∀ cl ∈ P.classes, (cl.methods.map (·.1)).Nodup ∧ (cl.baseGlobals.map (·.1)).Nodup

/-- `f` is a name the template author may use for a function: Kajiki does not bind it itself, and
neither the context nor (as a template function) `base_globals` has it. -/
structure Ordinary (P : Prog C) (context : Dict Val) (f : Str) : Prop where
  free : f ∉ reserved
  noContext : context.get f = none
  noBase : ∀ cl ∈ P.classes, ∀ id, cl.baseGlobals.get f ≠ some (.fn id)

/-- Neither the context nor the template's functions or `base_globals` use the name. -/
def Unused (P : Prog C) (c : Nat) (context : Dict Val) (k : Str) : Prop :=
  context.get k = none ∧ ∀ cl, P.classes[c]? = some cl → ¬ hasMethod cl k ∧ cl.baseGlobals.get k = none

end Kajiki.Spec.Chain

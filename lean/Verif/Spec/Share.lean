import Verif.Model.Sched
import Mathlib.Data.List.Forall2

/-!
# Several renderings in one process

Objects get their identity from the order in which they are made, so the same object has one number when a
rendering has the process for itself and another one when others run in between.  This file says when a value, or
what an expression sees, is the same up to such a renumbering, and what is assumed about Python code: it depends
only on what it sees, and it touches only its own part of the world.
-/

namespace Kajiki.Spec.Share
open Kajiki Kajiki.Run

/-- Numbers in the shared process of the instances, functions and scopes of one rendering, in the order in which
that rendering made them. -/
structure Ren where
  inst : List Nat
  fn : List Nat
  frame : List Nat

/-- Nothing was made yet. -/
def Ren.nil : Ren := ⟨[], [], []⟩

/-- Different objects have different numbers. -/
def Ren.Inj (ρ : Ren) : Prop := ρ.inst.Nodup ∧ ρ.fn.Nodup ∧ ρ.frame.Nodup

/-- The same value, up to numbering.  `fl` numbers the flatteners. -/
inductive ValR (fl : Nat → Nat) (ρ : Ren) : Val → Val → Prop
  | none : ValR fl ρ .none .none
  | bool (b : Bool) : ValR fl ρ (.bool b) (.bool b)
  | int (i : Int) : ValR fl ρ (.int i) (.int i)
  | str (s : Str) : ValR fl ρ (.str s) (.str s)
  | html (s h : Str) (t : Bool) : ValR fl ρ (.html s h t) (.html s h t)
  | obj (tag : Nat) (s : Str) (t : Bool) : ValR fl ρ (.obj tag s t) (.obj tag s t)
  | unit : ValR fl ρ .unit .unit
  | pairs (s : Str) (l l' : List (Str × Val)) (keys : l.map (·.1) = l'.map (·.1))
      (vals : ∀ (n : Nat) x y, l[n]? = some x → l'[n]? = some y → ValR fl ρ x.2 y.2) :
      ValR fl ρ (.pairs s l) (.pairs s l')
  | inst (i j : Nat) (h : ρ.inst[i]? = some j) : ValR fl ρ (.inst i) (.inst j)
  | meth (m : Str) (i j : Nat) (h : ρ.inst[i]? = some j) : ValR fl ρ (.meth m i) (.meth m j)
  | fn (i j : Nat) (h : ρ.fn[i]? = some j) : ValR fl ρ (.fn i) (.fn j)
  | flatItems (id : Nat) (vs vs' : List Val) (len : vs.length = vs'.length)
      (vals : ∀ (n : Nat) x y, vs[n]? = some x → vs'[n]? = some y → ValR fl ρ x y) :
      ValR fl ρ (.flatItems id vs) (.flatItems (fl id) vs')
  | flatCall (id i j : Nat) (h : ρ.fn[i]? = some j) (vs vs' : List Val) (len : vs.length = vs'.length)
      (vals : ∀ (n : Nat) x y, vs[n]? = some x → vs'[n]? = some y → ValR fl ρ x y) :
      ValR fl ρ (.flatCall id i vs) (.flatCall (fl id) j vs')

/-- The same argument list. -/
def ValsR (fl : Nat → Nat) (ρ : Ren) : List Val → List Val → Prop := List.Forall₂ (ValR fl ρ)

/-- The same dictionary. -/
def DictR (fl : Nat → Nat) (ρ : Ren) : Dict Val → Dict Val → Prop :=
  List.Forall₂ fun x y => x.1 = y.1 ∧ ValR fl ρ x.2 y.2

/-- The same instance. -/
structure InstR (fl : Nat → Nat) (ρ : Ren) (x y : Inst) : Prop where
  cls : x.cls = y.cls
  context : DictR fl ρ x.context y.context
  globals : DictR fl ρ x.globals y.globals
  attrs : DictR fl ρ x.attrs y.attrs

/-- The instances of one rendering are among those of the process. -/
def InstsR (fl : Nat → Nat) (ρ : Ren) (xs ys : List Inst) : Prop :=
  List.Forall₂ (fun x j => ∃ y, ys[j]? = some y ∧ InstR fl ρ x y) xs ρ.inst

/-- An expression sees the same, apart from instances of other renderings. -/
structure ViewR (fl : Nat → Nat) (ρ : Ren) (V V' : View) : Prop where
  inj : ρ.Inj
  locals : List.Forall₂ (DictR fl ρ) V.locals V'.locals
  inst : ρ.inst[V.inst]? = some V'.inst
  insts : InstsR fl ρ V.insts V'.insts

/-- The same result or the same exception. -/
def ExceptR {α β : Type} (R : α → β → Prop) : Except Err α → Except Err β → Prop
  | .ok a, .ok b => R a b
  | .error e, .error e' => e = e'
  | _, _ => False

/-- The same answer of Python code of rendering `k`, which changed its own part of the world `w` and no other. -/
structure AnsR {α β W : Type} (k : Nat) (R : α → β → Prop) (w : Nat → W) (r : Except Err α × W)
    (r' : Except Err β × (Nat → W)) : Prop where
  val : ExceptR R r.1 r'.1
  own : r'.2 k = r.2
  other : ∀ i, i ≠ k → r'.2 i = w i

/-- Python code of rendering `k` in the shared process (`O'`) does what it does when the rendering is alone (`O`). -/
structure OracleR {W : Type} (fl : Nat → Nat) (k : Nat) (O : Oracle W) (O' : Oracle (Nat → W)) : Prop where
  eval : ∀ ρ e V V' w, ViewR fl ρ V V' → AnsR k (ValR fl ρ) w (O.eval e V (w k)) (O'.eval e V' w)
  iter : ∀ ρ d V V' w, ViewR fl ρ V V' →
    AnsR k (List.Forall₂ (DictR fl ρ)) w (O.iter d V (w k)) (O'.iter d V' w)
  py : ∀ ρ ls V V' w, ViewR fl ρ V V' → AnsR k (DictR fl ρ) w (O.py ls V (w k)) (O'.py ls V' w)
  args : ∀ (ρ : Ren) d as as' w, ρ.Inj → ValsR fl ρ as as' →
    AnsR k (DictR fl ρ) w (O.args d as (w k)) (O'.args d as' w)
  gettext : ∀ (ρ : Ren) g g' s w, ρ.Inj → ValR fl ρ g g' →
    AnsR k (ValR fl ρ) w (O.gettext g s (w k)) (O'.gettext g' s w)

/-- A value without identity: no instance, function or flattener in it. -/
inductive Plain : Val → Prop
  | none : Plain .none
  | bool (b : Bool) : Plain (.bool b)
  | int (i : Int) : Plain (.int i)
  | str (s : Str) : Plain (.str s)
  | html (s h : Str) (t : Bool) : Plain (.html s h t)
  | obj (tag : Nat) (s : Str) (t : Bool) : Plain (.obj tag s t)
  | unit : Plain .unit
  | pairs (s : Str) (l : List (Str × Val)) (vals : ∀ x ∈ l, Plain x.2) : Plain (.pairs s l)

/-- The base globals of all classes are plain. -/
def PlainProg {C : Type} (P : Prog C) : Prop := ∀ c ∈ P.classes, ∀ x ∈ c.baseGlobals, Plain x.2

/-- The number of steps of an uninterrupted computation. -/
def steps {S α : Type} : Proc S α → S → Nat
  | .done _, _ => 0
  | .step _ n c, s => steps (c s) (n s) + 1

end Kajiki.Spec.Share

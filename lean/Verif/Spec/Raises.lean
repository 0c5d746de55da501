import Verif.Spec.Funs

/-!
# Where exceptions come from (C82)
-/

namespace Kajiki.Spec.Raises
open Kajiki.Spec.DocSem Kajiki.Spec.Pure

/-- Python raises this exception: some expression, the header of some loop, or some block; or something that is no mapping
and no list of pairs is given to `py:attrs`. -/
inductive Raised (py : Py) (x : Err) : Prop
  | eval (e : Str) (look : Look) (h : py.eval e look = .error x)
  | iter (e : Str) (look : Look) (h : py.iter e look = .error x)
  | block (ls : List Str) (look : Look) (h : py.block ls look = .error x)
  | attrs (v : Val) (mode : Str) (h : renderAttrs v mode = .error x)

mutual
/-- The templates that a node includes. -/
def includes : DNode → List Str
  | .elem t as _ kids => (if dirOf t = some .incl then [attr as "href"] else []) ++ includesAll kids
  | _ => []

/-- The same for several nodes. -/
def includesAll : List DNode → List Str
  | [] => []
  | x :: xs => includes x ++ includesAll xs
end

/-- A call raises this exception: computing the arguments does, or they do not fit the parameters. -/
inductive CallRaised (C : Spec.Funs.Calls) (x : Err) : Prop
  | args (e f : Str) (args : Look → Except Err (List Val)) (look : Look) (h : C.callee e = some (f, args))
      (ha : args look = .error x)
  | bind (decl : Str) (args : List Val) (h : C.bind decl args = .error x)

/-- A template includes one that is not there. -/
def Missing (ts : List Template) (load : Str → Option Nat) : Prop :=
  ∃ t ∈ ts, ∃ root, t.root? = some root ∧ ∃ href ∈ includes root, load href = none

/-- Templates do not include each other in circles: what a template includes has a smaller number. -/
def NoCircles (ts : List Template) (load : Str → Option Nat) (rank : Nat → Nat) : Prop :=
  ∀ i t root href j, ts[i]? = some t → t.root? = some root → href ∈ includes root → load href = some j → rank j < rank i

end Kajiki.Spec.Raises

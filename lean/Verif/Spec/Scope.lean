import Verif.Spec.Sem

/-!
# What parts of a template can do to variables

Used to state C60, and in C23 to say when the condition of a `py:strip` cannot change between a start
tag and its end tag.
-/

namespace Kajiki.Spec.Scope
open Kajiki.Run

/-- The value of a name: the innermost scope that has it, or the globals of the instance. -/
def lookup (v : View) (n : Str) : Option Val :=
  match v.locals.findSome? fun d => d.get n with
  | some x => some x
  | none => (v.insts[v.inst]?).bind fun i => i.globals.get n

variable {W : Type}

/-- The truth value of the expression depends on the values of these names only, and evaluating it has
no side effects. -/
def Reads (O : Oracle W) (e : Str) (ns : List Str) : Prop :=
  ∀ v v' w w' x x' u u', (∀ n ∈ ns, lookup v n = lookup v' n) →
    O.eval e v w = (.ok x, u) → O.eval e v' w' = (.ok x', u') → truthy x = truthy x' ∧ u = w

mutual
/-- The node and the nodes below it bind none of these names in the function they are part of. -/
def NoBind (O : Oracle W) (ns : List Str) : Ir → Prop
  | .python ls _ => ∀ v w b u, O.py ls v w = (.ok b, u) → ∀ kv ∈ b, kv.1 ∉ ns
  | .innerDef d _ _ => declName d ∉ ns
  | .call d _ _ _ => declName d ∉ ns
  | .forN d b _ => (∀ v w bs u, O.iter d v w = (.ok bs, u) → ∀ x ∈ bs, ∀ kv ∈ x, kv.1 ∉ ns) ∧ NoBinds O ns b
  | .withN vs b _ => (∀ kv ∈ vs, kv.1 ∉ ns) ∧ NoBinds O ns b
  | .switchN _ b _ => NoBinds O ns b
  | .caseN _ b _ => NoBinds O ns b
  | .ifN _ b _ => NoBinds O ns b
  | .elseN b _ => NoBinds O ns b
  | _ => True

/-- The same for several nodes. -/
def NoBinds (O : Oracle W) (ns : List Str) : List Ir → Prop
  | [] => True
  | x :: xs => NoBind O ns x ∧ NoBinds O ns xs
end

mutual
/-- The names that imports and includes below a node make. -/
def aliases (f : Str → Str) : Ir → List Str
  | .imp n a _ => [a.getD (f n)]
  | .incl n _ => [f n]
  | .attr _ _ _ v _ => aliasesList f v
  | .innerDef _ b _ => aliasesList f b
  | .call _ _ b _ => aliasesList f b
  | .forN _ b _ => aliasesList f b
  | .withN _ b _ => aliasesList f b
  | .switchN _ b _ => aliasesList f b
  | .caseN _ b _ => aliasesList f b
  | .ifN _ b _ => aliasesList f b
  | .elseN b _ => aliasesList f b
  | _ => []

/-- The same for several nodes. -/
def aliasesList (f : Str → Str) : List Ir → List Str
  | [] => []
  | x :: xs => aliases f x ++ aliasesList f xs
end

/-- Global names that a rendering may change: those of `_extend`, template functions, imported
templates, and template functions passed in. -/
def Reserved (S : Source) (context : Dict Val) (n : Str) : Prop :=
  n ∈ ["local", "self", "parent", "child", "_"].map String.toList ∨
  (∃ t ∈ S.tmpls, ∃ d ∈ t.1.defs, declName d.decl = n ∨ n ∈ aliasesList S.aliasFor d.body) ∨
  (∃ f, (n, Val.fn f) ∈ context) ∨ ∃ t ∈ S.tmpls, ∃ f, (n, Val.fn f) ∈ t.2

/-- The scope around a nested function was made before the scopes of the function. -/
def Older {C : Type} (s : Store C W) : Prop :=
  ∀ (i : Nat) (f : Frame) (j : Nat), s.frames[i]? = some f → f.up = some j → j < i

end Kajiki.Spec.Scope

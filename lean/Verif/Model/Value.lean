import Verif.Model.PyStr

/-!
# Runtime values

The Python objects a template can meet, reduced to what kajiki's runtime looks at.
-/

namespace Kajiki

/-- Python values as seen by kajiki.

* `html s h t`  – object with `__html__`: `str()` is `s`, `__html__()` is `h`, truthiness `t`
* `obj tag s t` – any other object: identity `tag`, `str()` is `s`, truthiness `t`
* `unit`        – the empty tuple `()`, used by `py:with` (`kajiki/template.py` 120)
* `pairs s l`   – a mapping with string keys, or a list of pairs; `str()` is `s`
* `inst i`      – a template instance (`kajiki/template.py` 37-94)
* `meth n i`    – the bound method `n` of the globals of template instance `i` (`value_of`, `kajiki/template.py` 94)
* `fn f`        – a callable template function object, number `f` of the function heap
* `flatItems i vs`, `flatCall i f as` – a `flattener` object (`kajiki/util.py` 45-83) with
  identity `i`, over a given list of items (`literal`, `kajiki/util.py` 86-87) or over the
  generator started by calling function `f` with arguments `as`.  A flattener wraps a one-shot
  iterator; which identities have already been consumed is part of the interpreter state. -/
inductive Val
  | none
  | bool (b : Bool)
  | int (i : Int)
  | str (s : Str)
  | html (s h : Str) (t : Bool)
  | obj (tag : Nat) (s : Str) (t : Bool)
  | unit
  | pairs (s : Str) (l : List (Str × Val))
  | inst (i : Nat)
  | meth (name : Str) (i : Nat)
  | fn (f : Nat)
  | flatItems (id : Nat) (items : List Val)
  | flatCall (id : Nat) (f : Nat) (args : List Val)
deriving Inhabited, Repr

/-- Decimal digits, `str(int)`. -/
def natStr (n : Nat) : Str := (toString n).toList

/-- `str(value)`.  The texts for instances, functions and flatteners stand for Python's
default `repr`; the address in it, which is different in every run, is left out. -/
def toStr : Val → Str
  | .none => "None".toList
  | .bool true => "True".toList
  | .bool false => "False".toList
  | .int i => (toString i).toList
  | .str s => s
  | .html s _ _ => s
  | .obj _ s _ => s
  | .unit => "()".toList
  | .pairs s _ => s
  | .inst _ => "<kajiki template object>".toList
  | .meth _ _ => "<bound method of kajiki template object>".toList
  | .fn _ => "<tpl_function>".toList
  | .flatItems _ _ => "<kajiki.util.flattener object>".toList
  | .flatCall _ _ _ => "<kajiki.util.flattener object>".toList

/-- `bool(value)`. -/
def truthy : Val → Bool
  | .none => false
  | .bool b => b
  | .int i => i != 0
  | .str s => !s.isEmpty
  | .html _ _ t => t
  | .obj _ _ t => t
  | .unit => false
  | .pairs _ l => !l.isEmpty
  | .inst _ | .meth .. | .fn _ | .flatItems .. | .flatCall .. => true

/-- Numeric value, for values that compare as numbers (`True == 1`). -/
def numVal : Val → Option Int
  | .bool b => some (if b then 1 else 0)
  | .int i => some i
  | _ => Option.none

/-- `a == b`.  Simplified: objects compare by identity, mappings by their text. -/
def pyEq (a b : Val) : Bool :=
  match numVal a, numVal b with
  | some x, some y => x == y
  | _, _ => match a, b with
    | .none, .none => true
    | .str s, .str t => s == t
    | .html s h _, .html s' h' _ => s == s' && h == h'
    | .obj t _ _, .obj t' _ _ => t == t'
    | .unit, .unit => true
    | .pairs s _, .pairs s' _ => s == s'
    | .inst i, .inst j => i == j
    | .meth n i, .meth m j => n == m && i == j
    | .fn i, .fn j => i == j
    | .flatItems i _, .flatItems j _ => i == j
    | .flatCall i _ _, .flatCall j _ _ => i == j
    | _, _ => false

/-- `isinstance(value, flattener)` -/
def isFlat : Val → Bool
  | .flatItems .. | .flatCall .. => true
  | _ => false

/-- `hasattr(value, '__html__')` -/
def hasHtml : Val → Bool
  | .html .. => true
  | _ => false

end Kajiki

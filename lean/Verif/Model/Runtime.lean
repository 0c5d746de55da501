import Verif.Model.Value

/-!
# Escaping and attribute rendering (`kajiki/template.py`, `kajiki/html_utils.py`)
-/

namespace Kajiki

/-- `_re_escape.search(uval)` (`kajiki/template.py` 216, 226): does the text contain one
of `& < > "`? -/
def needsEscape (s : Str) : Bool := s.any fun c => c = '&' || c = '<' || c = '>' || c = '"'

/-- The string part of `_escape` (`kajiki/template.py` 215-225): four successive
`replace` calls, skipped if the regular expression finds nothing. -/
def escapeStr (s : Str) : Str :=
  if needsEscape s then
    replaceChar '"' "&quot;".toList (replaceChar '>' "&gt;".toList
      (replaceChar '<' "&lt;".toList (replaceChar '&' "&amp;".toList s)))
  else s

/-- `_Template._escape` (`kajiki/template.py` 207-225).  `__html__()` is assumed to
return a `str`. -/
def escape : Val → Val
  | .none => .none
  | .flatItems i vs => .flatItems i vs
  | .flatCall i f as => .flatCall i f as
  | .html _ h _ => .str h
  | v => .str (escapeStr (toStr v))

/-- `HTML_EMPTY_ATTRS` (`kajiki/html_utils.py` 6-16). -/
def emptyAttrs : List Str :=
  ["checked", "disabled", "readonly", "multiple", "selected", "nohref", "ismap",
   "declare", "defer"].map String.toList

/-- `a < b` for attribute values, when Python allows it: numbers and strings. -/
def valLt (a b : Val) : Option Bool :=
  match numVal a, numVal b with
  | some x, some y => some (x < y)
  | _, _ => match a, b with
    | .str s, .str t => some (strLt s t)
    | _, _ => none

/-- `a <= b` on `(key, value)` tuples as used by `sorted` (negation of `b < a`). -/
def pairLe (a b : Str × Val) : Bool :=
  if strLt a.1 b.1 then true
  else if a.1 = b.1 then
    (if pyEq a.2 b.2 then true else (valLt b.2 a.2).elim true (! ·))
  else false

/-- Insertion into a sorted list, after equal elements coming earlier. -/
def insertPair (x : Str × Val) : List (Str × Val) → List (Str × Val)
  | [] => [x]
  | y :: ys => if pairLe x y then x :: y :: ys else y :: insertPair x ys

/-- Stable insertion sort. -/
def insertionSort : List (Str × Val) → List (Str × Val)
  | [] => []
  | x :: xs => insertPair x (insertionSort xs)

/-- Would comparing these tuples raise `TypeError`?  (equal keys, different values that
Python cannot order) -/
def clash (a b : Str × Val) : Bool :=
  a.1 = b.1 && !pyEq a.2 b.2 && (valLt a.2 b.2).isNone

/-- Some pair of entries cannot be compared. -/
def anyClash : List (Str × Val) → Bool
  | [] => false
  | x :: xs => xs.any (clash x) || anyClash xs

/-- `sorted(attrs)` (`kajiki/template.py` 238) on tuples `(key, value)` with string keys.
Simplified: with three or more entries of one key, Python might not perform the failing
comparison. -/
def sortAttrs (l : List (Str × Val)) : Except Err (List (Str × Val)) :=
  if anyClash l then .error .type else .ok (insertionSort l)

/-- `v in (True, False)` (`kajiki/template.py` 239): true for booleans and for the
numbers 0 and 1. -/
def boolLike (v : Val) : Bool := pyEq v (.bool true) || pyEq v (.bool false)

/-- `mode.startswith('html')` (`kajiki/template.py` 243). -/
def isHtmlMode (mode : Str) : Bool := "html".toList.isPrefixOf mode

/-- One turn of the loop of `_render_attrs` (`kajiki/template.py` 238-246). -/
def renderAttr (mode : Str) (kv : Str × Val) : List Str :=
  let k := kv.1
  let v := if emptyAttrs.contains k && boolLike kv.2 then
      (if truthy kv.2 then .str k else .none) else kv.2
  match v with
  | .none => []
  | v =>
    if isHtmlMode mode && emptyAttrs.contains k then [' ' :: lowerAscii k]
    else [' ' :: k ++ "=\"".toList ++ toStr (escape v) ++ ['"']]

/-- `_Template._render_attrs` (`kajiki/template.py` 228-246).  A mapping and a list of
pairs are both `Val.pairs`; `None` renders nothing; anything else is not iterable as
pairs and raises. -/
def renderAttrs (attrs : Val) (mode : Str) : Except Err (List Str) :=
  match attrs with
  | .pairs _ l => match sortAttrs l with
    | .error e => .error e
    | .ok l => .ok (l.flatMap (renderAttr mode))
  | .none => .ok []
  | _ => .error .type

/-- The end of `_Template._collect` (`kajiki/template.py` 248-260): `None` when there
was no part, the concatenation otherwise. -/
def joinParts (parts : List Str) : Option Str :=
  match parts with
  | [] => none
  | ps => some ps.flatten

/-- What `AttrTail` renders from a collected value (`kajiki/ir.py` 340-347):
`render_attrs({name: collected}, mode)`. -/
def renderCollected (name : Str) (mode : Str) (v : Option Str) : List Str :=
  renderAttr mode (name, v.elim .none .str)

end Kajiki

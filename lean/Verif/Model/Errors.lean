import Verif.Model.Value

/-!
# Error reports: `KajikiSyntaxError` (`kajiki/template.py` 443-471) and `XMLTemplateError`
(`kajiki/xml_template.py` 903-932).  The two classes share the same code.
-/

namespace Kajiki

/-- `_get_source_line(source, linen)` (`kajiki/template.py` 464-471,
`kajiki/xml_template.py` 925-932): negative numbers give `''`, as does an `IndexError`. -/
def sourceLine (source : Str) (linen : Int) : Str :=
  if linen < 0 then []
  else match (splitlines source)[linen.toNat]? with
    | some l => l
    | none => []

/-- `'\t     %s\n' % line` -/
def plainLine (l : Str) : Str := "\t     ".toList ++ l ++ ['\n']

/-- `'\t --> %s\n' % line` -/
def markedLine (l : Str) : Str := "\t --> ".toList ++ l ++ ['\n']

/-- `_get_source_snippet` (`kajiki/template.py` 452-462, `kajiki/xml_template.py` 913-923) with
`SURROUNDING = 2`. -/
def snippet (source : Str) (linen : Int) : Str :=
  let n := linen - 1
  let before := [2, 1].map fun i : Int => plainLine (sourceLine source (n - i))
  let after := [1, 2].map fun i : Int => plainLine (sourceLine source (n + i))
  (before ++ [markedLine (sourceLine source n)] ++ after).flatten

/-- The exception text `'[%s:%s] %s\n%s'` (`kajiki/template.py` 445-447,
`kajiki/xml_template.py` 906-908). -/
def errorText (msg source filename : Str) (linen : Int) : Str :=
  ['['] ++ filename ++ [':'] ++ (toString linen).toList ++ "] ".toList ++ msg ++ ['\n'] ++
    snippet source linen

end Kajiki

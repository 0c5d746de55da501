import Verif.Model.PyStr

/-!
# `kajiki/doctype.py`
-/

namespace Kajiki

/-! ## `extract_dtd` -/

/-- The literal start of `REGEX` (`kajiki/doctype.py` 81). -/
def dtdOpen : Str := "<!DOCTYPE".toList

/-- `REGEX = <!DOCTYPE[^>]+>` (`kajiki/doctype.py` 81) at the start of `s`: the matched text.
`[^>]+` takes the maximal run without `>`, which must be non-empty and followed by `>`. -/
def dtdAt (s : Str) : Option Str :=
  if dtdOpen.isPrefixOf s then
    let t := s.drop dtdOpen.length
    let run := t.takeWhile (· != '>')
    if run.isEmpty then none
    else match t.dropWhile (· != '>') with
      | [] => none
      | _ :: _ => some (dtdOpen ++ run ++ ['>'])
  else none

/-- `REGEX.search(markup)`: leftmost match, as `(text, start)`. -/
def dtdSearch : Str → Option (Str × Nat)
  | [] => none
  | c :: s =>
    match dtdAt (c :: s) with
    | some m => some (m, 0)
    | none => (dtdSearch s).map fun (m, i) => (m, i + 1)

/-- `s.replace(pat, '', 1)`: removes the first occurrence. -/
def removeFirst (pat : Str) : Str → Str
  | [] => []
  | c :: s => if pat.isPrefixOf (c :: s) then (c :: s).drop pat.length else c :: removeFirst pat s

/-- `extract_dtd` (`kajiki/doctype.py` 125-152): `(dtd_string, position, rest)`. -/
def extractDtd (markup : Str) : Str × Nat × Str :=
  match dtdSearch markup with
  | none => ([], 0, markup)
  | some (found, start) => (found, start, removeFirst found markup)

/-! ## `DocumentTypeDeclaration` -/

/-- `DocumentTypeDeclaration` (`kajiki/doctype.py` 37-48).  `uri = None` is `none`. -/
structure Dtd where
  name : Str
  fpi : Str := []
  uri : Option Str := some []
  mode : Str := "xml".toList
  root : Str := "html".toList
  kind : Str := "PUBLIC".toList
deriving DecidableEq, Repr

/-- `DocumentTypeDeclaration.__str__` (`kajiki/doctype.py` 50-61). -/
def Dtd.str (d : Dtd) : Str :=
  join [' '] (["<!DOCTYPE".toList, d.root] ++
    (if d.kind.isEmpty then [] else [d.kind]) ++
    (if d.fpi.isEmpty then [] else [['"'] ++ d.fpi ++ ['"']]) ++
    (match d.uri with
      | none => []
      | some u => if u.isEmpty then [] else [['"'] ++ u ++ ['"']])) ++ ['>']

/-- The characters a case-insensitive `str` pattern identifies with an ASCII letter
(`re.IGNORECASE` without `re.ASCII`): ASCII case, KELVIN SIGN, LONG S, dotless and dotted I. -/
def fold (c : Char) : Char :=
  if c.toNat = 0x212a then 'k'
  else if c.toNat = 0x17f then 's'
  else if c.toNat = 0x130 || c.toNat = 0x131 then 'i'
  else c.toLower

/-- One step of a compiled DTD pattern (`kajiki/doctype.py` 63-66). -/
inductive Pat
  /-- a literal character, ignoring case -/
  | one (c : Char)
  /-- `c+`: the characters followed by an unescaped `+` in the DTD text -/
  | many (c : Char)
  /-- `\s+` -/
  | spaces
deriving DecidableEq, Repr

/-- `regex` (`kajiki/doctype.py` 63-66): ` ` becomes `\s+`; `.`, `[`, `]` are escaped, hence
literal; a `+` in the text is left alone and so acts on the character before it; the other
characters of the registered DTDs are not special in a regular expression. -/
def compileDtd : Str → List Pat
  | [] => []
  | ' ' :: s => .spaces :: compileDtd s
  | c :: '+' :: s => .many c :: compileDtd s
  | c :: s => .one c :: compileDtd s

/-- Does the pattern match a prefix of the text (`regex.match`)?  `p+` matches one character and
then either more of the same or what follows. -/
def patMatch : List Pat → Str → Bool
  | [], _ => true
  | _ :: _, [] => false
  | .one p :: ps, c :: s => fold c == fold p && patMatch ps s
  | .many p :: ps, c :: s => fold c == fold p && (patMatch (.many p :: ps) s || patMatch ps s)
  | .spaces :: ps, c :: s => isSpace c && (patMatch (.spaces :: ps) s || patMatch ps s)

/-- The DTDs in the order in which they are registered (`kajiki/doctype.py` 85-117). -/
def dtds : List Dtd := [
  { name := "html5".toList, kind := [], mode := "html5".toList },
  { name := "xhtml5".toList, kind := [], uri := none },
  { name := "xhtml1transitional".toList, fpi := "-//W3C//DTD XHTML 1.0 Transitional//EN".toList,
    uri := some "http://www.w3.org/TR/xhtml1/DTD/xhtml1-transitional.dtd".toList },
  { name := "xhtml1strict".toList, fpi := "-//W3C//DTD XHTML 1.0 Strict//EN".toList,
    uri := some "http://www.w3.org/TR/xhtml1/DTD/xhtml1-strict.dtd".toList },
  { name := "xhtml1rdfa".toList, fpi := "-//W3C//DTD XHTML+RDFa 1.0//EN".toList,
    uri := some "http://www.w3.org/MarkUp/DTD/xhtml-rdfa-1.dtd".toList },
  { name := "xhtml11".toList, fpi := "-//W3C//DTD XHTML 1.1//EN".toList,
    uri := some "http://www.w3.org/TR/xhtml11/DTD/xhtml11.dtd".toList },
  { name := "xhtml1frameset".toList, fpi := "-//W3C//DTD XHTML 1.0 Frameset//EN".toList,
    uri := some "http://www.w3.org/TR/xhtml1/DTD/xhtml1-frameset.dtd".toList },
  { name := "xhtmlbasic11".toList, fpi := "-//W3C//DTD XHTML Basic 1.1//EN".toList,
    uri := some "http://www.w3.org/TR/xhtml-basic/xhtml-basic11.dtd".toList },
  { name := "xhtmlmobile12".toList, fpi := "-//WAPFORUM//DTD XHTML Mobile 1.2//EN".toList,
    uri := some "http://www.openmobilealliance.org/tech/DTD/xhtml-mobile12.dtd".toList },
  { name := "html4transitional".toList, fpi := "-//W3C//DTD HTML 4.01 Transitional//EN".toList,
    uri := some "http://www.w3.org/TR/html4/loose.dtd".toList, mode := "html".toList },
  { name := "html4strict".toList, fpi := "-//W3C//DTD HTML 4.01//EN".toList,
    uri := some "http://www.w3.org/TR/html4/strict.dtd".toList, mode := "html".toList },
  { name := "html4frameset".toList, fpi := "-//W3C//DTD HTML 4.01 Frameset//EN".toList,
    uri := some "http://www.w3.org/TR/html4/frameset.dtd".toList, mode := "html".toList }]

/-- `by_uri[dtd.uri] = dtd` for each DTD in turn (`kajiki/doctype.py` 122): a later DTD with the
same URI would replace the earlier one in place.  Python 3.7+ dictionaries keep insertion order. -/
def registerDtd (reg : List (Option Str × Dtd)) (d : Dtd) : List (Option Str × Dtd) :=
  if reg.any (·.1 == d.uri) then reg.map fun e => if e.1 == d.uri then (e.1, d) else e
  else reg ++ [(d.uri, d)]

/-- `DocumentTypeDeclaration.by_uri` after import. -/
def byUri : List (Option Str × Dtd) := dtds.foldl registerDtd []

/-- `DocumentTypeDeclaration.matching` (`kajiki/doctype.py` 70-79). -/
def matching (dtdString : Str) : Option Dtd :=
  (byUri.map (·.2)).find? fun d => patMatch (compileDtd d.str) dtdString

/-- Mode selection in `_Compiler.__init__` (`kajiki/xml_template.py` 88-95); `mode = None` is `[]`
here, which Python also treats as false. -/
def selectMode (mode dtdString : Str) : Str :=
  if !mode.isEmpty then mode
  else match matching dtdString with
    | some d => d.mode
    | none => "xml".toList

end Kajiki

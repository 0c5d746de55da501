import Verif.Model.EntityTable

/-!
# `kajiki/entities.py` and `xml.sax.saxutils.escape`
-/

namespace Kajiki

/-- `html5.get(s)` -/
def html5Get (s : Str) : Option Str :=
  (html5Table.find? fun e => e.1 == s.map Char.toNat).map fun e => e.2.map Char.ofNat

/-- One character of `xml.sax.saxutils.escape`: `&`, `>` and `<` are replaced, in that order, so
each source character is treated independently. -/
def saxEscapeChar (c : Char) : Str :=
  if c = '&' then "&amp;".toList
  else if c = '>' then "&gt;".toList
  else if c = '<' then "&lt;".toList
  else [c]

/-- `xml.sax.saxutils.escape(data)` (used in `kajiki/xml_template.py` 658). -/
def saxEscape (s : Str) : Str := s.flatMap saxEscapeChar

/-- `[0-9a-fA-F]` -/
def isHex (c : Char) : Bool :=
  ('0' ≤ c && c ≤ '9') || ('a' ≤ c && c ≤ 'f') || ('A' ≤ c && c ≤ 'F')

/-- `\w` with `re.ASCII` -/
def isWordAscii (c : Char) : Bool :=
  ('0' ≤ c && c ≤ '9') || ('a' ≤ c && c ≤ 'z') || ('A' ≤ c && c ≤ 'Z') || c == '_'

/-- `(?:[0-9a-fA-F]+;|\w{1,32};?)` at the start of `t`: length of the match. -/
def entityBody (t : Str) : Option Nat :=
  let h := t.takeWhile isHex
  if !h.isEmpty && (t.drop h.length).head? == some ';' then some (h.length + 1)
  else
    let w := (t.takeWhile isWordAscii).take 32
    if w.isEmpty then none
    else if (t.drop w.length).head? == some ';' then some (w.length + 1)
    else some w.length

/-- `#?[xX]?(?:...)` at the start of `s`, the text after `&` (`kajiki/entities.py` 15-16): length of
group 1.  Optional parts are tried present first.  (Leaving out a `#` that is there cannot match:
`#` starts neither alternative.) -/
def entityAt (s : Str) : Option Nat :=
  let (k, t) := match s with
    | '#' :: t => (1, t)
    | _ => (0, s)
  let withX := match t with
    | c :: u => if c = 'x' || c = 'X' then (entityBody u).map (· + 1) else none
    | [] => none
  match withX with
  | some n => some (n + k)
  | none => (entityBody t).map (· + k)

/-- Value of a digit in a base up to 16. -/
def digitVal (c : Char) : Option Nat :=
  if '0' ≤ c && c ≤ '9' then some (c.toNat - '0'.toNat)
  else if 'a' ≤ c && c ≤ 'f' then some (c.toNat - 'a'.toNat + 10)
  else if 'A' ≤ c && c ≤ 'F' then some (c.toNat - 'A'.toNat + 10)
  else none

/-- Digits with single underscores between them; `us` says whether an underscore may come now. -/
def pyDigits (base : Nat) : Bool → Nat → Str → Option Nat
  | us, acc, [] => if us then some acc else none
  | us, acc, c :: s =>
    if c = '_' then (if us then (match s with
        | [] => none
        | d :: _ => if d = '_' then none else pyDigits base false acc s) else none)
    else match digitVal c with
      | some v => if v < base then pyDigits base true (acc * base + v) s else none
      | none => none

/-- `int(s, base)` for `s` made of word characters, base 10 or 16; `none` is `ValueError`. -/
def pyInt (base : Nat) (s : Str) : Option Nat :=
  match base, s with
  | 16, '0' :: 'x' :: t => match t with
    | '_' :: u => pyDigits 16 false 0 u
    | _ => pyDigits 16 false 0 t
  | 16, '0' :: 'X' :: t => match t with
    | '_' :: u => pyDigits 16 false 0 u
    | _ => pyDigits 16 false 0 t
  | _, _ => pyDigits base false 0 s

/-- `s.rstrip(';')` -/
def rstripSemi (s : Str) : Str := (s.reverse.dropWhile (· == ';')).reverse

/-- The loop over prefixes of an unterminated name (`kajiki/entities.py` 40-44): shortest first. -/
def prefixEntity (s : Str) : List Nat → Str
  | [] => '&' :: s
  | x :: xs => match html5Get (s.take x) with
    | some v => v ++ s.drop x
    | none => prefixEntity s xs

/-- `_replace_entities` (`kajiki/entities.py` 21-45) on group 1, which is not empty.  A number that
does not fit a C `int` makes `chr` raise `OverflowError`, which is not caught.  (Simplified: a
surrogate code point, for which Python returns a lone surrogate, gives U+0000 here.) -/
def replaceEntity (g : Str) : Except Err Str :=
  match g with
  | '#' :: s =>
    let num := match s with
      | c :: t => if c = 'x' || c = 'X' then pyInt 16 (rstripSemi t) else pyInt 10 (rstripSemi s)
      | [] => none
    match num with
    | none => .ok ('&' :: '#' :: s)
    | some c =>
      if c < 0x110000 then .ok [Char.ofNat c]
      else if c < 2 ^ 31 then .ok ('&' :: '#' :: s)
      else .error .overflow
  | _ =>
    match html5Get g with
    | some v => .ok v
    | none =>
      if g.getLast? = some ';' then .ok ('&' :: g)
      else .ok (prefixEntity g ((List.range g.length).drop 2))

/-- `UNESCAPE_RE.sub(_replace_entities, s)`; `skip` counts characters of a match still to pass. -/
def unescapeAux : Nat → Str → Except Err Str
  | _, [] => .ok []
  | n + 1, _ :: s => unescapeAux n s
  | 0, c :: s =>
    if c = '&' then
      match entityAt s with
      | some n =>
        match replaceEntity (s.take n) with
        | .error e => .error e
        | .ok r => (unescapeAux n s).map (r ++ ·)
      | none => (unescapeAux 0 s).map (c :: ·)
    else (unescapeAux 0 s).map (c :: ·)

/-- `unescape` (`kajiki/entities.py` 10-14). -/
def unescape (s : Str) : Except Err Str :=
  if s.contains '&' then unescapeAux 0 s else .ok s

/-- `_Parser.skippedEntity` (`kajiki/xml_template.py` 669-681): the characters for `&name;`. -/
def skippedEntity (name : Str) : Except Err Str :=
  let name := match name.getLast? with
    | some ';' => name
    | some _ => name ++ [';']
    | none => name
  match html5Get name with
  | some v => .ok v
  | none => .error .key

end Kajiki

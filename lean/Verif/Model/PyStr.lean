/-!
# Python string primitives

Transcription of the `str` methods kajiki calls.  Text is a list of Unicode
scalar values.  These are facts about Python (3.7+), part of the trusted base;
lone surrogates, which Python `str` may contain, are not represented.
-/

namespace Kajiki

/-- Python `str` values. -/
abbrev Str := List Char

/-- Errors raised by kajiki or by Python, as values.  Only the class matters. -/
inductive Err
  | assertion | syntax | index | key | type | value | attr | name | unbound
  | compile (msg : Str) | ioError | recursion | overflow | user (tag : Nat)
deriving DecidableEq, Repr, Inhabited

deriving instance DecidableEq for Except

/-- `str.isspace` for one character; the same set is matched by `\s` in `re`.
Python's Unicode whitespace table. -/
def isSpace (c : Char) : Bool :=
  let n := c.toNat
  (0x09 ≤ n && n ≤ 0x0d) || (0x1c ≤ n && n ≤ 0x20) || n == 0x85 || n == 0xa0 ||
  n == 0x1680 || (0x2000 ≤ n && n ≤ 0x200a) || n == 0x2028 || n == 0x2029 ||
  n == 0x202f || n == 0x205f || n == 0x3000

/-- `str.lstrip()` -/
def lstrip (s : Str) : Str := s.dropWhile isSpace

/-- `str.rstrip()` -/
def rstrip (s : Str) : Str := (s.reverse.dropWhile isSpace).reverse

/-- `str.strip()` -/
def strip (s : Str) : Str := rstrip (lstrip s)

/-- `s.count('\n')` -/
def countNL (s : Str) : Nat := s.count '\n'

/-- `s.replace(c, r)` for a one-character pattern. -/
def replaceChar (c : Char) (r : Str) (s : Str) : Str :=
  s.flatMap fun x => if x = c then r else [x]

/-- `s.replace(pat, rep)` for a non-empty pattern: leftmost, non-overlapping.
`skip` counts the characters of an occurrence still to be dropped. -/
def replaceAux (pat rep : Str) : Nat → Str → Str
  | _, [] => []
  | n + 1, _ :: s => replaceAux pat rep n s
  | 0, c :: s =>
    if pat.isPrefixOf (c :: s) then rep ++ replaceAux pat rep (pat.length - 1) s
    else c :: replaceAux pat rep 0 s

/-- `s.replace(pat, rep)` (non-empty `pat`). -/
def replace (pat rep s : Str) : Str := replaceAux pat rep 0 s

/-- `s.find(pat)`: index of the first occurrence. -/
def find (pat : Str) : Str → Option Nat
  | [] => if pat.isEmpty then some 0 else none
  | c :: s =>
    if pat.isPrefixOf (c :: s) then some 0 else (find pat s).map (· + 1)

/-- `s.find(pat, start)`: index of the first occurrence at or after `start`. -/
def findFrom (pat s : Str) (start : Nat) : Option Nat :=
  (find pat (s.drop start)).map (· + start)

/-- `s[a:b]` with `0 ≤ a`, `0 ≤ b`. -/
def slice (s : Str) (a b : Nat) : Str := (s.take b).drop a

/-- Characters at which `str.splitlines` splits. -/
def isLineBreak (c : Char) : Bool :=
  let n := c.toNat
  (0x0a ≤ n && n ≤ 0x0d) || (0x1c ≤ n && n ≤ 0x1e) || n == 0x85 ||
  n == 0x2028 || n == 0x2029

/-- `str.splitlines()`: `cur` is the current line, reversed; `cr` says that the
previous character was a `\r` that already ended a line (so a `\n` is skipped). -/
def splitlinesAux : Bool → Str → Str → List Str
  | _, cur, [] => if cur.isEmpty then [] else [cur.reverse]
  | cr, cur, c :: s =>
    if c = '\n' && cr then splitlinesAux false [] s
    else if isLineBreak c then cur.reverse :: splitlinesAux (c = '\r') [] s
    else splitlinesAux false (c :: cur) s

/-- `str.splitlines()` -/
def splitlines (s : Str) : List Str := splitlinesAux false [] s

/-- `sep.join(parts)` -/
def join (sep : Str) (parts : List Str) : Str := sep.intercalate parts

/-- `str.lower()` restricted to ASCII letters (attribute names are ASCII here). -/
def lowerAscii (s : Str) : Str := s.map Char.toLower

/-- Codepoint-lexicographic `<` on strings, as Python compares `str`. -/
def strLt : Str → Str → Bool
  | [], [] => false
  | [], _ :: _ => true
  | _ :: _, [] => false
  | a :: s, b :: t => if a.toNat < b.toNat then true else if a = b then strLt s t else false

end Kajiki

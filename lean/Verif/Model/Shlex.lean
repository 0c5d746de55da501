import Verif.Model.PyStr

/-!
# `shlex.split`

Transcription of Python's `shlex.shlex.read_token` with `posix=True`, `whitespace_split=True` and no
comment characters, as `shlex.split(s)` uses it.  Called by `kajiki/text.py` 269, 276, 285.
-/

namespace Kajiki

/-- The states of the reader: before a word, in a word, in quotes, after a backslash (with the state
to return to). -/
inductive ShState
  | start
  | word
  | quoted (q : Char)
  | escape (back : Option Char)
deriving DecidableEq, Repr

/-- `shlex.whitespace` -/
def shSpace (c : Char) : Bool := c == ' ' || c == '\t' || c == '\r' || c == '\n'

/-- `shlex.quotes` -/
def shQuote (c : Char) : Bool := c == '\'' || c == '"'

/-- Read all words; `tok` is the current word reversed, `q` tells that it contains quotes. -/
def shlexAux : ShState → (tok : Str) → (q : Bool) → Str → Except Err (List Str)
  | .start, tok, q, [] => .ok (if tok.isEmpty && !q then [] else [tok.reverse])
  | .word, tok, q, [] => .ok (if tok.isEmpty && !q then [] else [tok.reverse])
  | .quoted _, _, _, [] => .error .value
  | .escape _, _, _, [] => .error .value
  | .start, tok, q, c :: s =>
    if shSpace c then
      if tok.isEmpty && !q then shlexAux .start [] false s
      else (shlexAux .start [] false s).map (tok.reverse :: ·)
    else if c == '\\' then shlexAux (.escape none) tok q s
    else if shQuote c then shlexAux (.quoted c) tok true s
    else shlexAux .word (c :: tok) q s
  | .word, tok, q, c :: s =>
    if shSpace c then
      if tok.isEmpty && !q then shlexAux .start [] false s
      else (shlexAux .start [] false s).map (tok.reverse :: ·)
    else if shQuote c then shlexAux (.quoted c) tok true s
    else if c == '\\' then shlexAux (.escape none) tok q s
    else shlexAux .word (c :: tok) q s
  | .quoted d, tok, q, c :: s =>
    if c == d then shlexAux .word tok q s
    else if c == '\\' && d == '"' then shlexAux (.escape (some d)) tok q s
    else shlexAux (.quoted d) (c :: tok) q s
  | .escape none, tok, q, c :: s => shlexAux .word (c :: tok) q s
  | .escape (some d), tok, q, c :: s =>
    if c != '\\' && c != d then shlexAux (.quoted d) (c :: '\\' :: tok) q s
    else shlexAux (.quoted d) (c :: tok) q s

/-- `shlex.split(s)` -/
def shlexSplit (s : Str) : Except Err (List Str) := shlexAux .start [] false s

end Kajiki

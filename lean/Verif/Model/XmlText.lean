import Verif.Model.Ir

/-!
# Expressions in text (`kajiki/xml_template.py` 457-572)

Python's `compile(text, …, 'eval')` is an oracle: `none` when the text compiles, `some (lineno, offset)`
of the `SyntaxError` otherwise.  (Other exceptions of `compile`, and syntax errors without a position,
are not modelled.)
-/

namespace Kajiki

/-- Does a text compile as an expression, and if not, where is the error. -/
abbrev PyCompile := Str → Option (Nat × Nat)

/-- `[_a-z]` with `IGNORECASE`: besides ASCII letters, four characters whose case variants are ASCII
letters. -/
def isNameStart (c : Char) : Bool :=
  let n := c.toNat
  c == '_' || (0x61 ≤ n && n ≤ 0x7a) || (0x41 ≤ n && n ≤ 0x5a) ||
    n == 0x130 || n == 0x131 || n == 0x17f || n == 0x212a

/-- `[_a-z0-9.]` with `IGNORECASE` -/
def isNameChar (c : Char) : Bool := isNameStart c || ('0' ≤ c && c ≤ '9') || c == '.'

/-- What follows a `$`. -/
inductive DKind
  | named (name : Str)
  | braced
  | dollar
deriving DecidableEq, Repr

/-- `_pattern` at the start of a text (`kajiki/xml_template.py` 503-508), with the match length.  The
alternatives start with different characters. -/
def dollarAt : Str → Option (DKind × Nat)
  | '$' :: '{' :: _ => some (.braced, 2)
  | '$' :: '$' :: _ => some (.dollar, 2)
  | '$' :: c :: s =>
    if isNameStart c then
      some (.named (c :: s.takeWhile isNameChar), 2 + (s.takeWhile isNameChar).length)
    else none
  | _ => none

/-- `_re_pattern.finditer(source)`: start, end and kind of all matches.  `skip` counts the characters of
the current match still to be passed. -/
def dollars : (skip pos : Nat) → Str → List (Nat × Nat × DKind)
  | _, _, [] => []
  | n + 1, pos, _ :: s => dollars n (pos + 1) s
  | 0, pos, c :: s =>
    match dollarAt (c :: s) with
    | some (k, len) => (pos, pos + len, k) :: dollars (len - 1) (pos + 1) s
    | none => dollars 0 (pos + 1) s

/-- Where the error is in the text after `pos` (`kajiki/xml_template.py` 546-551). -/
def errorEnd (text : Str) (pos lineno offset : Nat) : Nat :=
  pos + offset + ((splitlines text).take (lineno - 1)).foldl (fun n l => n + (l.length + 1)) 0

/-- `_get_braced_expr` (`kajiki/xml_template.py` 534-572) from the position after `${`: the expression and
the new position. -/
def bracedExpr (py : PyCompile) (src : Str) (pos : Nat) : Except Err (Str × Nat) :=
  let pos := pos + ((src.drop pos).length - (lstrip (src.drop pos)).length)
  match py (src.drop pos) with
  | none => .error (.compile "Braced expression not terminated".toList)
  | some (lineno, offset) =>
    let stop := errorEnd (src.drop pos) pos lineno offset
    match (slice src pos stop).getLast? with
    | none => .error .index
    | some c =>
      if c ≠ '}' then .error (.compile "can't compile".toList)
      else match py (slice src pos (stop - 1)) with
        | some _ => .error (.compile "invalid python expression".toList)
        | none => .ok (slice src pos (stop - 1), stop)

/-- How text becomes nodes: `translate` is `make_text_node` (`kajiki/xml_template.py` 457-465) against
plain `TextNode`; `safe` is `in_html_attr`. -/
structure TextMode where
  translate : Bool
  safe : Bool
deriving DecidableEq, Repr

/-- `_TextCompiler.text` (`kajiki/xml_template.py` 485-489). -/
def textNode (m : TextMode) (t : Str) (ln : Nat) : Ir :=
  if m.translate && !(strip t).isEmpty then .trans t ln else .text t none ln

/-- `_TextCompiler.expr` (`kajiki/xml_template.py` 491-497). -/
def exprNode (m : TextMode) (t : Str) (ln : Nat) : Ir := .expr t m.safe ln

/-- Put nodes in front. -/
def prepend (xs : List Ir) : Except Err (List Ir) → Except Err (List Ir)
  | .ok ys => .ok (xs ++ ys)
  | .error e => .error e

/-- The text between the position and a match, if any, and the number of newlines in it
(`kajiki/xml_template.py` 516-517). -/
def textBefore (m : TextMode) (src : Str) (pos start ln : Nat) : List Ir × Nat :=
  if start > pos then ([textNode m (slice src pos start) ln], countNL (slice src pos start)) else ([], 0)

/-- The loop of `_TextCompiler.__iter__` (`kajiki/xml_template.py` 512-532); `ln` is `real_lineno`.
`finditer` goes on after each match whatever `pos` becomes. -/
def textLoop (py : PyCompile) (m : TextMode) (src : Str) :
    (pos ln : Nat) → List (Nat × Nat × DKind) → Except Err (List Ir)
  | pos, ln, [] => .ok (if pos ≠ src.length then [textNode m (src.drop pos) ln] else [])
  | pos, ln, (start, stop, k) :: ms =>
    let b := textBefore m src pos start ln
    let ln := ln + b.2
    match k with
    | .braced =>
      match bracedExpr py src stop with
      | .error e => .error e
      | .ok (t, pos') => prepend (b.1 ++ [exprNode m t ln]) (textLoop py m src pos' (ln + countNL t) ms)
    | .named t => prepend (b.1 ++ [exprNode m t ln]) (textLoop py m src stop (ln + countNL t) ms)
    | .dollar => prepend (b.1 ++ [textNode m ['$'] ln]) (textLoop py m src stop ln ms)

/-- `list(_TextCompiler(…))` -/
def compileTextSrc (py : PyCompile) (m : TextMode) (src : Str) (ln : Nat) : Except Err (List Ir) :=
  textLoop py m src 0 ln (dollars 0 0 src)

end Kajiki

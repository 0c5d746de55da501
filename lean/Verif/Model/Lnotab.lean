import Verif.Model.PyStr

/-!
# Line number tables (`kajiki/lnotab.py`) and their use in `kajiki/template.py`

Offsets and line numbers are natural numbers; a failed `assert` is `Err.assertion`.
-/

namespace Kajiki.Lnotab
open Kajiki

/-- `while d > 255: yield 255; yield 0; d -= 255` followed by `yield d`
(`kajiki/lnotab.py` 73-78 for the byte delta, 78-82 for the line delta: both loops
emit the same integers).  `fuel` bounds the iterations; `d` of them always suffice
because each one subtracts 255. -/
def wideAux : Nat → Nat → List Nat
  | 0, d => [d]
  | fuel + 1, d => if d > 255 then 255 :: 0 :: wideAux fuel (d - 255) else [d]

/-- See `wideAux`. -/
def wide (d : Nat) : List Nat := wideAux d d

/-- The body of the loop of `lnotab` (`kajiki/lnotab.py` 68-83). -/
def encodeFrom : Nat → Nat → List (Nat × Nat) → Except Err (List Nat)
  | _, _, [] => .ok []
  | curByte, curLine, (b, l) :: rest =>
    if b < curByte then .error .assertion
    else if l < curLine then .error .assertion
    else match encodeFrom b l rest with
      | .error e => .error e
      | .ok bs => .ok (wide (b - curByte) ++ wide (l - curLine) ++ bs)

/-- `lnotab(pairs, first_lineno)` (`kajiki/lnotab.py` 64-83); `pairs[0]` on an empty
list is an `IndexError`. -/
def encode (pairs : List (Nat × Nat)) (first : Nat) : Except Err (List Nat) :=
  match pairs with
  | [] => .error .index
  | (_, l) :: _ => if first ≤ l then encodeFrom 0 first pairs else .error .assertion

/-- `lnotab_string` (`kajiki/lnotab.py` 86-87): `int2byte` raises `ValueError`
outside 0..255. -/
def lnotabString (pairs : List (Nat × Nat)) (first : Nat) : Except Err (List Nat) :=
  match encode pairs first with
  | .error e => .error e
  | .ok bs => if bs.all (· ≤ 255) then .ok bs else .error .value

/-- `byte_pairs` (`kajiki/lnotab.py` 90-93); an odd length is an `IndexError`. -/
def bytePairs : List Nat → Except Err (List (Nat × Nat))
  | [] => .ok []
  | [_] => .error .index
  | a :: b :: rest => match bytePairs rest with
    | .error e => .error e
    | .ok ps => .ok ((a, b) :: ps)

/-- The loop of `lnotab_numbers` (`kajiki/lnotab.py` 96-109) over the byte pairs. -/
def numbersFrom : Option Nat → Nat → Nat → List (Nat × Nat) → List (Nat × Nat)
  | last, curByte, curLine, [] =>
    if some curLine ≠ last then [(curByte, curLine)] else []
  | last, curByte, curLine, (bd, ld) :: rest =>
    if bd ≠ 0 then
      if some curLine ≠ last then
        (curByte, curLine) :: numbersFrom (some curLine) (curByte + bd) (curLine + ld) rest
      else numbersFrom last (curByte + bd) (curLine + ld) rest
    else numbersFrom last curByte (curLine + ld) rest

/-- `lnotab_numbers(lnotab, first_lineno)` (`kajiki/lnotab.py` 96-109). -/
def numbers (tab : List Nat) (first : Nat) : Except Err (List (Nat × Nat)) :=
  match bytePairs tab with
  | .error e => .error e
  | .ok ps => .ok (numbersFrom none 0 first ps)

/-- The computation of `py_linenos` in `from_ir` (`kajiki/template.py` 314-319): the
`i`-th generated line gets the maximum of its own recorded line and all earlier
ones.  The result lists the template line of Python lines 1, 2, 3, ... -/
def pyLinenos : Nat → List (Option Nat) → List Nat
  | _, [] => []
  | last, l :: rest =>
    let lno := max last (l.getD 0)
    lno :: pyLinenos lno rest

/-- `dict(py_to_tpl).get(py_lno)` where `py_to_tpl` pairs line `i + 1` with the
`i`-th entry (`kajiki/template.py` 318, 262-265). -/
def tplLine (linenos : List Nat) (pyLno : Nat) : Option Nat :=
  if pyLno = 0 then none else linenos[pyLno - 1]?

/-- Result of `TplFunc.annotate_lnotab`: either the code object is left alone or it
gets a new first line and a new table. -/
inductive Annot
  | unchanged
  | patched (first : Nat) (tab : List Nat)
deriving DecidableEq, Repr

/-- `TplFunc.annotate_lnotab` (`kajiki/template.py` 381-400) on a code object with
line table `tab` and first line `first`; building the patched code object is not
modelled beyond its line data. -/
def annotate (linenos : List Nat) (tab : List Nat) (first : Nat) : Except Err Annot :=
  if linenos.isEmpty then .ok .unchanged else
  match numbers tab first with
  | .error e => .error e
  | .ok ns =>
    let new := ns.filterMap fun (off, lno) => (tplLine linenos lno).map fun t => (off, t)
    if new.isEmpty then .ok .unchanged else
    let newFirst := (tplLine linenos first).getD 0
    match lnotabString new newFirst with
    | .error e => .error e
    | .ok t => .ok (.patched newFirst t)

end Kajiki.Lnotab

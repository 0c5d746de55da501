import Verif.Model.Value

/-!
# `kajiki/util.py`: name generation and the sliding window;
`kajiki/ir.py`: splitting `py:with` assignments and dedenting Python blocks
-/

namespace Kajiki

/-- `'%s_%d' % (hint, n)` (`kajiki/util.py` 105). -/
def candidate (hint : Str) (n : Nat) : Str := hint ++ '_' :: natStr n

/-- The `while` loop of `NameGen._gen` (`kajiki/util.py` 102-107).  `names` is the set of names
handed out so far, `draws` the results of successive `randint` calls: draw `r` stands for
`randint(0, b) = r % (b + 1)`, so every in-range sequence of results is covered.  `none` means
that the loop is still running when the draws are used up. -/
def genLoop (hint : Str) (names : List Str) : Str → List Nat → Option (Str × List Nat)
  | r, [] => if r ∈ names then none else some (r, [])
  | r, d :: draws =>
    if r ∈ names then
      genLoop hint names (candidate hint (d % (names.length * 10 + 1))) draws
    else some (r, d :: draws)

/-- `NameGen._gen` (`kajiki/util.py` 102-107): the new name, the updated set, remaining draws. -/
def genName (names : List Str) (hint : Str) (draws : List Nat) :
    Option (Str × List Str × List Nat) :=
  match genLoop hint names hint draws with
  | none => none
  | some (r, draws') => some (r, r :: names, draws')

/-- A history of `gen_name(hint)` calls in one thread (`kajiki/util.py` 96-111; the instance is
thread-local).  Returns the names handed out, in order, until the draws are used up. -/
def genNames : List Str → List Str → List Nat → List Str
  | _, [], _ => []
  | names, hint :: hints, draws =>
    match genName names hint draws with
    | none => []
    | some (r, names', draws') => r :: genNames names' hints draws'

/-- `push` on a deque with `maxlen` (`kajiki/util.py` 116-120). -/
def dequePush {α} (l : List α) (x : α) : List α := l.tail ++ [x]

/-- The windows yielded after the first one (`kajiki/util.py` 119-121). -/
def windowRest {α} (l : List (Option α)) : List α → List (List (Option α))
  | [] => []
  | x :: xs => dequePush l (some x) :: windowRest (dequePush l (some x)) xs

/-- `window(seq, n)` (`kajiki/util.py` 114-121).  The generator yields the same mutable deque
every time; the model lists its content at each step, which is what a consumer that looks at
each window before asking for the next one sees (`kajiki/ir.py` 221-224 does). `n ≥ 1`. -/
def window {α} (n : Nat) (seq : List α) : List (List (Option α)) :=
  let first := (seq.take n).map some ++ List.replicate (n - seq.length) none
  first :: windowRest first (seq.drop n)

/-! ## `WithNode`: splitting `vars` into assignments -/

/-- `[^;=]` -/
def notSemiEq (c : Char) : Bool := c != ';' && c != '='

/-- `\s*([^;=]+)=(?!=)` at the start of `s` (`kajiki/ir.py` 205).  Both repetitions are greedy and
`[^;=]` contains `\s`, so a match takes the maximal run of `[^;=]`, which must be non-empty and
followed by `=` that is not followed by `=`.  Returns `group(1).strip()` and the match length.
(When the run is all whitespace, backtracking leaves its last character to the group; its
`strip()` is empty, as is the `strip()` of the run.) -/
def assignAt (s : Str) : Option (Str × Nat) :=
  let run := s.takeWhile notSemiEq
  match run, s.dropWhile notSemiEq with
  | [], _ => none
  | _, '=' :: '=' :: _ => none
  | _, '=' :: _ => some (strip run, run.length + 1)
  | _, _ => none

/-- `(?:^|;)\s*([^;=]+)=(?!=)` at a position; `bol` says whether `^` matches there. -/
def withMatchAt (bol : Bool) (s : Str) : Option (Str × Nat) :=
  match (if bol then assignAt s else none) with
  | some m => some m
  | none => match s with
    | ';' :: t => (assignAt t).map fun (l, n) => (l, n + 1)
    | _ => none

/-- `assignment_pattern.finditer(vars)` (`kajiki/ir.py` 205, 220): `(group(1).strip(), start, end)`
of every match.  `skip` counts the characters of the current match still to be passed. -/
def withMatches : (skip : Nat) → (bol : Bool) → (pos : Nat) → Str → List (Str × Nat × Nat)
  | _, _, _, [] => []
  | n + 1, _, pos, c :: s => withMatches n (c == '\n') (pos + 1) s
  | 0, bol, pos, c :: s =>
    match withMatchAt bol (c :: s) with
    | some (lhs, len) => (lhs, pos, pos + len) :: withMatches (len - 1) (c == '\n') (pos + 1) s
    | none => withMatches 0 (c == '\n') (pos + 1) s

/-- The loop body of `WithNode.__init__` (`kajiki/ir.py` 221-224) for one window `m1, m2`; a
missing item is Python's `None`, and `None.group` raises `AttributeError`. -/
def readWindow (vars : Str) : List (Option (Option (Str × Nat × Nat))) → Except Err (Str × Str)
  | [some (some (lhs, _, e1)), some (some (_, s2, _))] => .ok (lhs, slice vars e1 s2)
  | [some (some (lhs, _, e1)), some none] => .ok (lhs, slice vars e1 vars.length)
  | _ => .error .attr

/-- `WithNode.__init__` (`kajiki/ir.py` 217-227): the `(lhs, rhs)` assignments.  When there is no
match the first window is `[None, None]` and `m1.group` raises `AttributeError`. -/
def withAssignments (vars : Str) : Except Err (List (Str × Str)) :=
  let ms := withMatches 0 true 0 vars
  (window 2 (ms.map some ++ [none])).mapM (readWindow vars)

/-! ## `PythonNode`: dedenting -/

/-- The leading whitespace of a line: `line[:len(line) - len(line.lstrip())]`
(`kajiki/ir.py` 426-427). -/
def indentOf (line : Str) : Str := line.takeWhile isSpace

/-- The loop of `PythonNode._normalize` once the prefix is known (`kajiki/ir.py` 424-429). -/
def dedentLines (pre : Str) : List Str → Except Err (List Str)
  | [] => .ok []
  | l :: ls =>
    if pre.isPrefixOf l then
      match dedentLines pre ls with
      | .ok r => .ok (l.drop pre.length :: r)
      | .error e => .error e
    else .error .assertion

/-- `PythonNode._normalize` (`kajiki/ir.py` 420-429), run to the end as `__init__` does. -/
def normalizePy (text : Str) : Except Err (List Str) :=
  let text := if ['#', '\n'].isPrefixOf text then text.drop 2 else text
  match splitlines text with
  | [] => .ok []
  | l :: ls => dedentLines (indentOf l) (l :: ls)

/-- `PythonNode.__init__` (`kajiki/ir.py` 403-414): `(module_level, lines)`. `text[0]` on an empty
text is an `IndexError`. -/
def pythonNode (text : Str) : Except Err (Bool × List Str) :=
  match text with
  | [] => .error .index
  | c :: t =>
    if c = '%' then (normalizePy t).map fun ls => (true, ls)
    else (normalizePy (c :: t)).map fun ls => (false, ls)

end Kajiki

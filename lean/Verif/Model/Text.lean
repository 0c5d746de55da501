import Verif.Model.XmlText
import Verif.Model.Shlex
import Verif.Model.Dict

/-!
# Text templates (`kajiki/text.py`)

As for XML text, Python's `compile(text, …, 'eval')` is an oracle (`PyCompile`).
-/

namespace Kajiki

/-! ## Scanner -/

/-- Tokens (`kajiki/text.py` 317-342) with their line number.  `none` is the `None` that
`_get_braced_expr` returns when everything up to the end of the source is an expression. -/
inductive TTok
  | text (t : Str) (ln : Nat)
  | expr (t : Str) (ln : Nat)
  | tag (name body : Str) (ln : Nat)
  | none
deriving DecidableEq, Repr

/-- Which group of `_pattern` matched. -/
inductive TKind
  | escaped
  | named (name : Str)
  | braced
  | exprInvalid
  | bare (name : Str)
  | bareInvalid
  | ljust (name : Str)
  | begin_ (name : Str)
  | beginInvalid
deriving DecidableEq, Repr

/-- `[a-z]` with `IGNORECASE` -/
def isTagChar (c : Char) : Bool := isNameStart c && c != '_'

/-- `_pattern` (`kajiki/text.py` 33-49) at the start of a text, with the match length; `bol` tells that
`^` matches here.  The alternatives are tried in order; `\s*` is followed by a character that is not
white space, so there is no backtracking. -/
def tagAt (bol : Bool) (s : Str) : Option (TKind × Nat) :=
  let ws := s.takeWhile isSpace
  match s with
  | '$' :: '$' :: _ => some (.escaped, 2)
  | '$' :: '{' :: _ => some (.braced, 2)
  | '$' :: c :: s =>
    if isNameStart c then
      some (.named (c :: s.takeWhile isNameChar), 2 + (s.takeWhile isNameChar).length)
    else some (.exprInvalid, 1)
  | '$' :: [] => some (.exprInvalid, 1)
  | s =>
    match bol, s.dropWhile isSpace with
    | true, '%' :: r =>
      let name := r.takeWhile isTagChar
      if name.isEmpty then some (.bareInvalid, ws.length + 1)
      else some (.bare name, ws.length + 1 + name.length)
    | true, '{' :: '%' :: '-' :: r =>
      let name := r.takeWhile isTagChar
      if name.isEmpty then beginAt s else some (.ljust name, ws.length + 3 + name.length)
    | _, _ => beginAt s
where
  /-- the last alternative -/
  beginAt (s : Str) : Option (TKind × Nat) :=
    match s with
    | '{' :: '%' :: r =>
      let name := r.takeWhile isTagChar
      if name.isEmpty then some (.beginInvalid, 2) else some (.begin_ name, 2 + name.length)
    | _ => none

/-- `_re_pattern.finditer(source)`: start, end and group of all matches.  `skip` counts the characters
of the current match still to be passed. -/
def tagMatches : (skip pos : Nat) → (bol : Bool) → Str → List (Nat × Nat × TKind)
  | _, _, _, [] => []
  | n + 1, pos, _, c :: s => tagMatches n (pos + 1) (c == '\n') s
  | 0, pos, bol, c :: s =>
    match tagAt bol (c :: s) with
    | some (k, len) => (pos, pos + len, k) :: tagMatches (len - 1) (pos + 1) (c == '\n') s
    | none => tagMatches 0 (pos + 1) (c == '\n') s

/-- Tokens, and the exception that ends them, if any.  The scanner is a generator: the parser sees the
tokens before the exception. -/
abbrev Toks := List TTok × Option Err

/-- `yield` -/
def Toks.cons (ts : List TTok) (r : Toks) : Toks := (ts ++ r.1, r.2)

/-- `_get_braced_expr` (`kajiki/text.py` 155-164) from the position after `${`: the token and the new
position.  Line numbers of tokens are those at their end. -/
def scanBraced (py : PyCompile) (src : Str) (pos ln : Nat) : TTok × Nat × Nat :=
  match py (src.drop pos) with
  | none => (.none, pos, ln)
  | some (lineno, offset) =>
    let stop := errorEnd (src.drop pos) pos lineno offset
    let t := slice src pos (stop - 1)
    (.expr t (ln + countNL t), stop, ln + countNL t)

/-- `_get_tag_bare` (`kajiki/text.py` 135-142). -/
def scanBare (src name : Str) (pos ln : Nat) : TTok × Nat × Nat :=
  let stop := (findFrom ['\n'] src pos).getD src.length
  (.tag name (slice src pos stop) (ln + 1), stop + 1, ln + 1)

/-- `_get_tag` (`kajiki/text.py` 144-153); the loop runs off the end of the source with an `IndexError`. -/
def scanTag (src name : Str) (pos ln : Nat) : Except Err (TTok × Nat × Nat) :=
  match findFrom "%}".toList src pos with
  | none => .error .assertion
  | some stop =>
    let body := slice src pos stop
    if body.getLast? = some '-' then
      let rest := src.drop (stop + 2)
      let n := (rest.takeWhile fun c => c == ' ' || c == '\t').length
      if n = rest.length then .error .index
      else .ok (.tag name body.dropLast ln, stop + 2 + n, ln + countNL body)
    else .ok (.tag name body ln, stop + 2, ln + countNL body)

/-- The token for a match, when `pos` was moved to its end (`kajiki/text.py` 84-110). -/
def scanToken (py : PyCompile) (src : Str) (k : TKind) (pos ln : Nat) : Except Err (TTok × Nat × Nat) :=
  match k with
  | .braced => .ok (scanBraced py src pos ln)
  | .named n => .ok (.expr n ln, pos, ln)
  | .escaped => .ok (.text ['$'] ln, pos, ln)
  | .bare n => .ok (scanBare src n pos ln)
  | .ljust n => scanTag src n pos ln
  | .begin_ n => scanTag src n pos ln
  | .exprInvalid | .beginInvalid | .bareInvalid => .error .assertion

/-- The loop of `_Scanner.__iter__` (`kajiki/text.py` 77-112).  Setting `pos` to a smaller value is an
`AssertionError` (117-120): it happens when a match is inside the previous token. -/
def scanLoop (py : PyCompile) (src : Str) : (pos ln : Nat) → List (Nat × Nat × TKind) → Toks
  | pos, ln, [] =>
    (if pos ≠ src.length then [.text (src.drop pos) (ln + countNL (src.drop pos))] else [], none)
  | pos, ln, (start, stop, k) :: ms =>
    let before : List TTok × Nat × Nat :=
      if start > pos then
        let t := slice src pos start
        ([.text t (ln + countNL t)], start, ln + countNL t)
      else ([], pos, ln)
    let pos := before.2.1
    let ln := before.2.2
    if k = .bareInvalid then Toks.cons before.1 (scanLoop py src pos ln ms)
    else if k = .exprInvalid ∨ k = .beginInvalid ∨ stop < pos then (before.1, some .assertion)
    else match scanToken py src k stop ln with
      | .error e => (before.1, some e)
      | .ok (t, pos, ln) => Toks.cons (before.1 ++ [t]) (scanLoop py src pos ln ms)

/-- `list(_Scanner(…))` -/
def scan (py : PyCompile) (src : Str) : Toks := scanLoop py src 0 1 (tagMatches 0 0 true src)

/-! ## Parser -/

/-- `_unescape_newlines` (`kajiki/text.py` 345-354); a backslash at the end is an `IndexError`. -/
def unescapeNewlines : Str → Except Err Str
  | [] => .ok []
  | '\\' :: [] => .error .index
  | '\\' :: c :: s => (unescapeNewlines s).map fun r => if c = '\n' then r else c :: r
  | c :: s => (unescapeNewlines s).map (c :: ·)

/-- The registries of `_Parser` (`kajiki/text.py` 168-176), and the counter behind `gen_name`. -/
structure TState where
  funs : Dict (List Ir)
  modPy : List (List Str × Nat)
  inDef : Bool
  isChild : Bool
  fresh : Nat

/-- What stays the same during parsing: `autoescape`, the exception at the end of the tokens, and the
names made by `gen_name`. -/
structure TEnv where
  autoescape : Bool
  err : Option Err
  gen : Nat → Str

/-- What `list(self._parse_body(…))` gives: the nodes (`none` for `None`), the last element (the stop tag, or
`none` at the end), the remaining tokens and the registries. -/
abbrev TBody := Except Err (List (Option Ir) × Option TTok × List TTok × TState)

/-- One more node in front. -/
def TBody.cons (x : Option Ir) : TBody → TBody
  | .error e => .error e
  | .ok r => .ok (x :: r.1, r.2)

/-- `tuple(x for x in body if x is not None)` (`kajiki/ir.py` 52) -/
def present (xs : List (Option Ir)) : List Ir := xs.filterMap id

/-- `PythonNode(*body)` (`kajiki/ir.py` 403-414): all nodes must be texts. -/
def pythonText : List (Option Ir) → Except Err Str
  | [] => .ok []
  | some (.text t _ _) :: xs => (pythonText xs).map (t ++ ·)
  | _ => .error .assertion

/-- `_parse_py` after the body is known (`kajiki/text.py` 296-301). -/
def finishPy (body : Str) (st : TState) : Except Err (Option Ir × TState) :=
  (pythonNode body).map fun p =>
    if p.1 then (none, { st with modPy := st.modPy ++ [(p.2, 0)] }) else (some (.python p.2 0), st)

/-- `_parse_block` after the body is known (`kajiki/text.py` 303-314). -/
def finishTextBlock (name : Str) (body : List Ir) (st : TState) : Except Err (Option Ir × TState) :=
  let fname := "_kj_block_".toList ++ strip name
  let decl := fname ++ "()".toList
  if st.isChild then
    (pythonNode ("parent_block=parent.".toList ++ fname)).map fun p =>
      (none, { st with funs := st.funs.set decl (.python p.2 0 :: body) })
  else .ok (some (.expr decl false 0), { st with funs := st.funs.set decl body })

/-- `$caller(…)` and the call (`kajiki/text.py` 232-236). -/
def splitCall (body : Str) : Except Err (Str × Str) :=
  match find ['('] body with
  | none => .error .assertion
  | some b =>
    match findFrom [')'] body b with
    | none => .error .assertion
    | some e => .ok ("$caller".toList ++ slice body b (e + 1), strip (body.drop (e + 1)))

/-- `shlex_split(token.body)` with exactly one word (`kajiki/text.py` 269-271, 285-287). -/
def oneWord (body : Str) : Except Err Str :=
  match shlexSplit body with
  | .error e => .error e
  | .ok [] => .error .index
  | .ok [w] => .ok w
  | .ok _ => .error .assertion

/-- `_parse_import` (`kajiki/text.py` 275-282); words after the third are ignored. -/
def importWords (body : Str) : Except Err (Str × Option Str) :=
  match shlexSplit body with
  | .error e => .error e
  | .ok [] => .error .index
  | .ok [w] => .ok (w, none)
  | .ok (w :: a :: rest) =>
    if a = "as".toList then
      match rest with
      | [] => .error .index
      | x :: _ => .ok (w, some x)
    else .error .assertion

/-- The tags with a method `_parse_…`. -/
inductive TTag
  | defn | call | ifT | forT | switch | case | elseT | extends | imp | incl | py | block
  /-- `%body` finds the method `_parse_body`: the node is a generator that yields `None` when the code is
  generated -/
  | body
deriving DecidableEq, Repr

/-- The methods by name. -/
def textTags : Dict TTag :=
  [("def".toList, .defn), ("call".toList, .call), ("if".toList, .ifT), ("for".toList, .forT),
   ("switch".toList, .switch), ("case".toList, .case), ("else".toList, .elseT), ("extends".toList, .extends),
   ("import".toList, .imp), ("include".toList, .incl), ("py".toList, .py), ("block".toList, .block),
   ("body".toList, .body)]

/-- `end` -/
def endTagName : Str := "end".toList
/-- `else` -/
def elseTagName : Str := "else".toList
/-- `case` -/
def caseTagName : Str := "case".toList

/-- A body up to `end`, made into a node. -/
def bodyNode (r : TBody) (f : List Ir → Ir) : Except Err (Option Ir × List TTok × TState) :=
  r.map fun r => (some (f (present r.1)), r.2.2)

/-- `_parse_if` after its body (`kajiki/text.py` 245-248): at the end of the source `None.tagname` is an
`AttributeError`. -/
def finishIf (test : Str) : TBody → Except Err (Option Ir × List TTok × TState)
  | .error e => .error e
  | .ok (xs, some (.tag n b l), ts, st) =>
    .ok (some (.ifN test (present xs) 0), if n = elseTagName then .tag n b l :: ts else ts, st)
  | .ok (_, _, _, _) => .error .attr

/-- `_parse_case` after its body (`kajiki/text.py` 260-262); at the end of the source `None` is put back. -/
def finishCase (value : Str) : TBody → Except Err (Option Ir × List TTok × TState)
  | .error e => .error e
  | .ok (xs, stop, ts, st) => .ok (some (.caseN value (present xs) 0), stop.getD .none :: ts, st)

/-- `_parse_<tag>` (`kajiki/text.py` 221-314); `rec` is `list(self._parse_body(*stoptags))`. -/
def parseTag (env : TEnv) (rec : List Str → List TTok → TState → TBody) (t : TTag) (body : Str)
    (ts : List TTok) (st : TState) : Except Err (Option Ir × List TTok × TState) :=
  match t with
  | .defn =>
    (rec [endTagName] ts { st with inDef := true }).map fun r =>
      let st' := { r.2.2.2 with inDef := st.inDef }
      if st.inDef then (some (.innerDef body (present r.1) 0), r.2.2.1, st')
      else (none, r.2.2.1, { st' with funs := st'.funs.set (strip body) (present r.1) })
  | .call =>
    match splitCall body with
    | .error e => .error e
    | .ok (decl, callee) =>
      (rec [endTagName] ts st).map fun r =>
        let fname := env.gen r.2.2.2.fresh
        (some (.call (replace "$caller".toList fname decl)
            (replace "$caller".toList fname (replace "%caller".toList "$caller".toList callee)) (present r.1) 0),
          r.2.2.1, { r.2.2.2 with fresh := r.2.2.2.fresh + 1 })
  | .ifT => finishIf body (rec [endTagName, elseTagName] ts st)
  | .forT => bodyNode (rec [endTagName] ts st) fun b => .forN body b 0
  | .switch => bodyNode (rec [endTagName] ts st) fun b => .switchN body b 0
  | .case => finishCase body (rec [caseTagName, elseTagName, endTagName] ts st)
  | .elseT => bodyNode (rec [endTagName] ts st) fun b => .elseN b 0
  | .extends => (oneWord body).map fun w => (some (.ext w 0), ts, { st with isChild := true })
  | .imp => (importWords body).map fun w => (some (.imp w.1 w.2 0), ts, st)
  | .incl => (oneWord body).map fun w => (some (.incl w 0), ts, st)
  | .py =>
    if (strip body).isEmpty then
      match rec [endTagName] ts st with
      | .error e => .error e
      | .ok (xs, _, ts, st) =>
        match pythonText xs with
        | .error e => .error e
        | .ok text => (finishPy text st).map fun r => (r.1, ts, r.2)
    else (finishPy (strip body) st).map fun r => (r.1, ts, r.2)
  | .block =>
    match rec [endTagName] ts st with
    | .error e => .error e
    | .ok (xs, _, ts, st) => (finishTextBlock body (present xs) st).map fun r => (r.1, ts, r.2)
  | .body => .ok (none, ts, st)

/-- `list(self._parse_body(*stoptags))` (`kajiki/text.py` 200-219).  The first argument bounds the number of
steps; `parseBody_enough` (`Verif/Lemmas/Text.lean`) shows that the bound of `parseText` is never reached. -/
def parseBody (env : TEnv) : Nat → List Str → List TTok → TState → TBody
  | 0, _, _, _ => .error .recursion
  | _ + 1, _, [], st =>
    match env.err with
    | some e => .error e
    | none => .ok ([], none, [], st)
  | n + 1, stops, .text t ln :: ts, st =>
    match unescapeNewlines t with
    | .error e => .error e
    | .ok t => (parseBody env n stops ts st).cons (some (.text t none ln))
  | n + 1, stops, .expr t ln :: ts, st =>
    (parseBody env n stops ts st).cons (some (.expr t (!env.autoescape) ln))
  | _ + 1, _, .none :: _, _ => .error .assertion
  | n + 1, stops, .tag name body ln :: ts, st =>
    if stops.contains name then .ok ([], some (.tag name body ln), ts, st)
    else match textTags.get name with
      | none => .error .attr
      | some t =>
        match parseTag env (parseBody env n) t body ts st with
        | .error e => .error e
        | .ok (x, ts, st) => (parseBody env n stops ts st).cons x

/-- The registries at the start (`kajiki/text.py` 170-176). -/
def TState.start : TState := ⟨[("__main__()".toList, [])], [], false, false, 0⟩

/-- `_Parser(…).parse()` (`kajiki/text.py` 178-182). -/
def parseText (autoescape : Bool) (gen : Nat → Str) (toks : Toks) : Except Err Tmpl :=
  match parseBody ⟨autoescape, toks.2, gen⟩ (toks.1.length + 1) [] toks.1 .start with
  | .error e => .error e
  | .ok (xs, _, _, st) =>
    .ok ⟨st.modPy, (st.funs.set "__main__()".toList (present xs)).map fun f => ⟨f.1, f.2, 0⟩⟩

/-- `TextTemplate` (`kajiki/text.py` 53-67) up to the intermediate representation, for a source given as
text (reading a file is not modelled; the encoding and type checks neither). -/
def textTemplate (py : PyCompile) (gen : Nat → Str) (autoescape : Bool) (filename : Option Str) (src : Str) :
    Except Err Tmpl :=
  if src.isEmpty && (filename.getD []).isEmpty then .error .assertion
  else parseText autoescape gen (scan py src)

end Kajiki

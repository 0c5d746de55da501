import Verif.Model.Ir

/-!
# Reading generated code the way Python does

`exec(py_text, dct)` (`kajiki/template.py` 318-324) compiles the generated text.  This file is a
model of the part of Python that matters here, written from the Python reference and independent of
the generator: lines are turned into a stream with INDENT/DEDENT tokens using the stack of
indentations of the reference manual (Lexical analysis, Indentation), the stream is read into
blocks, and the blocks into statements.  `none` stands for a `SyntaxError`/`IndentationError`.
-/

namespace Kajiki

/-- Tokens after indentation processing. -/
inductive Tok
  | line (p : PLine)
  | indent
  | dedent
deriving DecidableEq, Repr

/-- Pop the indentations larger than `n`; one DEDENT each.  The remaining top must equal `n`. -/
def popTo (n : Nat) : List Nat → Option (List Tok × List Nat)
  | [] => none
  | d :: ds =>
    if n = d then some ([], d :: ds)
    else if n < d then (popTo n ds).map fun r => (.dedent :: r.1, r.2)
    else none

/-- Indentation processing of lines given by indentation and content; the first argument is the
stack of indentations, top first. -/
def tokenize : List Nat → List (Nat × PLine) → Option (List Tok)
  | st, [] => some (st.dropLast.map fun _ => .dedent)
  | st, l :: ls =>
    match st with
    | [] => none
    | d :: ds =>
      if d < l.1 then
        (tokenize (l.1 :: d :: ds) ls).map fun r => .indent :: .line l.2 :: r
      else
        match popTo l.1 (d :: ds) with
        | none => none
        | some (ts, st') => (tokenize st' ls).map fun r => ts ++ .line l.2 :: r

/-- A line with the block indented below it. -/
inductive Block
  | node (p : PLine) (kids : List Block)

/-- Read a token stream into blocks.  The stack holds, for every open block, the line that opened
it and the blocks before that line (latest first). -/
def readBlocks : List (PLine × List Block) → List Block → List Tok → Option (List Block)
  | [], cur, [] => some cur.reverse
  | _ :: _, _, [] => none
  | st, cur, .line p :: ts => readBlocks st (.node p [] :: cur) ts
  | st, .node p [] :: cur, .indent :: ts => readBlocks ((p, cur) :: st) [] ts
  | _, _, .indent :: _ => none
  | (p, prev) :: st, cur, .dedent :: ts => readBlocks st (.node p cur.reverse :: prev) ts
  | [], _, .dedent :: _ => none

/-! ## Statements -/

/-- Conditions of `if`/`elif`: an expression, `local.__kj__.case(e)`, or `False`. -/
inductive Cond
  | code (e : Str)
  | case (e : Str)
  | never
deriving DecidableEq, Repr

/-- The statements of a generated function body.  `elif c: b …` is `else: if c: b …` as in Python's
own AST; a missing `else` is an empty list.

* `fdef decl body` – a function decorated with `flattener.decorate`
* `collect body`   – `def G(): body` followed by `G = self.__kj__.collect(G())`
* `attrS n m els`  – `for X in render_attrs({n: G}, m): yield X` for the last collected `G`
* `attrsS c m els` – `for X in render_attrs(c, m): yield X` -/
inductive Stmt
  | yieldLit (s : Str)
  | yieldGettext (s : Str)
  | yieldCode (c : Str)
  | yieldEscape (c : Str)
  | py (lines : List Str)
  | importS (name : Str) (alias : Option Str)
  | includeS (name : Str)
  | extendS (name : Str)
  | pushWith (names : List Str)
  | assign (k v : Str)
  | popWith (names : List Str)
  | pushSwitch (e : Str)
  | popSwitch
  | fdef (decl : Str) (body : List Stmt)
  | collect (body : List Stmt)
  | attrS (name mode : Str) (els : List Stmt)
  | attrsS (code mode : Str) (els : List Stmt)
  | forS (decl : Str) (body els : List Stmt)
  | ifS (c : Cond) (body els : List Stmt)
deriving Inhabited

/-- What the statements after a point still need from the statement before it. -/
inductive Pending
  /-- nothing -/
  | no
  /-- an `else:` with this body is waiting for its `if` or `for` -/
  | els (body : List Stmt)
  /-- an `elif` chain is waiting for its `if` -/
  | elifs (chain : List Stmt)
  /-- `G = collect(G())` is waiting for `def G():` -/
  | coll

/-- A list of statements must not be left with something pending at its start. -/
def closed : Option (Pending × List Stmt) → Option (List Stmt)
  | some (.no, ss) => some ss
  | _ => none

/-- A block body must contain at least one statement. -/
def nonempty : Option (List Stmt) → Option (List Stmt)
  | some (s :: ss) => some (s :: ss)
  | _ => none

/-- A simple statement: no block below it and nothing pending after it. -/
def simple (s : Stmt) (kids : List Block) : Pending × List Stmt → Option (Pending × List Stmt)
  | (.no, ss) => if kids.isEmpty then some (.no, s :: ss) else none
  | _ => none

/-- A `for` loop takes a directly following `else:` (but not an `elif`). -/
def loop (mk : List Stmt → Stmt) : Pending × List Stmt → Option (Pending × List Stmt)
  | (.no, ss) => some (.no, mk [] :: ss)
  | (.els b, ss) => some (.no, mk b :: ss)
  | _ => none

/-- An `if` takes a directly following `elif` chain or `else:`. -/
def cond (c : Cond) (body : List Stmt) : Pending × List Stmt → Option (Pending × List Stmt)
  | (.no, ss) => some (.no, .ifS c body [] :: ss)
  | (.els b, ss) => some (.no, .ifS c body b :: ss)
  | (.elifs b, ss) => some (.no, .ifS c body b :: ss)
  | _ => none

/-- `elif c: body`. -/
def elifC (c : Cond) (body : List Stmt) : Pending × List Stmt → Option (Pending × List Stmt)
  | (.no, ss) => some (.elifs [.ifS c body []], ss)
  | (.els b, ss) => some (.elifs [.ifS c body b], ss)
  | (.elifs b, ss) => some (.elifs [.ifS c body b], ss)
  | _ => none

/-- `else: body`. -/
def elseC (body : List Stmt) : Pending × List Stmt → Option (Pending × List Stmt)
  | (.no, ss) => some (.els body, ss)
  | _ => none

/-- The statement formed by one line, the body read from the block below it (`kids`, with its
reading `body`) and the statements that follow. -/
def stmt (p : PLine) (kids : List Block) (body : Option (List Stmt))
    (r : Pending × List Stmt) : Option (Pending × List Stmt) :=
  match p with
  | .yieldLit s => simple (.yieldLit s) kids r
  | .guardLit g s => if kids.isEmpty then cond (.code g) [.yieldLit s] r else none
  | .yieldGettext s => simple (.yieldGettext s) kids r
  | .yieldCode c => simple (.yieldCode c) kids r
  | .yieldEscape c => simple (.yieldEscape c) kids r
  | .pyChunk ls => simple (.py ls) kids r
  | .importStmt n a => simple (.importS n a) kids r
  | .includeStmt n => simple (.includeS n) kids r
  | .extendStmt n => simple (.extendS n) kids r
  | .pushWith ns => simple (.pushWith ns) kids r
  | .assign k v => simple (.assign k v) kids r
  | .popWith ns => simple (.popWith ns) kids r
  | .pushSwitch e => simple (.pushSwitch e) kids r
  | .popSwitch => simple .popSwitch kids r
  | .ifFalse => if kids.isEmpty then cond .never [] r else none
  | .defLine false decl =>
    match nonempty body, r with
    | some b, (.no, ss) => some (.no, .fdef decl b :: ss)
    | _, _ => none
  | .attrDef =>
    match nonempty body, r with
    | some b, (.coll, ss) => some (.no, .collect b :: ss)
    | _, _ => none
  | .attrCollect =>
    match r with
    | (.no, ss) => if kids.isEmpty then some (.coll, ss) else none
    | _ => none
  | .attrFor n m =>
    match kids with
    | [.node .yieldVar []] => loop (.attrS n m) r
    | _ => none
  | .attrsFor c m =>
    match kids with
    | [.node .yieldVar []] => loop (.attrsS c m) r
    | _ => none
  | .forLine d => (nonempty body).bind fun b => loop (.forS d b) r
  | .ifLine e => (nonempty body).bind fun b => cond (.code e) b r
  | .elifCase e => (nonempty body).bind fun b => elifC (.case e) b r
  | .elseLine => (nonempty body).bind fun b => elseC b r
  | .yieldVar | .defLine true _ | .classLine | .tail => none

mutual
/-- One block, given the reading of the blocks after it.  The body of the attribute loops
(`yield X`) is recognised by `stmt` directly. -/
def stmtOf : Block → Pending × List Stmt → Option (Pending × List Stmt)
  | .node p kids, r => stmt p kids (closed (stmtsOf kids)) r

/-- The statements of a list of blocks, read from the right. -/
def stmtsOf : List Block → Option (Pending × List Stmt)
  | [] => some (.no, [])
  | b :: bs => (stmtsOf bs).bind (stmtOf b)
end

/-! ## The module -/

/-- A compiled template module: module level statements and the functions of the class. -/
structure Module where
  modPy : List (List Str)
  defs : List (Str × List Stmt)
deriving Inhabited

/-- The functions in the class body. -/
def readDefs : List Block → Option (List (Str × List Stmt))
  | [] => some []
  | .node (.defLine true decl) kids :: bs =>
    match nonempty (closed (stmtsOf kids)), readDefs bs with
    | some b, some ds => some ((decl, b) :: ds)
    | _, _ => none
  | _ => none

/-- Module level statements, then the class, then the tail. -/
def readModule : List Block → Option Module
  | .node (.pyChunk ls) [] :: bs => (readModule bs).map fun m => { m with modPy := ls :: m.modPy }
  | [.node .classLine (k :: ks), .node .tail []] => (readDefs (k :: ks)).map fun ds => ⟨[], ds⟩
  | _ => none

/-- Compiling the generated lines. -/
def compilePy (ls : List Line) : Option Module :=
  ((tokenize [0] (ls.map fun l => (l.indent, l.code))).bind (readBlocks [] [])).bind readModule

end Kajiki

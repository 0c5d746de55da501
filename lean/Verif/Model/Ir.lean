import Verif.Model.Util

/-!
# Intermediate representation and code generation (`kajiki/ir.py`)

The generated program is modelled as a list of indented lines.  A line is not text but a structured
value saying which statement the text spells; its constructor's comment gives the text.  Python
expressions and declarations stay opaque strings.
-/

namespace Kajiki

/-- Nodes of the intermediate representation (`kajiki/ir.py` 105-429).  `ln` is `lineno`
(`0` also for `None`).  `$caller` is already replaced in `call`.  A `PythonNode` is represented by
its normalised lines, a `WithNode` by its parsed assignments (both computed in
`Verif/Model/Util.lean`). `TranslatableTextNode`s never carry a guard
(`kajiki/xml_template.py` 457-465 is only called without one). -/
inductive Ir
  | text (t : Str) (guard : Option Str) (ln : Nat)
  | trans (t : Str) (ln : Nat)
  | expr (code : Str) (safe : Bool) (ln : Nat)
  | attr (name mode : Str) (guard : Option Str) (value : List Ir) (ln : Nat)
  | attrs (code mode : Str) (guard : Option Str) (ln : Nat)
  | python (lines : List Str) (ln : Nat)
  | imp (name : Str) (alias : Option Str) (ln : Nat)
  | incl (name : Str) (ln : Nat)
  | ext (name : Str) (ln : Nat)
  | innerDef (decl : Str) (body : List Ir) (ln : Nat)
  | call (decl callee : Str) (body : List Ir) (ln : Nat)
  | forN (decl : Str) (body : List Ir) (ln : Nat)
  | withN (vars : List (Str × Str)) (body : List Ir) (ln : Nat)
  | switchN (test : Str) (body : List Ir) (ln : Nat)
  | caseN (value : Str) (body : List Ir) (ln : Nat)
  | ifN (test : Str) (body : List Ir) (ln : Nat)
  | elseN (body : List Ir) (ln : Nat)
  | pass (ln : Nat)
deriving Inhabited

/-- A `DefNode` (`kajiki/ir.py` 139-159), only found at the top of a template. -/
structure Def where
  decl : Str
  body : List Ir
  ln : Nat
deriving Inhabited

/-- A `TemplateNode` (`kajiki/ir.py` 71-102): module level Python blocks and functions. -/
structure Tmpl where
  modPy : List (List Str × Nat)
  defs : List Def
deriving Inhabited

/-- A generated line (two physical lines for a decorated `def`). -/
inductive PLine
  /-- `yield <literal>` -/
  | yieldLit (s : Str)
  /-- `if <guard>: yield <literal>` -/
  | guardLit (g s : Str)
  /-- `yield local.__kj__.gettext(<literal>)` -/
  | yieldGettext (s : Str)
  /-- `yield <code>` -/
  | yieldCode (c : Str)
  /-- `yield self.__kj__.escape(<code>)` -/
  | yieldEscape (c : Str)
  /-- the lines of a Python block, taken as one statement -/
  | pyChunk (lines : List Str)
  /-- `local.__kj__.import_(<name>, <alias>, self.__globals__)` -/
  | importStmt (name : Str) (alias : Option Str)
  /-- `yield local.__kj__.import_(<name>, None, self.__globals__).__main__()` -/
  | includeStmt (name : Str)
  /-- `yield local.__kj__.extend(<name>).__main__()` -/
  | extendStmt (name : Str)
  /-- `local.__kj__.push_with(locals(), [<names>])` -/
  | pushWith (names : List Str)
  /-- `<k> = <v>` -/
  | assign (k v : Str)
  /-- `(<names>,) = local.__kj__.pop_with()` -/
  | popWith (names : List Str)
  /-- `local.__kj__.push_switch(<e>)` -/
  | pushSwitch (e : Str)
  /-- `if False: pass` -/
  | ifFalse
  /-- `local.__kj__.pop_switch()` -/
  | popSwitch
  /-- `@kajiki.expose` (`true`) or `@__kj__.flattener.decorate`, then `def <decl>:` -/
  | defLine (exposed : Bool) (decl : Str)
  /-- `def G():` with a new generated name `G` (distinct from all others, C54) -/
  | attrDef
  /-- `G = self.__kj__.collect(G())` -/
  | attrCollect
  /-- `for X in self.__kj__.render_attrs({<name>:G}, <mode>):` -/
  | attrFor (name mode : Str)
  /-- `for X in self.__kj__.render_attrs(<code>, <mode>):` -/
  | attrsFor (code mode : Str)
  /-- `yield X` -/
  | yieldVar
  /-- `for <decl>:` -/
  | forLine (decl : Str)
  /-- `if <e>:` -/
  | ifLine (e : Str)
  /-- `elif local.__kj__.case(<e>):` -/
  | elifCase (e : Str)
  /-- `else:` -/
  | elseLine
  /-- `class template:` -/
  | classLine
  /-- `template = kajiki.Template(template)` -/
  | tail
deriving DecidableEq, Repr

/-! ## Flattening a tree into a stream of nodes -/

/-- An element of the stream obtained by iterating a node: a plain `TextNode`; another node, given
by the lines its `py()` yields with their extra indentation steps; or an indent/dedent marker. -/
inductive FTok
  | text (t : Str) (guard : Option Str) (ln : Nat)
  | other (lines : List (Nat × PLine)) (ln : Nat)
  | indent
  | dedent
deriving DecidableEq, Repr

/-- The loop of `optimize` (`kajiki/ir.py` 432-444); `last` is `last_node`. -/
def optimizeAux : Option FTok → List FTok → List FTok
  | last, [] => last.toList
  | none, x :: xs => optimizeAux (some x) xs
  | some (.text a g l), .text b g' l' :: xs =>
    if g = g' then optimizeAux (some (.text (a ++ b) g l)) xs
    else .text a g l :: optimizeAux (some (.text b g' l')) xs
  | some y, x :: xs => y :: optimizeAux (some x) xs

/-- `optimize` (`kajiki/ir.py` 432-444).  The merging mutates nodes of this one pass only. -/
def optimize (xs : List FTok) : List FTok := optimizeAux none xs

/-- `if self.guard:` — a guard that is `None` or empty is no guard. -/
def activeGuard : Option Str → Option Str
  | some (c :: g) => some (c :: g)
  | _ => none

/-- The lines of an unguarded attribute's tail (`kajiki/ir.py` 340-347). -/
def attrTail (name mode : Str) : List (Nat × PLine) :=
  [(0, .attrCollect), (0, .attrFor name mode), (1, .yieldVar)]

/-- An unguarded `AttrNode` as a stream, from its value's stream (`kajiki/ir.py` 366-375). -/
def attrStream (name mode : Str) (ln : Nat) (value : List FTok) (isEmpty : Bool) : List FTok :=
  .other [(0, .attrDef)] ln :: .indent ::
    ((if isEmpty then [.text [] none 0] else optimize value) ++
      [.dedent, .other (attrTail name mode) 0])

/-- A function body without nodes gets a `PassNode`, which yields the empty string
(`kajiki/ir.py` 38-41, 154-158). -/
def orPass : List FTok → List FTok
  | [] => [.other [(0, .yieldLit [])] 0]
  | y :: ys => y :: ys

mutual
/-- Iterating one node (the `__iter__` methods and `py()` of the leaves).

* `TextNode` `kajiki/ir.py` 289-301; `TranslatableTextNode` 304-314 (all-blank texts are yielded
  directly); `ExprNode` 317-330; `AttrNode` 333-375 (with a guard it becomes an `IfNode` around a
  new unguarded `AttrNode`); `AttrsNode` 378-399; `PythonNode` 416-418; import/include/extend
  105-136; `InnerDefNode` 150-163 (`PassNode` 38-41 for an empty body); `CallNode` 166-191;
  `ForNode` 194-200, `CaseNode`, `IfNode`, `ElseNode` 263-286 (`HierNode.__iter__` 55-60);
  `WithNode` 203-240; `SwitchNode` 243-260. -/
def flat : Ir → List FTok
  | .text t g ln => [.text t g ln]
  | .trans t ln =>
    if (strip t).isEmpty then [.other [(0, .yieldLit t)] ln] else [.other [(0, .yieldGettext t)] ln]
  | .expr c safe ln => [.other [(0, if safe then .yieldCode c else .yieldEscape c)] ln]
  | .attr name mode guard value ln =>
    match activeGuard guard with
    | some g => .other [(0, .ifLine g)] 0 :: .indent ::
        (optimize (attrStream name mode 0 (flatList value) value.isEmpty) ++ [.dedent])
    | none => attrStream name mode ln (flatList value) value.isEmpty
  | .attrs c mode guard ln =>
    match activeGuard guard with
    | some g => [.other [(0, .ifLine g), (1, .attrsFor c mode), (2, .yieldVar)] ln]
    | none => [.other [(0, .attrsFor c mode), (1, .yieldVar)] ln]
  | .python [] ln => [.other [] ln]
  | .python (l :: ls) ln => [.other [(0, .pyChunk (l :: ls))] ln]
  | .imp n a ln => [.other [(0, .importStmt n a)] ln]
  | .incl n ln => [.other [(0, .includeStmt n)] ln]
  | .ext n ln => [.other [(0, .extendStmt n)] ln]
  | .innerDef decl body ln =>
    .other [(0, .defLine false decl)] ln :: .indent ::
      (orPass (optimize (flatList body)) ++ [.dedent])
  | .call decl callee body ln =>
    .other [(0, .defLine false decl)] ln :: .indent ::
      (optimize (flatList body) ++ [.dedent, .other [(0, .yieldCode callee)] 0])
  | .forN d body ln => .other [(0, .forLine d)] ln :: .indent :: (optimize (flatList body) ++ [.dedent])
  | .withN vars body ln =>
    .other ((0, .pushWith (vars.map (·.1))) :: vars.map fun kv => (0, .assign kv.1 kv.2)) ln ::
      (optimize (flatList body) ++ [.other [(0, .popWith (vars.map (·.1)))] 0])
  | .switchN e body ln =>
    .other [(0, .pushSwitch e), (0, .ifFalse)] ln ::
      (optimize (flatList body) ++ [.other [(0, .popSwitch)] 0])
  | .caseN e body ln => .other [(0, .elifCase e)] ln :: .indent :: (optimize (flatList body) ++ [.dedent])
  | .ifN e body ln => .other [(0, .ifLine e)] ln :: .indent :: (optimize (flatList body) ++ [.dedent])
  | .elseN body ln => .other [(0, .elseLine)] ln :: .indent :: (optimize (flatList body) ++ [.dedent])
  | .pass ln => [.other [(0, .yieldLit [])] ln]

/-- `flattener(map(flattener, body))` (`kajiki/ir.py` 51-53): the streams one after the other. -/
def flatList : List Ir → List FTok
  | [] => []
  | x :: xs => flat x ++ flatList xs
end

/-- `HierNode.body_iter` (`kajiki/ir.py` 51-53). -/
def bodyIter (body : List Ir) : List FTok := optimize (flatList body)

/-- Iterating a `DefNode` (`kajiki/ir.py` 150-159). -/
def flatDef (d : Def) : List FTok :=
  .other [(0, .defLine true d.decl)] d.ln :: .indent ::
    (orPass (bodyIter d.body) ++ [.dedent])

/-- Iterating the `TemplateNode` (`kajiki/ir.py` 94-102). -/
def flatTmpl (t : Tmpl) : List FTok :=
  t.modPy.map (fun p => .other (if p.1.isEmpty then [] else [(0, .pyChunk p.1)]) p.2) ++
  (.other [(0, .classLine)] 0 :: .indent ::
    (optimize (t.defs.flatMap flatDef) ++ [.dedent, .other [(0, .tail)] 0]))

/-! ## Lines -/

/-- `py()` of a plain `TextNode` (`kajiki/ir.py` 296-301). -/
def textLine (t : Str) (guard : Option Str) : PLine :=
  match activeGuard guard with
  | some g => .guardLit g t
  | none => .yieldLit t

/-- A generated line with its indentation (in spaces) and template line. -/
structure Line where
  indent : Nat
  code : PLine
  ln : Nat
deriving DecidableEq, Repr

/-- `generate_python` (`kajiki/ir.py` 12-20). -/
def generate : Nat → List FTok → List Line
  | _, [] => []
  | d, .indent :: xs => generate (d + 4) xs
  | d, .dedent :: xs => generate (d - 4) xs
  | d, .text t g ln :: xs => ⟨d, textLine t g, ln⟩ :: generate d xs
  | d, .other ls ln :: xs => ls.map (fun l => ⟨d + 4 * l.1, l.2, ln⟩) ++ generate d xs

/-- The whole generated module. -/
def generatePython (t : Tmpl) : List Line := generate 0 (flatTmpl t)

end Kajiki

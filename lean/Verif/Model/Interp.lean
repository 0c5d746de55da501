import Verif.Model.PyCode
import Verif.Model.Runtime
import Verif.Model.Dict

/-!
# Running a compiled template

The statements of `Verif/Model/PyCode.lean` run on a store of template instances, local scopes,
function objects and the per-instance runtime stacks (`kajiki/template.py`).  Python expressions are
opaque: their results come from an `Oracle`, about which nothing is assumed.

Execution is synchronous.  A flattener that a generator yields is read to its end before the
generator is resumed (`kajiki/util.py` 60-83), so the text of a rendering is produced in the order of
execution, and `Out` records that text.

The functions are generic in the type `C` of function bodies: the interpreter stores statements, the
specifications in `Verif/Spec/Sem.lean` store trees.
-/

namespace Kajiki.Run

/-- Text produced so far, and whether at least one chunk was produced (an attribute without any
chunk is omitted, `kajiki/template.py` 257-260). -/
structure Out where
  txt : Str
  any : Bool
deriving DecidableEq, Repr

/-- No output. -/
def Out.nil : Out := ⟨[], false⟩

/-- One chunk. -/
def Out.chunk (s : Str) : Out := ⟨s, true⟩

/-- Output one after the other. -/
def Out.append (a b : Out) : Out := ⟨a.txt ++ b.txt, a.any || b.any⟩

instance : Append Out := ⟨Out.append⟩

/-- A local scope: variables, the enclosing function's scope, and the value last collected for an
attribute (the generated variable `G`, `kajiki/ir.py` 340-347). -/
structure Frame where
  vars : Dict Val
  up : Option Nat
  coll : Option Str
deriving Inhabited

/-- A function's code: generated code, or the trampoline for an inherited function
(`kajiki/template.py` 156-161). -/
inductive FnBody (C : Type)
  | code (decl : Str) (body : C)
  | tramp (name : Str)

/-- A function object.  `tpl` tells `TplFunc`s (`kajiki/template.py` 335-378) from functions
decorated with `flattener.decorate`. -/
structure Fn (C : Type) where
  body : FnBody C
  inst : Nat
  up : Option Nat
  tpl : Bool

/-- A template instance (`kajiki/template.py` 63-94): class, `_context`, `__globals__`, and the
attributes set with `setattr`. -/
structure Inst where
  cls : Nat
  context : Dict Val
  globals : Dict Val
  attrs : Dict Val
deriving Inhabited

/-- `_switch_stack` and `_with_stack`, top first. -/
structure Stacks where
  sw : List Val
  wi : List (List Val)
deriving Inhabited

/-- The whole state.  `used` lists the flatteners whose one-shot iterator was started. -/
structure Store (C W : Type) where
  insts : List Inst
  frames : List Frame
  fns : List (Fn C)
  used : List Nat
  world : W
  stacks : Nat → Stacks

/-- What an expression can see: local scopes (innermost first), the instance whose namespace it uses,
and all instances. -/
structure View where
  locals : List (Dict Val)
  inst : Nat
  insts : List Inst

/-- Python, as far as it is not modelled.  Everything may depend on and change the world `W`.

* `eval e`   – an expression
* `iter d`   – the header `for d:`: the bindings of the successive iterations.  Simplified: the
  iterable is read to its end before the first iteration.
* `py ls`    – a Python block: the local variables it binds
* `args d as` – binding the arguments of a call to the parameters of `def d`.  Simplified: default
  values do not depend on the scope of the definition, and errors appear when the result is read.
* `gettext f s` – calling the translation function -/
structure Oracle (W : Type) where
  eval : Str → View → W → Except Err Val × W
  iter : Str → View → W → Except Err (List (Dict Val)) × W
  py : List Str → View → W → Except Err (Dict Val) × W
  args : Str → List Val → W → Except Err (Dict Val) × W
  gettext : Val → Str → W → Except Err Val × W

/-- A template class (`kajiki/template.py` 272-298): its exposed functions in the order of `dir`,
and `base_globals`. -/
structure Cls (C : Type) where
  methods : List (Str × Str × C)
  baseGlobals : Dict Val

/-- The template classes and the loader (`loader.import_`, `loader.default_alias_for`).  Simplified:
a name always gives the same class (see `Verif/Model/Loader.lean` for the loader itself). -/
structure Prog (C : Type) where
  classes : List (Cls C)
  load : Str → Option Nat
  aliasFor : Str → Str

/-! ## Computations -/

/-- Result of a computation: output, state, and value or exception. -/
structure Res (S α : Type) where
  out : Out
  st : S
  val : Except Err α

/-- Computations with state, output and exceptions.  Output and state changes made before an
exception remain. -/
def M (S α : Type) : Type := S → Res S α

namespace M
variable {S α β : Type}

/-- A value. -/
def pure (a : α) : M S α := fun s => ⟨.nil, s, .ok a⟩

/-- One after the other; an exception stops. -/
def bind (m : M S α) (f : α → M S β) : M S β := fun s =>
  let r := m s
  match r.val with
  | .error e => ⟨r.out, r.st, .error e⟩
  | .ok a => let r' := f a r.st; ⟨r.out ++ r'.out, r'.st, r'.val⟩

/-- `raise` -/
def throw (e : Err) : M S α := fun s => ⟨.nil, s, .error e⟩

/-- Read the state. -/
def get : M S S := fun s => ⟨.nil, s, .ok s⟩

/-- Change the state. -/
def modify (f : S → S) : M S Unit := fun s => ⟨.nil, f s, .ok ()⟩

/-- Output. -/
def tell (o : Out) : M S Unit := fun s => ⟨o, s, .ok ()⟩

/-- Run a computation and keep its output instead of producing it.  If it fails the output is
lost. -/
def capture (m : M S Unit) : M S Out := fun s =>
  let r := m s
  match r.val with
  | .error e => ⟨.nil, r.st, .error e⟩
  | .ok _ => ⟨.nil, r.st, .ok r.out⟩

instance : Monad (M S) := { pure := pure, bind := bind }

/-- A value that must be there. -/
def ofOption (e : Err) : Option α → M S α
  | some a => pure a
  | none => throw e

/-- For every element in order. -/
def each (f : α → M S Unit) : List α → M S Unit
  | [] => pure ()
  | a :: as => bind (f a) fun _ => each f as

end M

/-- How yielded values are consumed: by the flattener of the rendering, by `_collect`
(`kajiki/template.py` 248-260), or by `accumulate_str` (`kajiki/util.py` 56-73). -/
inductive Mode
  | stream
  | collect
  | strict
deriving DecidableEq, Repr

/-- Where a statement runs: instance (whose `__globals__` are the function's globals), local scope,
the instance called `local`, and who consumes the yielded values.  Simplified: the name `local` is
looked up when the function starts, not at each use. -/
structure Env where
  inst : Nat
  frame : Nat
  kj : Option Nat
  mode : Mode

section
variable {C W : Type}

/-- Computations on stores. -/
abbrev MS (C W α : Type) : Type := M (Store C W) α

/-- Local scopes visible from a scope; `n` bounds the depth (scopes refer to older scopes only). -/
def scopes (fs : List Frame) : Nat → Option Nat → List (Dict Val)
  | 0, _ => []
  | _, none => []
  | n + 1, some i =>
    match fs[i]? with
    | none => []
    | some f => f.vars :: scopes fs n f.up

/-- What an expression sees. -/
def view (env : Env) (s : Store C W) : View :=
  ⟨scopes s.frames s.frames.length (some env.frame), env.inst, s.insts⟩

/-- Ask the oracle. -/
def ask {α : Type} (env : Env) (f : View → W → Except Err α × W) : MS C W α := fun s =>
  let r := f (view env s) s.world
  ⟨.nil, { s with world := r.2 }, r.1⟩

/-- Evaluate an expression. -/
def evalM (O : Oracle W) (env : Env) (e : Str) : MS C W Val := ask env (O.eval e)

/-- Change the current scope. -/
def modFrame (env : Env) (f : Frame → Frame) : MS C W Unit :=
  M.modify fun s => { s with frames := s.frames.modify env.frame f }

/-- Bind local variables. -/
def setVars (env : Env) (b : Dict Val) : MS C W Unit :=
  modFrame env fun f => { f with vars := f.vars.update b }

/-- The current scope's own variables, `locals()`. -/
def localVars (env : Env) (s : Store C W) : Dict Val :=
  match s.frames[env.frame]? with
  | some f => f.vars
  | none => []

/-- A scope, if there is one with this number (there always is, see `C19_scopes_exist`). -/
def liveScope (fs : List Frame) (up : Option Nat) : Option Nat := up.filter (· < fs.length)

/-- A new scope. -/
def newFrame (vars : Dict Val) (up : Option Nat) : MS C W Nat := fun s =>
  ⟨.nil, { s with frames := s.frames ++ [⟨vars, liveScope s.frames up, none⟩] }, .ok s.frames.length⟩

/-- A new function object. -/
def newFn (f : Fn C) : MS C W Nat := fun s =>
  ⟨.nil, { s with fns := s.fns ++ [{ f with up := liveScope s.frames f.up }] }, .ok s.fns.length⟩

/-- The name in a declaration `name(params)`. -/
def declName (decl : Str) : Str := strip (decl.takeWhile (· != '('))

/-- The instance called `local`. -/
def kjInst (env : Env) : MS C W Nat := M.ofOption .attr env.kj

/-! ## Yielding values -/

/-- Mark a flattener as started; `true` if it was not before. -/
def start (id : Nat) : MS C W Bool := fun s =>
  if s.used.contains id then ⟨.nil, s, .ok false⟩
  else ⟨.nil, { s with used := id :: s.used }, .ok true⟩

/-- A chunk: in `accumulate_str` only strings can be added (`kajiki/util.py` 71-72); otherwise it is
turned into a string (`kajiki/template.py` 101-102, 255-256). -/
def chunk (mode : Mode) (v : Val) : MS C W Unit :=
  match mode, v with
  | .strict, .str s => M.tell (.chunk s)
  | .strict, _ => M.throw .type
  | _, v => M.tell (.chunk (toStr v))

/-- Reading a flattener found in the stream.  Inside `_collect` it is accumulated to a string and
counts as a part even when it is empty (`kajiki/template.py` 253-254). -/
def splice (mode : Mode) (m : Mode → MS C W Unit) : MS C W Unit :=
  match mode with
  | .stream => m .stream
  | .strict => m .strict
  | .collect => M.bind (m .strict) fun _ => M.tell ⟨[], true⟩

mutual
/-- `yield v`: `None` vanishes, flatteners are spliced (`kajiki/util.py` 60-83,
`kajiki/template.py` 248-260).  `call` runs a template function. -/
def emit (call : Mode → Nat → List Val → MS C W Unit) (mode : Mode) : Val → MS C W Unit
  | .none => M.pure ()
  | .flatItems id items =>
    splice mode fun mode => M.bind (start id) fun fresh =>
      if fresh then emitList call mode items else M.pure ()
  | .flatCall id f as =>
    splice mode fun mode => M.bind (start id) fun fresh =>
      if fresh then call mode f as else M.pure ()
  | v => chunk mode v

/-- Yield several values. -/
def emitList (call : Mode → Nat → List Val → MS C W Unit) (mode : Mode) : List Val → MS C W Unit
  | [] => M.pure ()
  | v :: vs => M.bind (emit call mode v) fun _ => emitList call mode vs
end

/-! ## Instances -/

/-- Kajiki's own global names (`kajiki/template.py` 68-71), as opaque objects. -/
def builtins : Dict Val :=
  [("defined".toList, .obj 1 "defined".toList true), ("literal".toList, .obj 2 "literal".toList true),
   ("Markup".toList, .obj 2 "literal".toList true), ("gettext".toList, .obj 3 "gettext".toList true),
   ("__builtins__".toList, .obj 4 "__builtins__".toList true),
   ("__kj__".toList, .obj 5 "__kj__".toList true)]

/-- Names that every instance has through its class (`kajiki/template.py` 57-60, 96-269). -/
def classAttrs : List Str :=
  ["__methods__", "loader", "base_globals", "filename", "render", "defined", "annotate_lnotab",
   "__kj__", "__globals__", "_context", "_switch_stack", "_with_stack", "_gettext", "_push_with",
   "_pop_with", "_extend", "_push_switch", "_pop_switch", "_case", "_import", "_escape",
   "_re_escape", "_render_attrs", "_collect", "__iter__", "__init__"].map String.toList

/-- The `__globals__` of a new instance number `i` (`kajiki/template.py` 68-76, 92-94): built-ins,
then `base_globals`, then functions, then the context; `_` and `value_of` come last.
Simplified: when the context removes nothing, `gettext` is always bound. -/
def newGlobals (i : Nat) (base : Dict Val) (methods : Dict Val) (context : Dict Val) : Dict Val :=
  let g : Dict Val := [("local".toList, .inst i), ("self".toList, .inst i)]
  let g := Dict.update g builtins
  let g := Dict.update g base
  let g := Dict.update g methods
  let g := Dict.update g context
  let g := Dict.set g ['_'] ((Dict.get g "gettext".toList).getD .none)
  Dict.set g "value_of".toList (.meth "value_of".toList i)

/-- Number the functions of a class from `n`. -/
def methodDict : Nat → List (Str × Str × C) → Dict Val
  | _, [] => []
  | n, (k, _) :: ms => (k, .fn n) :: methodDict (n + 1) ms

/-- Bound function objects of instance `i` (`bind_instance`, `kajiki/template.py` 351-352). -/
def methodFns (i : Nat) (ms : List (Str × Str × C)) : List (Fn C) :=
  ms.map fun m => ⟨.code m.2.1 m.2.2, i, none, true⟩

/-- `cls(context)` (`kajiki/template.py` 63-94). -/
def newInst (P : Prog C) (c : Nat) (context : Dict Val) : MS C W Nat := fun s =>
  match P.classes[c]? with
  | none => ⟨.nil, s, .error .name⟩
  | some cls =>
    let i := s.insts.length
    let ms := methodDict s.fns.length cls.methods
    ⟨.nil,
      { s with
        fns := s.fns ++ methodFns i cls.methods
        insts := s.insts ++ [⟨c, context, newGlobals i cls.baseGlobals ms context, ms⟩]
        stacks := fun j => if j = i then ⟨[], []⟩ else s.stacks j },
      .ok i⟩

/-- Change one instance. -/
def modInst (i : Nat) (f : Inst → Inst) : MS C W Unit :=
  M.modify fun s => { s with insts := s.insts.modify i f }

/-- The instance number `i`. -/
def getInst (i : Nat) : MS C W Inst := fun s =>
  match s.insts[i]? with
  | some x => ⟨.nil, s, .ok x⟩
  | none => ⟨.nil, s, .error .attr⟩

/-- `isinstance(v, TplFunc)` -/
def isTpl (tpl : List Bool) : Val → Bool
  | .fn f => (tpl[f]?).getD false
  | _ => false

/-- The first loop of `_extend` (`kajiki/template.py` 142-147): the child's functions replace the
parent's. -/
def overrides (tpl : List Bool) (child : Dict Val) (parent : Dict Val) : Dict Val :=
  Dict.update parent (child.filter fun kv => kv.1 != "__main__".toList && isTpl tpl kv.2)

/-- The second loop of `_extend` on the child's globals (`kajiki/template.py` 149-155): functions the
child does not have.  `update` in reverse keeps the first; keys are distinct anyway. -/
def inherited (tpl : List Bool) (parent : Dict Val) (child : Dict Val) : Dict Val :=
  Dict.update child (parent.filter fun kv =>
    kv.1 != "__main__".toList && isTpl tpl kv.2 && !Dict.has child kv.1)

/-- The second loop of `_extend` on the child's attributes (`kajiki/template.py` 156-163): names that
need a trampoline. -/
def trampNames (tpl : List Bool) (parent : Dict Val) (attrs : Dict Val) : List Str :=
  (parent.filter fun kv => kv.1 != "__main__".toList && isTpl tpl kv.2 &&
    !(Dict.has attrs kv.1 || classAttrs.contains kv.1)).map (·.1)

/-- Number trampolines from `n`. -/
def trampDict : Nat → List Str → Dict Val
  | _, [] => []
  | n, k :: ks => (k, .fn n) :: trampDict (n + 1) ks

/-- `_Template._extend` (`kajiki/template.py` 131-169) of instance `j`. -/
def extend (P : Prog C) (j : Nat) (name : Str) : MS C W Nat :=
  M.bind (M.ofOption .ioError (P.load name)) fun c =>
  M.bind (getInst j) fun me =>
  M.bind (newInst P c me.context) fun p =>
  M.bind (getInst p) fun pi =>
  M.bind M.get fun s =>
    let tpl := s.fns.map (·.tpl)
    let pg := overrides tpl me.globals pi.globals
    let ks := trampNames tpl pg me.attrs
    let ts := trampDict s.fns.length ks
    let myG := inherited tpl pg me.globals
    let pg := Dict.set pg "child".toList (.inst j)
    let pg := Dict.set pg "local".toList (.inst p)
    let pg := Dict.set pg "self".toList ((Dict.get myG "self".toList).getD .none)
    let myG := Dict.set myG "parent".toList (.inst p)
    let myG := Dict.set myG "local".toList (.inst j)
    M.bind (M.modify fun s => { s with fns := s.fns ++ ks.map fun k => ⟨.tramp k, j, none, true⟩ })
      fun _ =>
    M.bind (modInst p fun x => { x with globals := pg }) fun _ =>
    M.bind (modInst j fun x => { x with globals := myG, attrs := Dict.update me.attrs ts }) fun _ =>
    M.pure p

/-- `_Template._import` (`kajiki/template.py` 193-205) into the globals of instance `j`.
Simplified: the new instance's `_context` is a copy of those globals. -/
def importT (P : Prog C) (j : Nat) (name : Str) (alias : Option Str) : MS C W Nat :=
  M.bind (M.ofOption .ioError (P.load name)) fun c =>
  M.bind (getInst j) fun me =>
  M.bind (newInst P c me.globals) fun r =>
  M.bind (modInst j fun x =>
    { x with globals := Dict.set x.globals (alias.getD (P.aliasFor name)) (.inst r) }) fun _ =>
  M.pure r

/-- The global name `k` of the running function, if it is an instance. -/
def globalInst (env : Env) (k : Str) : MS C W Nat :=
  M.bind (getInst env.inst) fun i =>
    match Dict.get i.globals k with
    | some (.inst j) => M.pure j
    | some _ => M.throw .attr
    | none => M.throw .name

/-- `local.__kj__.import_(name, alias, self.__globals__)` -/
def importM (P : Prog C) (env : Env) (name : Str) (alias : Option Str) : MS C W Nat :=
  M.bind (kjInst env) fun _ =>
  M.bind (globalInst env "self".toList) fun j =>
  importT P j name alias

/-- `local.__kj__.extend(name)` -/
def extendM (P : Prog C) (env : Env) (name : Str) : MS C W Nat :=
  M.bind (kjInst env) fun j => extend P j name

/-- The function an attribute of an instance is bound to. -/
def attrFn (i : Nat) (k : Str) : MS C W Nat :=
  M.bind (getInst i) fun x =>
    match Dict.get x.attrs k with
    | some (.fn f) => M.pure f
    | _ => M.throw .attr

/-- `yield inst.__main__()`: the fresh result of a call is read at once. -/
def emitMain (call : Mode → Nat → List Val → MS C W Unit) (mode : Mode) (i : Nat) : MS C W Unit :=
  M.bind (attrFn i "__main__".toList) fun f => splice mode fun mode => call mode f []

/-- `local.__kj__.gettext(s)` (`kajiki/template.py` 108-110). -/
def gettextM (O : Oracle W) (env : Env) (s : Str) : MS C W Val :=
  M.bind (kjInst env) fun j =>
  M.bind (getInst j) fun i =>
  M.bind (M.ofOption .key (Dict.get i.globals "gettext".toList)) fun g =>
  ask env fun _ w => O.gettext g s w

/-! ## The runtime stacks -/

/-- Change the stacks of one instance. -/
def modStacks (j : Nat) (f : Stacks → Stacks) : MS C W Unit :=
  M.modify fun s => { s with stacks := fun i => if i = j then f (s.stacks i) else s.stacks i }

/-- `_push_switch` (`kajiki/template.py` 171-179). -/
def pushSwitchM (j : Nat) (v : Val) : MS C W Unit := modStacks j fun k => { k with sw := v :: k.sw }

/-- `_pop_switch` (`kajiki/template.py` 181-187). -/
def popSwitchM (j : Nat) : MS C W Unit :=
  M.bind M.get fun s =>
    match (s.stacks j).sw with
    | [] => M.throw .index
    | _ :: sw => modStacks j fun k => { k with sw := sw }

/-- `_case` (`kajiki/template.py` 189-191). -/
def caseM (j : Nat) (v : Val) : MS C W Bool :=
  M.bind M.get fun s =>
    match (s.stacks j).sw with
    | [] => M.throw .index
    | top :: _ => M.pure (pyEq v top)

/-- `_push_with` (`kajiki/template.py` 112-120). -/
def pushWithM (j : Nat) (vals : List Val) : MS C W Unit :=
  modStacks j fun k => { k with wi := vals :: k.wi }

/-- `_pop_with` (`kajiki/template.py` 122-129). -/
def popWithM (j : Nat) : MS C W (List Val) :=
  M.bind M.get fun s =>
    match (s.stacks j).wi with
    | [] => M.throw .index
    | top :: wi => M.bind (modStacks j fun k => { k with wi := wi }) fun _ => M.pure top

/-- `(a,b,) = values`: a `ValueError` unless there are as many values as names. -/
def unpack (env : Env) (names : List Str) (vals : List Val) : MS C W Unit :=
  if names.length = vals.length then setVars env (names.zip vals) else M.throw .value

/-! ## Statements -/

/-- Yield the strings of `render_attrs`. -/
def emitStrs (ss : List Str) : MS C W Unit := M.each (fun s => M.tell (.chunk s)) ss

/-- `render_attrs(code, mode)` and yielding its strings. -/
def attrsM (O : Oracle W) (env : Env) (code mode : Str) : MS C W Unit :=
  M.bind (evalM O env code) fun v =>
    match renderAttrs v mode with
    | .error e => M.throw e
    | .ok ss => emitStrs ss

/-- `G = self.__kj__.collect(G())` for the function `G` with the given body, run in its own scope. -/
def collectM (env : Env) (body : Env → MS C W Unit) : MS C W Unit :=
  M.bind (newFrame [] (some env.frame)) fun fr =>
  M.bind (M.capture (body { env with frame := fr, mode := .collect })) fun o =>
  modFrame env fun f => { f with coll := if o.any then some o.txt else none }

/-- `for X in render_attrs({name: G}, mode): yield X` -/
def attrM (env : Env) (name mode : Str) : MS C W Unit :=
  M.bind M.get fun s =>
    emitStrs (renderCollected name mode ((s.frames[env.frame]?).bind (·.coll)))

/-- `def decl:` decorated with `flattener.decorate`; the new function is a local variable and sees
the scope it was defined in. -/
def fdefM (env : Env) (decl : Str) (body : C) : MS C W Unit :=
  M.bind (newFn ⟨.code decl body, env.inst, some env.frame, false⟩) fun f =>
  setVars env [(declName decl, .fn f)]

/-- Reading the result of a function with (`yields`) or without a `yield` in its code: one without is no
generator, its result is `None`, and reading that is a `TypeError` (`kajiki/util.py` 58-83,
`kajiki/template.py` 248-260).  Simplified: such a function runs when its result is read, not when it is called;
Python blocks have no `yield`. -/
def reading (yields : Bool) (m : MS C W Unit) : MS C W Unit :=
  M.bind m fun _ => if yields then M.pure () else M.throw .type

/-- A condition. -/
def condM (O : Oracle W) (env : Env) : Cond → MS C W Bool
  | .code e => M.bind (evalM O env e) fun v => M.pure (truthy v)
  | .case e => M.bind (kjInst env) fun j => M.bind (evalM O env e) fun v => caseM j v
  | .never => M.pure false

end

mutual
/-- There is a `yield` in the statement, outside of nested functions. -/
def yields : Stmt → Bool
  | .yieldLit _ => true
  | .yieldGettext _ => true
  | .yieldCode _ => true
  | .yieldEscape _ => true
  | .includeS _ => true
  | .extendS _ => true
  | .attrS _ _ _ => true
  | .attrsS _ _ _ => true
  | .forS _ body els => yieldsAny body || yieldsAny els
  | .ifS _ body els => yieldsAny body || yieldsAny els
  | _ => false

/-- There is one in some of the statements. -/
def yieldsAny : List Stmt → Bool
  | [] => false
  | x :: xs => yields x || yieldsAny xs
end

section
variable {W : Type}

mutual
/-- One statement.  `call` runs a template function.  Simplified: the target of an assignment of
`py:with` is a single name. -/
def exec (P : Prog (List Stmt)) (O : Oracle W) (call : Mode → Nat → List Val → MS (List Stmt) W Unit)
    (env : Env) : Stmt → MS (List Stmt) W Unit
  | .yieldLit s => M.tell (.chunk s)
  | .yieldGettext s => M.bind (gettextM O env s) fun v => emit call env.mode v
  | .yieldCode c => M.bind (evalM O env c) fun v => emit call env.mode v
  | .yieldEscape c => M.bind (evalM O env c) fun v => emit call env.mode (escape v)
  | .py ls => M.bind (ask env (O.py ls)) fun b => setVars env b
  | .importS n a => M.bind (importM P env n a) fun _ => M.pure ()
  | .includeS n => M.bind (importM P env n none) fun i => emitMain call env.mode i
  | .extendS n => M.bind (extendM P env n) fun i => emitMain call env.mode i
  | .pushWith ns => M.bind (kjInst env) fun j => M.bind M.get fun s =>
      pushWithM j (ns.map fun k => ((localVars env s).get k).getD .unit)
  | .assign k v => M.bind (evalM O env v) fun v => setVars env [(k, v)]
  | .popWith ns => M.bind (kjInst env) fun j => M.bind (popWithM j) fun vs => unpack env ns vs
  | .pushSwitch e => M.bind (kjInst env) fun j => M.bind (evalM O env e) fun v => pushSwitchM j v
  | .popSwitch => M.bind (kjInst env) fun j => popSwitchM j
  | .fdef decl body => fdefM env decl body
  | .collect body => collectM env fun env => reading (yieldsAny body) (execList P O call env body)
  | .attrS n m els => M.bind (attrM env n m) fun _ => execList P O call env els
  | .attrsS c m els => M.bind (attrsM O env c m) fun _ => execList P O call env els
  | .forS d body els =>
    M.bind (ask env (O.iter d)) fun bs =>
    M.bind (M.each (fun b => M.bind (setVars env b) fun _ => execList P O call env body) bs) fun _ =>
    execList P O call env els
  | .ifS c body els =>
    M.bind (condM O env c) fun t =>
      if t then execList P O call env body else execList P O call env els

/-- Statements in order. -/
def execList (P : Prog (List Stmt)) (O : Oracle W)
    (call : Mode → Nat → List Val → MS (List Stmt) W Unit) (env : Env) :
    List Stmt → MS (List Stmt) W Unit
  | [] => M.pure ()
  | x :: xs => M.bind (exec P O call env x) fun _ => execList P O call env xs
end

end

section
variable {C W : Type}

/-- The instance `local` refers to, among `n` existing instances. -/
def localInst (n : Nat) : Option Val → Option Nat
  | some (.inst j) => if j < n then some j else none
  | _ => none

/-- Reading the result of calling function object `f`: `run` executes a body, `call` is used by the
trampoline.  The global `local` of the function's instance is looked up here. -/
def callWith (O : Oracle W) (run : Env → C → MS C W Unit)
    (call : Mode → Nat → List Val → MS C W Unit) (mode : Mode) (f : Nat) (as : List Val) :
    MS C W Unit :=
  M.bind M.get fun s =>
  M.bind (M.ofOption .type s.fns[f]?) fun fn =>
    match fn.body with
    | .code decl body =>
      M.bind (fun s => let r := O.args decl as s.world; ⟨.nil, { s with world := r.2 }, r.1⟩) fun vars =>
      M.bind (newFrame vars fn.up) fun fr =>
      M.bind (getInst fn.inst) fun i =>
        run ⟨fn.inst, fr, localInst s.insts.length (Dict.get i.globals "local".toList), mode⟩ body
    | .tramp k =>
      M.bind (globalInst ⟨fn.inst, 0, none, mode⟩ "parent".toList) fun p =>
      M.bind (attrFn p k) fun g => call mode g as

end

section
variable {W : Type}

/-- Calls nested at most `n` deep; deeper ones are Python's recursion error. -/
def callN (P : Prog (List Stmt)) (O : Oracle W) : Nat → Mode → Nat → List Val → MS (List Stmt) W Unit
  | 0, _, _, _ => M.throw .recursion
  | n + 1, mode, f, as =>
    callWith O (fun env body => reading (yieldsAny body) (execList P O (callN P O n) env body)) (callN P O n) mode f as

/-- `instance.render()` (`kajiki/template.py` 96-106) of instance `i`. -/
def renderInst (P : Prog (List Stmt)) (O : Oracle W) (n : Nat) (i : Nat) : MS (List Stmt) W Unit :=
  emitMain (callN P O n) .stream i

/-- The empty store. -/
def emptyStore (C : Type) (w : W) : Store C W := ⟨[], [], [], [], w, fun _ => ⟨[], []⟩⟩

/-- `cls(context).render()` in a new process. -/
def render (P : Prog (List Stmt)) (O : Oracle W) (n : Nat) (c : Nat) (context : Dict Val) (w : W) :
    Res (Store (List Stmt) W) Unit :=
  M.bind (newInst P c context) (fun i => renderInst P O n i) (emptyStore _ w)

end

end Kajiki.Run

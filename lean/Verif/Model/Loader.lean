import Verif.Model.Dict
import Verif.Model.Value

/-!
# `kajiki/loader.py` and `kajiki/integration/pyramid.py`

Every access to the file system is given its own snapshot, so that the file system may change
between any two accesses.
-/

namespace Kajiki.Loader

/-- A file: its content and modification time. -/
structure File where
  content : Str
  mtime : Nat
deriving DecidableEq, Repr

/-- A file system at one instant. -/
abbrev FS := Str → Option File

/-- Which constructor is applied (`kajiki/loader.py` 58-63, 93-104). -/
inductive Kind
  | text
  | xml (mode : Str)
deriving DecidableEq, Repr

/-- A compiled template class.  `serial` is its identity: it is the number of the compilation that
produced it. -/
structure Tpl where
  serial : Nat
  kind : Kind
  file : Str
  content : Str
  opts : Str
deriving DecidableEq, Repr

/-- Loader state: `modules`, `_timestamps`, the number of compilations started so far, and (ghost)
the names successfully compiled so far, newest first. -/
structure State where
  modules : Dict Tpl := []
  timestamps : Dict Nat := []
  attempts : Nat := 0
  compiled : List Str := []

/-- The result of compiling, given the attempt number, constructor, file name, content and options:
`none` for success, or the exception.  Arbitrary; it may depend on anything. -/
abbrev Compiler := Nat → Kind → Str → Str → Str → Option Err

/-- Configuration of a loader.  `resolve fs name` is `_filename`; `kindOf filename` is the choice of
the constructor, which may raise. -/
structure Cfg where
  reload : Bool
  resolve : FS → Str → Except Err (Option Str)
  kindOf : Str → Except Err Kind
  compile : Compiler

/-- One call of `import_`: name, options, and the file system at each of its accesses:
`_filename`, `os.stat` in `import_`; `_filename`, `os.stat`, reading in `_load`. -/
structure Call where
  name : Str
  opts : Str
  fs0 : FS
  fs1 : FS
  fs2 : FS
  fs3 : FS
  fs4 : FS

/-- `FileLoader._load` (`kajiki/loader.py` 80-104). The time stamp is recorded before the
constructor is chosen and the file is read. -/
def load (cfg : Cfg) (st : State) (c : Call) : Except Err Tpl × State :=
  match cfg.resolve c.fs2 c.name with
  | .error e => (.error e, st)
  | .ok none => (.error .ioError, st)
  | .ok (some fn) =>
    match c.fs3 fn with
    | none => (.error .ioError, st)
    | some f =>
      let st := { st with timestamps := st.timestamps.set c.name f.mtime }
      match cfg.kindOf fn with
      | .error e => (.error e, st)
      | .ok kind =>
        match c.fs4 fn with
        | none => (.error .ioError, st)
        | some g =>
          let n := st.attempts
          let st := { st with attempts := n + 1 }
          match cfg.compile n kind fn g.content c.opts with
          | some e => (.error e, st)
          | none => (.ok ⟨n, kind, fn, g.content, c.opts⟩, { st with compiled := c.name :: st.compiled })

/-- `Loader.import_` (`kajiki/loader.py` 14-24).  Template classes are always true. -/
def baseImport (cfg : Cfg) (st : State) (c : Call) : Except Err Tpl × State :=
  match st.modules.get c.name with
  | some mod => (.ok mod, st)
  | none =>
    match load cfg st c with
    | (.error e, st) => (.error e, st)
    | (.ok mod, st) => (.ok mod, { st with modules := st.modules.set c.name mod })

/-- `FileLoader.import_` (`kajiki/loader.py` 72-78). `os.stat(None)` is a `TypeError`. -/
def importFile (cfg : Cfg) (st : State) (c : Call) : Except Err Tpl × State :=
  match cfg.resolve c.fs0 c.name with
  | .error e => (.error e, st)
  | .ok filename =>
    if cfg.reload && st.modules.has c.name then
      match filename with
      | none => (.error .type, st)
      | some fn =>
        match c.fs1 fn with
        | none => (.error .ioError, st)
        | some f =>
          if f.mtime > (st.timestamps.get c.name).getD 0 then
            baseImport cfg { st with modules := st.modules.del c.name } c
          else baseImport cfg st c
    else baseImport cfg st c

/-- A history of calls; returns the results in order. -/
def runCalls (cfg : Cfg) : State → List Call → List (Str × Except Err Tpl) × State
  | st, [] => ([], st)
  | st, c :: cs =>
    let r := importFile cfg st c
    let rs := runCalls cfg r.2 cs
    ((c.name, r.1) :: rs.1, rs.2)

/-! ## Finding files -/

/-- `os.path.join(base, name)` (POSIX, two arguments). -/
def pathJoin (base name : Str) : Str :=
  if name.head? = some '/' then name
  else if base.isEmpty || base.getLast? = some '/' then base ++ name
  else base ++ '/' :: name

/-- `path.split(';')` (`kajiki/loader.py` 49): always at least one piece. -/
def splitSemi : Str → List Str
  | [] => [[]]
  | c :: s =>
    if c = ';' then [] :: splitSemi s
    else match splitSemi s with
      | [] => [[c]]
      | p :: ps => (c :: p) :: ps

/-- `FileLoader._filename` (`kajiki/loader.py` 65-70). -/
def filename (path : List Str) (fs : FS) (name : Str) : Option Str :=
  match path with
  | [] => none
  | base :: rest =>
    let fn := pathJoin base name
    if (fs fn).isSome then some fn else filename rest fs name

/-- Position of the last occurrence of a character (`str.rfind`). -/
def rfind (c : Char) (s : Str) : Option Nat :=
  match s with
  | [] => none
  | d :: t => match rfind c t with
    | some i => some (i + 1)
    | none => if d = c then some 0 else none

/-- Where the last path component starts. -/
def lastComponent (p : Str) : Nat :=
  match rfind '/' p with
  | some i => i + 1
  | none => 0

/-- `os.path.splitext` (POSIX): the extension starts at the last dot of the last path component,
unless only dots precede it there. -/
def splitext (p : Str) : Str × Str :=
  match rfind '.' p with
  | none => (p, [])
  | some dot =>
    let start := lastComponent p
    if start ≤ dot && (slice p start dot).any (· != '.') then (p.take dot, p.drop dot) else (p, [])

/-- `os.path.basename` -/
def basename (p : Str) : Str :=
  match rfind '/' p with
  | some i => p.drop (i + 1)
  | none => p

/-- `Loader.default_alias_for` (`kajiki/loader.py` 26-27). -/
def defaultAliasFor (name : Str) : Str := (splitext (basename name)).1

/-- The choice of the constructor in `FileLoader._load` (`kajiki/loader.py` 58-63, 93-104);
`forceMode` is `[]` for `None`.  An unknown extension is a `KeyError`. -/
def kindOf (forceMode : Str) (fn : Str) : Except Err Kind :=
  if forceMode = "text".toList then .ok .text
  else if !forceMode.isEmpty then .ok (.xml forceMode)
  else
    let ext := (splitext fn).2.drop 1
    if ext = "txt".toList then .ok .text
    else if ext = "xml".toList then .ok (.xml [])
    else if ext = "html".toList then .ok (.xml "html".toList)
    else if ext = "html5".toList then .ok (.xml "html5".toList)
    else .error .key

/-- `FileLoader(path, reload, force_mode)` (`kajiki/loader.py` 43-63). -/
def fileLoader (path : Str) (reload : Bool) (forceMode : Str) (compile : Compiler) : Cfg where
  reload := reload
  resolve := fun fs name => .ok (filename (splitSemi path) fs name)
  kindOf := kindOf forceMode
  compile := compile

/-- `name.rsplit('.', 1)` unpacked into two names: a name without a dot is a `ValueError`. -/
def rsplitDot (name : Str) : Except Err (Str × Str) :=
  match rfind '.' name with
  | some i => .ok (name.take i, name.drop (i + 1))
  | none => .error .value

/-- The loop of `PackageLoader._filename` (`kajiki/loader.py` 114-119): either a file whose name is
the whole dotted name, or the dictionary `found` from extensions to files. -/
def scanPackage (name module : Str) : List Str → Dict Str → Str ⊕ Dict Str
  | [], found => .inr found
  | fn :: fns, found =>
    if fn = name then .inl fn
    else
      let (root, ext) := splitext fn
      scanPackage name module fns (if root = module then found.set ext fn else found)

/-- `PackageLoader._filename` (`kajiki/loader.py` 111-124).  `listdir package` is the package's file
list, `resource package fn` the file's path. -/
def packageFilename (listdir : Str → Except Err (List Str)) (resource : Str → Str → Str)
    (name : Str) : Except Err (Option Str) :=
  match rsplitDot name with
  | .error e => .error e
  | .ok (package, module) =>
    match listdir package with
    | .error e => .error e
    | .ok fns =>
      match scanPackage name module fns [] with
      | .inl fn => .ok (some (resource package fn))
      | .inr found =>
        match found.get ".xml".toList, found.get ".html".toList, found.get ".html5".toList,
            found.get ".txt".toList with
        | some fn, _, _, _ => .ok (some (resource package fn))
        | none, some fn, _, _ => .ok (some (resource package fn))
        | none, none, some fn, _ => .ok (some (resource package fn))
        | none, none, none, some fn => .ok (some (resource package fn))
        | none, none, none, none => .error .ioError

/-! ## The Pyramid loader -/

/-- `PyramidKajikiLoader.import_` (`kajiki/integration/pyramid.py` 78-90): like `FileLoader` but the
name is a path, and `_timestamps` is never written, so it is always empty; `_load`
(`kajiki/integration/pyramid.py` 72-76) only reads and compiles. -/
def pyramidLoad (compile : Compiler) (mode : Str) (st : State) (c : Call) : Except Err Tpl × State :=
  match c.fs4 c.name with
  | none => (.error .ioError, st)
  | some g =>
    let n := st.attempts
    let st := { st with attempts := n + 1 }
    match compile n (.xml mode) c.name g.content c.opts with
    | some e => (.error e, st)
    | none => (.ok ⟨n, .xml mode, c.name, g.content, c.opts⟩,
        { st with compiled := c.name :: st.compiled })

/-- `Loader.import_` over `pyramidLoad`. -/
def pyramidBase (compile : Compiler) (mode : Str) (st : State) (c : Call) : Except Err Tpl × State :=
  match st.modules.get c.name with
  | some mod => (.ok mod, st)
  | none =>
    match pyramidLoad compile mode st c with
    | (.error e, st) => (.error e, st)
    | (.ok mod, st) => (.ok mod, { st with modules := st.modules.set c.name mod })

/-- `PyramidKajikiLoader.import_` (`kajiki/integration/pyramid.py` 78-90). -/
def pyramidImport (compile : Compiler) (mode : Str) (autoReload : Bool) (st : State) (c : Call) :
    Except Err Tpl × State :=
  if autoReload && st.modules.has c.name then
    match c.fs1 c.name with
    | none => (.error .ioError, st)
    | some f =>
      if f.mtime > (st.timestamps.get c.name).getD 0 then
        pyramidBase compile mode { st with modules := st.modules.del c.name } c
      else pyramidBase compile mode st c
  else pyramidBase compile mode st c

/-- What Pyramid passes to a renderer as `system`: `renderer_name`, the name of `renderer_info`, and all the names
(those two included). -/
structure System where
  rendererName : Option Str
  rendererInfo : Option Str
  names : Dict Val

/-- `system.get('renderer_name') or system['renderer_info'].name` (`kajiki/integration/pyramid.py` 106): an empty
name is false. -/
def System.template (s : System) : Except Err Str :=
  match s.rendererName with
  | some (c :: cs) => .ok (c :: cs)
  | _ => match s.rendererInfo with
    | some n => .ok n
    | none => .error .key

/-- The option a template is loaded with: `is_fragment` (`kajiki/integration/pyramid.py` 107). -/
def fragmentOpts (isFragment : Bool) : Str := if isFragment then "is_fragment".toList else []

/-- `PyramidKajikiLoader.__call__` (`kajiki/integration/pyramid.py` 92-115).  `value` is `none` if the view did not
return a dictionary; `abspath` is `abspath_from_resource_spec`; `render` makes and renders an instance. The file system at
each access is that of `at_`, whose name and options are not used. -/
def pyramidCall (compile : Compiler) (mode : Str) (autoReload : Bool) (abspath : Str → Str)
    (render : Tpl → Dict Val → Except Err Str) (st : State) (at_ : Call) (value : Option (Dict Val)) (system : System)
    (isFragment : Bool) : Except Err Str × State :=
  match system.template with
  | .error e => (.error e, st)
  | .ok name =>
    match pyramidImport compile mode autoReload st { at_ with name := abspath name, opts := fragmentOpts isFragment } with
    | (.error e, st) => (.error e, st)
    | (.ok template, st) =>
      match value with
      | none => (.error .value, st)
      | some value => (render template (system.names.update value), st)

/-- `PyramidKajikiLoader.fragment` (`kajiki/integration/pyramid.py` 128-139).  `request or view.request` is an
`AttributeError` if there is neither; `other` are the names `request`, `view` and `context`. -/
def pyramidFragment (compile : Compiler) (mode : Str) (autoReload : Bool) (abspath : Str → Str)
    (render : Tpl → Dict Val → Except Err Str) (st : State) (at_ : Call) (rendererName : Str) (dic : Dict Val)
    (hasRequest hasView : Bool) (other : Dict Val) : Except Err Str × State :=
  if hasRequest || hasView then
    pyramidCall compile mode autoReload abspath render st at_ (some dic)
      ⟨some rendererName, none, ("renderer_name".toList, .str rendererName) :: other⟩ true
  else (.error .attr, st)

end Kajiki.Loader

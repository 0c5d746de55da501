import Verif.Model.Loader

/-!
# The applications: `kajiki/integration/pyramid.py` (`includeme`, `renderer_factory`) and
`kajiki/integration/turbogears1.py`
-/

namespace Kajiki

/-- `str.split()` with the characters of the current word: the words between white space. -/
def splitWordsAux : Str → Str → List Str
  | word, [] => if word.isEmpty then [] else [word]
  | word, c :: s =>
    if isSpace c then if word.isEmpty then splitWordsAux [] s else word :: splitWordsAux [] s
    else splitWordsAux (word ++ [c]) s

/-- `s.split()` -/
def splitWords (s : Str) : List Str := splitWordsAux [] s

namespace Pyramid
open Loader

/-- What is outside of the model: `paste.deploy.converters.asbool` (`None` is `none`), the compiler of templates,
`abspath_from_resource_spec`, and rendering. -/
structure Outside where
  asbool : Option Str → Except Err Bool
  compile : Compiler
  abspath : Str → Str
  render : Tpl → Dict Val → Except Err Str

/-- A `PyramidKajikiLoader` (`kajiki/integration/pyramid.py` 67-71). -/
structure KajikiLoader where
  autoReload : Bool
  mode : Str
  state : State := {}

/-- The part of an application that Kajiki uses: the extensions registered for `renderer_factory`, in order, and
`registry.kajiki_loader`. -/
structure App where
  renderers : List Str := []
  loader : Option KajikiLoader := none

/-- `includeme` (`kajiki/integration/pyramid.py` 43-56).  All settings are strings.  If `asbool` raises, the extensions have
been registered already. -/
def includeme (E : Outside) (settings : Dict Str) (app : App) : Except Err Unit × App :=
  if app.loader.isSome then (.ok (), app)
  else
    let extensions := splitWords ((settings.get "kajiki.extensions".toList).getD ".kajiki".toList)
    let app := { app with renderers := app.renderers ++ extensions }
    match E.asbool (settings.get "pyramid.reload_templates".toList) with
    | .error e => (.error e, app)
    | .ok autoReload =>
      (.ok (), { app with
        loader := some { autoReload, mode := (settings.get "kajiki.mode".toList).getD "html5".toList } })

/-- What happens to an application. -/
inductive Event
  /-- `config.include('kajiki.integration.pyramid')` -/
  | incl (settings : Dict Str)
  /-- The result of a view is rendered. -/
  | view (at_ : Call) (value : Option (Dict Val)) (system : System)
  /-- `registry.kajiki_loader.fragment(…)` -/
  | fragment (at_ : Call) (name : Str) (dic : Dict Val) (hasRequest hasView : Bool) (other : Dict Val)

/-- `renderer_factory` (`kajiki/integration/pyramid.py` 140-152) or `request.registry.kajiki_loader`: an `AttributeError` if
there is none.  Then the loader is used, and remembers what it loaded. -/
def withLoader (app : App) (f : KajikiLoader → Except Err Str × State) : Except Err (Option Str) × App :=
  match app.loader with
  | none => (.error .attr, app)
  | some l => ((f l).1.map some, { app with loader := some { l with state := (f l).2 } })

/-- One event: what is shown, if anything. -/
def step (E : Outside) (app : App) : Event → Except Err (Option Str) × App
  | .incl settings => ((includeme E settings app).1.map fun _ => none, (includeme E settings app).2)
  | .view at_ value system =>
    withLoader app fun l => pyramidCall E.compile l.mode l.autoReload E.abspath E.render l.state at_ value system false
  | .fragment at_ name dic hasRequest hasView other =>
    withLoader app fun l =>
      pyramidFragment E.compile l.mode l.autoReload E.abspath E.render l.state at_ name dic hasRequest hasView other

/-- A history of events: what each of them gives, and the application afterwards. -/
def run (E : Outside) : App → List Event → List (Except Err (Option Str)) × App
  | app, [] => ([], app)
  | app, e :: es =>
    let r := step E app e
    let rs := run E r.2 es
    (r.1 :: rs.1, rs.2)

end Pyramid

namespace TurboGears
open Loader

/-- What is outside of the model: `pkg_resources`, the compilers of files and of strings, and rendering. -/
structure Outside where
  listdir : Str → Except Err (List Str)
  resource : Str → Str → Str
  compile : Compiler
  compileString : Str → Except Err Tpl
  render : Tpl → Dict Val → Except Err Str

/-- The options of the plugin: `kajiki.reload` and `kajiki.force_mode` (`[]` for `None`).  Other loaders
(`kajiki.loader_class`) are not modelled. -/
structure Options where
  reload : Option Bool := none
  forceMode : Option Str := none

/-- The loader of the plugin (`kajiki/integration/turbogears1.py` 28-43, `kajiki/loader.py` 107-109): a `PackageLoader`. -/
def loader (E : Outside) (o : Options) : Cfg where
  reload := o.reload.getD true
  resolve := fun _ name => packageFilename E.listdir E.resource name
  kindOf := kindOf (o.forceMode.getD [])
  compile := E.compile

/-- A template as it is passed to the plugin: its dotted name, or a template. -/
inductive Given
  | name (n : Str)
  | template (t : Tpl)

/-- `load_template` (`kajiki/integration/turbogears1.py` 57-64); the file system is that of `at_`. -/
def loadTemplate (E : Outside) (o : Options) (st : State) (at_ : Call) (name : Str) (string : Option Str) :
    Except Err Tpl × State :=
  match string with
  | some s => (E.compileString s, st)
  | none => importFile (loader E o) st { at_ with name := name, opts := [] }

/-- The context of a template in `transform` (`kajiki/integration/turbogears1.py` 77): `extra` is `extra_vars_func`; `None`
cannot be called. -/
def variables (info : Dict Val) (extra : Option (Except Err (Dict Val))) : Except Err (Dict Val) :=
  match extra with
  | none => .error .type
  | some (.error e) => .error e
  | some (.ok vars) => .ok (info.update vars)

/-- `render` (`kajiki/integration/turbogears1.py` 66-78): `fragment` and `format` are not used.  `basestring` is whether this
name is known, as in Python 2. -/
def render (E : Outside) (basestring : Bool) (o : Options) (extra : Option (Except Err (Dict Val))) (st : State)
    (at_ : Call) (info : Dict Val) (template : Given) : Except Err Str × State :=
  if !basestring then (.error .name, st)
  else
    match (match template with
      | .name n => loadTemplate E o st at_ n none
      | .template t => (.ok t, st)) with
    | (.error e, st) => (.error e, st)
    | (.ok t, st) =>
      match variables info extra with
      | .error e => (.error e, st)
      | .ok context => (E.render t context, st)

end TurboGears
end Kajiki

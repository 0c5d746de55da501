import Verif.Model.Loader
import Verif.Model.Text
import Verif.Model.XmlCompile

/-!
# From the options of a loader to the arguments of `XMLTemplate` and `TextTemplate`
(`kajiki/loader.py` 43-63, 80-104; `kajiki/integration/pyramid.py` 72-76; `kajiki/xml_template.py` 30-57;
`kajiki/text.py` 53-67)
-/

namespace Kajiki.Settings

/-- The value of an option: `None`, `True`/`False`, a string, a list of strings, or anything else. -/
inductive Opt
  | none
  | bool (b : Bool)
  | str (s : Str)
  | strs (l : List Str)
  | other (n : Nat)
deriving DecidableEq, Repr, Inhabited

/-- `bool(x)`; other values are true. -/
def Opt.truthy : Opt → Bool
  | .none => false
  | .bool b => b
  | .str s => !s.isEmpty
  | .strs l => !l.isEmpty
  | .other _ => true

/-! ## Calling Python functions -/

/-- The keyword arguments of `f(a=…, b=…, **kw)`: a name given twice is a `TypeError`. -/
def keywords (given kw : Dict Opt) : Except Err (Dict Opt) :=
  if kw.any fun e => given.has e.1 then .error .type else .ok (given ++ kw)

/-- The values of the parameters when a function is called with `pos` and `kw`.  `params` are its parameters with their
default values.  Too many arguments, an unknown name, and a parameter given twice are `TypeError`s. -/
def bindArgs (params : Dict Opt) (pos : List Opt) (kw : Dict Opt) : Except Err (Dict Opt) :=
  if params.length < pos.length then .error .type
  else if kw.any fun e => !Dict.has (params.drop pos.length) e.1 then .error .type
  else .ok (((params.take pos.length).zip pos).map (fun e => (e.1.1, e.2)) ++
    (params.drop pos.length).map fun e => (e.1, (kw.get e.1).getD e.2))

/-- The parameters of `XMLTemplate` (`kajiki/xml_template.py` 30-32). -/
def xmlParams : Dict Opt :=
  [("source".toList, .none), ("filename".toList, .none), ("mode".toList, .none), ("is_fragment".toList, .bool false),
   ("encoding".toList, .str "utf-8".toList), ("autoblocks".toList, .none), ("cdata_scripts".toList, .bool true),
   ("strip_text".toList, .bool false), ("base_globals".toList, .none)]

/-- The parameters of `TextTemplate` (`kajiki/text.py` 53-54). -/
def textParams : Dict Opt :=
  [("source".toList, .none), ("filename".toList, .none), ("autoescape".toList, .bool false),
   ("encoding".toList, .str "utf-8".toList)]

/-! ## The loaders -/

/-- The arguments of `FileLoader` that concern templates (`kajiki/loader.py` 43-57); `forceMode` is `[]` for `None`. -/
structure Cfg where
  forceMode : Str := []
  autoescapeText : Opt := .bool false
  xmlAutoblocks : Opt := .none
  templateOptions : Dict Opt := []

/-- Which constructor is called. -/
inductive Ctor
  | text
  | xml
deriving DecidableEq, Repr

/-- The parameters of a constructor. -/
def Ctor.params : Ctor → Dict Opt
  | .text => textParams
  | .xml => xmlParams

/-- The arguments of `load(name, *pos, **kw)` once `FileLoader._load` has taken `encoding` (`kajiki/loader.py` 80): it is
not used there. -/
def takeEncoding (pos : List Opt) (kw : Dict Opt) : Except Err (List Opt × Dict Opt) :=
  match pos with
  | [] => .ok ([], kw.del "encoding".toList)
  | _ :: pos => if kw.has "encoding".toList then .error .type else .ok (pos, kw)

/-- A call with some keywords and further ones. -/
def call (c : Ctor) (pos : List Opt) (given kw : Dict Opt) : Except Err (Ctor × Dict Opt) :=
  match keywords given kw with
  | .error e => .error e
  | .ok kw =>
    match bindArgs c.params pos kw with
    | .error e => .error e
    | .ok p => .ok (c, p)

/-- A call of a function `lambda *a, **kw: c(…, *a, **kw)`, which gives the arguments `own` (`kajiki/loader.py` 59-63). -/
def callThrough (c : Ctor) (pos : List Opt) (own given kw : Dict Opt) : Except Err (Ctor × Dict Opt) :=
  match keywords given kw with
  | .error e => .error e
  | .ok kw => call c pos own kw

/-- The functions of `extension_map` (`kajiki/loader.py` 58-63): the constructor and what is given to it. -/
def extensionMap (o : Cfg) (ext : Str) : Option (Ctor × Dict Opt) :=
  if ext = "txt".toList then some (.text, [("autoescape".toList, o.autoescapeText)])
  else if ext = "xml".toList then some (.xml, [])
  else if ext = "html".toList then some (.xml, [("mode".toList, .str "html".toList)])
  else if ext = "html5".toList then some (.xml, [("mode".toList, .str "html5".toList)])
  else none

/-- The constructor and its arguments in `FileLoader._load` (`kajiki/loader.py` 80-104), once the file is found. -/
def arguments (o : Cfg) (fn : Str) (pos : List Opt) (kw : Dict Opt) : Except Err (Ctor × Dict Opt) :=
  match takeEncoding pos kw with
  | .error e => .error e
  | .ok (pos, kw) =>
    let options := o.templateOptions.update kw
    if o.forceMode = "text".toList then
      call .text pos [("filename".toList, .str fn), ("autoescape".toList, o.autoescapeText)] options
    else if !o.forceMode.isEmpty then
      call .xml pos [("filename".toList, .str fn), ("mode".toList, .str o.forceMode),
        ("autoblocks".toList, o.xmlAutoblocks)] options
    else
      match extensionMap o ((Loader.splitext fn).2.drop 1) with
      | none => .error .key
      | some (c, own) =>
        callThrough c pos own [("source".toList, .none), ("filename".toList, .str fn)] options

/-- The arguments in `PyramidKajikiLoader._load` (`kajiki/integration/pyramid.py` 72-76). -/
def pyramidArguments (mode : Opt) (fn : Str) (pos : List Opt) (kw : Dict Opt) : Except Err (Ctor × Dict Opt) :=
  call .xml pos [("source".toList, .none), ("filename".toList, .str fn), ("mode".toList, mode)] kw

/-! ## The constructors -/

/-- What is outside of the model: reading a file (its name and the encoding), and expat. -/
structure Outside where
  read : Str → Str → Except Err Str
  expat : Str → Except Err (List Event)
  py : PyCompile
  gen : Nat → Str

/-- A string, or the empty one for `None`. -/
def Opt.string : Opt → Str
  | .str s => s
  | _ => []

/-- A list of strings, or the empty one for `None`. -/
def Opt.strings : Opt → List Str
  | .strs l => l
  | _ => []

/-- An argument. -/
def arg (p : Dict Opt) (k : String) : Opt := (Dict.get p k.toList).getD .none

/-- The source of a template (`kajiki/xml_template.py` 48-50, 591-592; `kajiki/text.py` 57-59, 62-63): if none is given, the
file is read.  A source that is no string is an error. -/
def source (E : Outside) (notString : Err) (p : Dict Opt) : Except Err Str :=
  match arg p "source" with
  | .none => E.read (arg p "filename").string (arg p "encoding").string
  | .str s => .ok s
  | _ => .error notString

/-- `_Parser.DTD` (`kajiki/xml_template.py` 582). -/
def ownDtd : Str := "<!DOCTYPE kajiki SYSTEM \"kajiki.dtd\">".toList

/-- `XMLTemplate` (`kajiki/xml_template.py` 30-57) up to the intermediate representation, with the arguments `p`; the
parser is given the source with its DOCTYPE replaced (`kajiki/xml_template.py` 598-600).  Arguments of wrong types are not
modelled, except the source. -/
def makeXml (E : Outside) (p : Dict Opt) : Except Err Tmpl :=
  match source E .type p with
  | .error e => .error e
  | .ok src =>
    let (dtd, position, rest) := extractDtd src
    match E.expat (rest.take position ++ ownDtd ++ rest.drop position) with
    | .error e => .error e
    | .ok es =>
      xmlTemplate E.py E.gen ⟨(arg p "mode").string, (arg p "is_fragment").truthy, (arg p "autoblocks").strings,
        (arg p "cdata_scripts").truthy⟩ (arg p "strip_text").truthy dtd es

/-- `TextTemplate` (`kajiki/text.py` 53-67) up to the intermediate representation, with the arguments `p`. -/
def makeText (E : Outside) (p : Dict Opt) : Except Err Tmpl :=
  if !(arg p "source").truthy && !(arg p "filename").truthy then .error .assertion
  else
    match source E .assertion p with
    | .error e => .error e
    | .ok src => textTemplate E.py E.gen (arg p "autoescape").truthy (some (arg p "filename").string) src

/-- The constructors. -/
def make (E : Outside) : Ctor × Dict Opt → Except Err Tmpl
  | (.text, p) => makeText E p
  | (.xml, p) => makeXml E p

/-- `FileLoader._load` (`kajiki/loader.py` 80-104) once the file is found. -/
def load (E : Outside) (o : Cfg) (fn : Str) (pos : List Opt) (kw : Dict Opt) : Except Err Tmpl :=
  match arguments o fn pos kw with
  | .error e => .error e
  | .ok a => make E a

/-- `PyramidKajikiLoader._load` (`kajiki/integration/pyramid.py` 72-76). -/
def pyramidLoad (E : Outside) (mode : Opt) (fn : Str) (pos : List Opt) (kw : Dict Opt) : Except Err Tmpl :=
  match pyramidArguments mode fn pos kw with
  | .error e => .error e
  | .ok a => make E a

end Kajiki.Settings

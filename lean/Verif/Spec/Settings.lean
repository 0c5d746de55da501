import Verif.Model.Settings

/-!
# Which arguments a template is made with (C81)
-/

namespace Kajiki.Spec.Settings
open Kajiki.Settings

/-- The arguments a `FileLoader` gives by itself for a file, and the constructor.  A forced mode comes first, else the
extension of the file decides.  Only with a forced mode `xml_autoblocks` is given. -/
def own (o : Cfg) (fn : Str) : Option (Ctor × Dict Opt) :=
  let filename := ("filename".toList, Opt.str fn)
  let fromFile := ("source".toList, Opt.none)
  let mode (m : Str) := ("mode".toList, Opt.str m)
  if o.forceMode = "text".toList then some (.text, [filename, ("autoescape".toList, o.autoescapeText)])
  else if o.forceMode ≠ [] then some (.xml, [filename, mode o.forceMode, ("autoblocks".toList, o.xmlAutoblocks)])
  else if (Loader.splitext fn).2 = ".txt".toList then
    some (.text, [fromFile, filename, ("autoescape".toList, o.autoescapeText)])
  else if (Loader.splitext fn).2 = ".xml".toList then some (.xml, [fromFile, filename])
  else if (Loader.splitext fn).2 = ".html".toList then some (.xml, [fromFile, filename, mode "html".toList])
  else if (Loader.splitext fn).2 = ".html5".toList then some (.xml, [fromFile, filename, mode "html5".toList])
  else none

/-- The option called `k`: that of this load, else that of the loader.  The encoding of a load is ignored. -/
def option (o : Cfg) (kw : Dict Opt) (k : Str) : Option Opt :=
  if k = "encoding".toList then o.templateOptions.get k else (kw.get k).or (o.templateOptions.get k)

/-- An option is accepted if it is a parameter of the constructor which the loader does not give itself. -/
def Accepted (c : Ctor) (given : Dict Opt) (k : Str) : Prop := c.params.has k = true ∧ given.has k = false

/-- What a parameter is: what the loader gives, else the option, else the default value. -/
def setting (o : Cfg) (given kw : Dict Opt) (k : Str) (default : Opt) : Opt :=
  match given.get k with
  | some v => v
  | none => (option o kw k).getD default

/-- A page: the source is parsed with its DOCTYPE replaced by one that makes expat report entities, and compiled. -/
def page (E : Outside) (o : Opts) (stripText : Bool) (src : Str) : Except Err Tmpl :=
  let (dtd, position, rest) := extractDtd src
  (E.expat (rest.take position ++ ownDtd ++ rest.drop position)).bind fun es =>
    xmlTemplate E.py E.gen o stripText dtd es

end Kajiki.Spec.Settings

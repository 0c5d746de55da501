import Verif.Lemmas.DocSem

/-!
# C61: a rendered template is what its document says

`C61_rendering_is_document` joins the compiler from documents to trees, the generation of Python code and the
run of that code, and compares them with `Verif/Spec/DocSem.lean`, which reads the document directly.
-/

namespace Kajiki.Props
open Kajiki.Run Kajiki.Spec.DocSem Kajiki.DocComp
open Kajiki.Spec.Sem (Steady)

variable {W : Type}

/-- **C61.** For any set of templates that compile, with the directives in the right places: rendering one of
them with a context gives the text, the exception and the side effects that its document means, for every
behaviour of the expressions, if the conditions of `py:strip` have no side effects. -/
theorem C61_rendering_is_document (ts : List Template) (S : Source) (P : Prog (List Stmt)) (O : Oracle W)
    (hc : List.Forall₂ (fun t u => compileDoc t.conf t.doc = .ok u.1 ∧ u.2 = t.base) ts S.tmpls)
    (hp : ∀ t ∈ ts, t.placed = true) (h : S.compile = some P)
    (hs : ∀ t ∈ ts, ∀ x ∈ t.doc.kids, ∀ e ∈ tagConds t.conf.opts x, Steady O e)
    (n i : Nat) (context : Dict Val) (w : W) :
    let real := render P O n i context w
    let meant := rendered (program ts S.load S.aliasFor) O n i context w
    real.out = meant.out ∧ real.val = meant.val ∧ real.st.world = meant.st.world := by
  have hr : List.Forall₂ CompiledR ts S.tmpls := by
    have : ∀ {ts : List Template} {us}, List.Forall₂
        (fun t (u : Tmpl × Dict Val) => compileDoc t.conf t.doc = .ok u.1 ∧ u.2 = t.base) ts us →
        (∀ t ∈ ts, t.placed = true) → List.Forall₂ CompiledR ts us := by
      intro ts us h
      induction h with
      | nil => intro _; exact .nil
      | cons h _ ih =>
        intro hp
        exact .cons ⟨h.1, h.2, hp _ (List.mem_cons_self ..)⟩ (ih fun t ht => hp t (List.mem_cons_of_mem _ ht))
    exact this hc hp
  have h1 := render_merged O h (compiled_cases hr) n i context w
  have h2 := sem_merged S O (fun u hu d hd g hg => by
    obtain ⟨t, ht, x, hx, hg⟩ := compiled_guards hr u hu d hd g hg
    exact hs t ht x hx g hg) n i context w
  have h3 := rendered_rel hr O n i context w
  exact ⟨(h1.out.trans h2.out).trans h3.out, (h1.val.trans h2.val).trans h3.val,
    (h1.st.world.trans h2.st.world).trans h3.st.world⟩

/-- **C61.** The same from the sources of the templates to the output. -/
theorem C61_rendering_is_source (xs : List SourceFile) (S : Source) (P : Prog (List Stmt)) (O : Oracle W)
    (hc : List.Forall₂ (fun x u => xmlTemplate x.py x.gen x.opts x.stripText x.dtd x.events = .ok u.1 ∧
      u.2 = x.base) xs S.tmpls)
    (hp : ∀ t ∈ xs.filterMap SourceFile.template, t.placed = true) (h : S.compile = some P)
    (hs : ∀ t ∈ xs.filterMap SourceFile.template, ∀ x ∈ t.doc.kids, ∀ e ∈ tagConds t.conf.opts x, Steady O e)
    (n i : Nat) (context : Dict Val) (w : W) :
    let real := render P O n i context w
    let meant := rendered (program (xs.filterMap SourceFile.template) S.load S.aliasFor) O n i context w
    real.out = meant.out ∧ real.val = meant.val ∧ real.st.world = meant.st.world := by
  refine C61_rendering_is_document _ S P O ?_ hp h hs n i context w
  have : ∀ {xs : List SourceFile} {us}, List.Forall₂ (fun x (u : Tmpl × Dict Val) =>
      xmlTemplate x.py x.gen x.opts x.stripText x.dtd x.events = .ok u.1 ∧ u.2 = x.base) xs us →
      List.Forall₂ (fun (t : Template) (u : Tmpl × Dict Val) => compileDoc t.conf t.doc = .ok u.1 ∧ u.2 = t.base)
        (xs.filterMap SourceFile.template) us := by
    intro xs us h
    induction h with
    | nil => exact .nil
    | @cons x u xs us h _ ih =>
      obtain ⟨h1, h2⟩ := h
      unfold xmlTemplate at h1
      cases hd : parseEvents x.dtd x.events with
      | error e => rw [hd] at h1; cases h1
      | ok doc =>
        rw [hd] at h1
        have ht : x.template = some ⟨⟨x.py, selectMode x.opts.mode (transform x.stripText doc).dtd, x.opts, x.gen⟩,
            transform x.stripText doc, x.base⟩ := by
          unfold SourceFile.template
          rw [hd]
        rw [List.filterMap_cons_some ht]
        exact .cons ⟨h1, h2⟩ ih
  exact this hc

/-! ### An example

A layout and a page that extends it, with a block, functions, a loop, choices and conditional tags. -/

/-- Names are looked up in the locals and then in the globals. -/
private def lookup (e : Str) (v : View) : Option Val :=
  let rec go : List (Dict Val) → Option Val
    | [] => none
    | d :: ds => (Dict.get d e).or (go ds)
  (go v.locals).or ((v.insts[v.inst]?).bind fun i => Dict.get i.globals e)

/-- `f()`: a call without arguments. -/
private def callee (e : Str) : Str := e.takeWhile (· ≠ '(')

private def pythonish : Oracle Nat where
  eval e v w :=
    if "not (".toList.isPrefixOf e then
      (match lookup ((e.drop 5).dropLast) v with | some x => .ok (.bool !(truthy x)) | none => .error .name, w)
    else if e.contains '(' then
      (match lookup (callee e) v with | some (.fn f) => .ok (.flatCall w f []) | _ => .error .name, w + 1)
    else (match lookup e v with | some x => .ok x | none => .error .name, w)
  iter _ _ w := (.ok [[(['i'], .int 1)], [(['i'], .int 2)]], w)
  py _ _ w := (.ok [], w)
  args _ _ w := (.ok [], w)
  gettext _ s w := (.ok (.str s), w)

/-- Anything without a closing brace is an expression. -/
private def valid : PyCompile := fun s => if s.contains '}' then some (1, s.idxOf '}' + 1) else none
private def genName : Nat → Str := fun n => "_fn_".toList ++ (toString n).toList
private def start (tag : String) (as : List (String × String)) : Event :=
  .startElement tag.toList (as.map fun a => (a.1.toList, a.2.toList)) 1
private def stop (tag : String) : Event := .endElement tag.toList
private def chars (s : String) : Event := .characters s.toList 1

/-- `<div><b py:strip="s">$t</b><py:block name="content">empty</py:block></div>` -/
private def layout : List Event :=
  [start "div" [], start "b" [("py:strip", "s")], chars "$t", stop "b",
   start "py:block" [("name", "content")], chars "empty", stop "py:block", stop "div"]

/-- `<py:extends href="layout"><p py:def="f()">[$x]</p><py:block name="content">
<i py:for="i in x"><py:nop py:switch="i"><u py:case="a" title="$i">A</u><u py:else="">$i${f()}</u></py:nop></i>
</py:block></py:extends>` -/
private def page : List Event :=
  [start "py:extends" [("href", "layout")],
   start "p" [("py:def", "f()")], chars "[$x]", stop "p",
   start "py:block" [("name", "content")],
   start "i" [("py:for", "i in x")], start "py:nop" [("py:switch", "i")],
   start "u" [("py:case", "a"), ("title", "$i")], chars "A", stop "u",
   start "u" [("py:else", "")], chars "$i${f()}", stop "u", stop "py:nop", stop "i",
   stop "py:block", stop "py:extends"]

private def file (es : List Event) : SourceFile := ⟨valid, genName, ⟨"xml".toList, false, [], true⟩, false, [], es, []⟩
private def files : List SourceFile := [file layout, file page]

private def tmpl? (x : SourceFile) : Option (Tmpl × Dict Val) :=
  match xmlTemplate x.py x.gen x.opts x.stripText x.dtd x.events with
  | .ok t => some (t, x.base)
  | .error _ => none

private def compiled : List (Tmpl × Dict Val) := files.filterMap tmpl?

private theorem all_compiled (xs : List SourceFile) (h : xs.all (fun x => (tmpl? x).isSome) = true) :
    List.Forall₂ (fun x u => xmlTemplate x.py x.gen x.opts x.stripText x.dtd x.events = .ok u.1 ∧ u.2 = x.base)
      xs (xs.filterMap tmpl?) := by
  induction xs with
  | nil => exact .nil
  | cons x xs ih =>
    simp only [List.all_cons, Bool.and_eq_true] at h
    obtain ⟨u, hu⟩ := Option.isSome_iff_exists.1 h.1
    rw [List.filterMap_cons_some hu]
    refine .cons ?_ (ih h.2)
    unfold tmpl? at hu
    split at hu
    · next t ht => cases hu; exact ⟨ht, rfl⟩
    · cases hu

private theorem steady_not (e : Str) (h : "not (".toList.isPrefixOf e = true) : Steady pythonish e := by
  intro v w x w' h'
  simp only [pythonish] at h'
  rw [if_pos h] at h'
  exact (congrArg Prod.snd h').symm

private def site : Run.Source := ⟨compiled, fun n => if n = "layout".toList then some 0 else none, id⟩

private def ctx : Dict Val :=
  [(['a'], .int 1), (['s'], .bool true), (['t'], .str "<".toList), (['x'], .str "y".toList)]

set_option maxRecDepth 10000 in
example : (site.compile.map fun P => (render P pythonish 9 1 ctx 0).out.txt) =
    some "<div>&lt;<i><u title=\"1\">A</u></i><i><u>2<p>[y]</p></u></i></div>".toList := by
  decide +kernel

private theorem site_compiled :
    List.Forall₂ (fun x u => xmlTemplate x.py x.gen x.opts x.stripText x.dtd x.events = .ok u.1 ∧ u.2 = x.base)
      files site.tmpls := by
  have h : site.tmpls = files.filterMap tmpl? := by rw [site, compiled]
  rw [h]
  exact all_compiled files (by decide +kernel)

private theorem conds : ∀ t ∈ files.filterMap SourceFile.template, ∀ x ∈ t.doc.kids,
    ∀ e ∈ tagConds t.conf.opts x, "not (".toList.isPrefixOf e = true := by decide +kernel

set_option maxRecDepth 10000 in
example : ∃ P, site.compile = some P ∧ (render P pythonish 9 1 ctx 0).out =
    (rendered (program (files.filterMap SourceFile.template) site.load site.aliasFor) pythonish 9 1 ctx 0).out := by
  obtain ⟨P, hP⟩ : ∃ P, site.compile = some P := Option.isSome_iff_exists.1 (by decide +kernel)
  exact ⟨P, hP, (C61_rendering_is_source files site P pythonish site_compiled
    (by decide +kernel) hP (fun t ht x hx e he => steady_not e (conds t ht x hx e he)) 9 1 ctx 0).1⟩

end Kajiki.Props

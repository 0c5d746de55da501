import Verif.Props.TextRender
import Verif.Props.Document
import Verif.Lemmas.MainOf

/-!
# C65: content that shows nothing

Template functions are generators: what they show is what they yield.  The compiler takes care that a function
without content yields the empty string.  It does not take care of content that runs but never shows anything: the
function is then no generator, and showing its result is a `TypeError`.
-/

namespace Kajiki.Props
open Kajiki.Run

variable {W : Type}

private theorem bind_fails {S α β : Type} {m : M S α} {f : α → M S β} {s : S}
    (h : ∀ a s', m s = ⟨(m s).out, s', .ok a⟩ → ∀ b, (f a s').val ≠ .ok b) (b : β) : (M.bind m f s).val ≠ .ok b := by
  simp only [M.bind]
  split
  · nofun
  · next a e => exact h a _ (by rw [← e]) b

private theorem reading_fails {C : Type} (m : MS C W Unit) (s : Store C W) (b : Unit) :
    (reading false m s).val ≠ .ok b := by
  unfold reading
  refine bind_fails (fun _ _ _ b => ?_) b
  nofun

/-- Calling a function whose body always fails fails. -/
private theorem call_fails {C : Type} {O : Oracle W} {run : Env → C → MS C W Unit}
    {call : Mode → Nat → List Val → MS C W Unit} {mode : Mode} {f : Nat} {as : List Val} {s : Store C W} {fn : Fn C}
    {decl : Str} {body : C} (hf : s.fns[f]? = some fn) (hb : fn.body = .code decl body)
    (h : ∀ env s b, (run env body s).val ≠ .ok b) (b : Unit) : (callWith O run call mode f as s).val ≠ .ok b := by
  unfold callWith
  refine bind_fails (fun a s' e => ?_) b
  cases e
  rw [hf]
  refine fun b => bind_fails (fun a s' e => ?_) b
  cases e
  rw [hb]
  exact fun b => bind_fails (fun a s' _ b => bind_fails (fun a s' _ b => bind_fails (fun a s' _ b => h _ _ _) b) b) b

/-- **C65** (finding).  Showing the result of a function without a `yield` fails, whatever its code does. -/
theorem C65_no_yield_fails (P : Prog (List Stmt)) (O : Oracle W) (n : Nat) (mode : Mode) (f : Nat) (as : List Val)
    (s : Store (List Stmt) W) (fn : Fn (List Stmt)) (decl : Str) (body : List Stmt) (hf : s.fns[f]? = some fn)
    (hb : fn.body = .code decl body) (hy : yieldsAny body = false) :
    (callN P O n mode f as s).val ≠ .ok () := by
  cases n with
  | zero => nofun
  | succ n =>
    rw [callN]
    refine call_fails hf hb (fun env s b => ?_) ()
    rw [hy]
    exact reading_fails _ _ _

private theorem main_name : declName "__main__()".toList = "__main__".toList := by decide +kernel

/-- Calling a function whose body is the empty string. -/
private theorem call_says {C : Type} {O : Oracle W} {run : Env → C → MS C W Unit}
    {call : Mode → Nat → List Val → MS C W Unit} {mode : Mode} {f : Nat} {as : List Val} {s : Store C W} {fn : Fn C}
    {decl : Str} {body : C} (hf : s.fns[f]? = some fn) (hb : fn.body = .code decl body) {x : Inst}
    (hx : s.insts[fn.inst]? = some x) {vars : Dict Val} {w' : W} (ha : O.args decl as s.world = (.ok vars, w'))
    (h : ∀ env, run env body = M.tell (.chunk [])) :
    (callWith O run call mode f as s).out.txt = [] ∧ (callWith O run call mode f as s).val = .ok () ∧
      (callWith O run call mode f as s).st.world = w' := by
  have : callWith O run call mode f as s = M.tell (.chunk [])
      { s with frames := s.frames ++ [⟨vars, liveScope s.frames fn.up, none⟩], world := w' } := by
    simp only [callWith, M.bind, M.get, hf, M.ofOption, M.pure, hb, ha, newFrame, getInst, hx, Out.nil_append, h]
  rw [this]
  exact ⟨rfl, rfl, rfl⟩

section
open Kajiki.Spec.TextSem Kajiki.Spec.TextTree Kajiki.Spec.TextSource Kajiki.Texts

variable (xs : List File) (ts : List Template) (S : Source) (P : Prog (List Stmt)) (O : Oracle W)
    (hc : List.Forall₂ (fun x u => textTemplate x.py x.gen x.autoescape x.filename x.src = .ok u.1 ∧ u.2 = x.base)
      xs S.tmpls)
    (hx : List.Forall₂ Spelled xs ts) (ht : ∀ t ∈ ts, tidyAll t.tree = true) (h : S.compile = some P)
    (i : Nat) (t : Template) (hi : ts[i]? = some t)
    (hd : ∀ d ∈ defsAll t.conf .start t.tree, declName d.1 ≠ "__main__".toList)
include hc hx ht h hi hd

private theorem text_main (n : Nat) (context : Dict Val) (w : W) :
    ∃ (s : Store Part W) (f : Nat) (x : Inst), (render P O n i context w).out.txt =
        (callText (program ts S.load S.aliasFor) O n .stream f [] s).out.txt ∧
      (render P O n i context w).val = (callText (program ts S.load S.aliasFor) O n .stream f [] s).val ∧
      (render P O n i context w).st.world = (callText (program ts S.load S.aliasFor) O n .stream f [] s).st.world ∧
      s.fns[f]? = some ⟨.code "__main__()".toList (.body t.conf .start t.tree), 0, none, true⟩ ∧ s.insts = [x] ∧
      s.world = w := by
  obtain ⟨h1, h2, h3⟩ := C64_rendering_is_source xs ts S P O hc hx ht h n i context w
  obtain ⟨s, f, x, h4, h5⟩ := run_main (P := program ts S.load S.aliasFor) (i := i) (fs := t.functions)
    (base := t.base) (decl := "__main__()".toList) (b := .body t.conf .start t.tree)
    (by simp [program, hi]) main_name (set_mem _ _ _)
    (fun d hm hn => (mains hm).resolve_right fun h => hd d h hn)
    (callText (program ts S.load S.aliasFor) O n) context w
  unfold rendered at h1 h2 h3
  rw [h4] at h1 h2 h3
  exact ⟨s, f, x, congrArg _ h1, h2, h3, h5⟩

/-- **C65.** A text template that only declares something (functions, module-level code, blocks of a template
that extends another one) is rendered as the empty text. -/
theorem C65_text_declarations_partial (hs : silentAll .start t.tree = true) (n : Nat) (context vars : Dict Val) (w w' : W)
    (ha : O.args "__main__()".toList [] w = (.ok vars, w')) :
    let r := render P O (n + 1) i context w
    r.out.txt = [] ∧ r.val = .ok () ∧ r.st.world = w' := by
  obtain ⟨s, f, x, h1, h2, h3, h4, h5, h6⟩ := text_main xs ts S P O hc hx ht h i t hi hd (n + 1) context w
  dsimp only
  rw [h1, h2, h3, callText]
  refine call_says h4 rfl (by rw [h5]; rfl) (by rw [h6]; exact ha) fun env => ?_
  simp only [part, hs, if_true]
  rfl

/-- **C65** (finding).  A text template that does something but never shows anything - it only imports other
templates or runs Python code, possibly in loops and branches - cannot be rendered. -/
theorem C65_text_never_shows (hn : silentAll .start t.tree = false) (hs : speaksAny .start t.tree = false) (n : Nat)
    (context : Dict Val) (w : W) : (render P O n i context w).val ≠ .ok () := by
  obtain ⟨s, f, x, h1, h2, h3, h4, h5, h6⟩ := text_main xs ts S P O hc hx ht h i t hi hd n context w
  rw [h2]
  cases n with
  | zero => nofun
  | succ n =>
    rw [callText]
    refine call_fails h4 rfl (fun env s b => ?_) _
    simp only [part, hn, hs, Bool.false_eq_true, if_false]
    exact reading_fails _ _ _

end

section
open Kajiki.Spec.DocSem Kajiki.XmlComp
open Kajiki.Spec.Sem (Steady)

variable (ts : List Template) (S : Source) (P : Prog (List Stmt)) (O : Oracle W)
    (hc : List.Forall₂ (fun t u => compileDoc t.conf t.doc = .ok u.1 ∧ u.2 = t.base) ts S.tmpls)
    (hp : ∀ t ∈ ts, t.placed = true) (h : S.compile = some P)
    (hst : ∀ t ∈ ts, ∀ x ∈ t.doc.kids, ∀ e ∈ tagConds t.conf.opts x, Steady O e)
    (i : Nat) (t : Template) (hi : ts[i]? = some t) (root : DNode) (hr : t.root? = some root)
    (hd : ∀ d ∈ defs t.conf .root root, declName d.1 ≠ "__main__".toList)
include hc hp h hst hi hr hd

private theorem doc_main (n : Nat) (context : Dict Val) (w : W) :
    ∃ (s : Store Part W) (f : Nat) (x : Inst), (render P O n i context w).out.txt =
        (callDoc (program ts S.load S.aliasFor) O n .stream f [] s).out.txt ∧
      (render P O n i context w).val = (callDoc (program ts S.load S.aliasFor) O n .stream f [] s).val ∧
      (render P O n i context w).st.world = (callDoc (program ts S.load S.aliasFor) O n .stream f [] s).st.world ∧
      s.fns[f]? = some ⟨.code "__main__()".toList (.main t.conf (t.doctype root) root), 0, none, true⟩ ∧ s.insts = [x] ∧
      s.world = w := by
  obtain ⟨h1, h2, h3⟩ := C61_rendering_is_document ts S P O hc hp h hst n i context w
  have hfun : t.functions = Dict.set (Dict.update [("__main__()".toList, .main t.conf (t.doctype root) root)]
      (defs t.conf .root root)) "__main__()".toList (.main t.conf (t.doctype root) root) := by
    simp only [Template.functions, hr]
  obtain ⟨s, f, x, h4, h5⟩ := run_main (P := program ts S.load S.aliasFor) (i := i) (fs := t.functions)
    (base := t.base) (decl := "__main__()".toList) (b := .main t.conf (t.doctype root) root)
    (by simp [program, hi]) main_name (by rw [hfun]; exact set_mem _ _ _)
    (fun d hm hn => (mains (hfun ▸ hm)).resolve_right fun h => hd d h hn)
    (callDoc (program ts S.load S.aliasFor) O n) context w
  unfold rendered at h1 h2 h3
  rw [h4] at h1 h2 h3
  exact ⟨s, f, x, congrArg _ h1, h2, h3, h5⟩

/-- **C65.** An XML template that only declares something and has no DOCTYPE is rendered as the empty text. -/
theorem C65_xml_declarations_partial (hs : silent t.conf .root root = true) (hdt : t.doctype root = []) (n : Nat)
    (context vars : Dict Val) (w w' : W) (ha : O.args "__main__()".toList [] w = (.ok vars, w')) :
    let r := render P O (n + 1) i context w
    r.out.txt = [] ∧ r.val = .ok () ∧ r.st.world = w' := by
  obtain ⟨s, f, x, h1, h2, h3, h4, h5, h6⟩ := doc_main ts S P O hc hp h hst i t hi root hr hd (n + 1) context w
  dsimp only
  rw [h1, h2, h3, callDoc]
  refine call_says h4 rfl (by rw [h5]; rfl) (by rw [h6]; exact ha) fun env => ?_
  simp only [part, hs, hdt, List.isEmpty_nil, Bool.and_true, if_true]
  rfl

/-- **C65** (finding).  An XML template without DOCTYPE that does something but never shows anything cannot be
rendered. -/
theorem C65_xml_never_shows (hdt : t.doctype root = []) (hn : silent t.conf .root root = false)
    (hs : speaks t.conf .root root = false) (n : Nat) (context : Dict Val) (w : W) :
    (render P O n i context w).val ≠ .ok () := by
  obtain ⟨s, f, x, h1, h2, h3, h4, h5, h6⟩ := doc_main ts S P O hc hp h hst i t hi root hr hd n context w
  rw [h2]
  cases n with
  | zero => nofun
  | succ n =>
    rw [callDoc]
    refine call_fails h4 rfl (fun env s b => ?_) _
    simp only [part, hdt, hn, hs, List.isEmpty_nil, Bool.not_true, Bool.or_false, Bool.and_false, Bool.false_eq_true,
      if_false]
    exact reading_fails _ _ _

end

/-! ### Witnesses and examples -/

/-- Names are looked up in the locals and then in the globals. -/
private def lookup (e : Str) (v : View) : Option Val :=
  let rec go : List (Dict Val) → Option Val
    | [] => none
    | d :: ds => (Dict.get d e).or (go ds)
  (go v.locals).or ((v.insts[v.inst]?).bind fun i => Dict.get i.globals e)

private def pythonish : Oracle Nat where
  eval e v w :=
    if e.contains '(' then
      (match lookup (e.takeWhile (· ≠ '(')) v with | some (.fn f) => .ok (.flatCall w f []) | _ => .error .name, w + 1)
    else (match lookup (strip e) v with | some x => .ok x | none => .error .name, w)
  iter _ _ w := (.ok [[]], w)
  py _ _ w := (.ok [], w)
  args _ _ w := (.ok [], w)
  gettext _ s w := (.ok (.str s), w)

private def valid : PyCompile := fun s => if s.contains '}' then some (1, s.idxOf '}' + 1) else none
private def genName : Nat → Str := fun n => "_fn_".toList ++ (toString n).toList

private def textSite (srcs : List String) : List (Tmpl × Dict Val) :=
  srcs.filterMap fun src =>
    match textTemplate valid genName true none src.toList with
    | .ok u => some (u, [])
    | .error _ => none

private def outcome (us : List (Tmpl × Dict Val)) (i : Nat) : Option (Str × Except Err Unit) :=
  ((Source.mk us (fun n => if n = "layout".toList then some 0 else none) id).compile).map fun P =>
    let r := render P pythonish 9 i [] 0
    (r.out.txt, r.val)

private def textLayout : String := "a\n%block content\nb\n%end\nc\n"

/-- **C65** (finding).  A block of a text template cannot be replaced by nothing: the layout shows `b` in its block,
a page replaces the block by one without content, and rendering the page is a `TypeError` where the block begins. -/
theorem C65_text_blank_block :
    (outcome (textSite [textLayout, "%extends layout\n%block content\n%end\n"]) 0) =
      some ("a\nb\nc\n".toList, .ok ()) ∧
    (outcome (textSite [textLayout, "%extends layout\n%block content\n%end\n"]) 1) =
      some ("a\n".toList, .error .type) := by
  constructor <;> decide +kernel

/-- With some content it is fine. -/
example : (outcome (textSite [textLayout, "%extends layout\n%block content\nd\n%end\n"]) 1) =
    some ("a\nd\nc\n".toList, .ok ()) := by decide +kernel

private def start (tag : String) (as : List (String × String)) : Event :=
  .startElement tag.toList (as.map fun a => (a.1.toList, a.2.toList)) 1
private def stop (tag : String) : Event := .endElement tag.toList
private def chars (s : String) : Event := .characters s.toList 1

private def file (es : List Event) : Spec.DocSem.SourceFile :=
  ⟨valid, genName, ⟨"xml".toList, false, [], true⟩, false, [], es, []⟩

private def xmlSite (srcs : List (List Event)) : List (Tmpl × Dict Val) :=
  srcs.filterMap fun es =>
    match xmlTemplate valid genName (file es).opts false [] es with
    | .ok u => some (u, [])
    | .error _ => none

/-- `<p>a<py:block name="content">b</py:block></p>` -/
private def xmlLayout : List Event :=
  [start "p" [], chars "a", start "py:block" [("name", "content")], chars "b", stop "py:block", stop "p"]

/-- `<py:extends href="layout"><py:block name="content">...</py:block></py:extends>` -/
private def xmlPage (es : List Event) : List Event :=
  [start "py:extends" [("href", "layout")], start "py:block" [("name", "content")]] ++ es ++
  [stop "py:block", stop "py:extends"]

set_option maxRecDepth 10000 in
/-- **C65.** In XML templates a block can be replaced by nothing, but not by a Python block. -/
theorem C65_xml_blank_block :
    outcome (xmlSite [xmlLayout, xmlPage []]) 0 = some ("<p>ab</p>".toList, .ok ()) ∧
    outcome (xmlSite [xmlLayout, xmlPage []]) 1 = some ("<p>a</p>".toList, .ok ()) ∧
    outcome (xmlSite [xmlLayout, xmlPage [.pi "py".toList "x=1".toList 1]]) 1 = some ("<p>a".toList, .error .type) := by
  refine ⟨?_, ?_, ?_⟩ <;> decide +kernel

section
open Kajiki.Spec.TextSem Kajiki.Spec.TextTree Kajiki.Spec.TextSource Kajiki.Texts

/-- `%import layout`: a template that shows nothing. -/
private abbrev lib : Str := [] ++ '%' :: ("import".toList ++ (" layout".toList ++ '\n' :: []))

private theorem lib_reads : Reads valid true 1 [.tag "import".toList " layout".toList 2] lib :=
  .line (by simp [Spaces]) (named_of (by decide +kernel)) (by decide +kernel) (quiet_of (by decide +kernel)) .nil

private theorem lib_written : Written true .free [.importD "layout".toList none]
    [.tag "import".toList " layout".toList 2] :=
  .importD (by decide +kernel) .nil

private def texts : Source := ⟨[(template true genName [.importD "layout".toList none], [])], fun _ => some 0, id⟩

set_option maxRecDepth 10000 in
example : ∃ P, texts.compile = some P ∧ ∀ n ctx w, (render P pythonish n 0 ctx w).val ≠ .ok () := by
  obtain ⟨P, hP⟩ : ∃ P, texts.compile = some P := Option.isSome_iff_exists.1 (by decide +kernel)
  refine ⟨P, hP, ?_⟩
  exact C65_text_never_shows [⟨valid, genName, true, none, lib, []⟩] [⟨⟨true, genName⟩, [.importD "layout".toList none], []⟩]
    texts P pythonish
    (.cons ⟨C64_source_is_tree lib_reads lib_written (.inl (by decide +kernel)), rfl⟩ .nil)
    (.cons ⟨⟨_, lib_reads, lib_written⟩, rfl, rfl⟩ .nil) (by decide +kernel) hP 0 _ rfl (by simp [defsAll, defs])
    (by decide +kernel) (by decide +kernel)

/-- `%def f()`, `a`, `%end`: a template that only declares a function. -/
private abbrev decl : Str := [] ++ '%' :: ("def".toList ++ (" f()".toList ++ '\n' :: ("a\n".toList ++
  ([] ++ '%' :: ("end".toList ++ ([] ++ '\n' :: []))))))

private theorem decl_reads : Reads valid true 1
    [.tag "def".toList " f()".toList 2, .text "a\n".toList 3, .tag "end".toList [] 4] decl := by
  have h : Reads valid true 1 _ decl :=
    .line (by simp [Spaces]) (named_of (by decide +kernel)) (by decide +kernel) (quiet_of (by decide +kernel)) <|
    .text (by decide +kernel) (quiet_of (by decide +kernel)) (.inr (starts_of (by decide +kernel))) <|
    .line (by simp [Spaces]) (named_of (by decide +kernel)) (by decide +kernel) (quiet_of (by decide +kernel)) .nil
  refine Eq.subst (motive := fun l => Reads valid true 1 l decl) ?_ h
  decide +kernel

private def declTree : List Dir := [.defD " f()".toList [.text "a\n".toList 3]]

private theorem decl_written : Written true .free declTree
    [.tag "def".toList " f()".toList 2, .text "a\n".toList 3, .tag "end".toList [] 4] :=
  .defD (tb := [.text "a\n".toList 3]) (.text (by decide +kernel) .nil) .nil

private def decls : Source := ⟨[(template true genName declTree, [])], fun _ => none, id⟩

set_option maxRecDepth 10000 in
example : ∃ P, decls.compile = some P ∧ (render P pythonish 9 0 [] 0).val = .ok () := by
  obtain ⟨P, hP⟩ : ∃ P, decls.compile = some P := Option.isSome_iff_exists.1 (by decide +kernel)
  exact ⟨P, hP, (C65_text_declarations_partial [⟨valid, genName, true, none, decl, []⟩] [⟨⟨true, genName⟩, declTree, []⟩]
    decls P pythonish
    (.cons ⟨C64_source_is_tree decl_reads decl_written (.inl (by decide +kernel)), rfl⟩ .nil)
    (.cons ⟨⟨_, decl_reads, decl_written⟩, rfl, rfl⟩ .nil) (by decide +kernel) hP 0 _ rfl (by decide +kernel)
    (by decide +kernel) 8 [] [] 0 0 rfl).2.1⟩

end

section
open Kajiki.Spec.DocSem Kajiki.XmlComp

private theorem one_compiled {t : Template} {u : Tmpl} (h : compileDoc t.conf t.doc = .ok u) (hb : t.base = []) :
    List.Forall₂ (fun t (u : Tmpl × Dict Val) => compileDoc t.conf t.doc = .ok u.1 ∧ u.2 = t.base) [t] [(u, [])] :=
  .cons ⟨h, hb.symm⟩ .nil

private def one (root : DNode) : Template :=
  ⟨⟨valid, "xml".toList, ⟨"xml".toList, false, [], true⟩, genName⟩, ⟨[], [root]⟩, []⟩

/-- `<py:nop><?py x=1?></py:nop>` -/
private def runsRoot : DNode := .elem "py:nop".toList [] 1 [.pi "py".toList "x=1".toList 1]
private def runs : Template := one runsRoot
/-- `<py:def function="f()">a</py:def>` -/
private def declaresRoot : DNode := .elem "py:def".toList [("function".toList, "f()".toList)] 1 [.text ['a'] true 1]
private def declares : Template := one declaresRoot

private def compiled (t : Template) : List (Tmpl × Dict Val) :=
  match compileDoc t.conf t.doc with
  | .ok u => [(u, [])]
  | .error _ => []

private theorem compiled_one {t : Template} (h : (compiled t).isEmpty = false) (hb : t.base = []) :
    List.Forall₂ (fun t (u : Tmpl × Dict Val) => compileDoc t.conf t.doc = .ok u.1 ∧ u.2 = t.base) [t] (compiled t) := by
  unfold compiled at h ⊢
  split at h
  · next u hu => exact one_compiled hu hb
  · cases h

private theorem root_one (root : DNode) (h : ∀ t l, root ≠ .comment t l) : (one root).root? = some root := by
  cases root with
  | comment t l => exact absurd rfl (h t l)
  | _ => rfl

private theorem no_conds {ts : List Template} (h : ∀ t ∈ ts, ∀ x ∈ t.doc.kids, tagConds t.conf.opts x = []) :
    ∀ t ∈ ts, ∀ x ∈ t.doc.kids, ∀ e ∈ tagConds t.conf.opts x, Spec.Sem.Steady pythonish e := by
  intro t ht x hx e he
  rw [h t ht x hx] at he
  cases he

set_option maxRecDepth 10000 in
example : ∃ P, (Source.mk (compiled runs) (fun _ => none) id).compile = some P ∧
    ∀ n ctx w, (render P pythonish n 0 ctx w).val ≠ .ok () := by
  obtain ⟨P, hP⟩ : ∃ P, (Source.mk (compiled runs) (fun _ => none) id).compile = some P :=
    Option.isSome_iff_exists.1 (by decide +kernel)
  exact ⟨P, hP, C65_xml_never_shows [runs] _ P pythonish (compiled_one (by decide +kernel) rfl) (by decide +kernel) hP
    (no_conds (by decide +kernel)) 0 runs rfl runsRoot (root_one _ (by intros; nofun)) (by decide +kernel)
    (by decide +kernel) (by decide +kernel) (by decide +kernel)⟩

set_option maxRecDepth 10000 in
example : ∃ P, (Source.mk (compiled declares) (fun _ => none) id).compile = some P ∧
    (render P pythonish 9 0 [] 0).val = .ok () := by
  obtain ⟨P, hP⟩ : ∃ P, (Source.mk (compiled declares) (fun _ => none) id).compile = some P :=
    Option.isSome_iff_exists.1 (by decide +kernel)
  exact ⟨P, hP, (C65_xml_declarations_partial [declares] _ P pythonish (compiled_one (by decide +kernel) rfl)
    (by decide +kernel) hP (no_conds (by decide +kernel)) 0 declares rfl declaresRoot
    (root_one _ (by intros; nofun)) (by decide +kernel) (by decide +kernel) (by decide +kernel) 8 [] [] 0 0 rfl).2.1⟩

end

end Kajiki.Props

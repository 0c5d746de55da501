import Verif.Lemmas.TreeOrigin
import Verif.Props.Pure
import Verif.Props.Funs

/-!
# C74: a template with directives is read as its tree

`Verif/Spec/TreeSem.lean` says what a document with directives is read as, without any markup: a tree, as a function of
the values of the variables.
-/

namespace Kajiki.Props
open Kajiki.Run Kajiki.Spec.TreeSem Kajiki.Trees
open Kajiki.Spec.Pure (Py)
open Kajiki.Spec.Reader (Doctype legal)
open Kajiki.Spec.DocSem (Template tagConds)
open Kajiki.Spec.Sem (Steady)
open Kajiki.Spec.Layout (Child Extends)
open Kajiki.Spec.Funs (levels Calls)
open Kajiki.Spec.TreeOrigin (unmarked inside insideAll MadeAll MadeToken)

variable {W : Type}

/-- **C74.** Rendering a template without functions and without other templates, one of a set of compiled ones, in xml
mode.  Rendering ends with an exception if and only if the tree of the template does, and with the same one.  If it
does not, then an XML reader reads what is rendered as the tree of the template (if it has one): the elements of the
template that the directives choose, with the strings of the values in the places of the expressions. -/
theorem C74_read_as_tree (ts : List Template) (S : Source) (P : Prog (List Stmt))
    (hc : List.Forall₂ (fun t u => compileDoc t.conf t.doc = .ok u.1 ∧ u.2 = t.base) ts S.tmpls)
    (hp : ∀ t ∈ ts, t.placed = true) (h : S.compile = some P) (i : Nat) (t : Template) (ht : ts[i]? = some t)
    (root : DNode) (context : Dict Val) (hn : (context.map (·.1)).Nodup) (hm : t.conf.mode = "xml".toList)
    (hd : t.doc.dtd = [] ∨ Doctype (strip t.doc.dtd)) :
    ∃ G, Spec.Pure.Globals t.base context G ∧ ∀ (O : Oracle W) (w : W) (py : Py), Spec.Pure.Runs O py w context t root →
      (∀ t ∈ ts, ∀ x ∈ t.doc.kids, ∀ e ∈ tagConds t.conf.opts x, Steady O e) → ∀ n : Nat,
        let r := render P O (n + 1) i context w
        let g := grown xml py G t root
        r.val = (g.res.map fun _ => ()) ∧
        ∀ trees, g.trees = some trees → r.val = .ok () → (∀ c ∈ r.out.txt, legal c = true ∧ c ≠ '\r') →
          Spec.Reader.read r.out.txt = some (Spec.Reader.joined trees) := by
  obtain ⟨G, h1, h2⟩ := C67_template_shows (W := W) ts S P hc hp h i t ht root context hn
  refine ⟨G, h1, fun O w py hr hs n => ?_⟩
  obtain ⟨h3, h4, -⟩ := h2 O w py hr hs n
  have rel := shown_rel (D := Xml) top_xml (t := t) (by rw [hm]; exact reading_xml) hr.noCalls G
    (xml_doctype_tree (root := root) hd)
  refine ⟨by rw [h4, rel.res], fun trees ht hv hl => ?_⟩
  rw [h3] at hl ⊢
  rw [h4] at hv
  cases hm : (Spec.Pure.shown py G t root).res with
  | error e => rw [hm] at hv; cases hv
  | ok a => exact xml_read (rel.read trees ht a hm) hl

/-- **C74.** The same in an html mode: an HTML reader reads the tags and texts of the tree in order. -/
theorem C74_read_as_tree_html (ts : List Template) (S : Source) (P : Prog (List Stmt))
    (hc : List.Forall₂ (fun t u => compileDoc t.conf t.doc = .ok u.1 ∧ u.2 = t.base) ts S.tmpls)
    (hp : ∀ t ∈ ts, t.placed = true) (h : S.compile = some P) (i : Nat) (t : Template) (ht : ts[i]? = some t)
    (root : DNode) (context : Dict Val) (hn : (context.map (·.1)).Nodup) (hm : Spec.DocSem.html t.conf.mode = true)
    (hd : t.doc.dtd = [] ∨ Doctype (strip t.doc.dtd)) :
    ∃ G, Spec.Pure.Globals t.base context G ∧ ∀ (O : Oracle W) (w : W) (py : Py), Spec.Pure.Runs O py w context t root →
      (∀ t ∈ ts, ∀ x ∈ t.doc.kids, ∀ e ∈ tagConds t.conf.opts x, Steady O e) → ∀ n : Nat,
        let r := render P O (n + 1) i context w
        let g := grown html py G t root
        r.val = (g.res.map fun _ => ()) ∧
        ∀ trees, g.trees = some trees → r.val = .ok () → (∀ c ∈ r.out.txt, legal c = true ∧ c ≠ '\r') →
          Spec.HtmlReader.tokens r.out.txt = some (Spec.HtmlReader.joined (flattenAll trees)) := by
  obtain ⟨G, h1, h2⟩ := C67_template_shows (W := W) ts S P hc hp h i t ht root context hn
  refine ⟨G, h1, fun O w py hr hs n => ?_⟩
  obtain ⟨h3, h4, -⟩ := h2 O w py hr hs n
  have rel := shown_rel (D := Html0) top_html (t := t) (reading_html hm) hr.noCalls G
    (html_doctype_tree (root := root) hd)
  refine ⟨by rw [h4, rel.res], fun trees ht hv hl => ?_⟩
  rw [h3] at hl ⊢
  rw [h4] at hv
  cases hm : (Spec.Pure.shown py G t root).res with
  | error e => rw [hm] at hv; cases hv
  | ok a => exact html_read (rel.read trees ht a hm) hl

private theorem doctype_of {t : Template} {D : Str → List Spec.Reader.Tree → Prop} (h0 : D [] [])
    (h : ∀ root, D (t.doctype root) (doctypeTree (t.doctype root))) :
    D ((t.root?.map t.doctype).getD []) (doctypeTree ((t.root?.map t.doctype).getD [])) := by
  cases t.root? with
  | none => exact h0
  | some root => exact h root

/-- **C74.** The same for templates with functions and blocks that may extend other templates: an XML reader reads what
is rendered as the tree of the template, in which blocks are replaced and functions called as in C71. -/
theorem C74_functions_read (ts : List Template) (S : Source) (P : Prog (List Stmt))
    (hc : List.Forall₂ (fun t u => compileDoc t.conf t.doc = .ok u.1 ∧ u.2 = t.base) ts S.tmpls)
    (hp : ∀ t ∈ ts, t.placed = true) (h : S.compile = some P) (i : Nat) (cs : List Child) (t : Template) (root : DNode)
    (hx : Extends ts S.load i cs t root) (context : Dict Val) (hn : (context.map (·.1)).Nodup)
    (hm : ∀ l ∈ levels cs t root, l.t.conf.mode = "xml".toList)
    (hd : ∀ l ∈ levels cs t root, l.t.doc.dtd = [] ∨ Doctype (strip l.t.doc.dtd)) :
    ∃ G up, (∀ a < (levels cs t root).length, Spec.Funs.Globals (levels cs t root) context (G a)) ∧
      ∀ (O : Oracle W) (w : W) (py : Py) (C : Calls), Spec.Funs.Runs O py C context (levels cs t root) →
        (∀ t ∈ ts, ∀ x ∈ t.doc.kids, ∀ e ∈ tagConds t.conf.opts x, Steady O e) → ∀ n,
          let r := render P O n i context w
          let g := Spec.TreeFuns.grownAt xml (levels cs t root) C py G up n 0
          r.val = g.res ∧
          ∀ trees, g.trees = some trees → r.val = .ok () → (∀ c ∈ r.out.txt, legal c = true ∧ c ≠ '\r') →
            Spec.Reader.read r.out.txt = some (Spec.Reader.joined trees) := by
  obtain ⟨G, up, h1, h2⟩ := C71_functions_show (W := W) ts S P hc hp h i cs t root hx context hn
  refine ⟨G, up, h1, fun O w py C hr hs n => ?_⟩
  obtain ⟨h3, h4⟩ := h2 O w py C hr hs n
  have rel := shownAt_rel (D := Xml) top_xml (ls := levels cs t root) (fun l hl => by rw [hm l hl]; exact reading_xml)
    reading_xml.nil (C := C) (py := py) (G := G) (up := up)
    (fun l hl => doctype_of reading_xml.nil fun root => xml_doctype_tree (hd l hl)) n 0
  refine ⟨by rw [h4, rel.res], fun trees ht hv hl => ?_⟩
  rw [h3] at hl ⊢
  exact xml_read (rel.read trees ht () (h4 ▸ hv)) hl

/-- **C74.** The same in html modes. -/
theorem C74_functions_read_html (ts : List Template) (S : Source) (P : Prog (List Stmt))
    (hc : List.Forall₂ (fun t u => compileDoc t.conf t.doc = .ok u.1 ∧ u.2 = t.base) ts S.tmpls)
    (hp : ∀ t ∈ ts, t.placed = true) (h : S.compile = some P) (i : Nat) (cs : List Child) (t : Template) (root : DNode)
    (hx : Extends ts S.load i cs t root) (context : Dict Val) (hn : (context.map (·.1)).Nodup)
    (hm : ∀ l ∈ levels cs t root, Spec.DocSem.html l.t.conf.mode = true)
    (hd : ∀ l ∈ levels cs t root, l.t.doc.dtd = [] ∨ Doctype (strip l.t.doc.dtd)) :
    ∃ G up, (∀ a < (levels cs t root).length, Spec.Funs.Globals (levels cs t root) context (G a)) ∧
      ∀ (O : Oracle W) (w : W) (py : Py) (C : Calls), Spec.Funs.Runs O py C context (levels cs t root) →
        (∀ t ∈ ts, ∀ x ∈ t.doc.kids, ∀ e ∈ tagConds t.conf.opts x, Steady O e) → ∀ n,
          let r := render P O n i context w
          let g := Spec.TreeFuns.grownAt html (levels cs t root) C py G up n 0
          r.val = g.res ∧
          ∀ trees, g.trees = some trees → r.val = .ok () → (∀ c ∈ r.out.txt, legal c = true ∧ c ≠ '\r') →
            Spec.HtmlReader.tokens r.out.txt = some (Spec.HtmlReader.joined (flattenAll trees)) := by
  obtain ⟨G, up, h1, h2⟩ := C71_functions_show (W := W) ts S P hc hp h i cs t root hx context hn
  refine ⟨G, up, h1, fun O w py C hr hs n => ?_⟩
  obtain ⟨h3, h4⟩ := h2 O w py C hr hs n
  have rel := shownAt_rel (D := Html0) top_html (ls := levels cs t root) (fun l hl => reading_html (hm l hl))
    (reading_html (mode := "html".toList) (by decide +kernel)).nil (C := C) (py := py) (G := G) (up := up)
    (fun l hl => doctype_of (fun h => ⟨[], rfl, ReadsHtml.Same.refl _⟩) fun root => html_doctype_tree (hd l hl)) n 0
  refine ⟨by rw [h4, rel.res], fun trees ht hv hl => ?_⟩
  rw [h3] at hl ⊢
  exact html_read (rel.read trees ht () (h4 ▸ hv)) hl

/-- **C74.** If values bring no markup into a template, then an XML reader finds in what is rendered only elements and
comments of the template, and in the elements only their attributes (unless they have a `py:attrs`). -/
theorem C74_only_elements_of_template (ts : List Template) (S : Source) (P : Prog (List Stmt))
    (hc : List.Forall₂ (fun t u => compileDoc t.conf t.doc = .ok u.1 ∧ u.2 = t.base) ts S.tmpls)
    (hp : ∀ t ∈ ts, t.placed = true) (h : S.compile = some P) (i : Nat) (t : Template) (ht : ts[i]? = some t)
    (root : DNode) (context : Dict Val) (hn : (context.map (·.1)).Nodup) (hm : t.conf.mode = "xml".toList)
    (hd : t.doc.dtd = [] ∨ Doctype (strip t.doc.dtd)) :
    ∃ G, Spec.Pure.Globals t.base context G ∧ ∀ (O : Oracle W) (w : W) (py : Py), Spec.Pure.Runs O py w context t root →
      (∀ t ∈ ts, ∀ x ∈ t.doc.kids, ∀ e ∈ tagConds t.conf.opts x, Steady O e) → ∀ n : Nat,
        let r := render P O (n + 1) i context w
        (grown (unmarked xml) py G t root).trees.isSome = true → r.val = .ok () →
        (∀ c ∈ r.out.txt, legal c = true ∧ c ≠ '\r') →
          ∃ trees, Spec.Reader.read r.out.txt = some trees ∧ MadeAll (inside root) trees := by
  obtain ⟨G, h1, h2⟩ := C67_template_shows (W := W) ts S P hc hp h i t ht root context hn
  refine ⟨G, h1, fun O w py hr hs n => ?_⟩
  obtain ⟨h3, h4, -⟩ := h2 O w py hr hs n
  have rel := shown_rel (D := Xml) top_xml (t := t) (F := unmarked xml) (by rw [hm]; exact reading_unmarked reading_xml)
    hr.noCalls G (xml_doctype_tree (root := root) hd)
  intro r ht hv hl
  obtain ⟨trees, ht⟩ := Option.isSome_iff_exists.1 ht
  refine ⟨_, ?_, madeAll_joined (grown_from (F := unmarked xml) (fun _ _ h => by cases h) (fun _ h => h) trees ht)⟩
  change Spec.Reader.read (render P O (n + 1) i context w).out.txt = _
  rw [h3] at hl ⊢
  rw [h4] at hv
  cases hm : (Spec.Pure.shown py G t root).res with
  | error e => rw [hm] at hv; cases hv
  | ok a => exact xml_read (rel.read trees ht a hm) hl

/-- **C74.** The same for templates with functions and blocks that may extend other templates: an XML reader finds only
elements of these templates. -/
theorem C74_only_elements_of_templates (ts : List Template) (S : Source) (P : Prog (List Stmt))
    (hc : List.Forall₂ (fun t u => compileDoc t.conf t.doc = .ok u.1 ∧ u.2 = t.base) ts S.tmpls)
    (hp : ∀ t ∈ ts, t.placed = true) (h : S.compile = some P) (i : Nat) (cs : List Child) (t : Template) (root : DNode)
    (hx : Extends ts S.load i cs t root) (context : Dict Val) (hn : (context.map (·.1)).Nodup)
    (hm : ∀ l ∈ levels cs t root, l.t.conf.mode = "xml".toList)
    (hd : ∀ l ∈ levels cs t root, l.t.doc.dtd = [] ∨ Doctype (strip l.t.doc.dtd)) :
    ∃ G up, (∀ a < (levels cs t root).length, Spec.Funs.Globals (levels cs t root) context (G a)) ∧
      ∀ (O : Oracle W) (w : W) (py : Py) (C : Calls), Spec.Funs.Runs O py C context (levels cs t root) →
        (∀ t ∈ ts, ∀ x ∈ t.doc.kids, ∀ e ∈ tagConds t.conf.opts x, Steady O e) → ∀ n,
          let r := render P O n i context w
          (Spec.TreeFuns.grownAt (unmarked xml) (levels cs t root) C py G up n 0).trees.isSome = true → r.val = .ok () →
          (∀ c ∈ r.out.txt, legal c = true ∧ c ≠ '\r') →
            ∃ trees, Spec.Reader.read r.out.txt = some trees ∧
              MadeAll ((levels cs t root).flatMap fun l => insideAll l.kids) trees := by
  obtain ⟨G, up, h1, h2⟩ := C71_functions_show (W := W) ts S P hc hp h i cs t root hx context hn
  refine ⟨G, up, h1, fun O w py C hr hs n => ?_⟩
  obtain ⟨h3, h4⟩ := h2 O w py C hr hs n
  have rel := shownAt_rel (D := Xml) top_xml (F := unmarked xml) (ls := levels cs t root)
    (fun l hl => by rw [hm l hl]; exact reading_unmarked reading_xml)
    reading_xml.nil (C := C) (py := py) (G := G) (up := up)
    (fun l hl => doctype_of reading_xml.nil fun root => xml_doctype_tree (hd l hl)) n 0
  intro r ht hv hl
  obtain ⟨trees, ht⟩ := Option.isSome_iff_exists.1 ht
  refine ⟨_, ?_, madeAll_joined (grownAt_from (F := unmarked xml) (fun _ _ h => by cases h)
    (fun l hl y hy => List.mem_flatMap.2 ⟨l, hl, hy⟩) n 0 trees ht)⟩
  change Spec.Reader.read (render P O n i context w).out.txt = _
  rw [h3] at hl ⊢
  exact xml_read (rel.read trees ht () (h4 ▸ hv)) hl

/-- **C74.** The same in html modes: an HTML reader finds only tags and comments of these templates. -/
theorem C74_only_tags_of_templates (ts : List Template) (S : Source) (P : Prog (List Stmt))
    (hc : List.Forall₂ (fun t u => compileDoc t.conf t.doc = .ok u.1 ∧ u.2 = t.base) ts S.tmpls)
    (hp : ∀ t ∈ ts, t.placed = true) (h : S.compile = some P) (i : Nat) (cs : List Child) (t : Template) (root : DNode)
    (hx : Extends ts S.load i cs t root) (context : Dict Val) (hn : (context.map (·.1)).Nodup)
    (hm : ∀ l ∈ levels cs t root, Spec.DocSem.html l.t.conf.mode = true)
    (hd : ∀ l ∈ levels cs t root, l.t.doc.dtd = [] ∨ Doctype (strip l.t.doc.dtd)) :
    ∃ G up, (∀ a < (levels cs t root).length, Spec.Funs.Globals (levels cs t root) context (G a)) ∧
      ∀ (O : Oracle W) (w : W) (py : Py) (C : Calls), Spec.Funs.Runs O py C context (levels cs t root) →
        (∀ t ∈ ts, ∀ x ∈ t.doc.kids, ∀ e ∈ tagConds t.conf.opts x, Steady O e) → ∀ n,
          let r := render P O n i context w
          (Spec.TreeFuns.grownAt (unmarked html) (levels cs t root) C py G up n 0).trees.isSome = true → r.val = .ok () →
          (∀ c ∈ r.out.txt, legal c = true ∧ c ≠ '\r') →
            ∃ tokens, Spec.HtmlReader.tokens r.out.txt = some tokens ∧
              ∀ k ∈ tokens, MadeToken ((levels cs t root).flatMap fun l => insideAll l.kids) k := by
  obtain ⟨G, up, h1, h2⟩ := C71_functions_show (W := W) ts S P hc hp h i cs t root hx context hn
  refine ⟨G, up, h1, fun O w py C hr hs n => ?_⟩
  obtain ⟨h3, h4⟩ := h2 O w py C hr hs n
  have rel := shownAt_rel (D := Html0) top_html (F := unmarked html) (ls := levels cs t root)
    (fun l hl => reading_unmarked (reading_html (hm l hl)))
    (reading_html (mode := "html".toList) (by decide +kernel)).nil (C := C) (py := py) (G := G) (up := up)
    (fun l hl => doctype_of (fun h => ⟨[], rfl, ReadsHtml.Same.refl _⟩) fun root => html_doctype_tree (hd l hl)) n 0
  intro r ht hv hl
  obtain ⟨trees, ht⟩ := Option.isSome_iff_exists.1 ht
  refine ⟨_, ?_, madeToken_joined _ (madeToken_flattenAll _ (grownAt_from (F := unmarked html) (fun _ _ h => by cases h)
    (fun l hl y hy => List.mem_flatMap.2 ⟨l, hl, hy⟩) n 0 trees ht))⟩
  change Spec.HtmlReader.tokens (render P O n i context w).out.txt = _
  rw [h3] at hl ⊢
  exact html_read (rel.read trees ht () (h4 ▸ hv)) hl

/-! ### Examples -/

private def lit (s : String) : Spec.Reader.Tree := .text s.toList

private def tree : List Spec.Reader.Tree :=
  [.elem "ul".toList [("class".toList, "k".toList)]
    [.elem "li".toList [] [lit "1"], lit "-", .elem "li".toList [] [lit "<"], lit "same<"]]

/-- The tree of the example of C67. -/
example : let g := grown xml PureDemo.demo (Dict.get PureDemo.context) PureDemo.tm PureDemo.root
    g.trees = some tree ∧ g.res.toOption.isSome = true := ⟨rfl, by decide +kernel⟩

/-- The example meets the hypotheses, and reading gives the tree. -/
example (u : Tmpl) (hu : compileDoc PureDemo.tm.conf PureDemo.tm.doc = .ok u) (P : Prog (List Stmt))
    (hP : (Source.mk [(u, [])] (fun _ => none) id).compile = some P) :
    ∃ G, Spec.Pure.Globals PureDemo.tm.base PureDemo.context G ∧
      ∀ n, let r := render P (PureDemo.python PureDemo.demo) (n + 1) 0 PureDemo.context ()
        let g := grown xml PureDemo.demo G PureDemo.tm PureDemo.root
        ∀ trees, g.trees = some trees → r.val = .ok () → (∀ c ∈ r.out.txt, legal c = true ∧ c ≠ '\r') →
          Spec.Reader.read r.out.txt = some (Spec.Reader.joined trees) := by
  obtain ⟨G, h1, h2⟩ := C74_read_as_tree (W := Unit) [PureDemo.tm] ⟨[(u, [])], fun _ => none, id⟩ P
    (.cons ⟨hu, rfl⟩ .nil) (by decide +kernel) hP 0 PureDemo.tm rfl PureDemo.root PureDemo.context (by decide +kernel)
    rfl (.inl rfl)
  exact ⟨G, h1, fun n => (h2 _ () _ PureDemo.demo_runs (fun t ht x hx => by
    cases List.mem_singleton.1 ht
    cases List.mem_singleton.1 hx
    exact PureDoc.steady_ok _ _ _ PureDemo.demo_runs.ok) n).2⟩

example : Spec.Reader.read "<ul class=\"k\"><li>1</li>-<li>&lt;</li>same&lt;</ul>".toList =
    some (Spec.Reader.joined tree) := rfl

/-- Values bring no markup into it. -/
example : (grown (unmarked xml) PureDemo.demo (Dict.get PureDemo.context) PureDemo.tm PureDemo.root).trees = some tree :=
  rfl

/-- The same template in html mode. -/
private def tmHtml : Template := { PureDemo.tm with conf := { PureDemo.tm.conf with mode := "html".toList } }

private theorem html_runs :
    Spec.Pure.Runs (PureDemo.python PureDemo.demo) PureDemo.demo () PureDemo.context tmHtml PureDemo.root where
  isRoot := rfl
  ok := PureDemo.check_ok tmHtml.conf PureDemo.root (by decide +kernel)
  noCalls _ := rfl
  noBlocks := by decide +kernel
  speaks := by decide +kernel
  messages _ _ _ := rfl
  main := rfl
  free := by decide +kernel
  base := rfl

example (u : Tmpl) (hu : compileDoc tmHtml.conf tmHtml.doc = .ok u) (P : Prog (List Stmt))
    (hP : (Source.mk [(u, [])] (fun _ => none) id).compile = some P) :
    ∃ G, Spec.Pure.Globals tmHtml.base PureDemo.context G ∧
      ∀ n, let r := render P (PureDemo.python PureDemo.demo) (n + 1) 0 PureDemo.context ()
        let g := grown html PureDemo.demo G tmHtml PureDemo.root
        ∀ trees, g.trees = some trees → r.val = .ok () → (∀ c ∈ r.out.txt, legal c = true ∧ c ≠ '\r') →
          Spec.HtmlReader.tokens r.out.txt = some (Spec.HtmlReader.joined (flattenAll trees)) := by
  obtain ⟨G, h1, h2⟩ := C74_read_as_tree_html (W := Unit) [tmHtml] ⟨[(u, [])], fun _ => none, id⟩ P
    (.cons ⟨hu, rfl⟩ .nil) (by decide +kernel) hP 0 tmHtml rfl PureDemo.root PureDemo.context (by decide +kernel)
    (by decide +kernel) (.inl rfl)
  exact ⟨G, h1, fun n => (h2 _ () _ html_runs (fun t ht x hx => by
    cases List.mem_singleton.1 ht
    cases List.mem_singleton.1 hx
    exact PureDoc.steady_ok _ _ _ html_runs.ok) n).2⟩

example : (grown html PureDemo.demo (Dict.get PureDemo.context) tmHtml PureDemo.root).trees = some tree := rfl

/-- The tree of the example of C71: a page that extends a template that extends a layout, with functions. -/
example : let G := fun (_ : Nat) => Dict.get FunsDemo.context
    let g := Spec.TreeFuns.grownAt xml FunsDemo.demoLevels FunsDemo.calls FunsDemo.demo G (fun _ _ => .none) 9 0
    g.trees.map Spec.Reader.joined = some [.elem "html".toList [] [lit "([2,1,])!"]] ∧ g.res.toOption = some () :=
  ⟨rfl, by decide +kernel⟩

/-- Values bring no markup into it. -/
example : let G := fun (_ : Nat) => Dict.get FunsDemo.context
    (Spec.TreeFuns.grownAt (unmarked xml) FunsDemo.demoLevels FunsDemo.calls FunsDemo.demo G (fun _ _ => .none) 9 0).trees.isSome
      = true := rfl

/-- It meets the hypotheses. -/
example (a b c : Tmpl) (ha : compileDoc FunsDemo.tmTop.conf FunsDemo.tmTop.doc = .ok a)
    (hb : compileDoc FunsDemo.tmMid.conf FunsDemo.tmMid.doc = .ok b)
    (hc : compileDoc FunsDemo.tmLay.conf FunsDemo.tmLay.doc = .ok c) (P : Prog (List Stmt))
    (hP : (Source.mk [(a, []), (b, []), (c, [])] FunsDemo.load id).compile = some P) :
    ∃ G up, ∀ w n, let r := render P FunsDemo.pyth n 0 FunsDemo.context w
        let g := Spec.TreeFuns.grownAt xml FunsDemo.demoLevels FunsDemo.calls FunsDemo.demo G up n 0
        ∀ trees, g.trees = some trees → r.val = .ok () → (∀ c ∈ r.out.txt, legal c = true ∧ c ≠ '\r') →
          Spec.Reader.read r.out.txt = some (Spec.Reader.joined trees) := by
  have hm : ∀ l ∈ FunsDemo.demoLevels, l.t.conf.mode = "xml".toList ∧ l.t.doc.dtd = [] ∧
      ∀ x ∈ l.t.doc.kids, tagConds l.t.conf.opts x = [] := by decide +kernel
  obtain ⟨G, up, -, h⟩ := C74_functions_read (W := Nat) FunsDemo.tms ⟨[(a, []), (b, []), (c, [])], FunsDemo.load, id⟩ P
    (.cons ⟨ha, rfl⟩ (.cons ⟨hb, rfl⟩ (.cons ⟨hc, rfl⟩ .nil))) (by decide +kernel) hP 0 _ _ _ FunsDemo.demo_extends
    FunsDemo.context (by decide +kernel) (fun l hl => (hm l hl).1) (fun l hl => .inl (hm l hl).2.1)
  exact ⟨G, up, fun w n => (h FunsDemo.pyth w FunsDemo.demo FunsDemo.calls FunsDemo.demo_runs (fun t ht x hx e he => by
    have : ∀ t ∈ FunsDemo.tms, ∀ x ∈ t.doc.kids, tagConds t.conf.opts x = [] := by decide +kernel
    rw [this t ht x hx] at he
    cases he) n).2⟩

end Kajiki.Props

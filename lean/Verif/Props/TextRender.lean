import Verif.Lemmas.TextSem
import Verif.Lemmas.TextReads

/-!
# C64: a rendered text template is what its source says

`C64_scanned` and `C64_source_is_tree` go from the source to the tree of directives, `C64_rendering_is_tree` from
there to the output, and `C64_rendering_is_source` joins them.  The sources are described in
`Verif/Spec/TextSource.lean` and `Verif/Spec/TextTree.lean`, the meaning in `Verif/Spec/TextSem.lean`.
-/

namespace Kajiki.Props
open Kajiki.Run Kajiki.Spec.TextSem Kajiki.Spec.TextTree Kajiki.Spec.TextSource Kajiki.Texts

variable {W : Type}

/-- **C64.** A source that is written as tokens one after the other is scanned as these tokens. -/
theorem C64_scanned {py : PyCompile} {toks : List TTok} {src : Str} (h : Reads py true 1 toks src) :
    scan py src = (toks, none) := scan_reads h

/-- **C64.** A source that spells a tree of directives is compiled to the template of that tree. -/
theorem C64_source_is_tree {py : PyCompile} {gen : Nat → Str} {autoescape : Bool} {filename : Option Str}
    {toks : List TTok} {src : Str} {ds : List Dir} (hr : Reads py true 1 toks src) (hw : Written true .free ds toks)
    (hs : src ≠ [] ∨ ∃ f, filename = some f ∧ f ≠ []) :
    textTemplate py gen autoescape filename src = .ok (template autoescape gen ds) := by
  unfold textTemplate
  rw [scan_reads hr, parse_template hw, if_neg]
  rcases hs with h | ⟨f, rfl, h⟩
  · simp [h]
  · simp [h]

/-- **C64.** For any set of text templates given as trees, with the choices of a `%switch` first in it: rendering
one of them with a context gives the text, the exception and the side effects that its tree means, for every
behaviour of the expressions. -/
theorem C64_rendering_is_tree (ts : List Template) (S : Source) (P : Prog (List Stmt)) (O : Oracle W)
    (hc : List.Forall₂ (fun t u => u = (template t.conf.autoescape t.conf.gen t.tree, t.base)) ts S.tmpls)
    (ht : ∀ t ∈ ts, tidyAll t.tree = true) (h : S.compile = some P) (n i : Nat) (context : Dict Val) (w : W) :
    let real := render P O n i context w
    let meant := rendered (program ts S.load S.aliasFor) O n i context w
    real.out = meant.out ∧ real.val = meant.val ∧ real.st.world = meant.st.world := by
  have hr : List.Forall₂ TextR ts S.tmpls := by
    have : ∀ {ts : List Template} {us : List (Tmpl × Dict Val)}, List.Forall₂
        (fun t u => u = (template t.conf.autoescape t.conf.gen t.tree, t.base)) ts us →
        (∀ t ∈ ts, tidyAll t.tree = true) → List.Forall₂ TextR ts us := by
      intro ts us h
      induction h with
      | nil => intro _; exact .nil
      | cons h _ ih =>
        intro hp
        exact .cons ⟨h, hp _ (List.mem_cons_self ..)⟩ (ih fun t ht => hp t (List.mem_cons_of_mem _ ht))
    exact this hc ht
  have h1 := render_merged O h (fun u hu => (text_fine hr u hu).1) n i context w
  have h2 := sem_merged S O (fun u hu d hd g hg => by
    rw [(text_fine hr u hu).2 d hd] at hg; cases hg) n i context w
  have h3 := rendered_rel hr O n i context w
  exact ⟨(h1.out.trans h2.out).trans h3.out, (h1.val.trans h2.val).trans h3.val,
    (h1.st.world.trans h2.st.world).trans h3.st.world⟩

/-- **C64.** The same from the sources of the templates to the output. -/
theorem C64_rendering_is_source (xs : List File) (ts : List Template) (S : Source) (P : Prog (List Stmt))
    (O : Oracle W)
    (hc : List.Forall₂ (fun x u => textTemplate x.py x.gen x.autoescape x.filename x.src = .ok u.1 ∧ u.2 = x.base)
      xs S.tmpls)
    (hx : List.Forall₂ Spelled xs ts) (ht : ∀ t ∈ ts, tidyAll t.tree = true) (h : S.compile = some P)
    (n i : Nat) (context : Dict Val) (w : W) :
    let real := render P O n i context w
    let meant := rendered (program ts S.load S.aliasFor) O n i context w
    real.out = meant.out ∧ real.val = meant.val ∧ real.st.world = meant.st.world := by
  refine C64_rendering_is_tree ts S P O ?_ ht h n i context w
  have : ∀ {xs : List File} {us : List (Tmpl × Dict Val)}, List.Forall₂ (fun x u =>
      textTemplate x.py x.gen x.autoescape x.filename x.src = .ok u.1 ∧ u.2 = x.base) xs us →
      ∀ {ts : List Template}, List.Forall₂ Spelled xs ts →
      List.Forall₂ (fun t u => u = (template t.conf.autoescape t.conf.gen t.tree, t.base)) ts us := by
    intro xs us h
    induction h with
    | nil => rintro ts ⟨⟩; exact .nil
    | @cons x u xs us h _ ih =>
      rintro ts (_ | ⟨hs, hs'⟩)
      refine .cons ?_ (ih hs')
      obtain ⟨⟨toks, h1, h2⟩, h3, h4⟩ := hs
      obtain ⟨h5, h6⟩ := h
      unfold textTemplate at h5
      rw [scan_reads h1, parse_template h2] at h5
      split at h5
      · cases h5
      · obtain ⟨u1, u2⟩ := u
        cases h5
        simp only at h6
        rw [h3, h4, h6]
        rfl
  exact this hc hx

/-! ### An example

A layout with a block and a page that extends it, with a function, a loop and choices. -/

/-- Names are looked up in the locals and then in the globals. -/
private def lookup (e : Str) (v : View) : Option Val :=
  let rec go : List (Dict Val) → Option Val
    | [] => none
    | d :: ds => (Dict.get d e).or (go ds)
  (go v.locals).or ((v.insts[v.inst]?).bind fun i => Dict.get i.globals e)

private def pythonish : Oracle Nat where
  eval e v w :=
    if e.contains '(' then
      (match lookup (e.takeWhile (· ≠ '(')) v with | some (.fn f) => .ok (.flatCall w f []) | _ => .error .name, w + 1)
    else (match lookup (strip e) v with | some x => .ok x | none => .error .name, w)
  iter _ _ w := (.ok [[(['i'], .int 1)], [(['i'], .int 2)]], w)
  py _ _ w := (.ok [], w)
  args _ _ w := (.ok [], w)
  gettext _ s w := (.ok (.str s), w)

/-- Anything without a closing brace is an expression. -/
private def valid : PyCompile := fun s => if s.contains '}' then some (1, s.idxOf '}' + 1) else none
private def genName : Nat → Str := fun n => "_fn_".toList ++ (toString n).toList

/-! How the parts of the sources are written. -/

private abbrev line (name body : String) (rest : Str) : Str :=
  [] ++ '%' :: (name.toList ++ (body.toList ++ '\n' :: rest))
private abbrev tag (name body : String) (rest : Str) : Str :=
  '{' :: '%' :: (name.toList ++ (body.toList ++ '%' :: '}' :: rest))
private abbrev tagR (name body : String) (rest : Str) : Str :=
  '{' :: '%' :: (name.toList ++ (body.toList ++ '-' :: '%' :: '}' :: ([] ++ rest)))
private abbrev name (c : Char) (rest : Str) : Str := '$' :: c :: ([] ++ rest)
private abbrev braced (e : String) (rest : Str) : Str := '$' :: '{' :: (e.toList ++ '}' :: rest)
private abbrev text (t : String) (rest : Str) : Str := t.toList ++ rest

private abbrev layout : Str :=
  text "Hi\n" <| line "block" " content" <| text "empty\n" <| line "end" "" <| '$' :: '$' :: (text " " <| name 't' [])
private abbrev page : Str :=
  line "extends" " layout" <| tag "def" " f()" <| text "[" <| name 'x' <| text "]" <| tagR "end" "" <| text "\n" <|
  line "block" " content" <| line "for" " i in x" <| line "switch" " i" <| line "case" " a" <| text "A\n" <|
  line "else" "" <| name 'i' <| braced "f()" <| text "\n" <| line "end" "" <| line "end" "" <| line "end" "" <|
  line "end" "" []

example : page = ("%extends layout\n{%def f()%}[$x]{%end-%}\n%block content\n%for i in x\n%switch i\n%case a\n" ++
    "A\n%else\n$i${f()}\n%end\n%end\n%end\n%end\n").toList := by decide +kernel
example : layout = "Hi\n%block content\nempty\n%end\n$$ $t".toList := by decide +kernel

private def ttag (n b : String) (l : Nat) : TTok := .tag n.toList b.toList l

private def layoutToks : List TTok :=
  [.text "Hi\n".toList 2, ttag "block" " content" 3, .text "empty\n".toList 4, ttag "end" "" 5, .text ['$'] 5,
   .text [' '] 5, .expr ['t'] 5]
private def pageToks : List TTok :=
  [ttag "extends" " layout" 2, ttag "def" " f()" 2, .text ['['] 2, .expr ['x'] 2, .text [']'] 2, ttag "end" "" 2,
   .text ['\n'] 3, ttag "block" " content" 4, ttag "for" " i in x" 5, ttag "switch" " i" 6, ttag "case" " a" 7,
   .text "A\n".toList 8, ttag "else" "" 9, .expr ['i'] 9, .expr "f()".toList 9, .text ['\n'] 10, ttag "end" "" 11,
   ttag "end" "" 12, ttag "end" "" 13, ttag "end" "" 14]

private theorem r_line {n b : String} {ln : Nat} {toks : List TTok} {rest : Str}
    (h : (!n.toList.isEmpty && n.toList.all Spec.Text.letter && b.toList.head?.all (!Spec.Text.letter ·)) = true)
    (hb : (!b.toList.contains '\n') = true) (hq : quietB false b.toList ('\n' :: rest) = true)
    (hr : Reads valid true (ln + 1) toks rest) :
    Reads valid true ln (.tag n.toList b.toList (ln + 1) :: toks) (line n b rest) :=
  .line (by simp [Spaces]) (named_of h) (by simpa using hb) (quiet_of hq) hr

private theorem layout_reads : Reads valid true 1 layoutToks layout := by
  have h : Reads valid true 1 _ layout :=
    .text (by decide +kernel) (quiet_of (by decide +kernel)) (.inr (starts_of (by decide +kernel))) <|
    r_line (by decide +kernel) (by decide +kernel) (by decide +kernel) <|
    .text (by decide +kernel) (quiet_of (by decide +kernel)) (.inr (starts_of (by decide +kernel))) <|
    r_line (by decide +kernel) (by decide +kernel) (by decide +kernel) <|
    .dollar <|
    .text (by decide +kernel) (quiet_of (by decide +kernel)) (.inr (starts_of (by decide +kernel))) <|
    .name (by decide +kernel) (by simp) (by simp) .nil
  refine Eq.subst (motive := fun l => Reads valid true 1 l layout) ?_ h
  decide +kernel

private theorem page_reads : Reads valid true 1 pageToks page := by
  have h : Reads valid true 1 _ page :=
    r_line (by decide +kernel) (by decide +kernel) (by decide +kernel) <|
    .tag (named_of (by decide +kernel)) (by decide +kernel) (by decide +kernel) (quiet_of (by decide +kernel)) <|
    .text (by decide +kernel) (quiet_of (by decide +kernel)) (.inr (starts_of (by decide +kernel))) <|
    .name (by decide +kernel) (by simp) (by decide +kernel) <|
    .text (by decide +kernel) (quiet_of (by decide +kernel)) (.inr (starts_of (by decide +kernel))) <|
    .tagR (named_of (by decide +kernel)) (by decide +kernel) (by simp [Spec.Text.Blank]) (by decide +kernel)
      (by decide +kernel) (quiet_of (by decide +kernel)) <|
    .text (by decide +kernel) (quiet_of (by decide +kernel)) (.inr (starts_of (by decide +kernel))) <|
    r_line (by decide +kernel) (by decide +kernel) (by decide +kernel) <|
    r_line (by decide +kernel) (by decide +kernel) (by decide +kernel) <|
    r_line (by decide +kernel) (by decide +kernel) (by decide +kernel) <|
    r_line (by decide +kernel) (by decide +kernel) (by decide +kernel) <|
    .text (by decide +kernel) (quiet_of (by decide +kernel)) (.inr (starts_of (by decide +kernel))) <|
    r_line (by decide +kernel) (by decide +kernel) (by decide +kernel) <|
    .name (by decide +kernel) (by simp) (by decide +kernel) <|
    .braced ⟨1, 4, by decide +kernel, by decide +kernel⟩ (quiet_of (by decide +kernel)) <|
    .text (by decide +kernel) (quiet_of (by decide +kernel)) (.inr (starts_of (by decide +kernel))) <|
    r_line (by decide +kernel) (by decide +kernel) (by decide +kernel) <|
    r_line (by decide +kernel) (by decide +kernel) (by decide +kernel) <|
    r_line (by decide +kernel) (by decide +kernel) (by decide +kernel) <|
    r_line (by decide +kernel) (by decide +kernel) (by decide +kernel) .nil
  refine Eq.subst (motive := fun l => Reads valid true 1 l page) ?_ h
  decide +kernel

/-! The trees. -/

private def layoutTree : List Dir :=
  [.text "Hi\n".toList 2, .blockD " content".toList [.text "empty\n".toList 4], .text ['$'] 5, .text [' '] 5,
   .expr ['t'] 5]
private def pageTree : List Dir :=
  [.extendsD "layout".toList, .defD " f()".toList [.text ['['] 2, .expr ['x'] 2, .text [']'] 2], .text ['\n'] 3,
   .blockD " content".toList [.forD " i in x".toList [.switchD " i".toList
     [.caseD " a".toList [.text "A\n".toList 8],
      .elseD [.expr ['i'] 9, .expr "f()".toList 9, .text ['\n'] 10]]]]]

private theorem layout_written : Written true .free layoutTree layoutToks :=
  .text (by decide +kernel) <|
  .blockD (tb := [.text "empty\n".toList 4]) (by decide +kernel) (.text (by decide +kernel) .nil) <|
  .text (by decide +kernel) <| .text (by decide +kernel) <| .expr .nil

private theorem page_written : Written true .free pageTree pageToks :=
  .extendsD (by decide +kernel) <|
  .defD (tb := [.text ['['] 2, .expr ['x'] 2, .text [']'] 2])
    (.text (by decide +kernel) (.expr (.text (by decide +kernel) .nil))) <|
  .text (by decide +kernel) <|
  .blockD (tb := [ttag "for" " i in x" 5, ttag "switch" " i" 6, ttag "case" " a" 7,
      .text "A\n".toList 8, ttag "else" "" 9, .expr ['i'] 9, .expr "f()".toList 9, .text ['\n'] 10, ttag "end" "" 11,
      ttag "end" "" 12, ttag "end" "" 13]) (by decide +kernel)
    (.forD (tb := [ttag "switch" " i" 6, ttag "case" " a" 7,
      .text "A\n".toList 8, ttag "else" "" 9, .expr ['i'] 9, .expr "f()".toList 9, .text ['\n'] 10, ttag "end" "" 11,
      ttag "end" "" 12])
      (.switchD (tb := [ttag "case" " a" 7,
        .text "A\n".toList 8, ttag "else" "" 9, .expr ['i'] 9, .expr "f()".toList 9, .text ['\n'] 10, ttag "end" "" 11])
        (.caseD (tb := [.text "A\n".toList 8]) (.text (by decide +kernel) .nil)
          (.elseD (tb := [.expr ['i'] 9, .expr "f()".toList 9, .text ['\n'] 10])
            (.expr (.expr (.text (by decide +kernel) .nil))))
          (.inr (.inr (.inl rfl))))
        .nil)
      .nil)
    .nil

private def files : List File :=
  [⟨valid, genName, true, none, layout, []⟩, ⟨valid, genName, true, none, page, []⟩]
private def trees : List Template :=
  [⟨⟨true, genName⟩, layoutTree, []⟩, ⟨⟨true, genName⟩, pageTree, []⟩]
private def site : Run.Source :=
  ⟨trees.map fun t => (template t.conf.autoescape t.conf.gen t.tree, t.base),
   fun n => if n = "layout".toList then some 0 else none, id⟩

private def ctx : Dict Val := [(['a'], .int 1), (['t'], .str "<".toList), (['x'], .str "y".toList)]

private theorem spelled : List.Forall₂ Spelled files trees :=
  .cons ⟨⟨_, layout_reads, layout_written⟩, rfl, rfl⟩ (.cons ⟨⟨_, page_reads, page_written⟩, rfl, rfl⟩ .nil)

private theorem read : List.Forall₂ (fun x u =>
    textTemplate x.py x.gen x.autoescape x.filename x.src = .ok u.1 ∧ u.2 = x.base) files site.tmpls :=
  .cons ⟨C64_source_is_tree layout_reads layout_written (.inl (by decide +kernel)), rfl⟩
    (.cons ⟨C64_source_is_tree page_reads page_written (.inl (by decide +kernel)), rfl⟩ .nil)

example : (rendered (program trees site.load site.aliasFor) pythonish 9 1 ctx 0).out.txt =
    "Hi\nA\n2[y]\n$ &lt;\n".toList := by
  decide +kernel

set_option maxRecDepth 10000 in
example : ∃ P, site.compile = some P ∧ (render P pythonish 9 1 ctx 0).out =
    (rendered (program trees site.load site.aliasFor) pythonish 9 1 ctx 0).out := by
  obtain ⟨P, hP⟩ : ∃ P, site.compile = some P := Option.isSome_iff_exists.1 (by decide +kernel)
  exact ⟨P, hP, (C64_rendering_is_source files trees site P pythonish read spelled
    (by decide +kernel) hP 9 1 ctx 0).1⟩

end Kajiki.Props

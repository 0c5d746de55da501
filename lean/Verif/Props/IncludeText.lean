import Verif.Lemmas.IncludeText
import Verif.Props.Include
import Verif.Props.PureText

/-!
# C76: what text templates show that include others

`Verif/Spec/IncludeText.lean` says what a text template shows that includes others, as a function of the values of the
variables.
-/

namespace Kajiki.Props
open Kajiki.Run Kajiki.Spec.TextSem Kajiki.Spec.TextTree Kajiki.Spec.TextSource Kajiki.Texts
open Kajiki.Spec.Pure (Py Look Evals Globals)
open Kajiki.Spec.Include (Own)
open Kajiki.Spec.IncludeText (shownIn Fits Runs Ok OkAll)

variable {W : Type}

/-- **C76.** Rendering one of a set of text templates that include each other, where calls may be nested less than `n` deep.
The text it gives, and whether it ends with an exception, is what the templates show as a function of the variables of the
context. -/
theorem C76_included_text_templates_show (ts : List Template) (S : Source) (P : Prog (List Stmt))
    (hc : List.Forall₂ (fun t u => u = (template t.conf.autoescape t.conf.gen t.tree, t.base)) ts S.tmpls)
    (hp : ∀ t ∈ ts, tidyAll t.tree = true) (h : S.compile = some P) (i : Nat) (t : Template) (ht : ts[i]? = some t)
    (context : Dict Val) (hn : (context.map (·.1)).Nodup) :
    ∃ G, Globals t.base context G ∧ ∀ (O : Oracle W) (py : Py) (H : Str → Bool),
      Runs O py H S.load S.aliasFor context ts → ∀ (n : Nat) (w : W),
        let r := render P O n i context w
        let m := shownIn ts S.load py G n i
        r.out.txt = m.text ∧ r.val = m.res ∧ r.st.world = w := by
  refine ⟨PureDoc.globals t.base context, PureDoc.globals_ok _ _ hn, fun O py H hr n w => ?_⟩
  have h1 := C64_rendering_is_tree ts S P O hc hp h n i context w
  have h2 := IncludeTexts.rendered_incl hr ht n w
  dsimp only at h1 h2 ⊢
  rw [h1.1, h1.2.1, h1.2.2]
  exact h2

/-- **C76.** The same from the sources of the text templates. -/
theorem C76_included_text_sources_show (xs : List File) (ts : List Template) (S : Source) (P : Prog (List Stmt))
    (hc : List.Forall₂ (fun x u => textTemplate x.py x.gen x.autoescape x.filename x.src = .ok u.1 ∧ u.2 = x.base)
      xs S.tmpls)
    (hx : List.Forall₂ Spelled xs ts) (hp : ∀ t ∈ ts, tidyAll t.tree = true) (h : S.compile = some P)
    (i : Nat) (t : Template) (ht : ts[i]? = some t) (context : Dict Val) (hn : (context.map (·.1)).Nodup) :
    ∃ G, Globals t.base context G ∧ ∀ (O : Oracle W) (py : Py) (H : Str → Bool),
      Runs O py H S.load S.aliasFor context ts → ∀ (n : Nat) (w : W),
        let r := render P O n i context w
        let m := shownIn ts S.load py G n i
        r.out.txt = m.text ∧ r.val = m.res ∧ r.st.world = w := by
  refine ⟨PureDoc.globals t.base context, PureDoc.globals_ok _ _ hn, fun O py H hr n w => ?_⟩
  have h1 := C64_rendering_is_source xs ts S P O hc hx hp h n i context w
  have h2 := IncludeTexts.rendered_incl hr ht n w
  dsimp only at h1 h2 ⊢
  rw [h1.1, h1.2.1, h1.2.2]
  exact h2

/-! ### Examples

A page with a loop that includes an item; it shows the variable `x` of the context, not that of the loop.  And a template
that includes itself. -/

namespace IncludeTextDemo
open PureTextDemo (valid line name text tag ttag r_line)
open IncludeDemo (load aliasFor files demo evals loaded context)

abbrev page : Str :=
  line "for" " x in xs" <| name 'x' <| text ":" <| tag "include" " item.html" <| text "\n" <| line "end" "" <| name 'x' []

example : page = "%for x in xs\n$x:{%include item.html%}\n%end\n$x".toList := by decide +kernel

abbrev item : Str := text "[" <| name 'x' <| text "]" []

abbrev again : Str := name 'x' <| tag "include" " again.html" []

example : again = "$x{%include again.html%}".toList := by decide +kernel

def pageToks : List TTok :=
  [ttag "for" " x in xs" 2, .expr ['x'] 2, .text [':'] 2, ttag "include" " item.html" 2, .text ['\n'] 3, ttag "end" "" 4,
   .expr ['x'] 4]

theorem pageReads : Reads valid true 1 pageToks page := by
  have h : Reads valid true 1 _ page :=
    r_line (by decide +kernel) (by decide +kernel) (by decide +kernel) <|
    .name (by decide +kernel) (by simp) (by decide +kernel) <|
    .text (by decide +kernel) (quiet_of (by decide +kernel)) (.inr (starts_of (by decide +kernel))) <|
    .tag (named_of (by decide +kernel)) (by decide +kernel) (by decide +kernel) (quiet_of (by decide +kernel)) <|
    .text (by decide +kernel) (quiet_of (by decide +kernel)) (.inr (starts_of (by decide +kernel))) <|
    r_line (by decide +kernel) (by decide +kernel) (by decide +kernel) <|
    .name (by decide +kernel) (by simp) (by decide +kernel) .nil
  refine Eq.subst (motive := fun l => Reads valid true 1 l page) ?_ h
  decide +kernel

def pageTree : List Dir :=
  [.forD " x in xs".toList [.expr ['x'] 2, .text [':'] 2, .includeD "item.html".toList, .text ['\n'] 3], .expr ['x'] 4]

theorem pageWritten : Written true .free pageTree pageToks :=
  .forD (tb := [.expr ['x'] 2, .text [':'] 2, ttag "include" " item.html" 2, .text ['\n'] 3])
    (.expr (.text (by decide +kernel) (.includeD (by decide +kernel) (.text (by decide +kernel) .nil)))) (.expr .nil)

def itemToks : List TTok := [.text ['['] 1, .expr ['x'] 1, .text [']'] 1]

theorem itemReads : Reads valid true 1 itemToks item := by
  have h : Reads valid true 1 _ item :=
    .text (by decide +kernel) (quiet_of (by decide +kernel)) (.inr (starts_of (by decide +kernel))) <|
    .name (by decide +kernel) (by simp) (by decide +kernel) <|
    .text (by decide +kernel) (quiet_of (by decide +kernel)) (.inl rfl) .nil
  refine Eq.subst (motive := fun l => Reads valid true 1 l item) ?_ h
  decide +kernel

def itemTree : List Dir := [.text ['['] 1, .expr ['x'] 1, .text [']'] 1]

theorem itemWritten : Written true .free itemTree itemToks :=
  .text (by decide +kernel) (.expr (.text (by decide +kernel) .nil))

def againToks : List TTok := [.expr ['x'] 1, ttag "include" " again.html" 1]

theorem againReads : Reads valid true 1 againToks again := by
  have h : Reads valid true 1 _ again :=
    .name (by decide +kernel) (by simp) (by decide +kernel) <|
    .tag (named_of (by decide +kernel)) (by decide +kernel) (by decide +kernel) (quiet_of (by decide +kernel)) .nil
  refine Eq.subst (motive := fun l => Reads valid true 1 l again) ?_ h
  decide +kernel

def againTree : List Dir := [.expr ['x'] 1, .includeD "again.html".toList]

theorem againWritten : Written true .free againTree againToks := .expr (.includeD (by decide +kernel) .nil)

def tm (tree : List Dir) : Template := ⟨⟨true, PureTextDemo.genName⟩, tree, []⟩
def ts : List Template := [tm pageTree, tm itemTree, tm againTree]
def sources : List File := [page, item, again].map fun s => ⟨valid, PureTextDemo.genName, true, none, s, []⟩
def site : Run.Source := ⟨[pageTree, itemTree, againTree].map fun t => (template true PureTextDemo.genName t, []), load, aliasFor⟩

theorem spelled : List.Forall₂ Spelled sources ts :=
  .cons ⟨⟨_, pageReads, pageWritten⟩, rfl, rfl⟩ (.cons ⟨⟨_, itemReads, itemWritten⟩, rfl, rfl⟩
    (.cons ⟨⟨_, againReads, againWritten⟩, rfl, rfl⟩ .nil))

theorem read : List.Forall₂ (fun x u =>
    textTemplate x.py x.gen x.autoescape x.filename x.src = .ok u.1 ∧ u.2 = x.base) sources site.tmpls :=
  .cons ⟨C64_source_is_tree pageReads pageWritten (.inl (by decide +kernel)), rfl⟩
    (.cons ⟨C64_source_is_tree itemReads itemWritten (.inl (by decide +kernel)), rfl⟩
      (.cons ⟨C64_source_is_tree againReads againWritten (.inl (by decide +kernel)), rfl⟩ .nil))

theorem runs : Runs (PureDemo.python demo) demo files load aliasFor context ts where
  fits t ht := by
    simp only [ts, List.mem_cons, List.not_mem_nil, or_false] at ht
    have h1 : files "item.html".toList = true := by decide +kernel
    have h2 : files "again.html".toList = true := by decide +kernel
    rcases ht with rfl | rfl | rfl
    · refine ⟨?_, by decide +kernel, .nil, fun _ _ => rfl⟩
      unfold tm pageTree
      simp only [OkAll, Ok]
      exact ⟨⟨fun _ _ => rfl, evals _, trivial, h1, trivial, trivial⟩, evals _, trivial⟩
    · refine ⟨?_, by decide +kernel, .nil, fun _ _ => rfl⟩
      unfold tm itemTree
      simp only [OkAll, Ok]
      exact ⟨trivial, evals _, trivial, trivial⟩
    · refine ⟨?_, by decide +kernel, .nil, fun _ _ => rfl⟩
      unfold tm againTree
      simp only [OkAll, Ok]
      exact ⟨evals _, h2, trivial⟩
  loads n i h := IncludeDemo.demo_runs.loads n i h
  main _ := rfl
  free := by decide +kernel
  names := IncludeDemo.demo_runs.names
  blind := IncludeDemo.demo_runs.blind

example : (shownIn ts load demo (Dict.get context) 2 0).text = "1:[&amp;]\n&lt;:[&amp;]\n&lt;".toList := by decide +kernel

example : (shownIn ts load demo (Dict.get context) 3 2).text = "&amp;&amp;&amp;".toList ∧
    (shownIn ts load demo (Dict.get context) 3 2).res.toOption = none := by decide +kernel

example : ∃ P G, site.compile = some P ∧ ∀ n, (render P (PureDemo.python demo) n 0 context ()).out.txt =
    (shownIn ts load demo G n 0).text := by
  obtain ⟨P, hP⟩ : ∃ P, site.compile = some P := Option.isSome_iff_exists.1 (by decide +kernel)
  obtain ⟨G, -, h⟩ := C76_included_text_sources_show (W := Unit) sources ts site P read spelled (by decide +kernel) hP 0 _ rfl
    context (by decide +kernel)
  exact ⟨P, G, hP, fun n => (h _ demo files runs n ()).1⟩

end IncludeTextDemo

end Kajiki.Props

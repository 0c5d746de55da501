import Verif.Lemmas.PasteText
import Verif.Props.Paste
import Verif.Props.Hide
import Verif.Props.IncludeText

/-!
# C83, C84: text templates that include others

An `%include` shows what it would show to have the content of the included template in its place, if the two do not look at
each other's local variables (`Verif/Spec/PasteText.lean`).  And variables that are set before they are looked at hide those
of the context, in included templates as well.
-/

namespace Kajiki.Props
open Kajiki.Run Kajiki.Unused Kajiki.Spec.PasteText Kajiki.PasteTextL
open Kajiki.Spec.TextSem (Template tidyAll)
open Kajiki.Spec.TextTree (Dir)
open Kajiki.Spec.Pure (Py Look Shown)
open Kajiki.Spec.IncludeText (Runs shownIn)

variable {W : Type}

/-- What text templates that include others show. -/
theorem included_text_shows (ts : List Template) (S : Source) (P : Prog (List Stmt))
    (hc : List.Forall₂ (fun t u => u = (Spec.TextTree.template t.conf.autoescape t.conf.gen t.tree, t.base)) ts S.tmpls)
    (hp : ∀ t ∈ ts, tidyAll t.tree = true) (h : S.compile = some P) (i : Nat) (t : Template) (ht : ts[i]? = some t)
    (context : Dict Val) (O : Oracle W) (py : Py) (H : Str → Bool) (hr : Runs O py H S.load S.aliasFor context ts)
    (n : Nat) (w : W) :
    let r := render P O n i context w
    let m := shownIn ts S.load py (PureDoc.globals t.base context) n i
    r.out.txt = m.text ∧ r.val = m.res ∧ r.st.world = w := by
  have h1 := C64_rendering_is_tree ts S P O hc hp h n i context w
  have h2 := IncludeTexts.rendered_incl hr ht n w
  dsimp only at h1 h2 ⊢
  rw [h1.1, h1.2.1, h1.2.2]
  exact h2

private theorem res_of {lax : Prop} {m m' : Shown Unit} (h : PasteL.Rel lax (fun _ _ => True) m m')
    (hr : ¬(lax ∧ m.res = .error .recursion)) : m'.text = m.text ∧ m'.res = m.res := by
  rcases h with h | ⟨h1, h2⟩
  · exact absurd h hr
  · refine ⟨h1.symm, ?_⟩
    revert h2
    unfold PasteL.Same
    split
    · next e1 e2 => intro _; rw [e1, e2]
    · next e1 e2 => intro hh; rw [e1, e2, hh]
    · exact False.elim

/-- **C83.** Two sets of text templates, where the second is the first with some `%include`s, in any templates and at any
depth, replaced by the content of the templates they include.  Any template of the first set gives the same text and the
same exception as the one of the second, unless rendering fails because of the limit of nested calls; the second needs no
higher limit. -/
theorem C83_including_text_is_pasting (ts ts' : List Template) (S S' : Source) (P P' : Prog (List Stmt))
    (hc : List.Forall₂ (fun t u => u = (Spec.TextTree.template t.conf.autoescape t.conf.gen t.tree, t.base)) ts S.tmpls)
    (hc' : List.Forall₂ (fun t u => u = (Spec.TextTree.template t.conf.autoescape t.conf.gen t.tree, t.base)) ts' S'.tmpls)
    (hp : ∀ t ∈ ts, tidyAll t.tree = true) (hp' : ∀ t ∈ ts', tidyAll t.tree = true) (h : S.compile = some P)
    (h' : S'.compile = some P') (hl : S'.load = S.load) (i : Nat) (hi : i < ts.length) (context : Dict Val) (O : Oracle W)
    (py : Py) (H H' : Str → Bool) (hr : Runs O py H S.load S.aliasFor context ts)
    (hr' : Runs O py H' S'.load S'.aliasFor context ts')
    (hP : List.Forall₂ (Pasted py ts S.load) ts ts') (n n' : Nat) (hn : n ≤ n') (w : W) :
    let r := render P O n i context w
    let r' := render P' O n' i context w
    r.val ≠ .error .recursion → r'.out.txt = r.out.txt ∧ r'.val = r.val ∧ r'.st.world = r.st.world := by
  have hi' : i < ts'.length := hP.length_eq ▸ hi
  obtain ⟨a1, a2, a3⟩ := included_text_shows ts S P hc hp h i _ (List.getElem?_eq_getElem hi) context O py H hr n w
  obtain ⟨b1, b2, b3⟩ := included_text_shows ts' S' P' hc' hp' h' i _ (List.getElem?_eq_getElem hi') context O py H' hr' n' w
  have hbase : (ts'[i]).base = (ts[i]).base := by
    obtain ⟨⟨f, names, left, hpt, -⟩⟩ := hP.get hi hi'
    rw [List.get_eq_getElem, List.get_eq_getElem] at hpt
    rw [hpt]
    rfl
  rw [hl, hbase] at b1 b2
  dsimp only
  rw [a1, a2, a3, b1, b2, b3]
  intro hrec
  obtain ⟨k1, k2⟩ := res_of (shownIn_rel (G := PureDoc.globals (ts[i]).base context) hP hp n n' hn i) fun hh => hrec hh.2
  exact ⟨k1, k2, rfl⟩

/-- **C83.** Text templates that set no local variables can be pasted into others that set none, whatever variables they
look at. -/
theorem C83_text_without_local_variables (ts : List Template) (load : Str → Option Nat) (py : Py) (t : Template)
    (f : Str → Option (List Dir)) (ht : SetsAll py (fun _ => False) t.tree)
    (hf : ∀ file r, f file = some r → ∃ i u, load file = some i ∧ ts[i]? = some u ∧ u.tree = r ∧ r ≠ [] ∧
      u.conf.autoescape = t.conf.autoescape ∧ (∀ k, Dict.get u.base k = Dict.get t.base k) ∧
      SetsAll py (fun _ => False) r) :
    Pasted py ts load t (pasted f t) := by
  refine ⟨⟨f, fun _ => False, fun _ => False, rfl, fun _ h => h, carefulAll_nothing _ _, ht, fun file r h => ?_⟩⟩
  obtain ⟨i, u, h1, h2, rfl, h4, h5, h6, h7⟩ := hf file r h
  exact ⟨i, u, h1, h2, rfl, h4, h5, h6, carefulAll_nothing _ _, h7⟩

/-- **C84.** Text templates that include each other, and two contexts that differ only in variables none of them looks at
except inside of a `%for` that sets them: the text and the exception are the same. -/
theorem C84_local_variables_of_included_text_templates (ts : List Template) (S : Source) (P : Prog (List Stmt))
    (hc : List.Forall₂ (fun t u => u = (Spec.TextTree.template t.conf.autoescape t.conf.gen t.tree, t.base)) ts S.tmpls)
    (hp : ∀ t ∈ ts, tidyAll t.tree = true) (h : S.compile = some P) (i : Nat) (hi : i < ts.length)
    (context context' : Dict Val) (hn : (context.map (·.1)).Nodup) (hn' : (context'.map (·.1)).Nodup)
    (O : Oracle W) (py : Py) (H : Str → Bool) (hr : Runs O py H S.load S.aliasFor context ts)
    (hid : Str → Prop) (hcr : ∀ t ∈ ts, CarefulAll py (fun _ => False) hid t.tree)
    (hd : ∀ k, ¬hid k → Dict.get context k = Dict.get context' k)
    (hg : Dict.get context "gettext".toList = Dict.get context' "gettext".toList)
    (hl : ∀ k ∈ ["local".toList, "self".toList], Dict.get context' k = none) (n : Nat) (w : W) :
    let r := render P O n i context w
    let r' := render P O n i context' w
    r'.out.txt = r.out.txt ∧ r'.val = r.val ∧ r'.st.world = r.st.world := by
  obtain ⟨a1, a2, a3⟩ := included_text_shows ts S P hc hp h i _ (List.getElem?_eq_getElem hi) context O py H hr n w
  obtain ⟨b1, b2, b3⟩ := included_text_shows ts S P hc hp h i _ (List.getElem?_eq_getElem hi) context' O py H
    { hr with free := hl } n w
  dsimp only
  rw [a1, a2, a3, b1, b2, b3]
  obtain ⟨k1, k2⟩ := res_of (shownIn_hidden (load := S.load) (doc_globals_agree (ts[i]).base hn hn' hd hg) hcr n i)
    fun hh => hh.1
  exact ⟨k1, k2, rfl⟩

/-! ### Examples

A page that includes an item in a loop; the item has a loop with the same variable. -/

namespace PasteTextDemo
open IncludeDemo (load aliasFor files demo evals context)
open IncludeTextDemo (tm againTree)
open PasteDemo (isX ignores_c ignores_iter iter_sets x_hidden)

def item : List Dir := [.text ['['] 1, .forD " x in xs".toList [.expr ['x'] 1], .text [']'] 1]
def page : List Dir :=
  [.forD " x in xs".toList [.text ['-'] 2, .includeD "item.html".toList], .expr "c".toList 4]

def f (file : Str) : Option (List Dir) := if file = "item.html".toList then some item else none

def ts : List Template := [tm page, tm item, tm againTree]
def ts' : List Template := [pasted f (tm page), tm item, tm againTree]

theorem pasted_page :
    pasteAll f page = [.forD " x in xs".toList (.text ['-'] 2 :: item), .expr "c".toList 4] := by
  simp [page, pasteAll, paste, f]

example : pasted f (tm page) = tm [.forD " x in xs".toList (.text ['-'] 2 :: item), .expr "c".toList 4] := by
  rw [← pasted_page]
  rfl

theorem item_careful : CarefulAll demo (fun _ => False) isX item := by
  simp only [item, CarefulAll, Careful]
  refine ⟨trivial, ⟨ignores_iter _ _ fun _ h => h, isX, fun L bs h b hb k hk => ?_, ?_⟩, trivial, trivial⟩
  · obtain ⟨v, rfl⟩ := iter_sets h hb
    rw [hk, Dict.get, if_pos rfl]
    nofun
  · rw [x_hidden]
    exact ⟨PasteL.ignores_nothing _, trivial⟩

theorem page_careful : CarefulAll demo isX isX page := by
  simp only [page, CarefulAll, Careful]
  exact ⟨⟨ignores_iter _ _ fun _ h => h, fun _ => False, fun _ _ _ _ _ _ h => h.elim, trivial, fun k hk => ⟨hk, id⟩, trivial⟩,
    ignores_c _ fun _ h => h, trivial⟩

theorem loop_sets (e : Str) : ∀ L bs, demo.iter e L = .ok bs → ∀ b ∈ bs, ∀ k, ¬isX k → Dict.get b k = none := by
  intro L bs h b hb k hk
  obtain ⟨v, rfl⟩ := iter_sets h hb
  rw [Dict.get, if_neg fun hh => hk hh.symm]
  rfl

theorem demo_pasted : List.Forall₂ (Pasted demo ts load) ts ts' := by
  refine .cons ⟨⟨f, isX, isX, rfl, fun _ h => h, page_careful, ?_, fun file r h => ?_⟩⟩
    (.cons (pasted_refl _ _ _ _) (.cons (pasted_refl _ _ _ _) .nil))
  · simp only [tm, page, SetsAll, Sets]
    exact ⟨⟨loop_sets _, trivial, trivial, trivial⟩, trivial, trivial⟩
  · unfold f at h
    split at h
    · next hh =>
      subst hh
      cases h
      refine ⟨1, tm item, by decide +kernel, rfl, rfl, by decide +kernel, rfl, fun _ => rfl, item_careful, ?_⟩
      simp only [tm, item, SetsAll, Sets]
      exact ⟨trivial, ⟨loop_sets _, trivial, trivial⟩, trivial, trivial⟩
    · cases h

/-- Pages of this kind run. -/
theorem runs (tree : List Dir) (ht : Spec.IncludeText.OkAll (PureDemo.python demo) demo files tree)
    (hs : Spec.TextSem.speaksAny ⟨false, false, 0⟩ tree = true) :
    Runs (PureDemo.python demo) demo files load aliasFor context [tm tree, tm item, tm againTree] :=
  { IncludeTextDemo.runs with
    fits := fun t h => by
      simp only [List.mem_cons, List.not_mem_nil, or_false] at h
      rcases h with rfl | rfl | rfl
      · exact ⟨ht, .inr hs, .nil, fun _ _ => rfl⟩
      · refine ⟨?_, by decide +kernel, .nil, fun _ _ => rfl⟩
        simp only [tm, item, Spec.IncludeText.OkAll, Spec.IncludeText.Ok]
        exact ⟨trivial, ⟨fun _ _ => rfl, evals _, trivial⟩, trivial, trivial⟩
      · exact IncludeTextDemo.runs.fits _ (by simp [IncludeTextDemo.ts]) }

example : Runs (PureDemo.python demo) demo files load aliasFor context ts := by
  refine runs page ?_ (by decide +kernel)
  simp only [page, Spec.IncludeText.OkAll, Spec.IncludeText.Ok]
  exact ⟨⟨fun _ _ => rfl, trivial, by decide +kernel, trivial⟩, evals _, trivial⟩

example : Runs (PureDemo.python demo) demo files load aliasFor context ts' := by
  refine runs (pasteAll f page) ?_ (by decide +kernel)
  rw [pasted_page]
  simp only [item, Spec.IncludeText.OkAll, Spec.IncludeText.Ok]
  exact ⟨⟨fun _ _ => rfl, trivial, trivial, ⟨fun _ _ => rfl, evals _, trivial⟩, trivial, trivial⟩, evals _, trivial⟩

example : (shownIn ts load demo (Dict.get context) 2 0).text = "-[1&lt;]-[1&lt;]k".toList ∧
    (shownIn ts' load demo (Dict.get context) 1 0).text = "-[1&lt;]-[1&lt;]k".toList := by
  constructor <;> decide +kernel

/-- Why local variables matter: the item of the example of C76 shows the variable `x` of the context, but when it is
pasted that of the loop. -/
example :
    let f := fun file => if file = "item.html".toList then some IncludeTextDemo.itemTree else none
    let us := [pasted f (tm IncludeTextDemo.pageTree), tm IncludeTextDemo.itemTree, tm againTree]
    (shownIn IncludeTextDemo.ts load demo (Dict.get context) 2 0).text ≠
      (shownIn us load demo (Dict.get context) 2 0).text := by decide +kernel

/-- A template without loops. -/
example : SetsAll demo (fun _ => False) IncludeTextDemo.itemTree := by
  simp only [IncludeTextDemo.itemTree, SetsAll, Sets, and_self]

/-- The variable `x` of the context does not matter for the page and the item. -/
example : ∀ t ∈ [tm page, tm item], CarefulAll demo (fun _ => False) isX t.tree := by
  intro t ht
  simp only [List.mem_cons, List.not_mem_nil, or_false] at ht
  rcases ht with rfl | rfl
  · simp only [tm, page, CarefulAll, Careful]
    exact ⟨⟨ignores_iter _ _ fun _ h => h, fun _ => False, fun _ _ _ _ _ _ h => h.elim, trivial, fun k hk => hk.elim, trivial⟩,
      ignores_c _ fun _ h => h, trivial⟩
  · exact item_careful

example :
    (shownIn ts load demo (Dict.get context) 2 0).text =
    (shownIn ts load demo (Dict.get (Dict.set context "x".toList (.int 5))) 2 0).text := by
  decide +kernel

end PasteTextDemo

end Kajiki.Props

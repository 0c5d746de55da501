import Verif.Props.Paste
import Verif.Props.Unused

/-!
# C84: local variables hide those of the context

A template that sets its local variables (with `py:for` and `py:with`) before it looks at them does not depend on variables
of the context that have the same names.
-/

namespace Kajiki.Props
open Kajiki.Run Kajiki.Spec.Pure Kajiki.PureDoc Kajiki.Unused Kajiki.Spec.Paste Kajiki.PasteL
open Kajiki.Spec.DocSem (Template tagConds)
open Kajiki.Spec.Sem (Steady)

variable {W : Type}

private theorem same_of {α β : Type} {m : Shown α} {m' : Shown β} (h : Rel False (fun _ _ => True) m m') :
    m'.text = m.text ∧ (m'.res.map fun _ => ()) = m.res.map fun _ => () := by
  rcases h with ⟨h, -⟩ | ⟨h1, h2⟩
  · exact h.elim
  · refine ⟨h1.symm, ?_⟩
    revert h2
    cases m.res with
    | error e =>
      cases m'.res with
      | error e' => intro h; cases h; rfl
      | ok b => exact False.elim
    | ok a =>
      cases m'.res with
      | error e' => exact False.elim
      | ok b => exact fun _ => rfl

/-- **C84.** A template without functions and other templates, and two contexts that differ only in variables the template
does not look at, except inside of a `py:for` or `py:with` that sets them (`Careful`): the text and the exception are the
same. -/
theorem C84_local_variables_hide (ts : List Template) (S : Source) (P : Prog (List Stmt))
    (hc : List.Forall₂ (fun t u => compileDoc t.conf t.doc = .ok u.1 ∧ u.2 = t.base) ts S.tmpls)
    (hp : ∀ t ∈ ts, t.placed = true) (h : S.compile = some P) (i : Nat) (t : Template) (ht : ts[i]? = some t)
    (root : DNode) (context context' : Dict Val) (hn : (context.map (·.1)).Nodup) (hn' : (context'.map (·.1)).Nodup)
    (O : Oracle W) (w : W) (py : Py) (hr : Runs O py w context t root)
    (hs : ∀ t ∈ ts, ∀ x ∈ t.doc.kids, ∀ e ∈ tagConds t.conf.opts x, Steady O e)
    (hid : Str → Prop) (hcr : Careful py (fun _ => False) hid t.conf hid root)
    (hd : ∀ k, ¬hid k → Dict.get context k = Dict.get context' k)
    (hg : Dict.get context "gettext".toList = Dict.get context' "gettext".toList)
    (hl : Dict.get context' "local".toList = none) (n n' : Nat) :
    let r := render P O (n + 1) i context w
    let r' := render P O (n' + 1) i context' w
    r'.out.txt = r.out.txt ∧ r'.val = r.val ∧ r'.st.world = r.st.world := by
  obtain ⟨a1, a2, a3⟩ := shows ts S P hc hp h i t ht root context O w py hr hs n
  obtain ⟨b1, b2, b3⟩ := shows ts S P hc hp h i t ht root context' O w py { hr with free := hl } hs n'
  have hm := same_of (shown_hidden (t := t) hr.noCalls (doc_globals_agree t.base hn hn' hd hg) hcr)
  dsimp only
  rw [a1, a2, a3, b1, b2, b3]
  exact ⟨hm.1, hm.2, rfl⟩

/-- **C84.** The same for templates that include each other, if it holds for each of them. -/
theorem C84_local_variables_of_included_templates (ts : List Template) (S : Source) (P : Prog (List Stmt))
    (hc : List.Forall₂ (fun t u => compileDoc t.conf t.doc = .ok u.1 ∧ u.2 = t.base) ts S.tmpls)
    (hp : ∀ t ∈ ts, t.placed = true) (h : S.compile = some P) (i : Nat) (hi : i < ts.length)
    (context context' : Dict Val) (hn : (context.map (·.1)).Nodup) (hn' : (context'.map (·.1)).Nodup)
    (O : Oracle W) (py : Py) (H : Str → Bool) (hr : Spec.Include.Runs O py S.load S.aliasFor H context ts)
    (hid : Str → Prop)
    (hcr : ∀ t ∈ ts, ∀ root, t.root? = some root → Careful py (fun _ => False) hid t.conf hid root)
    (hd : ∀ k, ¬hid k → Dict.get context k = Dict.get context' k)
    (hg : Dict.get context "gettext".toList = Dict.get context' "gettext".toList)
    (hl : ∀ k ∈ ["local".toList, "self".toList], Dict.get context' k = none) (n : Nat) (w : W) :
    let r := render P O n i context w
    let r' := render P O n i context' w
    r'.out.txt = r.out.txt ∧ r'.val = r.val ∧ r'.st.world = r.st.world := by
  obtain ⟨a1, a2, a3⟩ := included_shows ts S P hc hp h i _ (List.getElem?_eq_getElem hi) context O py H hr n w
  obtain ⟨b1, b2, b3⟩ := included_shows ts S P hc hp h i _ (List.getElem?_eq_getElem hi) context' O py H
    { hr with free := hl } n w
  have hm := same_of (shownIn_hidden (load := S.load) hr.noCalls (doc_globals_agree (ts[i]).base hn hn' hd hg) hcr n i)
  dsimp only
  rw [a1, a2, a3, b1, b2, b3]
  refine ⟨hm.1, ?_, rfl⟩
  have := hm.2
  revert this
  generalize (Spec.Include.shownIn ts S.load py (globals (ts[i]).base context) n i).res = x
  generalize (Spec.Include.shownIn ts S.load py (globals (ts[i]).base context') n i).res = y
  intro hxy
  cases x <;> cases y <;> first | rfl | (cases hxy; done) | (injection hxy with h; rw [h])

/-! ### Examples

`item` and `page` of the examples of C83 set `x` in loops; a variable `x` of the context does not matter. -/

namespace HideDemo
open PasteDemo IncludeDemo

example : Careful demo (fun _ => False) isX (tm PasteDemo.item true).conf isX PasteDemo.item := by
  refine careful_el (by decide +kernel) ?_
  unfold CarefulAll CarefulAll
  refine ⟨?_, trivial⟩
  unfold PureDemo.el
  rw [Careful, dir_for]
  refine ⟨ignores_iter _ _ fun _ h => h, isX, fun L bs h b hb k hk => ?_, ?_⟩
  · obtain ⟨v, rfl⟩ := iter_sets h hb
    rw [hk, Dict.get, if_pos rfl]
    nofun
  · rw [x_hidden]
    unfold CarefulAll CarefulAll PureDemo.txt Careful
    exact ⟨fun _ _ => ⟨ignores_nothing _, ignores_nothing _⟩, trivial⟩

example :
    (Spec.Include.shownIn PasteDemo.ts load demo (Dict.get context) 1 1).text =
    (Spec.Include.shownIn PasteDemo.ts load demo (Dict.get (Dict.set context "x".toList (.int 5))) 1 1).text := by
  decide +kernel

/-- But the item of the example of C76 looks at the `x` of the context. -/
example :
    (Spec.Include.shownIn IncludeDemo.ts load demo (Dict.get context) 1 1).text ≠
    (Spec.Include.shownIn IncludeDemo.ts load demo (Dict.get (Dict.set context "x".toList (.int 5))) 1 1).text := by
  decide +kernel

end HideDemo

end Kajiki.Props

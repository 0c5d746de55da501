import Verif.Lemmas.HideText
import Verif.Props.Unused

/-!
# C84: local variables of text templates

A text template that sets its local variables (with `%for`, with Python blocks, or as parameters of functions) before it
looks at them does not depend on variables of the context that have the same names.
-/

namespace Kajiki.Props
open Kajiki.Run Kajiki.Spec.Pure Kajiki.Unused Kajiki.Spec.HideText

variable {W : Type}

/-- **C84.** A text template as in C75, and two contexts that differ only in variables the template does not look at except
where it has set them (`CarefulTemplate`): the text and the exception are the same. -/
theorem C84_local_variables_of_text_templates (ts : List Spec.TextSem.Template) (S : Source) (P : Prog (List Stmt))
    (hc : List.Forall₂ (fun t u => u = (Spec.TextTree.template t.conf.autoescape t.conf.gen t.tree, t.base)) ts S.tmpls)
    (hp : ∀ t ∈ ts, Spec.TextSem.tidyAll t.tree = true) (h : S.compile = some P) (i : Nat) (t : Spec.TextSem.Template)
    (ht : ts[i]? = some t) (context context' : Dict Val) (hn : (context.map (·.1)).Nodup)
    (hn' : (context'.map (·.1)).Nodup) (O : Oracle W) (w : W) (py : Py) (C : Spec.Funs.Calls)
    (hr : Spec.PureText.Runs O py C context t) (hid : Str → Prop) (hcr : CarefulTemplate py C hid t)
    (hd : ∀ k, ¬hid k → Dict.get context k = Dict.get context' k)
    (hg : Dict.get context "gettext".toList = Dict.get context' "gettext".toList)
    (hl : ∀ k, k = "local".toList ∨ Spec.PureText.Reserved (Spec.PureText.fnsAll false t.tree) k →
      Dict.get context' k = none) (n : Nat) :
    let r := render P O n i context w
    let r' := render P O n i context' w
    r'.out.txt = r.out.txt ∧ r'.val = r.val := by
  have a := C64_rendering_is_tree ts S P O hc hp h n i context w
  have b := C64_rendering_is_tree ts S P O hc hp h n i context' w
  have a' := PureTexts.rendered_ok ht hr S.load S.aliasFor n w
  have b' := PureTexts.rendered_ok ht { hr with free := hl } S.load S.aliasFor n w
  have hm := HideTextL.shown_hidden (C := C) (t := t) (G := fun k => Dict.get (PureTexts.globals t context) k)
    (G' := fun k => Dict.get (PureTexts.globals t context') k) (globals_agree t.base _ hn hn' hd hg) hcr n
  dsimp only at a b a' b' ⊢
  rw [a.1, a.2.1, b.1, b.2.1, a'.1, a'.2, b'.1, b'.2]
  exact ⟨congrArg Shown.text hm.symm, congrArg Shown.res hm.symm⟩

/-! ### Examples

The function of the example of C75 has a parameter `n`; a variable `n` of the context does not matter. -/

namespace HideTextDemo
open PureTextDemo
open Kajiki.Spec.Paste (Ignores)

/-- The variable `n`. -/
def isN (k : Str) : Prop := k = "n".toList

theorem ignores {hid : Str → Prop} {e : Str} (h : ¬hid (strip e)) : Ignores hid (demo.eval e) := by
  intro L L' hL
  unfold demo
  dsimp only
  rw [hL _ h]

theorem nothing {α : Type} {hid : Str → Prop} (h : ∀ k, ¬hid k) (m : Look → α) : Ignores hid m :=
  fun _ _ hL => congrArg m (funext fun k => hL k (h k))

theorem careful : CarefulTemplate demo calls isN tmpl where
  tree := ⟨_, .cons .defD <| .cons .text <|
    .cons (.expr (ignores (by unfold isN; decide +kernel)) fun f args h => by
      rw [show calls.callee ['t'] = none by decide +kernel] at h; cases h) <|
    .cons .text <| .cons .blockD .nil⟩
  functions := by
    have hfs : Spec.PureText.fnsAll false tmpl.tree =
      [.defn " count(n)".toList [.ifD " n".toList [.expr ['n'] 1, .text [','] 1, .expr "count(n-1)".toList 1]],
       .block false " body".toList [.expr "count(x)".toList 3, .text "!\n".toList 4]] := by
      unfold tmpl tree
      simp [Spec.PureText.fnsAll, Spec.PureText.fns]
    rw [hfs]
    intro d hd
    rcases List.mem_cons.1 hd with rfl | hd
    · refine ⟨isN, fun k => isN k ∧ ¬isN k, fun vs ρ h k hk => ?_, ?_⟩
      · rw [show (Spec.PureText.Fn.defn " count(n)".toList
          [.ifD " n".toList [.expr ['n'] 1, .text [','] 1, .expr "count(n-1)".toList 1]]).decl = "count(n)".toList by
          decide +kernel] at h
        unfold calls at h
        dsimp only at h
        rw [if_pos rfl] at h
        split at h
        · cases h
          rw [hk, Dict.get, if_pos rfl]
          nofun
        · cases h
      · have hh : ∀ k, ¬(isN k ∧ ¬isN k) := fun k hk => hk.2 hk.1
        exact .cons (.ifD (nothing hh _) (.cons (.expr (nothing hh _) fun _ _ _ => nothing hh _) (.cons .text
          (.cons (.expr (nothing hh _) fun _ _ _ => nothing hh _) .nil)))) .nil
    · rcases List.mem_cons.1 hd with rfl | hd
      · refine ⟨fun _ => False, _, fun _ _ _ _ hk => hk.elim, .cons (.expr (ignores ?_) fun f args h => ?_) (.cons .text .nil)⟩
        · intro hk
          exact absurd hk.1 (by unfold isN; decide +kernel)
        · unfold calls at h
          dsimp only at h
          rw [if_neg (by decide +kernel), if_neg (by decide +kernel), if_pos rfl] at h
          cases h
          intro L L' hL
          dsimp only
          rw [hL _ fun hk => absurd hk.1 (by unfold isN; decide +kernel)]
      · cases hd

/-- A context with a variable `n`. -/
def context' : Dict Val := ("n".toList, .int 7) :: context

example : ∃ P, site.compile = some P ∧ ∀ n,
    (render P pyth n 0 context' 0).out.txt = (render P pyth n 0 context 0).out.txt := by
  obtain ⟨P, hP⟩ : ∃ P, site.compile = some P := Option.isSome_iff_exists.1 (by decide +kernel)
  refine ⟨P, hP, fun n => ?_⟩
  refine (C84_local_variables_of_text_templates [tmpl] site P (.cons rfl .nil) (by decide +kernel) hP 0 tmpl rfl context
    context' (by decide +kernel) (by decide +kernel) pyth 0 demo calls runs isN careful (fun k hk => ?_) rfl
    (fun k hk => ?_) n).1
  · unfold context'
    rw [Dict.get_cons, if_neg fun h => hk h.symm]
  · have : k ∈ "local".toList :: fnames := by
      rcases hk with rfl | hk
      · exact List.mem_cons_self
      · exact List.mem_cons_of_mem _ (reserved_iff hk)
    exact (by decide +kernel : ∀ k ∈ "local".toList :: fnames, Dict.get context' k = none) k this

end HideTextDemo

end Kajiki.Props

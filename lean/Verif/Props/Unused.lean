import Verif.Lemmas.Unused
import Verif.Props.Swap
import Verif.Props.PureText

/-!
# C80: variables that are not used have no influence
-/

namespace Kajiki.Props
open Kajiki.Run Kajiki.Spec.Pure Kajiki.PureDoc Kajiki.Unused
open Kajiki.Spec.DocSem (Template tagConds)
open Kajiki.Spec.Sem (Steady)

variable {W : Type}

/-- **C80.** Two contexts that differ only in variables Python does not look at (`Blind`): the template gives the same
text and the same exception. -/
theorem C80_unused_variables_have_no_influence (ts : List Template) (S : Source) (P : Prog (List Stmt))
    (hc : List.Forall₂ (fun t u => compileDoc t.conf t.doc = .ok u.1 ∧ u.2 = t.base) ts S.tmpls)
    (hp : ∀ t ∈ ts, t.placed = true) (h : S.compile = some P) (i : Nat) (t : Template) (ht : ts[i]? = some t)
    (root : DNode) (context context' : Dict Val) (hn : (context.map (·.1)).Nodup) (hn' : (context'.map (·.1)).Nodup)
    (O : Oracle W) (w : W) (py : Py) (hr : Runs O py w context t root)
    (hs : ∀ t ∈ ts, ∀ x ∈ t.doc.kids, ∀ e ∈ tagConds t.conf.opts x, Steady O e)
    (hid : Str → Prop) (hb : Blind hid py) (hd : ∀ k, ¬hid k → Dict.get context k = Dict.get context' k)
    (hg : Dict.get context "gettext".toList = Dict.get context' "gettext".toList)
    (hl : Dict.get context' "local".toList = none) (n n' : Nat) :
    let r := render P O (n + 1) i context w
    let r' := render P O (n' + 1) i context' w
    r'.out.txt = r.out.txt ∧ r'.val = r.val ∧ r'.st.world = r.st.world := by
  obtain ⟨a1, a2, a3⟩ := shows ts S P hc hp h i t ht root context O w py hr hs n
  obtain ⟨b1, b2, b3⟩ := shows ts S P hc hp h i t ht root context' O w py { hr with free := hl } hs n'
  have hm : shown py (globals t.base context') t root = shown py (globals t.base context) t root := by
    unfold shown
    rw [(node_same (c := t.conf) (over := fun _ => none)
      (same_of_blind hb hr.noCalls (doc_globals_agree t.base hn hn' hd hg)) root).1]
  dsimp only
  rw [a1, a2, a3, b1, b2, b3, hm]
  exact ⟨rfl, rfl, rfl⟩

/-- Templates that include each other. -/
theorem shownIn_unused {ts : List Template} {py : Py} (load : Str → Option Nat) {hid : Str → Prop} (hb : Blind hid py)
    (hnc : ∀ e, py.call e = none) {G G' : Look} (h : ∀ k, ¬hid k → G k = G' k) : ∀ n i : Nat,
      Spec.Include.shownIn ts load py G n i = Spec.Include.shownIn ts load py G' n i
  | 0, _ => rfl
  | n + 1, i => by
    unfold Spec.Include.shownIn
    cases ts[i]? with
    | none => rfl
    | some t =>
      dsimp only
      cases t.root? with
      | none => rfl
      | some root =>
        dsimp only
        simp only [shownIn_unused load hb hnc h n]
        have key := fun incl => (node_same (py := { py with incl := incl }) (c := t.conf) (over := fun _ => none)
          (G := Spec.Include.inherited G t.base) (G' := Spec.Include.inherited G' t.base)
          (same_of_blind (py := { py with incl := incl }) (hid := hid) ⟨hb.eval, hb.iter, hb.block⟩ hnc fun k hk => by
            unfold Spec.Include.inherited; rw [h k hk]) root).1
        unfold shown
        rw [key]

/-- **C80.** The same for templates that include others. -/
theorem C80_unused_variables_of_included_templates (ts : List Template) (S : Source) (P : Prog (List Stmt))
    (hc : List.Forall₂ (fun t u => compileDoc t.conf t.doc = .ok u.1 ∧ u.2 = t.base) ts S.tmpls)
    (hp : ∀ t ∈ ts, t.placed = true) (h : S.compile = some P) (i : Nat) (hi : i < ts.length)
    (context context' : Dict Val) (hn : (context.map (·.1)).Nodup) (hn' : (context'.map (·.1)).Nodup)
    (O : Oracle W) (py : Py) (H : Str → Bool) (hr : Spec.Include.Runs O py S.load S.aliasFor H context ts)
    (hid : Str → Prop) (hb : Blind hid py) (hd : ∀ k, ¬hid k → Dict.get context k = Dict.get context' k)
    (hg : Dict.get context "gettext".toList = Dict.get context' "gettext".toList)
    (hl : ∀ k ∈ ["local".toList, "self".toList], Dict.get context' k = none) (n : Nat) (w : W) :
    let r := render P O n i context w
    let r' := render P O n i context' w
    r'.out.txt = r.out.txt ∧ r'.val = r.val ∧ r'.st.world = r.st.world := by
  obtain ⟨a1, a2, a3⟩ := included_shows ts S P hc hp h i _ (List.getElem?_eq_getElem hi) context O py H hr n w
  obtain ⟨b1, b2, b3⟩ := included_shows ts S P hc hp h i _ (List.getElem?_eq_getElem hi) context' O py H
    { hr with free := hl } n w
  dsimp only
  rw [a1, a2, a3, b1, b2, b3, shownIn_unused S.load hb hr.noCalls (doc_globals_agree (ts[i]).base hn hn' hd hg)]
  exact ⟨rfl, rfl, rfl⟩

/-- **C80.** The same for text templates.  Arguments of calls do not depend on the variables either. -/
theorem C80_unused_variables_of_text_templates (ts : List Spec.TextSem.Template) (S : Source) (P : Prog (List Stmt))
    (hc : List.Forall₂ (fun t u => u = (Spec.TextTree.template t.conf.autoescape t.conf.gen t.tree, t.base)) ts S.tmpls)
    (hp : ∀ t ∈ ts, Spec.TextSem.tidyAll t.tree = true) (h : S.compile = some P) (i : Nat) (t : Spec.TextSem.Template)
    (ht : ts[i]? = some t) (context context' : Dict Val) (hn : (context.map (·.1)).Nodup)
    (hn' : (context'.map (·.1)).Nodup) (O : Oracle W) (w : W) (py : Py) (C : Spec.Funs.Calls)
    (hr : Spec.PureText.Runs O py C context t) (hid : Str → Prop) (hb : Blind hid py)
    (hargs : ∀ e f args, C.callee e = some (f, args) → ∀ L L' : Look, (∀ k, ¬hid k → L k = L' k) → args L = args L')
    (hd : ∀ k, ¬hid k → Dict.get context k = Dict.get context' k)
    (hg : Dict.get context "gettext".toList = Dict.get context' "gettext".toList)
    (hl : ∀ k, k = "local".toList ∨ Spec.PureText.Reserved (Spec.PureText.fnsAll false t.tree) k →
      Dict.get context' k = none) (n : Nat) :
    let r := render P O n i context w
    let r' := render P O n i context' w
    r'.out.txt = r.out.txt ∧ r'.val = r.val := by
  have a := C64_rendering_is_tree ts S P O hc hp h n i context w
  have b := C64_rendering_is_tree ts S P O hc hp h n i context' w
  have a' := PureTexts.rendered_ok ht hr S.load S.aliasFor n w
  have b' := PureTexts.rendered_ok ht { hr with free := hl } S.load S.aliasFor n w
  have hm := text_shown_same (C := C) (t := t) hb hargs (G := fun k => Dict.get (PureTexts.globals t context) k)
    (G' := fun k => Dict.get (PureTexts.globals t context') k) (globals_agree t.base _ hn hn' hd hg) n
  dsimp only at a b a' b' ⊢
  rw [a.1, a.2.1, b.1, b.2.1, a'.1, a'.2, b'.1, b'.2]
  exact ⟨congrArg Shown.text hm.symm, congrArg Shown.res hm.symm⟩

/-! ### Examples -/

namespace UnusedDemo
open PureDemo

/-- The names the example of C67 uses. -/
def used : List Str := ["x", "xs", "s", "c", "y"].map String.toList

/-- Only names in `used` are seen. -/
def masked (look : Look) : Look := fun k => if k ∈ used then look k else none

/-- The Python of the example of C67, which sees names in `used` only. -/
def demo' : Py where
  eval e look := eval e (masked look)
  iter e look := demo.iter e (masked look)
  block ls look := demo.block ls (masked look)
  tr t := t

theorem blind : Blind (· ∉ used) demo' := by
  have hm (L L' : Look) (h : ∀ k, ¬k ∉ used → L k = L' k) : masked L = masked L' := by
    funext k
    unfold masked
    split
    · next hk => exact h k (fun hn => hn hk)
    · rfl
  refine ⟨fun e L L' h => ?_, fun e L L' h => ?_, fun ls L L' h => ?_⟩
  · exact congrArg (eval e) (hm L L' h)
  · exact congrArg (demo.iter e) (hm L L' h)
  · exact congrArg (demo.block ls) (hm L L' h)

/-- A context with other variables. -/
def context' : Dict Val := ("title".toList, .str "<b>".toList) :: context ++ [("z".toList, .int 3)]

example : (context'.map (·.1)).Nodup := by decide +kernel

example (k : Str) (h : ¬k ∉ used) : Dict.get context k = Dict.get context' k := by
  simp only [used, List.map_cons, List.map_nil, List.mem_cons, List.not_mem_nil, or_false, not_not] at h
  rcases h with rfl | rfl | rfl | rfl | rfl <;> rfl

theorem evals' (e : Str) : Evals (python demo') demo' e :=
  ⟨fun _ _ => rfl, fun look v h => (evals e).2 (masked look) v h⟩

/-- The hypotheses of C80 hold for it. -/
theorem demo_runs' : Runs (python demo') demo' () context tm root where
  isRoot := rfl
  ok := check_ok_of evals' ⟨evals' _, by rw [if_neg (by decide)]; intro look; rfl⟩ tm.conf root (by decide +kernel)
  noCalls _ := rfl
  noBlocks := by decide +kernel
  speaks := by decide +kernel
  messages _ _ _ := rfl
  main := rfl
  free := by decide +kernel
  base := rfl

example : (shown demo' (Dict.get context') tm root).text =
    "<ul class=\"k\"><li>1</li>-<li>&lt;</li>same&lt;</ul>".toList := by decide +kernel

end UnusedDemo

end Kajiki.Props

import Verif.Lemmas.RaisesText
import Verif.Props.PasteText
import Verif.Props.Raises

/-!
# C80, C82: text templates that include others

Variables that are not used have no influence, and rendering raises only what Python raises.
-/

namespace Kajiki.Props
open Kajiki.Run Kajiki.RaisesTextL Kajiki.Spec.RaisesText
open Kajiki.Spec.TextSem (Template tidyAll)
open Kajiki.Spec.Pure (Py Look Blind)
open Kajiki.Spec.Raises (Raised)
open Kajiki.Spec.IncludeText (Runs shownIn)

variable {W : Type}

/-- **C80.** Text templates that include others, and two contexts that differ only in variables Python does not look at: the
text and the exception are the same. -/
theorem C80_unused_variables_of_included_text_templates (ts : List Template) (S : Source) (P : Prog (List Stmt))
    (hc : List.Forall₂ (fun t u => u = (Spec.TextTree.template t.conf.autoescape t.conf.gen t.tree, t.base)) ts S.tmpls)
    (hp : ∀ t ∈ ts, tidyAll t.tree = true) (h : S.compile = some P) (i : Nat) (hi : i < ts.length)
    (context context' : Dict Val) (hn : (context.map (·.1)).Nodup) (hn' : (context'.map (·.1)).Nodup)
    (O : Oracle W) (py : Py) (H : Str → Bool) (hr : Runs O py H S.load S.aliasFor context ts)
    (hid : Str → Prop) (hb : Blind hid py) (hd : ∀ k, ¬hid k → Dict.get context k = Dict.get context' k)
    (hg : Dict.get context "gettext".toList = Dict.get context' "gettext".toList)
    (hl : ∀ k ∈ ["local".toList, "self".toList], Dict.get context' k = none) (n : Nat) (w : W) :
    let r := render P O n i context w
    let r' := render P O n i context' w
    r'.out.txt = r.out.txt ∧ r'.val = r.val ∧ r'.st.world = r.st.world :=
  C84_local_variables_of_included_text_templates ts S P hc hp h i hi context context' hn hn' O py H hr hid
    (fun _ _ => carefulAll_blind hb _) hd hg hl n w

private theorem text_only {ts : List Template} {O : Oracle W} {py : Py} {load : Str → Option Nat} {aliasFor : Str → Str}
    {H : Str → Bool} {context : Dict Val} (hr : Runs O py H load aliasFor context ts) {rank : Nat → Nat}
    {X : Err → Prop} (hX : ∀ x, Raised py x → X x) (hM : Missing ts load → X .ioError)
    (hR : NoCircles ts load rank ∨ X .recursion) (G : Look) (n i : Nat) (hi : i < ts.length)
    (hn : rank i < n ∨ X .recursion) : RaisesL.Only X (shownIn ts load py G n i) := by
  refine only_shownIn hX (fun k hk file hm => ?_) n i hi hn
  cases hl : load file with
  | none => exact hM ⟨_, List.getElem_mem hk, file, hm, hl⟩
  | some j => exact ⟨hr.loads file j hl, hR.imp_left fun hc => hc k _ file j (List.getElem?_eq_getElem hk) hm hl⟩

/-- **C82.** If rendering a text template that includes others ends with an exception, Python raised it, or a template that
is included is not there, or templates were nested too deep. -/
theorem C82_exceptions_of_included_text_templates (ts : List Template) (S : Source) (P : Prog (List Stmt))
    (hc : List.Forall₂ (fun t u => u = (Spec.TextTree.template t.conf.autoescape t.conf.gen t.tree, t.base)) ts S.tmpls)
    (hp : ∀ t ∈ ts, tidyAll t.tree = true) (h : S.compile = some P) (i : Nat) (hi : i < ts.length) (context : Dict Val)
    (O : Oracle W) (py : Py) (H : Str → Bool) (hr : Runs O py H S.load S.aliasFor context ts) (n : Nat)
    (w : W) (x : Err) (hx : (render P O n i context w).val = .error x) :
    Raised py x ∨ x = .ioError ∧ Missing ts S.load ∨ x = .recursion := by
  have h1 := (included_text_shows ts S P hc hp h i _ (List.getElem?_eq_getElem hi) context O py H hr n w).2.1
  rw [h1] at hx
  exact text_only (rank := fun _ => 0)
    (X := fun x => Raised py x ∨ x = .ioError ∧ Missing ts S.load ∨ x = .recursion) hr (fun _ h => .inl h)
    (fun h => .inr (.inl ⟨rfl, h⟩)) (.inr (.inr (.inr rfl))) _ n i hi (.inr (.inr (.inr rfl))) x hx

/-- **C82.** Text templates that do not include each other in circles are not nested too deep, if nesting is allowed as deep
as the number of the first one says; higher limits then give exactly the same. -/
theorem C82_no_circles_of_text_templates (ts : List Template) (S : Source) (P : Prog (List Stmt))
    (hc : List.Forall₂ (fun t u => u = (Spec.TextTree.template t.conf.autoescape t.conf.gen t.tree, t.base)) ts S.tmpls)
    (hp : ∀ t ∈ ts, tidyAll t.tree = true) (h : S.compile = some P) (i : Nat) (hi : i < ts.length) (context : Dict Val)
    (O : Oracle W) (py : Py) (H : Str → Bool) (hr : Runs O py H S.load S.aliasFor context ts)
    (rank : Nat → Nat) (hk : NoCircles ts S.load rank) (n : Nat) (hn : rank i < n) (w : W) :
    (∀ x, (render P O n i context w).val = .error x → Raised py x ∨ x = .ioError ∧ Missing ts S.load) ∧
    (¬Raised py .recursion → ∀ m, n ≤ m → render P O m i context w = render P O n i context w) := by
  have h1 := (included_text_shows ts S P hc hp h i _ (List.getElem?_eq_getElem hi) context O py H hr n w).2.1
  have h2 : ∀ x, (render P O n i context w).val = .error x → Raised py x ∨ x = .ioError ∧ Missing ts S.load := by
    intro x hx
    rw [h1] at hx
    exact text_only (X := fun x => Raised py x ∨ x = .ioError ∧ Missing ts S.load) hr (fun _ h => .inl h)
      (fun h => .inr ⟨rfl, h⟩) (.inl hk) _ n i hi (.inl hn) x hx
  refine ⟨h2, fun hno m hm => ?_⟩
  rcases C77_limit_changes_nothing P O n m hm i context w with h3 | ⟨h3, -⟩
  · exact h3.symm
  · rcases h2 _ h3 with h4 | ⟨h4, -⟩
    · exact absurd h4 hno
    · cases h4

/-! ### Examples

The templates of the example of C76, without the one that includes itself. -/

namespace IncludedTextDemo
open IncludeTextDemo (tm pageTree itemTree againTree)
open RaisesDemo (load)

def ts : List Template := [tm pageTree, tm itemTree]

theorem noCircles : NoCircles ts load fun i => 1 - i := by
  intro i t file j hi hm hl
  have hj : j = 1 := by
    unfold load at hl
    split at hl
    · cases hl; rfl
    · cases hl
  subst hj
  match i with
  | 0 => decide
  | 1 =>
    cases hi
    rw [show includesAll (tm itemTree).tree = [] from by decide +kernel] at hm
    cases hm
  | i + 2 => cases hi

/-- The template that includes itself has circles. -/
example (rank : Nat → Nat) : ¬NoCircles IncludeTextDemo.ts IncludeDemo.load rank := fun h =>
  Nat.lt_irrefl _ (h 2 _ "again.html".toList 2 rfl (by decide +kernel) (by decide +kernel))

/-- Nothing is missing. -/
example : ¬Missing ts load := by
  rintro ⟨t, ht, file, hm, hl⟩
  have h : t = tm pageTree ∨ t = tm itemTree := by simpa [ts] using ht
  rcases h with rfl | rfl
  · rw [show includesAll (tm pageTree).tree = ["item.html".toList] from by decide +kernel] at hm
    cases List.mem_singleton.1 hm
    revert hl
    decide +kernel
  · rw [show includesAll (tm itemTree).tree = [] from by decide +kernel] at hm
    cases hm

/-- Without a loader that knows the item it is missing. -/
example : Missing ts fun _ => none :=
  ⟨tm pageTree, List.mem_cons_self .., "item.html".toList, by decide +kernel, rfl⟩

example : (match (shownIn IncludeTextDemo.ts IncludeDemo.load IncludeDemo.demo (Dict.get IncludeDemo.context) 9 2).res with
      | .error .recursion => true
      | _ => false) = true ∧
    (shownIn ts load IncludeDemo.demo (Dict.get IncludeDemo.context) 2 0).res.toOption = some () := by decide +kernel

/-- The Python of the example looks at the variables it knows only. -/
example : Blind (fun k => ∀ L, IncludeDemo.mask L k = none) IncludeDemo.demo := by
  have hm (L L' : Look) (h : ∀ k, ¬(∀ L, IncludeDemo.mask L k = none) → L k = L' k) :
      IncludeDemo.mask L = IncludeDemo.mask L' := by
    funext k
    by_cases hk : ∀ L, IncludeDemo.mask L k = none
    · rw [hk, hk]
    · unfold IncludeDemo.mask
      rw [h k hk]
  refine ⟨fun e L L' h => ?_, fun e L L' h => ?_, fun ls L L' h => ?_⟩
  · exact congrArg (PureDemo.demo.eval e) (hm L L' h)
  · exact congrArg (PureDemo.demo.iter e) (hm L L' h)
  · exact congrArg (PureDemo.demo.block ls) (hm L L' h)

end IncludedTextDemo

end Kajiki.Props

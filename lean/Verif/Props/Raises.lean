import Verif.Lemmas.Raises
import Verif.Props.Unused
import Verif.Props.Funs
import Verif.Props.Ends

/-!
# C82: rendering raises only what Python raises

`Verif/Spec/Raises.lean` says which exceptions there are.
-/

namespace Kajiki.Props
open Kajiki.Run Kajiki.Spec.Pure Kajiki.PureDoc Kajiki.RaisesL Kajiki.Spec.Raises
open Kajiki.Spec.DocSem (Template tagConds)
open Kajiki.Spec.Sem (Steady)

variable {W : Type}

private theorem none_included {O : Oracle W} {py : Py} {A : Allowed} {c : CEnv} {x : DNode} (h : Ok O py A c x)
    (hA : A.incls = fun _ => false) : includes x = [] :=
  List.eq_nil_iff_forall_not_mem.2 fun href hm => by
    have := ok_includes A x h href hm
    rw [hA] at this
    cases this

/-- **C82.** If rendering a template without functions and without other templates ends with an exception, Python raised
it in an expression, the header of a loop or a block of Python, or something that is no mapping and no list of pairs was
given to `py:attrs`.  Otherwise the document was shown to its end. -/
theorem C82_exceptions_are_from_python (ts : List Template) (S : Source) (P : Prog (List Stmt))
    (hc : List.Forall₂ (fun t u => compileDoc t.conf t.doc = .ok u.1 ∧ u.2 = t.base) ts S.tmpls)
    (hp : ∀ t ∈ ts, t.placed = true) (h : S.compile = some P) (i : Nat) (t : Template) (ht : ts[i]? = some t)
    (root : DNode) (context : Dict Val) (O : Oracle W) (w : W) (py : Py) (hr : Runs O py w context t root)
    (hs : ∀ t ∈ ts, ∀ x ∈ t.doc.kids, ∀ e ∈ tagConds t.conf.opts x, Steady O e) (n : Nat) (x : Err)
    (hx : (render P O (n + 1) i context w).val = .error x) : Raised py x := by
  have h1 := (shows ts S P hc hp h i t ht root context O w py hr hs n).2.1
  rw [h1] at hx
  have h2 : Only (Raised py) (shown py (globals t.base context) t root) :=
    only_shown (fun _ h => h) (fun e m he => absurd ((hr.noCalls e).symm.trans he) nofun) fun href hm => by
      rw [none_included hr.ok rfl] at hm
      cases hm
  refine h2 x ?_
  cases hm : (shown py (globals t.base context) t root).res with
  | error y => rw [hm] at hx; cases hx; rfl
  | ok a => rw [hm] at hx; cases hx

private theorem included_only {ts : List Template} {O : Oracle W} {py : Py} {load : Str → Option Nat} {aliasFor : Str → Str}
    {H : Str → Bool} {context : Dict Val} (hr : Spec.Include.Runs O py load aliasFor H context ts) {rank : Nat → Nat}
    {X : Err → Prop} (hX : ∀ x, Raised py x → X x) (hM : Missing ts load → X .ioError)
    (hR : NoCircles ts load rank ∨ X .recursion) (G : Look) (n i : Nat) (hi : i < ts.length)
    (hn : rank i < n ∨ X .recursion) : Only X (Spec.Include.shownIn ts load py G n i) := by
  refine only_shownIn hX hr.noCalls (fun k hk => ?_) n i hi hn
  obtain ⟨root, hf⟩ := hr.fits (ts[k]) (List.getElem_mem hk)
  refine ⟨root, hf.isRoot, fun href hm => ?_⟩
  cases hl : load href with
  | none => exact hM ⟨_, List.getElem_mem hk, root, hf.isRoot, href, hm, hl⟩
  | some j => exact ⟨hr.loads href j hl, hR.imp_left fun hc =>
      hc k _ root href j (List.getElem?_eq_getElem hk) hf.isRoot hm hl⟩

/-- **C82.** If rendering a template that includes others ends with an exception, Python raised it, or a template that
is included is not there, or templates were nested too deep. -/
theorem C82_exceptions_of_included_templates (ts : List Template) (S : Source) (P : Prog (List Stmt))
    (hc : List.Forall₂ (fun t u => compileDoc t.conf t.doc = .ok u.1 ∧ u.2 = t.base) ts S.tmpls)
    (hp : ∀ t ∈ ts, t.placed = true) (h : S.compile = some P) (i : Nat) (hi : i < ts.length) (context : Dict Val)
    (O : Oracle W) (py : Py) (H : Str → Bool) (hr : Spec.Include.Runs O py S.load S.aliasFor H context ts) (n : Nat)
    (w : W) (x : Err) (hx : (render P O n i context w).val = .error x) :
    Raised py x ∨ x = .ioError ∧ Missing ts S.load ∨ x = .recursion := by
  have h1 := (included_shows ts S P hc hp h i _ (List.getElem?_eq_getElem hi) context O py H hr n w).2.1
  rw [h1] at hx
  exact included_only (rank := fun _ => 0)
    (X := fun x => Raised py x ∨ x = .ioError ∧ Missing ts S.load ∨ x = .recursion) hr (fun _ h => .inl h) (fun h => .inr (.inl ⟨rfl, h⟩)) (.inr (.inr (.inr rfl))) _ n i
    hi (.inr (.inr (.inr rfl))) x hx

/-- **C82.** Templates that do not include each other in circles are not nested too deep, if nesting is allowed as deep
as the number of the first one says; higher limits then give exactly the same. -/
theorem C82_no_circles_no_recursion (ts : List Template) (S : Source) (P : Prog (List Stmt))
    (hc : List.Forall₂ (fun t u => compileDoc t.conf t.doc = .ok u.1 ∧ u.2 = t.base) ts S.tmpls)
    (hp : ∀ t ∈ ts, t.placed = true) (h : S.compile = some P) (i : Nat) (hi : i < ts.length) (context : Dict Val)
    (O : Oracle W) (py : Py) (H : Str → Bool) (hr : Spec.Include.Runs O py S.load S.aliasFor H context ts)
    (rank : Nat → Nat) (hk : NoCircles ts S.load rank) (n : Nat) (hn : rank i < n) (w : W) :
    (∀ x, (render P O n i context w).val = .error x → Raised py x ∨ x = .ioError ∧ Missing ts S.load) ∧
    (¬Raised py .recursion → ∀ m, n ≤ m → render P O m i context w = render P O n i context w) := by
  have h1 := (included_shows ts S P hc hp h i _ (List.getElem?_eq_getElem hi) context O py H hr n w).2.1
  have h2 : ∀ x, (render P O n i context w).val = .error x → Raised py x ∨ x = .ioError ∧ Missing ts S.load := by
    intro x hx
    rw [h1] at hx
    exact included_only (X := fun x => Raised py x ∨ x = .ioError ∧ Missing ts S.load) hr (fun _ h => .inl h)
      (fun h => .inr ⟨rfl, h⟩) (.inl hk) _ n i hi (.inl hn) x hx
  refine ⟨h2, fun hno m hm => ?_⟩
  rcases C77_limit_changes_nothing P O n m hm i context w with h3 | ⟨h3, -⟩
  · exact h3.symm
  · rcases h2 _ h3 with h4 | ⟨h4, -⟩
    · exact absurd h4 hno
    · cases h4

/-- **C82.** If rendering a template with functions and blocks, which may extend others, ends with an exception, Python
raised it, also in computing arguments of a call or because they do not fit the parameters, or calls were nested too
deep. -/
theorem C82_exceptions_of_functions (ts : List Template) (S : Source) (P : Prog (List Stmt))
    (hc : List.Forall₂ (fun t u => compileDoc t.conf t.doc = .ok u.1 ∧ u.2 = t.base) ts S.tmpls)
    (hp : ∀ t ∈ ts, t.placed = true) (h : S.compile = some P) (i : Nat) (cs : List Spec.Layout.Child) (t : Template)
    (root : DNode) (hx : Spec.Layout.Extends ts S.load i cs t root) (context : Dict Val)
    (hn : (context.map (·.1)).Nodup) (O : Oracle W) (w : W) (py : Py) (C : Spec.Funs.Calls)
    (hr : Spec.Funs.Runs O py C context (Spec.Funs.levels cs t root))
    (hs : ∀ t ∈ ts, ∀ x ∈ t.doc.kids, ∀ e ∈ tagConds t.conf.opts x, Steady O e) (n : Nat) (x : Err)
    (hv : (render P O n i context w).val = .error x) : Raised py x ∨ CallRaised C x ∨ x = .recursion := by
  obtain ⟨G, up, -, h1⟩ := C71_functions_show (W := W) ts S P hc hp h i cs t root hx context hn
  have h2 := (h1 O w py C hr hs n).2
  rw [h2] at hv
  refine only_shownAt (X := fun x => Raised py x ∨ CallRaised C x ∨ x = .recursion) (fun _ h => .inl h)
    (fun e f args he L x hx => .inr (.inl (.args e f args L he hx))) (fun d vs x hx => .inr (.inl (.bind d vs hx)))
    (.inr (.inr rfl)) (fun l hl => ?_) n 0 x hv
  obtain ⟨a, ha⟩ := List.mem_iff_getElem?.1 hl
  refine List.eq_nil_iff_forall_not_mem.2 fun href hm => ?_
  cases okAll_includes _ _ (hr.ok a l ha) href hm

/-- **C82.** The same for text templates. -/
theorem C82_exceptions_of_text_templates (ts : List Spec.TextSem.Template) (S : Source) (P : Prog (List Stmt))
    (hc : List.Forall₂ (fun t u => u = (Spec.TextTree.template t.conf.autoescape t.conf.gen t.tree, t.base)) ts S.tmpls)
    (hp : ∀ t ∈ ts, Spec.TextSem.tidyAll t.tree = true) (h : S.compile = some P) (i : Nat) (t : Spec.TextSem.Template)
    (ht : ts[i]? = some t) (context : Dict Val) (hn : (context.map (·.1)).Nodup) (O : Oracle W) (w : W) (py : Py)
    (C : Spec.Funs.Calls) (hr : Spec.PureText.Runs O py C context t) (n : Nat) (x : Err)
    (hv : (render P O n i context w).val = .error x) : Raised py x ∨ CallRaised C x ∨ x = .recursion := by
  obtain ⟨G, -, h1⟩ := C75_text_template_shows (W := W) ts S P hc hp h i t ht context hn
  have h2 := (h1 O w py C hr n).2
  rw [h2] at hv
  exact only_shown_text (X := fun x => Raised py x ∨ CallRaised C x ∨ x = .recursion) (fun _ h => .inl h)
    (fun e f args he L x hx => .inr (.inl (.args e f args L he hx))) (fun d vs x hx => .inr (.inl (.bind d vs hx)))
    (.inr (.inr rfl)) n x hv

/-! ### Examples -/

namespace RaisesDemo

/-- The Python of the example of C67 raises `NameError`, for names that are not there, and no `RecursionError`. -/
example : Raised PureDemo.demo .name := .eval "nope".toList (fun _ => none) rfl

/-- The templates of the example of C76 without the one that includes itself. -/
def ts : List Template := IncludeDemo.ts.take 2

def load (n : Str) : Option Nat := if n = "item.html".toList then some 1 else none

/-- The page includes the item, which includes nothing. -/
theorem noCircles : NoCircles ts load fun i => 1 - i := by
  intro i t root href j hi hroot hm hl
  have hj : j = 1 := by
    unfold load at hl
    split at hl
    · cases hl; rfl
    · cases hl
  subst hj
  match i with
  | 0 => decide
  | 1 =>
    cases hi
    cases hroot
    rw [show includes IncludeDemo.item = [] from by decide +kernel] at hm
    cases hm
  | i + 2 => cases hi

/-- The template that includes itself has circles. -/
example (rank : Nat → Nat) : ¬NoCircles IncludeDemo.ts IncludeDemo.load rank := fun h =>
  Nat.lt_irrefl _ (h 2 _ IncludeDemo.again "again.html".toList 2 rfl rfl (by decide +kernel) (by decide +kernel))

/-- Nothing is missing. -/
example : ¬Missing ts load := by
  rintro ⟨t, ht, root, hroot, href, hm, hl⟩
  have h : t = IncludeDemo.tm IncludeDemo.page false ∨ t = IncludeDemo.tm IncludeDemo.item true := by
    simpa [ts, IncludeDemo.ts] using ht
  rcases h with rfl | rfl
  · cases hroot
    rw [show includes IncludeDemo.page = ["item.html".toList] from by decide +kernel] at hm
    cases List.mem_singleton.1 hm
    revert hl
    decide +kernel
  · cases hroot
    rw [show includes IncludeDemo.item = [] from by decide +kernel] at hm
    cases hm

/-- In a template that includes itself limits are reached, but in one without circles they are not. -/
example : (match (Spec.Include.shownIn IncludeDemo.ts IncludeDemo.load IncludeDemo.demo (Dict.get IncludeDemo.context) 9 2).res with
      | .error .recursion => true
      | _ => false) = true ∧
    (Spec.Include.shownIn IncludeDemo.ts IncludeDemo.load IncludeDemo.demo (Dict.get IncludeDemo.context) 2 0).res.toOption =
      some () := by decide +kernel

/-- A call with the wrong number of arguments. -/
example : CallRaised FunsDemo.calls .type := .bind "count(n)".toList [] rfl

end RaisesDemo

end Kajiki.Props

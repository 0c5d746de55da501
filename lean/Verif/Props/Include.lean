import Verif.Lemmas.Include
import Verif.Props.Pure

/-!
# C76: what templates show that include others

`Verif/Spec/Include.lean` says what a template shows that includes others, as a function of the values of the variables.
-/

namespace Kajiki.Props
open Kajiki.Run Kajiki.Spec.Pure Kajiki.PureDoc Kajiki.IncludeDoc
open Kajiki.Spec.DocSem (Template SourceFile tagConds)
open Kajiki.Spec.Include (shownIn Own Fits)
open Kajiki.Spec.Sem (Steady)

variable {W : Type}

private theorem kids_of {t : Template} {root : DNode} (h : t.root? = some root) :
    ∀ x ∈ t.doc.kids, x = root ∨ ∃ d l, x = .comment d l := by
  intro x hx
  unfold Spec.DocSem.Template.root? at h
  split at h
  · next r hr =>
    cases h
    cases x with
    | comment d l => exact .inr ⟨d, l, rfl⟩
    | _ =>
      left
      refine List.mem_singleton.1 (hr ▸ List.mem_filter.2 ⟨hx, rfl⟩)
  · cases h

private theorem all_steady {ts : List Template} {load : Str → Option Nat} {aliasFor : Str → Str} {H : Str → Bool}
    {context : Dict Val} {O : Oracle W} {py : Py} (hr : Spec.Include.Runs O py load aliasFor H context ts) :
    ∀ t ∈ ts, ∀ x ∈ t.doc.kids, ∀ e ∈ tagConds t.conf.opts x, Steady O e := by
  intro t ht x hx e he
  obtain ⟨root, hf⟩ := hr.fits t ht
  rcases kids_of hf.isRoot x hx with rfl | ⟨d, l, rfl⟩
  · exact steady_ok _ _ _ hf.ok e he
  · unfold tagConds at he
    cases he

/-- C76 with the global variables as they are. -/
theorem included_shows (ts : List Template) (S : Source) (P : Prog (List Stmt))
    (hc : List.Forall₂ (fun t u => compileDoc t.conf t.doc = .ok u.1 ∧ u.2 = t.base) ts S.tmpls)
    (hp : ∀ t ∈ ts, t.placed = true) (h : S.compile = some P) (i : Nat) (t : Template) (ht : ts[i]? = some t)
    (context : Dict Val) (O : Oracle W) (py : Py) (H : Str → Bool)
    (hr : Spec.Include.Runs O py S.load S.aliasFor H context ts) (n : Nat) (w : W) :
    let r := render P O n i context w
    let m := shownIn ts S.load py (globals t.base context) n i
    r.out.txt = m.text ∧ r.val = m.res ∧ r.st.world = w := by
  have h1 := C61_rendering_is_document ts S P O hc hp h (all_steady hr) n i context w
  have h2 := rendered_incl hr ht n w
  dsimp only at h1 h2 ⊢
  rw [h1.1, h1.2.1, h1.2.2]
  exact h2

/-- **C76.** Rendering one of a set of compiled templates that include each other, where calls may be nested less than
`n` deep.  The text it gives, and whether it ends with an exception, is what the documents show as a function of the
variables of the context. -/
theorem C76_included_templates_show (ts : List Template) (S : Source) (P : Prog (List Stmt))
    (hc : List.Forall₂ (fun t u => compileDoc t.conf t.doc = .ok u.1 ∧ u.2 = t.base) ts S.tmpls)
    (hp : ∀ t ∈ ts, t.placed = true) (h : S.compile = some P) (i : Nat) (t : Template) (ht : ts[i]? = some t)
    (context : Dict Val) (hn : (context.map (·.1)).Nodup) :
    ∃ G, Globals t.base context G ∧ ∀ (O : Oracle W) (py : Py) (H : Str → Bool),
      Spec.Include.Runs O py S.load S.aliasFor H context ts → ∀ (n : Nat) (w : W),
        let r := render P O n i context w
        let m := shownIn ts S.load py G n i
        r.out.txt = m.text ∧ r.val = m.res ∧ r.st.world = w := by
  exact ⟨globals t.base context, globals_ok _ _ hn, included_shows ts S P hc hp h i t ht context⟩

/-- **C76.** The same from the sources of the templates to the output. -/
theorem C76_included_sources_show (xs : List SourceFile) (S : Source) (P : Prog (List Stmt))
    (hc : List.Forall₂ (fun x u => xmlTemplate x.py x.gen x.opts x.stripText x.dtd x.events = .ok u.1 ∧
      u.2 = x.base) xs S.tmpls)
    (hp : ∀ t ∈ xs.filterMap SourceFile.template, t.placed = true) (h : S.compile = some P) (i : Nat) (t : Template)
    (ht : (xs.filterMap SourceFile.template)[i]? = some t) (context : Dict Val) (hn : (context.map (·.1)).Nodup) :
    ∃ G, Globals t.base context G ∧ ∀ (O : Oracle W) (py : Py) (H : Str → Bool),
      Spec.Include.Runs O py S.load S.aliasFor H context (xs.filterMap SourceFile.template) → ∀ (n : Nat) (w : W),
        let r := render P O n i context w
        let m := shownIn (xs.filterMap SourceFile.template) S.load py G n i
        r.out.txt = m.text ∧ r.val = m.res ∧ r.st.world = w := by
  refine ⟨globals t.base context, globals_ok _ _ hn, fun O py H hr n w => ?_⟩
  have h1 := C61_rendering_is_source xs S P O hc hp h (all_steady hr) n i context w
  have h2 := rendered_incl hr ht n w
  dsimp only at h1 h2 ⊢
  rw [h1.1, h1.2.1, h1.2.2]
  exact h2

/-- Why variables with the names of included files are left out above (`Own`): from the first time a file is included or
imported on, its name stands for the template, whatever the variable was before, in the template that includes it. -/
theorem C76_file_name_hides_variable {C : Type} (P : Prog C) (j : Nat) (name : Str) (al : Option Str) (s : Store C W) (r : Nat)
    (me : Inst) (hj : s.insts[j]? = some me) (h : (importT P j name al s).val = .ok r) :
    ∃ x, (importT P j name al s).st.insts[j]? = some x ∧
      Dict.get x.globals (al.getD (P.aliasFor name)) = some (.inst r) ∧
      ∀ k, k ≠ al.getD (P.aliasFor name) → Dict.get x.globals k = Dict.get me.globals k := by
  have hlt : j < s.insts.length := (List.getElem?_eq_some_iff.1 hj).1
  cases hl : P.load name with
  | none => simp [importT, hl, M.ofOption, M.bind, M.throw] at h
  | some c =>
    cases hc : P.classes[c]? with
    | none => simp [importT, hl, M.ofOption, M.bind, M.pure, getInst, hj, newInst, hc] at h
    | some cl =>
      simp only [importT, hl, M.ofOption, M.bind, M.pure, getInst, hj, newInst, hc, modInst, M.modify,
        Except.ok.injEq] at h ⊢
      subst h
      refine ⟨{ me with globals := Dict.set me.globals (al.getD (P.aliasFor name)) (.inst s.insts.length) }, ?_,
        Dict.get_set_same _ _ _, fun k hk => Dict.get_set_other _ _ (Ne.symm hk)⟩
      simp [List.getElem?_append_left hlt, hj]

/-! ### Examples

A page with a loop that includes an item; it shows the variable `x` of the context, not that of the loop.  And a template
that includes itself. -/

namespace IncludeDemo
open PureDemo (el txt)

def page : DNode :=
  el "div" [] [el "py:for" [("each", "x in xs")] [txt "$x:", el "py:include" [("href", "item.html")] []], txt "$x"]

def item : DNode := el "b" [("class", "$c")] [txt "$x"]

def again : DNode := el "i" [] [txt "$x", el "py:include" [("href", "again.html")] []]

def tm (root : DNode) (fragment : Bool) : Template :=
  ⟨⟨fun _ => none, "xml".toList, ⟨"xml".toList, fragment, [], true⟩, fun _ => []⟩, ⟨[], [root]⟩, []⟩

def ts : List Template := [tm page false, tm item true, tm again true]

def load (n : Str) : Option Nat :=
  if n = "item.html".toList then some 1 else if n = "again.html".toList then some 2 else none
def aliasFor (n : Str) : Str := n.takeWhile (· ≠ '.')
def files (n : Str) : Bool := (load n).isSome

/-- The names Python does not use. -/
def own : List Str := ["value_of".toList, "item".toList, "again".toList]
def mask (L : Look) : Look := fun k => if k ∈ own then none else L k

theorem mask_eq {hid : Str → Prop} (h : ∀ k, hid k → k ∈ own) {L L' : Look} (hL : ∀ k, ¬hid k → L k = L' k) :
    mask L = mask L' := by
  funext k
  unfold mask
  split
  · rfl
  · next hk => exact hL k fun hh => hk (h k hh)

def demo : Py where
  eval e L := PureDemo.eval e (mask L)
  iter e L := PureDemo.demo.iter e (mask L)
  block _ _ := .ok []
  tr t := t

theorem evals (e : Str) : Evals (PureDemo.python demo) demo e :=
  ⟨fun _ _ => rfl, fun _ v h => (PureDemo.evals e).2 _ v h⟩

def A : Allowed := { Allowed.no with incls := files }

mutual
/-- There are no functions and no other templates but those that are included. -/
def check (o : Opts) : DNode → Bool
  | .elem t as _ kids =>
    !Spec.DocSem.auto o t as && (Dict.get (Spec.DocSem.plainAttrs o t as) "py:strip".toList).isNone &&
    ![some .imp, some .ext, some .block, some .defn, some .call].contains (Spec.DocSem.dirOf t) &&
    (Spec.DocSem.dirOf t != some .incl || (files (Spec.DocSem.attr as "href") && kids.isEmpty)) && checkAll o kids
  | _ => true
def checkAll (o : Opts) : List DNode → Bool
  | [] => true
  | x :: xs => check o x && checkAll o xs
end

theorem evalsText (c : CEnv) (d : Str) : EvalsText (PureDemo.python demo) demo A c d :=
  fun _ _ => ⟨fun _ => evals _, fun _ => evals _⟩

mutual
theorem check_ok (c : CEnv) : ∀ x, check c.opts x = true → Ok (PureDemo.python demo) demo A c x
  | .text d _ _, _ => by unfold Ok; exact evalsText c d
  | .cdata d _, _ => by unfold Ok; exact evalsText c d
  | .comment _ _, _ => by unfold Ok; trivial
  | .pi _ d _, _ => by unfold Ok; exact fun _ _ => rfl
  | .elem t as ln kids, h => by
    unfold check at h
    simp only [Bool.and_eq_true, Bool.not_eq_true'] at h
    obtain ⟨⟨⟨⟨h1, h2⟩, h3⟩, h5⟩, h4⟩ := h
    unfold Ok
    refine ⟨h1, fun e he => ?_, ?_, ?_⟩
    · rw [he] at h2
      cases h2
    · cases hd : Spec.DocSem.dirOf t with
      | none => exact ⟨fun _ _ _ _ _ => evals _, fun _ => evals _, fun _ _ => evals _⟩
      | some d =>
        rw [hd] at h3 h5
        cases d with
        | replace => exact fun _ => evals _
        | forD => exact fun _ _ => rfl
        | withD => exact fun _ _ => evals _
        | switchD => exact evals _
        | caseD => exact evals _
        | ifD => exact evals _
        | elseD => trivial
        | nop => trivial
        | block => trivial
        | incl =>
          have h6 : files (Spec.DocSem.attr as "href") = true ∧ kids = [] := by simpa using h5
          refine ⟨h6.1, ?_⟩
          rw [h6.2]
          rfl
        | _ => exact absurd h3 (by decide)
    · have hu : A.under (Spec.DocSem.dirOf t) = A := by
        cases Spec.DocSem.dirOf t with
        | none => rfl
        | some d => cases d <;> rfl
      rw [hu]
      exact checkAll_ok c kids h4
theorem checkAll_ok (c : CEnv) : ∀ xs, checkAll c.opts xs = true → OkAll (PureDemo.python demo) demo A c xs
  | [], _ => by unfold OkAll; trivial
  | x :: xs, h => by
    unfold checkAll at h
    rw [Bool.and_eq_true] at h
    unfold OkAll
    exact ⟨check_ok c x h.1, checkAll_ok c xs h.2⟩
end

def context : Dict Val :=
  [("xs".toList, .pairs [] [([], .int 1), ([], .str "<".toList)]), ("c".toList, .str "k".toList), ("x".toList, .str "&".toList)]

theorem loaded {n : Str} (h : files n = true) : n = "item.html".toList ∨ n = "again.html".toList := by
  unfold files load at h
  split at h
  · next h' => exact .inl h'
  · split at h
    · next h' => exact .inr h'
    · cases h

theorem fits (root : DNode) (b : Bool) (h1 : check (tm root b).conf.opts root = true)
    (h2 : Spec.Pure.blocks (tm root b).conf.opts root = []) (h3 : Spec.DocSem.speaks (tm root b).conf .root root = true)
    (h4 : (tm root b).root? = some root) : Fits (PureDemo.python demo) demo files (tm root b) root where
  isRoot := h4
  ok := check_ok _ _ h1
  noBlocks := h2
  speaks := h3
  base := .nil
  free _ _ := rfl

theorem demo_runs : Spec.Include.Runs (PureDemo.python demo) demo load aliasFor files context ts where
  fits t ht := by
    simp only [ts, List.mem_cons, List.not_mem_nil, or_false] at ht
    rcases ht with rfl | rfl | rfl
    · exact ⟨page, fits _ _ (by decide +kernel) (by decide +kernel) (by decide +kernel) rfl⟩
    · exact ⟨item, fits _ _ (by decide +kernel) (by decide +kernel) (by decide +kernel) rfl⟩
    · exact ⟨again, fits _ _ (by decide +kernel) (by decide +kernel) (by decide +kernel) rfl⟩
  loads n i h := by
    unfold load at h
    split at h
    · cases h; decide
    · split at h
      · cases h; decide
      · cases h
  noCalls _ := rfl
  messages _ _ _ := rfl
  main _ := rfl
  free := by decide +kernel
  names n h := by rcases loaded h with rfl | rfl <;> decide +kernel
  blind := by
    have hid : ∀ k, Own aliasFor files k → k ∈ own := by
      rintro k (rfl | ⟨n, h, rfl⟩)
      · decide +kernel
      · rcases loaded h with rfl | rfl <;> decide +kernel
    exact ⟨fun e _ _ h => congrArg (PureDemo.eval e) (mask_eq hid h), fun e _ _ h => congrArg (PureDemo.demo.iter e) (mask_eq hid h),
      fun _ _ _ _ => rfl⟩

example : (shownIn ts load demo (Dict.get context) 2 0).text =
    "<div>1:<b class=\"k\">&amp;</b>&lt;:<b class=\"k\">&amp;</b>&lt;</div>".toList := by decide +kernel

example : (shownIn ts load demo (Dict.get context) 3 2).text = "<i>&amp;<i>&amp;<i>&amp;".toList ∧
    (shownIn ts load demo (Dict.get context) 3 2).res.toOption = none := by decide +kernel

/-- The text rendering template `i` gives. -/
def result (n i : Nat) : Option (Str × Option Unit) :=
  match compileDoc (tm page false).conf ⟨[], [page]⟩, compileDoc (tm item true).conf ⟨[], [item]⟩,
    compileDoc (tm again true).conf ⟨[], [again]⟩ with
  | .ok u, .ok v, .ok x => (Source.mk [(u, []), (v, []), (x, [])] load aliasFor).compile.map fun P =>
      let r := render P (PureDemo.python demo) n i context ()
      (r.out.txt, r.val.toOption)
  | _, _, _ => none

example : result 2 0 = some ("<div>1:<b class=\"k\">&amp;</b>&lt;:<b class=\"k\">&amp;</b>&lt;</div>".toList, some ()) ∧
    result 3 2 = some ("<i>&amp;<i>&amp;<i>&amp;".toList, none) := by
  have h1 : (match compileDoc (tm page false).conf ⟨[], [page]⟩, compileDoc (tm item true).conf ⟨[], [item]⟩,
      compileDoc (tm again true).conf ⟨[], [again]⟩ with
    | .ok u, .ok v, .ok x => ((Source.mk [(u, []), (v, []), (x, [])] load aliasFor).compile).isSome
    | _, _, _ => false) = true := by decide +kernel
  unfold result
  cases hu : compileDoc (tm page false).conf ⟨[], [page]⟩ with
  | error e => rw [hu] at h1; cases h1
  | ok u =>
  cases hv : compileDoc (tm item true).conf ⟨[], [item]⟩ with
  | error e => rw [hu, hv] at h1; cases h1
  | ok v =>
  cases hx : compileDoc (tm again true).conf ⟨[], [again]⟩ with
  | error e => rw [hu, hv, hx] at h1; cases h1
  | ok x =>
    rw [hu, hv, hx] at h1
    obtain ⟨P, hP⟩ := Option.isSome_iff_exists.1 h1
    have key : ∀ n i t, ts[i]? = some t → let r := render P (PureDemo.python demo) n i context ()
        let m := shownIn ts load demo (globals t.base context) n i
        r.out.txt = m.text ∧ r.val = m.res := fun n i t ht => by
      have h1 := C61_rendering_is_document ts ⟨[(u, []), (v, []), (x, [])], load, aliasFor⟩ P (PureDemo.python demo)
        (.cons ⟨hu, rfl⟩ (.cons ⟨hv, rfl⟩ (.cons ⟨hx, rfl⟩ .nil))) (by decide +kernel) hP (all_steady demo_runs) n i context ()
      have h2 := rendered_incl demo_runs ht n ()
      dsimp only at h1 h2 ⊢
      rw [h1.1, h1.2.1]
      exact ⟨h2.1, h2.2.1⟩
    change Option.map _ (Source.compile _) = _ ∧ Option.map _ (Source.compile _) = _
    rw [hP, Option.map_some, Option.map_some]
    dsimp only
    rw [(key 2 0 _ rfl).1, (key 2 0 _ rfl).2, (key 3 2 _ rfl).1, (key 3 2 _ rfl).2]
    constructor <;> decide +kernel

/-- A page with a variable `item` that includes `item.html`. -/
def lib : Prog Nat := ⟨[⟨[], []⟩, ⟨[], []⟩], load, aliasFor⟩

example :
    let s := (newInst lib 0 [("item".toList, .int 7)] (emptyStore _ 0)).st
    (s.insts[0]?.bind fun x => Dict.get x.globals "item".toList) = some (.int 7) ∧
    (importT lib 0 "item.html".toList none s).val = .ok 1 := ⟨rfl, rfl⟩

end IncludeDemo

end Kajiki.Props

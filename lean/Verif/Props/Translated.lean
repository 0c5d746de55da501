import Verif.Lemmas.Translated
import Verif.Props.Swap
import Verif.Props.XmlText

/-!
# C88: rendering with a translation is rendering the translated template
-/

namespace Kajiki.Props
open Kajiki.Run Kajiki.Spec.Pure Kajiki.Spec.Language Kajiki.PureDoc Kajiki.TranslatedL
open Kajiki.Spec.DocSem (Template SourceFile tagConds scriptTag cut dirOf script)
open Kajiki.Spec.Sem (Steady)

variable {W : Type}

/-- **C88.** Two templates, each one of a set of compiled ones, of which the second is the translation of the first: each of
its texts says what `gettext` gives for the texts of the first one.  Rendering the first with this `gettext`, and the second
with one that translates nothing, gives the same text, the same exception and the same world. -/
theorem C88_translation_is_substitution (ts ts' : List Template) (S S' : Source) (P P' : Prog (List Stmt))
    (hc : List.Forall₂ (fun t u => compileDoc t.conf t.doc = .ok u.1 ∧ u.2 = t.base) ts S.tmpls)
    (hc' : List.Forall₂ (fun t u => compileDoc t.conf t.doc = .ok u.1 ∧ u.2 = t.base) ts' S'.tmpls)
    (hp : ∀ t ∈ ts, t.placed = true) (hp' : ∀ t ∈ ts', t.placed = true)
    (h : S.compile = some P) (h' : S'.compile = some P') (i i' : Nat) (t t' : Template)
    (ht : ts[i]? = some t) (ht' : ts'[i']? = some t') (root root' : DNode) (context : Dict Val)
    (O O' : Oracle W) (w : W) (py : Py) (hr : Runs O py w context t root)
    (hr' : Runs O' (untranslated py) w context t' root')
    (hs : ∀ t ∈ ts, ∀ x ∈ t.doc.kids, ∀ e ∈ tagConds t.conf.opts x, Steady O e)
    (hs' : ∀ t ∈ ts', ∀ x ∈ t.doc.kids, ∀ e ∈ tagConds t.conf.opts x, Steady O' e)
    (hconf : t'.conf = t.conf) (hbase : t'.base = t.base) (hdoc : t'.doctype root' = t.doctype root)
    (hw : Translated py.tr t.conf false [] root root') (n n' : Nat) :
    let r := render P O (n + 1) i context w
    let r' := render P' O' (n' + 1) i' context w
    r'.out.txt = r.out.txt ∧ r'.val = r.val ∧ r'.st.world = r.st.world := by
  obtain ⟨a1, a2, a3⟩ := shows ts S P hc hp h i t ht root context O w py hr hs n
  obtain ⟨b1, b2, b3⟩ := shows ts' S' P' hc' hp' h' i' t' ht' root' context O' w _ hr' hs' n'
  dsimp only
  rw [a1, a2, a3, b1, b2, b3, hbase, shown_translated hconf hdoc hw]
  exact ⟨rfl, rfl, rfl⟩

/-- **C88.** The same for templates that include others, if all of them are translated. -/
theorem C88_included_templates (ts ts' : List Template) (S S' : Source) (P P' : Prog (List Stmt))
    (hc : List.Forall₂ (fun t u => compileDoc t.conf t.doc = .ok u.1 ∧ u.2 = t.base) ts S.tmpls)
    (hc' : List.Forall₂ (fun t u => compileDoc t.conf t.doc = .ok u.1 ∧ u.2 = t.base) ts' S'.tmpls)
    (hp : ∀ t ∈ ts, t.placed = true) (hp' : ∀ t ∈ ts', t.placed = true)
    (h : S.compile = some P) (h' : S'.compile = some P') (hl : S'.load = S.load) (i : Nat) (hi : i < ts.length)
    (context : Dict Val) (O O' : Oracle W) (py : Py) (H : Str → Bool)
    (hr : Spec.Include.Runs O py S.load S.aliasFor H context ts)
    (hr' : Spec.Include.Runs O' (untranslated py) S'.load S'.aliasFor H context ts')
    (hw : List.Forall₂ (IsTranslation py.tr) ts ts') (n : Nat) (w : W) :
    let r := render P O n i context w
    let r' := render P' O' n i context w
    r'.out.txt = r.out.txt ∧ r'.val = r.val ∧ r'.st.world = r.st.world := by
  have hi' : i < ts'.length := hw.length_eq ▸ hi
  obtain ⟨a1, a2, a3⟩ := included_shows ts S P hc hp h i _ (List.getElem?_eq_getElem hi) context O py H hr n w
  obtain ⟨b1, b2, b3⟩ := included_shows ts' S' P' hc' hp' h' i _ (List.getElem?_eq_getElem hi') context O' _ H hr' n w
  have hb : (ts'[i]).base = (ts[i]).base := ((List.forall₂_iff_get.1 hw).2 i hi hi').base
  dsimp only
  rw [a1, a2, a3, b1, b2, b3, hl, hb, shownIn_translated _ _ hw]
  exact ⟨rfl, rfl, rfl⟩

/-! ## Which texts say the same -/

private theorem joined_literal : ∀ ps : List (Str ⊕ Str), (∀ p ∈ ps, ∃ t, p = .inl t) →
    joined ps = if (ps.map fun p => p.elim id id).flatten.isEmpty then [] else [.inl (ps.map fun p => p.elim id id).flatten]
  | [], _ => rfl
  | .inr e :: ps, h => by obtain ⟨t, h⟩ := h _ List.mem_cons_self; cases h
  | .inl s :: ps, h => by
    have ih := joined_literal ps fun p hp => h p (List.mem_cons_of_mem _ hp)
    rw [joined, ih]
    rw [List.map_cons, List.flatten_cons]
    change _ = if (s ++ (ps.map fun p => p.elim id id).flatten).isEmpty then _ else [Sum.inl (s ++ _)]
    generalize (ps.map fun p => p.elim id id).flatten = u
    cases u with
    | nil =>
      rw [List.append_nil]
      rfl
    | cons a as =>
      cases s <;> rfl

private theorem cut_doubled (py : PyCompile) (t : Str) :
    cut py (Spec.XmlText.doubled t) = (litPieces t).map (·.value) := by
  unfold cut
  rw [compile_doubled]
  dsimp only
  have hsh := litPieces_shape t
  generalize litPieces t = ps at hsh
  generalize 0 = ln
  induction ps generalizing ln with
  | nil => rfl
  | cons p ps ih =>
    have ih := ih (fun q hq => hsh q (List.mem_cons_of_mem _ hq))
    obtain ⟨u, hu⟩ : ∃ u, p.value = .inl u := by
      rcases hsh p List.mem_cons_self with rfl | ⟨u, rfl, _⟩
      · exact ⟨_, rfl⟩
      · exact ⟨_, rfl⟩
    rw [Spec.XmlText.nodes, hu, List.map_cons, hu, Spec.XmlText.node, if_neg (by simp)]
    rw [List.filterMap_cons]
    dsimp only
    rw [ih]

/-- **C88.** A text without expressions: its translation with every `$` doubled says the same, whatever the translation is. -/
theorem C88_literal_text (tr : Str → Str) (c : CEnv) (tag d t : Str) (hd : cut c.py d = [.inl t])
    (hm : scriptTag tag = false) (hb : strip t ≠ []) : SaysSame tr c tag d (Spec.XmlText.doubled (tr t)) := by
  unfold SaysSame
  rw [hd, cut_doubled]
  have hsh := litPieces_shape (tr t)
  have hv : ∀ p ∈ (litPieces (tr t)).map (·.value), ∃ u : Str, p = .inl u := by
    intro p hp
    obtain ⟨q, hq, rfl⟩ := List.mem_map.1 hp
    rcases hsh q hq with rfl | ⟨u, rfl, _⟩
    · exact ⟨_, rfl⟩
    · exact ⟨_, rfl⟩
  have he : (strip t).isEmpty = false := by
    cases h : strip t with
    | nil => exact absurd h hb
    | cons => rfl
  rw [joined_literal _ hv, List.map_map]
  rw [show (litPieces (tr t)).map ((fun p => Sum.elim id id p) ∘ fun x => x.value) =
    (litPieces (tr t)).map fun p => p.value.elim id id from rfl, (litPieces_source (tr t)).2]
  rw [List.map_cons, List.map_nil, said, hm, he]
  rw [joined_literal _ (fun p hp => ⟨_, List.mem_singleton.1 hp⟩)]
  simp

/-- **C88.** A text that is not to be translated says the same as itself: it is blank, or in a script. -/
theorem C88_untranslated_text (tr : Str → Str) (c : CEnv) (tag d : Str)
    (h : scriptTag tag = true ∨ ∀ t, .inl t ∈ cut c.py d → strip t = []) : SaysSame tr c tag d d := by
  unfold SaysSame
  have : (cut c.py d).map (said tr tag) = cut c.py d := by
    conv_rhs => rw [← List.map_id (cut c.py d)]
    refine List.map_congr_left fun x hx => ?_
    cases x with
    | inr e => rfl
    | inl t =>
      rcases h with h | h
      · rw [said, h]; rfl
      · rw [said, h t hx]; simp
  rw [this]

/-! ### Examples -/

namespace TranslatedDemo
open PureDemo (el txt context)

/-- `same` is `$5`, `-` is `keins`. -/
def german (t : Str) : Str := if t = "same".toList then "$5".toList else if t = "-".toList then "keins".toList else t

def py : Py := { PureDemo.demo with tr := german }

/-- The root of the example of C67, translated. -/
def root : DNode :=
  el "ul" [("py:strip", "s"), ("class", "$c")]
    [el "py:for" [("each", "x in xs")]
      [el "py:if" [("test", "x")] [el "li" [] [txt "$x"]], el "py:else" [] [txt "keins"]],
     el "py:with" [("vars", "x=y")] [el "py:switch" [("test", "x")]
       [el "py:case" [("value", "c")] [txt "$$5"], el "py:nop" [] [el "py:else" [] [txt "other"]]]],
     txt "$x"]

def tm : Template := { PureDemo.tm with doc := ⟨[], [root]⟩ }

theorem evals (e : Str) : Evals (PureDemo.python py) py e := PureDemo.evals e

example : Runs (PureDemo.python py) py () context PureDemo.tm PureDemo.root :=
  { PureDemo.demo_runs with
    ok := PureDemo.check_ok_of evals PureDemo.negates PureDemo.tm.conf PureDemo.root (by decide +kernel)
    messages := fun _ _ _ => rfl }

example : Runs (PureDemo.python (untranslated py)) (untranslated py) () context tm root where
  isRoot := rfl
  ok := PureDemo.check_ok tm.conf root (by decide +kernel)
  noCalls _ := rfl
  noBlocks := by decide +kernel
  speaks := by decide +kernel
  messages _ _ _ := rfl
  main := rfl
  free := by decide +kernel
  base := rfl

private theorem el_ok {raw : Bool} {tag : Str} (t : String) (as : List (String × String)) {xs ys : List DNode}
    (hs : dirOf t.toList = none → script tm.conf.opts t.toList = false)
    (h : TranslatedAll german tm.conf (dirOf t.toList).isNone t.toList xs ys) :
    Translated german tm.conf raw tag (el t as xs) (el t as ys) := .elem hs h

private theorem txt_ok {raw : Bool} {tag : Str} (d d' : String)
    (h : joined (cut tm.conf.py d'.toList) = joined ((cut tm.conf.py d.toList).map (said german tag))) :
    Translated german tm.conf raw tag (txt d) (txt d') := .text h

example : Translated py.tr PureDemo.tm.conf false [] PureDemo.root root :=
  el_ok _ _ (by decide +kernel) <|
    .cons (el_ok _ _ (by decide +kernel) <|
      .cons (el_ok _ _ (by decide +kernel) <| .cons (el_ok _ _ (by decide +kernel) <|
        .cons (txt_ok _ _ (by decide +kernel)) .nil) .nil) <|
      .cons (el_ok _ _ (by decide +kernel) <| .cons (txt_ok _ _ (by decide +kernel)) .nil) .nil) <|
    .cons (el_ok _ _ (by decide +kernel) <| .cons (el_ok _ _ (by decide +kernel) <|
      .cons (el_ok _ _ (by decide +kernel) <| .cons (txt_ok _ _ (by decide +kernel)) .nil) <|
      .cons (el_ok _ _ (by decide +kernel) <| .cons (el_ok _ _ (by decide +kernel) <|
        .cons (txt_ok _ _ (by decide +kernel)) .nil) .nil) .nil) .nil) <|
    .cons (txt_ok _ _ (by decide +kernel)) .nil

example : (shown py (Dict.get context) PureDemo.tm PureDemo.root).text =
    "<ul class=\"k\"><li>1</li>keins<li>&lt;</li>$5&lt;</ul>".toList := by decide +kernel
example : (shown (untranslated py) (Dict.get context) tm root).text =
    "<ul class=\"k\"><li>1</li>keins<li>&lt;</li>$5&lt;</ul>".toList := by decide +kernel

end TranslatedDemo

end Kajiki.Props

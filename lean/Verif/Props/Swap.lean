import Verif.Lemmas.Swap
import Verif.Props.Pure
import Verif.Props.Include

/-!
# C79: parts of a template may be exchanged

`Verif/Spec/Swap.lean` says when two parts of templates show the same, and when a document is another one with some
parts exchanged for others that show the same.
-/

namespace Kajiki.Props
open Kajiki.Run Kajiki.Spec.Pure Kajiki.Spec.Swap Kajiki.PureDoc Kajiki.SwapL
open Kajiki.Spec.DocSem (Template SourceFile tagConds dirOf attr script scriptTag plainAttrs cut html void)
open Kajiki.Spec.Sem (Steady)
open Kajiki.Spec.Pure.Shown

variable {W : Type}

/-- **C79.** Two templates, each one of a set of compiled ones.  If the second is the first with some parts exchanged
for others that show the same, then rendering them gives the same text, the same exception and the same world. -/
theorem C79_parts_may_be_exchanged (ts ts' : List Template) (S S' : Source) (P P' : Prog (List Stmt))
    (hc : List.Forall₂ (fun t u => compileDoc t.conf t.doc = .ok u.1 ∧ u.2 = t.base) ts S.tmpls)
    (hc' : List.Forall₂ (fun t u => compileDoc t.conf t.doc = .ok u.1 ∧ u.2 = t.base) ts' S'.tmpls)
    (hp : ∀ t ∈ ts, t.placed = true) (hp' : ∀ t ∈ ts', t.placed = true)
    (h : S.compile = some P) (h' : S'.compile = some P') (i i' : Nat) (t t' : Template)
    (ht : ts[i]? = some t) (ht' : ts'[i']? = some t') (root root' : DNode) (context : Dict Val)
    (O : Oracle W) (w : W) (py : Py) (hr : Runs O py w context t root) (hr' : Runs O py w context t' root')
    (hs : ∀ t ∈ ts, ∀ x ∈ t.doc.kids, ∀ e ∈ tagConds t.conf.opts x, Steady O e)
    (hs' : ∀ t ∈ ts', ∀ x ∈ t.doc.kids, ∀ e ∈ tagConds t.conf.opts x, Steady O e)
    (hconf : t'.conf = t.conf) (hbase : t'.base = t.base) (hdoc : t'.doctype root' = t.doctype root)
    (hw : Swapped py t.conf false root root') (n n' : Nat) :
    let r := render P O (n + 1) i context w
    let r' := render P' O (n' + 1) i' context w
    r'.out.txt = r.out.txt ∧ r'.val = r.val ∧ r'.st.world = r.st.world := by
  obtain ⟨a1, a2, a3⟩ := shows ts S P hc hp h i t ht root context O w py hr hs n
  obtain ⟨b1, b2, b3⟩ := shows ts' S' P' hc' hp' h' i' t' ht' root' context O w py hr' hs' n'
  have hm : shown py (globals t'.base context) t' root' = shown py (globals t.base context) t root := by
    unfold shown
    rw [hconf, hbase, hdoc, (one hw).1 rfl]
  dsimp only
  rw [a1, a2, a3, b1, b2, b3, hm]
  exact ⟨rfl, rfl, rfl⟩

/-- **C79.** The same from the sources of two templates to the output. -/
theorem C79_sources_with_exchanged_parts (x x' : SourceFile) (u u' : Tmpl) (load load' : Str → Option Nat)
    (aliasFor aliasFor' : Str → Str) (P P' : Prog (List Stmt))
    (hx : xmlTemplate x.py x.gen x.opts x.stripText x.dtd x.events = .ok u)
    (hx' : xmlTemplate x'.py x'.gen x'.opts x'.stripText x'.dtd x'.events = .ok u')
    (h : (Source.mk [(u, x.base)] load aliasFor).compile = some P)
    (h' : (Source.mk [(u', x'.base)] load' aliasFor').compile = some P') :
    ∃ t t', x.template = some t ∧ x'.template = some t' ∧ (t.placed = true → t'.placed = true →
      ∀ (root root' : DNode) (context : Dict Val) (O : Oracle W) (w : W) (py : Py),
        Runs O py w context t root → Runs O py w context t' root' →
        t'.conf = t.conf → t'.base = t.base → t'.doctype root' = t.doctype root →
        Swapped py t.conf false root root' → ∀ n n' : Nat,
          let r := render P O (n + 1) 0 context w
          let r' := render P' O (n' + 1) 0 context w
          r'.out.txt = r.out.txt ∧ r'.val = r.val ∧ r'.st.world = r.st.world) := by
  obtain ⟨t, e, hd⟩ : ∃ t, x.template = some t ∧ compileDoc t.conf t.doc = .ok u ∧ x.base = t.base := by
    unfold xmlTemplate at hx
    unfold SourceFile.template
    cases hd : parseEvents x.dtd x.events with
    | error e => rw [hd] at hx; cases hx
    | ok doc => rw [hd] at hx; exact ⟨_, rfl, hx, rfl⟩
  obtain ⟨t', e', hd'⟩ : ∃ t, x'.template = some t ∧ compileDoc t.conf t.doc = .ok u' ∧ x'.base = t.base := by
    unfold xmlTemplate at hx'
    unfold SourceFile.template
    cases hd : parseEvents x'.dtd x'.events with
    | error e => rw [hd] at hx'; cases hx'
    | ok doc => rw [hd] at hx'; exact ⟨_, rfl, hx', rfl⟩
  have steady {O : Oracle W} {py : Py} {w : W} {context : Dict Val} {t : Template} {root : DNode}
      (hr : Runs O py w context t root) :
      ∀ t₁ ∈ [t], ∀ y ∈ t₁.doc.kids, ∀ e ∈ tagConds t₁.conf.opts y, Steady O e := by
    intro t₁ ht₁ y hy e he
    cases List.mem_singleton.1 ht₁
    rcases kids_root hr.isRoot y hy with rfl | ⟨d, l, rfl⟩
    · exact steady_ok _ _ _ hr.ok e he
    · unfold tagConds at he
      cases he
  refine ⟨t, t', e, e', fun hp hp' root root' context O w py hr hr' c1 c2 c3 hw n n' => ?_⟩
  exact C79_parts_may_be_exchanged [t] [t'] ⟨[(u, x.base)], load, aliasFor⟩ ⟨[(u', x'.base)], load', aliasFor'⟩ P P' (.cons hd .nil) (.cons hd' .nil)
    (fun t ht => by rw [List.mem_singleton.1 ht]; exact hp) (fun t ht => by rw [List.mem_singleton.1 ht]; exact hp')
    h h' 0 0 t t' rfl rfl root root' context O w py hr hr' (steady hr) (steady hr') c1 c2 c3 hw n n'

/-- Templates that include each other. -/
theorem shownIn_swapped {ts ts' : List Template} {py : Py} (load : Str → Option Nat) (G : Look)
    (h : List.Forall₂ (SameShow py) ts ts') : ∀ n i : Nat,
      Spec.Include.shownIn ts' load py G n i = Spec.Include.shownIn ts load py G n i
  | 0, _ => rfl
  | n + 1, i => by
    unfold Spec.Include.shownIn
    cases ht : ts[i]? with
    | none =>
      have : ts'[i]? = none := by
        rw [List.getElem?_eq_none_iff] at ht ⊢
        rw [← h.length_eq]
        exact ht
      rw [this]
    | some t =>
      obtain ⟨hi, rfl⟩ := List.getElem?_eq_some_iff.1 ht
      have hi' : i < ts'.length := h.length_eq ▸ hi
      have hs : SameShow py ts[i] ts'[i] := (List.forall₂_iff_get.1 h).2 i hi hi'
      obtain ⟨root, root', h1, h2, h3, h4⟩ := hs.roots
      rw [List.getElem?_eq_getElem hi']
      dsimp only
      rw [h1, h2]
      dsimp only
      simp only [shownIn_swapped load G h n]
      unfold shown
      rw [hs.conf, hs.base, h3, (one (h4 _)).1 rfl]

/-- **C79.** The same for templates that include others: parts may be exchanged in all of them. -/
theorem C79_parts_of_included_templates (ts ts' : List Template) (S S' : Source) (P P' : Prog (List Stmt))
    (hc : List.Forall₂ (fun t u => compileDoc t.conf t.doc = .ok u.1 ∧ u.2 = t.base) ts S.tmpls)
    (hc' : List.Forall₂ (fun t u => compileDoc t.conf t.doc = .ok u.1 ∧ u.2 = t.base) ts' S'.tmpls)
    (hp : ∀ t ∈ ts, t.placed = true) (hp' : ∀ t ∈ ts', t.placed = true)
    (h : S.compile = some P) (h' : S'.compile = some P') (hl : S'.load = S.load) (i : Nat) (hi : i < ts.length)
    (context : Dict Val) (O : Oracle W) (py : Py) (H : Str → Bool)
    (hr : Spec.Include.Runs O py S.load S.aliasFor H context ts)
    (hr' : Spec.Include.Runs O py S'.load S'.aliasFor H context ts')
    (hw : List.Forall₂ (SameShow py) ts ts') (n : Nat) (w : W) :
    let r := render P O n i context w
    let r' := render P' O n i context w
    r'.out.txt = r.out.txt ∧ r'.val = r.val ∧ r'.st.world = r.st.world := by
  have hi' : i < ts'.length := hw.length_eq ▸ hi
  obtain ⟨a1, a2, a3⟩ := included_shows ts S P hc hp h i _ (List.getElem?_eq_getElem hi) context O py H hr n w
  obtain ⟨b1, b2, b3⟩ := included_shows ts' S' P' hc' hp' h' i _ (List.getElem?_eq_getElem hi') context O py H hr' n w
  have hb : (ts'[i]).base = (ts[i]).base := ((List.forall₂_iff_get.1 hw).2 i hi hi').base
  dsimp only
  rw [a1, a2, a3, b1, b2, b3, hl, hb, shownIn_swapped _ _ hw]
  exact ⟨rfl, rfl, rfl⟩

/-! ## Parts that show the same -/

section
variable (py : Py) (c : CEnv) (raw : Bool) (tag : Str)

/-- `<py:nop>…</py:nop>` is what is in it. -/
theorem C79_nop_is_content (as : Dict Str) (l : Nat) (xs : List DNode) (ht : scriptTag tag = false)
    (hx : raw = false ∨ sections xs = false) :
    Alike py c raw tag [.elem "py:nop".toList as l xs] xs := by
  intro G over ρ
  rw [nodes_one _ _ _ rfl, node]
  have hd : dirOf "py:nop".toList = some .nop := by decide +kernel
  rw [hd]
  dsimp only
  rw [nodes_tag (tag := "py:nop".toList) (tag' := tag) (by rw [ht]; decide +kernel) false raw xs (hx.imp_left Eq.symm)]

/-- An element with `py:strip=""` is what is in it. -/
theorem C79_stripped_is_content (t : Str) (as : Dict Str) (l : Nat) (xs : List DNode) (hd : dirOf t = none)
    (hs : Dict.get (plainAttrs c.opts t as) "py:strip".toList = some [])
    (hn : attr (plainAttrs c.opts t as) "py:content" = []) (hsc : script c.opts t = false)
    (ht : scriptTag t = scriptTag tag) (hx : raw = true ∨ sections xs = false) :
    Alike py c raw tag [.elem t as l xs] xs := by
  intro G over ρ
  rw [nodes_one _ _ _ rfl, node, hd]
  dsimp only
  rw [startTag_none hs, hn, hsc]
  have hk (ρ : Vars) : keeping ρ (done ()) = done ρ := by unfold keeping; rw [done_next]
  simp only [tagPart_none hs, hk, done_next, Shown.seq, List.isEmpty_nil, Bool.not_true, Bool.false_eq_true, if_false,
    ite_self, next_done]
  rw [nodes_tag ht true raw xs (hx.imp_left Eq.symm)]
  cases xs with
  | nil => rw [nodes]; rfl
  | cons => rfl

/-- `<py:replace value="e"/>` is `${e}`. -/
theorem C79_replace_is_expression (as : Dict Str) (l l' : Nat) (kids : List DNode) (d : Str) (b : Bool)
    (hc : cut c.py d = [.inr (attr as "value")]) :
    Alike py c raw tag [.elem "py:replace".toList as l kids] [.text d b l'] := by
  intro G over ρ
  rw [nodes_one _ _ _ rfl, nodes_one _ _ _ rfl, node, node]
  have hd : dirOf "py:replace".toList = some .replace := by decide +kernel
  rw [hd]
  dsimp only
  rw [text_expr _ _ _ _ hc]

/-- `<t py:content="e">…</t>` is `<t>${e}</t>`. -/
theorem C79_content_is_expression (t : Str) (as : Dict Str) (l l' l'' : Nat) (kids : List DNode) (d : Str) (b : Bool)
    (hd : dirOf t = none) (hn : attr (plainAttrs c.opts t as) "py:content" ≠ [])
    (hc : cut c.py d = [.inr (attr (plainAttrs c.opts t as) "py:content")])
    (hsc : script c.opts t = false) (hv : (html c.mode && void t) = false) :
    Alike py c raw tag [.elem t as l kids] [.elem t (as.filter (·.1 ≠ "py:content".toList)) l' [.text d b l'']] := by
  intro G over ρ
  rw [nodes_one _ _ _ rfl, nodes_one _ _ _ rfl, node, node, hd]
  dsimp only
  rw [plainAttrs_filter, startTag_content, hsc, hv]
  have h0 : attr ((plainAttrs c.opts t as).filter (·.1 ≠ "py:content".toList)) "py:content" = [] := by
    unfold attr
    rw [get_filter_same]
    rfl
  have h1 : (attr (plainAttrs c.opts t as) "py:content").isEmpty = false := by simpa using hn
  rw [h0, h1]
  have hx : Spec.Pure.nodes py G over c true t [.text d b l''] = fun ρ => keeping ρ (value py (look G ρ)
      (attr (plainAttrs c.opts t as) "py:content")) := by
    rw [nodes_one _ _ _ rfl, node]
    funext ρ
    rw [text_expr _ _ _ _ hc]
  rw [hx]
  simp only [tagPart_content, List.isEmpty_nil, List.isEmpty_cons, Bool.not_true, Bool.not_false, Bool.false_eq_true,
    if_false, if_true]

/-- A condition and its negation. -/
theorem C79_if_not_swaps (as as' bs bs' : Dict Str) (l l' m m' : Nat) (xs ys : List DNode)
    (h : ∀ look, py.eval (attr as' "test") look = (py.eval (attr as "test") look).map fun v => .bool (!truthy v)) :
    Alike py c raw tag [.elem "py:if".toList as l xs, .elem "py:else".toList bs m ys]
      [.elem "py:if".toList as' l' ys, .elem "py:else".toList bs' m' xs] := by
  intro G over ρ
  rw [if_else, if_else, h]
  cases py.eval (attr as "test") (look G ρ) with
  | error e => rfl
  | ok v =>
    change (done v).next _ = (done (Val.bool (!truthy v))).next _
    rw [done_next, done_next]
    change _ = if (!truthy v) = true then _ else _
    cases truthy v <;> rfl

/-- A condition that always holds. -/
theorem C79_if_true_is_content (as bs : Dict Str) (l m : Nat) (xs ys : List DNode) (ht : scriptTag tag = false)
    (hx : raw = false ∨ sections xs = false)
    (h : ∀ look, ∃ v, py.eval (attr as "test") look = .ok v ∧ truthy v = true) :
    Alike py c raw tag [.elem "py:if".toList as l xs, .elem "py:else".toList bs m ys] xs := by
  intro G over ρ
  obtain ⟨v, hv, hb⟩ := h (look G ρ)
  rw [if_else, hv]
  change (done v).next _ = _
  rw [done_next, if_pos hb]
  rw [nodes_tag (tag := "py:nop".toList) (tag' := tag) (by rw [ht]; decide +kernel) false raw xs (hx.imp_left Eq.symm)]

/-- A `py:switch` with one case is a condition. -/
theorem C79_switch_is_if (as as' cs bs bs' : Dict Str) (l l' m k k' : Nat) (xs ys : List DNode)
    (h : ∀ look, py.eval (attr as' "test") look =
      match py.eval (attr as "test") look with
      | .error e => .error e
      | .ok v => (py.eval (attr cs "value") look).map fun u => .bool (pyEq u v)) :
    Alike py c raw tag
      [.elem "py:switch".toList as l [.elem "py:case".toList cs m xs, .elem "py:else".toList bs k ys]]
      [.elem "py:if".toList as' l' xs, .elem "py:else".toList bs' k' ys] := by
  intro G over ρ
  rw [if_else, h, nodes_one _ _ _ rfl, node]
  have hd : dirOf "py:switch".toList = some .switchD := by decide +kernel
  rw [hd]
  dsimp only
  cases py.eval (attr as "test") (look G ρ) with
  | error e => rfl
  | ok v =>
    change (done v).next _ = _
    rw [done_next, case_else]
    dsimp only
    cases py.eval (attr cs "value") (look G ρ) with
    | error e => rfl
    | ok u =>
      change (done u).next _ = (done (Val.bool (pyEq u v))).next _
      rw [done_next, done_next]
      rfl

/-- `<!--! … -->` is nothing. -/
theorem C79_remark_is_nothing (d : Str) (l : Nat) : Alike py c raw tag [.comment ('!' :: d) l] [] := by
  intro G over ρ
  rw [nodes_one _ _ _ rfl, node, nodes]
  rfl

end

/-! ### Examples -/

namespace SwapDemo
open PureDemo

/-- The example of C67 with the condition turned round and a part in a `py:nop`. -/
def root' : DNode :=
  el "ul" [("py:strip", "s"), ("class", "$c")]
    [el "py:for" [("each", "x in xs")]
      [el "py:if" [("test", "not (x)")] [txt "-"], el "py:else" [] [el "li" [] [txt "$x"]]],
     el "py:with" [("vars", "x=y")] [el "py:switch" [("test", "x")]
       [el "py:case" [("value", "c")] [.comment "!a remark".toList 3, txt "same"],
        el "py:nop" [] [el "py:else" [] [txt "other"]]]],
     el "py:nop" [] [el "py:replace" [("value", "x")] []]]

def tm' : Template := { tm with doc := ⟨[], [root']⟩ }

theorem demo_runs' : Runs (python demo) demo () context tm' root' where
  isRoot := rfl
  ok := check_ok tm'.conf root' (by decide +kernel)
  noCalls _ := rfl
  noBlocks := by decide +kernel
  speaks := by decide +kernel
  messages _ _ _ := rfl
  main := rfl
  free := by decide +kernel
  base := rfl

theorem demo_swapped : Swapped demo tm.conf false root root' := by
  have h0 : dirOf "ul".toList = none := by decide +kernel
  have h1 : dirOf "py:for".toList = some .forD := by decide +kernel
  have h2 : dirOf "py:with".toList = some .withD := by decide +kernel
  have h3 : dirOf "py:switch".toList = some .switchD := by decide +kernel
  have h4 : dirOf "py:case".toList = some .caseD := by decide +kernel
  unfold root root' el
  refine .elem (fun _ => by decide +kernel) (fun _ => rfl) ?_
  rw [h0]
  refine .cons (.elem (fun h => by rw [h1] at h; cases h) (fun _ => rfl) ?_) (.cons (.elem (fun h => by rw [h2] at h; cases h)
    (fun _ => rfl) ?_) ?_)
  · rw [h1]
    exact .part (xs := []) (ys := []) (C79_if_not_swaps _ _ _ _ _ _ _ _ _ _ _ _ _ _ fun _ => rfl)
      (by decide +kernel) (by decide +kernel) rfl rfl .nil
  · rw [h2]
    refine .cons (.elem (fun h => by rw [h3] at h; cases h) (fun _ => rfl) ?_) .nil
    rw [h3]
    refine .cons (.elem (fun h => by rw [h4] at h; cases h) (fun h => by rw [h4] at h; cases h) ?_) (.cons (.same _ _) .nil)
    rw [h4]
    exact .part (us := []) (vs := [.comment "!a remark".toList 3]) (fun G over ρ =>
      (C79_remark_is_nothing _ _ _ _ _ _ G over ρ).symm) rfl rfl rfl rfl (.cons (.same _ _) .nil)
  · refine .part (us := [txt "$x"]) (vs := [el "py:nop" [] [el "py:replace" [("value", "x")] []]]) (xs := []) (ys := [])
      (fun G over ρ => ?_) rfl (by decide +kernel) rfl rfl .nil
    refine ((C79_nop_is_content _ _ _ _ _ _ _ (by decide +kernel) (.inr rfl) G over ρ).trans ?_).symm
    exact C79_replace_is_expression _ _ _ _ _ _ _ _ _ _ (by decide +kernel) G over ρ

example : tm'.conf = tm.conf ∧ tm'.base = tm.base ∧ tm'.doctype root' = tm.doctype root ∧ tm'.placed = true :=
  ⟨rfl, rfl, by decide +kernel, by decide +kernel⟩

example : (shown demo (Dict.get context) tm' root').text =
    "<ul class=\"k\"><li>1</li>-<li>&lt;</li>same&lt;</ul>".toList := by decide +kernel

/-- `py:nop` around a CDATA section is not the same: in an ordinary element the section is shown as it is. -/
example :
    (nodes demo (fun _ => none) (fun _ => none) tm.conf true "p".toList [.cdata "$$".toList 1] []).text ≠
    (nodes demo (fun _ => none) (fun _ => none) tm.conf true "p".toList [el "py:nop" [] [.cdata "$$".toList 1]] []).text := by
  decide +kernel

/-- The other laws have cases: `<b py:strip="">…</b>`, `<b py:content="x"/>`. -/
example : Alike demo tm.conf true "p".toList [el "b" [("py:strip", "")] [txt "a", el "i" [] [txt "$x"]]]
    [txt "a", el "i" [] [txt "$x"]] :=
  C79_stripped_is_content _ _ _ _ _ _ _ _ (by decide +kernel) (by decide +kernel) (by decide +kernel) (by decide +kernel)
    (by decide +kernel) (.inl rfl)

example : Alike demo tm.conf true "p".toList [el "b" [("class", "k"), ("py:content", "x")] []]
    [el "b" [("class", "k")] [txt "$x"]] :=
  C79_content_is_expression demo tm.conf true "p".toList "b".toList
    [("class".toList, "k".toList), ("py:content".toList, "x".toList)] 1 1 1 [] "$x".toList true (by decide +kernel)
    (by decide +kernel) (by decide +kernel) (by decide +kernel) (by decide +kernel)

/-- Included templates: the item of the example of C76 with its content in a `py:nop`. -/
def item' : DNode := el "b" [("class", "$c")] [el "py:nop" [] [txt "$x"]]

def ts' : List Template := [IncludeDemo.tm IncludeDemo.page false, IncludeDemo.tm item' true, IncludeDemo.tm IncludeDemo.again true]

theorem included_swapped : List.Forall₂ (SameShow IncludeDemo.demo) IncludeDemo.ts ts' := by
  refine .cons ⟨rfl, rfl, _, _, rfl, rfl, rfl, fun _ => .same _ _⟩
    (.cons ⟨rfl, rfl, _, _, rfl, rfl, by decide +kernel, fun incl => ?_⟩
      (.cons ⟨rfl, rfl, _, _, rfl, rfl, rfl, fun _ => .same _ _⟩ .nil))
  have h0 : dirOf "b".toList = none := by decide +kernel
  unfold IncludeDemo.item item' el
  refine .elem (fun _ => by decide +kernel) (fun _ => rfl) ?_
  rw [h0]
  exact .part (us := [txt "$x"]) (vs := [el "py:nop" [] [txt "$x"]]) (xs := []) (ys := []) (tag := "b".toList)
    (fun G over ρ => (C79_nop_is_content _ _ _ _ _ _ _ (by decide +kernel) (.inr rfl) G over ρ).symm)
    rfl (by decide +kernel) rfl rfl .nil

theorem included_runs : Spec.Include.Runs (PureDemo.python IncludeDemo.demo) IncludeDemo.demo IncludeDemo.load
    IncludeDemo.aliasFor IncludeDemo.files IncludeDemo.context ts' :=
  { IncludeDemo.demo_runs with
    fits := fun t ht => by
      simp only [ts', List.mem_cons, List.not_mem_nil, or_false] at ht
      rcases ht with rfl | rfl | rfl
      · exact IncludeDemo.demo_runs.fits _ (by simp [IncludeDemo.ts])
      · exact ⟨item', IncludeDemo.fits _ _ (by decide +kernel) (by decide +kernel) (by decide +kernel) rfl⟩
      · exact IncludeDemo.demo_runs.fits _ (by simp [IncludeDemo.ts])
    loads := IncludeDemo.demo_runs.loads }

/-- Python in which everything is true. -/
def always : Py := { demo with eval := fun _ _ => .ok (.bool true) }

example : Alike always tm.conf true "p".toList [el "py:if" [("test", "True")] [txt "a"], el "py:else" [] [txt "b"]]
    [txt "a"] :=
  C79_if_true_is_content _ _ _ _ _ _ _ _ _ _ (by decide +kernel) (.inr rfl) fun _ => ⟨_, rfl, rfl⟩

example : Alike always tm.conf true "p".toList
    [el "py:switch" [("test", "x")] [el "py:case" [("value", "y")] [txt "a"], el "py:else" [] [txt "b"]]]
    [el "py:if" [("test", "x == y")] [txt "a"], el "py:else" [] [txt "b"]] :=
  C79_switch_is_if _ _ _ _ _ _ _ _ _ _ _ _ _ _ _ _ fun _ => rfl

end SwapDemo

end Kajiki.Props

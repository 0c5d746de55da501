import Verif.Lemmas.SwapDoc
import Verif.Props.Document
import Verif.Props.Funs

/-!
# C79: parts of any template may be exchanged

`Verif/Spec/SwapDoc.lean` says when two parts of templates are alike, and when a document is another one with some parts
exchanged for others that are alike.  Here the templates may have functions and blocks, extend, import and include others,
and Python may have side effects.
-/

namespace Kajiki.Props
open Kajiki.Run Kajiki.Spec.DocSem Kajiki.Spec.SwapDoc Kajiki.SwapDocL
open Kajiki.Spec.Sem (Steady)
open Kajiki.Spec.Swap (sections startsElse)

variable {W : Type}

/-- **C79.** Two sets of compiled templates.  If every template of the second is the one of the first with some parts
exchanged for others that are alike, then rendering any of them gives the same text, the same exception and the same
world. -/
theorem C79_parts_of_all_templates (ts ts' : List Template) (S S' : Source) (P P' : Prog (List Stmt)) (O : Oracle W)
    (hc : List.Forall₂ (fun t u => compileDoc t.conf t.doc = .ok u.1 ∧ u.2 = t.base) ts S.tmpls)
    (hc' : List.Forall₂ (fun t u => compileDoc t.conf t.doc = .ok u.1 ∧ u.2 = t.base) ts' S'.tmpls)
    (hp : ∀ t ∈ ts, t.placed = true) (hp' : ∀ t ∈ ts', t.placed = true)
    (h : S.compile = some P) (h' : S'.compile = some P') (hl : S'.load = S.load) (hal : S'.aliasFor = S.aliasFor)
    (hs : ∀ t ∈ ts, ∀ x ∈ t.doc.kids, ∀ e ∈ tagConds t.conf.opts x, Steady O e)
    (hs' : ∀ t ∈ ts', ∀ x ∈ t.doc.kids, ∀ e ∈ tagConds t.conf.opts x, Steady O e)
    (hw : List.Forall₂ (Exchanged O) ts ts') (n i : Nat) (context : Dict Val) (w : W) :
    let r := render P O n i context w
    let r' := render P' O n i context w
    r'.out = r.out ∧ r'.val = r.val ∧ r'.st.world = r.st.world := by
  obtain ⟨a1, a2, a3⟩ := C61_rendering_is_document ts S P O hc hp h hs n i context w
  obtain ⟨b1, b2, b3⟩ := C61_rendering_is_document ts' S' P' O hc' hp' h' hs' n i context w
  have hr := rendered_rel hw S.load S.aliasFor n i context w
  dsimp only
  rw [a1, a2, a3, b1, b2, b3, hl, hal, hr.out, hr.val, hr.st.world]
  exact ⟨rfl, rfl, rfl⟩

/-! ## Parts that are alike -/

section
variable (O : Oracle W) (c : CEnv) (p : Place) (raw : Bool) (tag : Str)

/-- Parts one after another. -/
theorem C79_parts_in_order (us vs xs ys : List DNode) (h : Alike O c p raw tag us vs)
    (h' : Alike O c (afterAll c.opts p us) raw tag xs ys) (hx : startsElse xs = false) (hy : startsElse ys = false) :
    Alike O c p raw tag (us ++ xs) (vs ++ ys) := by
  refine ⟨fun P call env => ?_, ?_, ?_, ?_, ?_⟩
  · rw [nodes_append env raw tag hx, nodes_append env raw tag hy, ← h.after, h.does, h'.does]
  · rw [defsAll_append, defsAll_append, ← h.after, h.defines, h'.defines]
  · rw [afterAll_append, afterAll_append, ← h.after, h'.after]
  · rw [silentAll_append, silentAll_append, ← h.after, h.silent, h'.silent]
  · rw [speaksAny_append, speaksAny_append, ← h.after, h.speaks, h'.speaks]

/-- `<py:nop>…</py:nop>` is what is in it. -/
theorem C79_nop_everywhere (as : Dict Str) (l : Nat) (xs : List DNode) (ha : auto c.opts "py:nop".toList as = false)
    (ht : scriptTag tag = false) (hx : raw = false ∨ sections xs = false) :
    Alike O c p raw tag [.elem "py:nop".toList as l xs] xs := by
  have hd : dirOf "py:nop".toList = some .nop := by decide +kernel
  refine ⟨fun P call env => ?_, ?_, ?_, ?_, ?_⟩
  · rw [nodes_one _ _ _ _ rfl, node, ha, if_neg Bool.false_ne_true, hd]
    exact nodes_tag (by rw [ht]; decide +kernel) _ _ _ _ (hx.imp_left Eq.symm)
  · rw [defsAll, defs, ha, if_neg Bool.false_ne_true, hd, defsAll, List.append_nil]
  · rw [afterAll, after, ha, if_neg Bool.false_ne_true, hd, afterAll]
  · rw [silentAll, silent, ha, if_neg Bool.false_ne_true, hd, silentAll, Bool.and_true]
  · rw [speaksAny, speaks, ha, if_neg Bool.false_ne_true, hd, speaksAny, Bool.or_false]

/-- An element with `py:strip=""` is what is in it, unless there may be nothing at all (C65). -/
theorem C79_stripped_everywhere (t : Str) (as : Dict Str) (l : Nat) (xs : List DNode) (ha : auto c.opts t as = false)
    (hd : dirOf t = none) (hs : Dict.get (plainAttrs c.opts t as) "py:strip".toList = some [])
    (hF : ∀ v w, O.eval "False".toList v w = (.ok (.bool false), w))
    (hn : attr as "py:content" = []) (hn' : attr (plainAttrs c.opts t as) "py:content" = [])
    (hsc : script c.opts t = false) (ht : scriptTag t = scriptTag tag) (hx : raw = true ∨ sections xs = false)
    (h1 : silentAll c p xs = false) (h2 : speaksAny c p xs = true) :
    Alike O c p raw tag [.elem t as l xs] xs := by
  have ho : ownContent c.opts t as = false := by unfold ownContent; rw [hn, hsc]; rfl
  refine ⟨fun P call env => ?_, ?_, ?_, ?_, ?_⟩
  · rw [nodes_one _ _ _ _ rfl, node, ha, if_neg Bool.false_ne_true, hd]
    dsimp only
    rw [startTag_false hF hs, hn', hsc]
    simp only [under_false hF hs, M.pure_bind, List.isEmpty_nil, Bool.not_true, Bool.false_eq_true, if_false, ite_self,
      M.bind_pure]
    rw [nodes_tag ht true raw xs p (hx.imp_left Eq.symm)]
    cases xs with
    | nil => rw [nodes]; rfl
    | cons => rfl
  · rw [defsAll, defs, ha, if_neg Bool.false_ne_true, hd, defsAll, List.append_nil]
    dsimp only
    rw [ho, if_neg Bool.false_ne_true]
  · rw [afterAll, after, ha, if_neg Bool.false_ne_true, hd, afterAll]
    dsimp only
    rw [ho, if_neg Bool.false_ne_true]
  · rw [silentAll, silent, ha, if_neg Bool.false_ne_true, hd, h1]; rfl
  · rw [speaksAny, speaks, ha, if_neg Bool.false_ne_true, hd, h2]; rfl

/-- `<py:replace value="e"/>` is `${e}`. -/
theorem C79_replace_everywhere (as : Dict Str) (l l' : Nat) (kids : List DNode) (d : Str) (b : Bool)
    (ha : auto c.opts "py:replace".toList as = false) (hc : cut c.py d = [.inr (attr as "value")]) :
    Alike O c p raw tag [.elem "py:replace".toList as l kids] [.text d b l'] := by
  have hd : dirOf "py:replace".toList = some .replace := by decide +kernel
  obtain ⟨e1, e2, e3, e4⟩ := elem_facts p l kids ha
  obtain ⟨f1, f2, f3, f4⟩ := text_facts (c := c) p d b l'
  refine ⟨fun P call env => ?_, ?_, ?_, ?_, ?_⟩
  · rw [nodes_one _ _ _ _ rfl, nodes_one _ _ _ _ rfl, node, node, ha, if_neg Bool.false_ne_true, hd, text_expr _ _ _ hc]
  · rw [defs_one, defs_one, e1, hd, f1]
  · rw [after_one, after_one, e2, hd, f2]
  · rw [silent_one, silent_one, e3, hd, f3, hc]; rfl
  · rw [speaks_one, speaks_one, e4, hd, f4, hc]; rfl

/-- `<t py:content="e">…</t>` is `<t>${e}</t>`. -/
theorem C79_content_everywhere (t : Str) (as : Dict Str) (l l' l'' : Nat) (kids : List DNode) (d : Str) (b : Bool)
    (ha : auto c.opts t as = false) (hd : dirOf t = none) (hn : attr as "py:content" ≠ [])
    (hn' : attr (plainAttrs c.opts t as) "py:content" ≠ [])
    (hc : cut c.py d = [.inr (attr (plainAttrs c.opts t as) "py:content")])
    (hsc : script c.opts t = false) (hv : (html c.mode && void t) = false) :
    Alike O c p raw tag [.elem t as l kids] [.elem t (as.filter (·.1 ≠ "py:content".toList)) l' [.text d b l'']] := by
  have ha' : auto c.opts t (as.filter (·.1 ≠ "py:content".toList)) = false := (auto_content _ _ _).trans ha
  obtain ⟨e1, e2, e3, e4⟩ := elem_facts p l kids ha
  obtain ⟨e1', e2', e3', e4'⟩ := elem_facts p l' [.text d b l''] ha'
  obtain ⟨f1, f2, f3, f4⟩ := text_facts (c := c) p d b l''
  have ho : ownContent c.opts t as = true := by
    unfold ownContent
    rw [show (attr as "py:content").isEmpty = false by simpa using hn]
    rfl
  refine ⟨fun P call env => ?_, ?_, ?_, ?_, ?_⟩
  · rw [nodes_one _ _ _ _ rfl, nodes_one _ _ _ _ rfl, node, node, ha, ha', if_neg Bool.false_ne_true,
      if_neg Bool.false_ne_true, hd]
    dsimp only
    rw [SwapL.plainAttrs_filter, startTag_content, hsc, hv]
    have h0 : attr ((plainAttrs c.opts t as).filter (·.1 ≠ "py:content".toList)) "py:content" = [] := by
      unfold attr
      rw [SwapL.get_filter_same]
      rfl
    have h1 : (attr (plainAttrs c.opts t as) "py:content").isEmpty = false := by simpa using hn'
    rw [h0, h1, nodes_one _ _ _ _ rfl, node, text_expr _ _ _ hc, keepTag_content]
    simp only [List.isEmpty_nil, List.isEmpty_cons, Bool.not_true, Bool.not_false, Bool.false_eq_true, if_false, if_true]
  · rw [defs_one, defs_one, e1, e1', hd]
    dsimp only
    rw [ho, if_pos rfl, defs_one, f1, ite_self]
  · rw [after_one, after_one, e2, e2', hd]
    dsimp only
    rw [ho, if_pos rfl, after_one, f2, ite_self]
  · rw [silent_one, silent_one, e3, e3', hd]
  · rw [speaks_one, speaks_one, e4, e4', hd]

/-- A condition and its negation, if no functions are defined and no others are extended or called with `py:call`. -/
theorem C79_if_not_everywhere (as as' bs bs' : Dict Str) (l l' m m' : Nat) (xs ys : List DNode)
    (ha : auto c.opts "py:if".toList as = false) (hb : auto c.opts "py:else".toList bs = false)
    (ha' : auto c.opts "py:if".toList as' = false) (hb' : auto c.opts "py:else".toList bs' = false)
    (h : ∀ v w, O.eval (attr as' "test") v w =
      ((O.eval (attr as "test") v w).1.map fun v => .bool (!truthy v), (O.eval (attr as "test") v w).2))
    (hx : afterAll c.opts p xs = p) (hy : afterAll c.opts p ys = p) (fx : defsAll c p xs = []) (fy : defsAll c p ys = []) :
    Alike O c p raw tag [.elem "py:if".toList as l xs, .elem "py:else".toList bs m ys]
      [.elem "py:if".toList as' l' ys, .elem "py:else".toList bs' m' xs] := by
  have h1 : dirOf "py:if".toList = some .ifD := by decide +kernel
  have h2 : dirOf "py:else".toList = some .elseD := by decide +kernel
  obtain ⟨e1, e2, e3, e4⟩ := elem_facts p l xs ha
  obtain ⟨e1', e2', e3', e4'⟩ := elem_facts p l' ys ha'
  refine ⟨fun P call env => ?_, ?_, ?_, ?_, ?_⟩
  · rw [if_else _ _ _ _ _ _ _ _ _ ha hb, if_else _ _ _ _ _ _ _ _ _ ha' hb', hx, hy]
    funext s
    unfold M.bind evalM ask
    dsimp only
    rw [h]
    cases O.eval (attr as "test") (view env s) s.world with
    | mk r w =>
      cases r with
      | error e => rfl
      | ok v =>
        dsimp only [Except.map]
        have e (b : Bool) : truthy (.bool b) = b := rfl
        rw [e]
        cases truthy v <;> rfl
  · rw [defs_two, defs_two, e1, e2, e1', e2', h1]
    dsimp only
    rw [hx, hy, fx, fy, (elem_facts p m ys hb).1, (elem_facts p m' xs hb').1, h2]
    dsimp only
    rw [fx, fy]
  · rw [after_two, after_two, e2, e2', h1]
    dsimp only
    rw [hx, hy, (elem_facts p m ys hb).2.1, (elem_facts p m' xs hb').2.1, h2]
    dsimp only
    rw [hx, hy]
  · rw [silent_two, silent_two, e3, e3', h1]; rfl
  · rw [speaks_two, speaks_two, e2, e4, e2', e4', h1]
    dsimp only
    rw [hx, hy, (elem_facts p m ys hb).2.2.2, (elem_facts p m' xs hb').2.2.2, h2]
    exact Bool.or_comm _ _

/-- A text cut in two. -/
theorem C79_texts_everywhere (d d₁ d₂ : Str) (b b₁ b₂ : Bool) (l l₁ l₂ : Nat)
    (h : cut c.py d = cut c.py d₁ ++ cut c.py d₂) :
    Alike O c p raw tag [.text d b l] [.text d₁ b₁ l₁, .text d₂ b₂ l₂] := by
  obtain ⟨f1, f2, f3, f4⟩ := text_facts (c := c) p d b l
  obtain ⟨g1, g2, g3, g4⟩ := text_facts (c := c) p d₁ b₁ l₁
  obtain ⟨h1, h2, h3, h4⟩ := text_facts (c := c) p d₂ b₂ l₂
  refine ⟨fun P call env => ?_, ?_, ?_, ?_, ?_⟩
  · rw [nodes_one _ _ _ _ rfl, nodes_cons, g2, nodes_one _ _ _ _ rfl, node, node]
    have : text O call c env tag d = M.bind (text O call c env tag d₁) fun _ => text O call c env tag d₂ := by
      unfold text
      rw [h, each_append]
    rw [this]
    unfold head
    cases raw <;> dsimp only <;> rw [node]
  · rw [defs_one, defs_two, g2, f1, g1, h1]; rfl
  · rw [after_one, after_two, g2, f2, h2]
  · rw [silent_one, silent_two, g2, f3, g3, h3, h]
    cases cut c.py d₁ <;> cases cut c.py d₂ <;> rfl
  · rw [speaks_one, speaks_two, g2, f4, g4, h4, h]
    cases cut c.py d₁ <;> cases cut c.py d₂ <;> rfl

/-- `<!--! … -->` is nothing. -/
theorem C79_remark_everywhere (d : Str) (l : Nat) : Alike O c p raw tag [.comment ('!' :: d) l] [] := by
  obtain ⟨e1, e2, e3, e4⟩ := remark_facts (c := c) p d l
  refine ⟨fun P call env => ?_, ?_, ?_, ?_, ?_⟩
  · rw [nodes_one _ _ _ _ rfl, node, nodes]; rfl
  · rw [defs_one, e1, defsAll]
  · rw [after_one, e2, afterAll]
  · rw [silent_one, e3, silentAll]
  · rw [speaks_one, e4, speaksAny]

end

/-! ### Examples -/

namespace SwapDocDemo
open FunsDemo

/-- The layout of the example of C77 with the text in the function cut in two, and one half as a directive. -/
def lay' : DNode :=
  el "html" [] [def' "count(n)" [if' "n" [txt "$n,", el "py:nop" [] [el "py:replace" [("value", "count(n-1)")] []]]],
    def' "end()" [txt "."], bl "body" [txt "${count(x)}"], txt "${end()}"]

/-- The template that extends it with a remark in the block. -/
def mid' : List DNode := [bl "body" [.comment "!the old one".toList 1, txt "[${parent_block()}]"], def' "end()" [txt "!"]]

def tms' : List Template := [tmTop, tm (el "py:extends" [("href", "layout")] mid'), tm lay']

theorem text_cut (p : Place) (raw : Bool) (tag : Str) (ht : scriptTag tag = false) :
    Alike pyth tmLay.conf p raw tag [txt "$n,${count(n-1)}"]
      [txt "$n,", el "py:nop" [] [el "py:replace" [("value", "count(n-1)")] []]] := by
  refine alike_trans (C79_texts_everywhere pyth tmLay.conf p raw tag _ "$n,".toList "${count(n-1)}".toList _ true true _ 1 1
    (by decide +kernel)) ?_
  refine C79_parts_in_order pyth tmLay.conf p raw tag [txt "$n,"] [txt "$n,"] [txt "${count(n-1)}"] _ (alike_refl _) ?_ rfl
    (by decide +kernel)
  refine alike_symm (alike_trans (C79_nop_everywhere pyth tmLay.conf _ raw tag _ _ _ rfl ht (.inr rfl)) ?_)
  exact C79_replace_everywhere pyth tmLay.conf _ raw tag _ _ _ _ _ _ rfl (by decide +kernel)

theorem demo_exchanged : List.Forall₂ (Exchanged pyth) tms tms' := by
  refine .cons ⟨rfl, rfl, rfl, _, _, rfl, rfl, .same _⟩ (.cons ⟨rfl, rfl, rfl, _, _, rfl, rfl, ?_⟩
    (.cons ⟨rfl, rfl, rfl, _, _, rfl, rfl, ?_⟩ .nil))
  · refine .elem nofun (fun h => ?_) (fun _ => rfl) (.cons (.elem nofun (fun h => ?_) (fun h => ?_) ?_) (.cons (.same _) .nil))
    · revert h; decide +kernel
    · revert h; decide +kernel
    · revert h; decide +kernel
    · exact .part (us := []) (vs := [.comment "!the old one".toList 1])
        (alike_symm (C79_remark_everywhere pyth _ _ _ _ _ _)) rfl rfl rfl rfl (.cons (.same _) .nil)
  · refine .elem nofun (fun h => ⟨rfl, by decide +kernel⟩) (fun h => ?_)
      (.cons (.elem nofun (fun h => ?_) (fun h => ?_) (.cons (.elem nofun (fun h => ?_) (fun h => ?_) ?_) .nil))
        (.cons (.same _) (.cons (.same _) (.cons (.same _) .nil))))
    · revert h; decide +kernel
    · revert h; decide +kernel
    · revert h; decide +kernel
    · revert h; decide +kernel
    · revert h; decide +kernel
    · exact .part (xs := []) (ys := []) (text_cut _ _ _ (by decide +kernel)) rfl rfl rfl rfl .nil

example : (∀ t ∈ tms', t.placed = true) ∧ ∀ t ∈ tms', ∀ x ∈ t.doc.kids, tagConds t.conf.opts x = [] := by decide +kernel

/-- The templates are compiled. -/
example : ∀ t ∈ tms', (compileDoc t.conf t.doc).toOption.isSome = true := by decide +kernel

/-- Python with `False` and `not`, and a side effect. -/
def more : Oracle Nat :=
  { pyth with
    eval := fun e _ w =>
      if e = "False".toList then (.ok (.bool false), w)
      else if e = "not x".toList then (.ok (.bool (!(w % 2 == 0))), w + 1)
      else (.ok (.bool (w % 2 == 0)), w + 1) }

example (p : Place) : Alike more tmLay.conf p true "p".toList [el "b" [("py:strip", "")] [txt "a", el "i" [] [txt "$x"]]]
    [txt "a", el "i" [] [txt "$x"]] :=
  C79_stripped_everywhere more tmLay.conf p true "p".toList "b".toList _ 1 _ rfl (by decide +kernel) (by decide +kernel)
    (fun _ _ => rfl) (by decide +kernel) (by decide +kernel) (by decide +kernel) (by decide +kernel) (.inl rfl)
    (by rw [silentAll, show silent tmLay.conf p (txt "a") = false by (unfold txt; rw [silent]; decide +kernel)]; rfl)
    (by rw [speaksAny, show speaks tmLay.conf p (txt "a") = true by (unfold txt; rw [speaks]; decide +kernel)]; rfl)

example (p : Place) : Alike more tmLay.conf p true "p".toList [el "b" [("class", "k"), ("py:content", "x")] []]
    [el "b" [("class", "k")] [txt "$x"]] :=
  C79_content_everywhere more tmLay.conf p true "p".toList "b".toList
    [("class".toList, "k".toList), ("py:content".toList, "x".toList)] 1 1 1 [] "$x".toList true rfl (by decide +kernel)
    (by decide +kernel) (by decide +kernel) (by decide +kernel) (by decide +kernel) (by decide +kernel)

/-- The condition may have side effects. -/
example : Alike more tmLay.conf .root true "p".toList [if' "x" [txt "a"], el "py:else" [] [txt "$b"]]
    [if' "not x" [txt "$b"], el "py:else" [] [txt "a"]] :=
  C79_if_not_everywhere more tmLay.conf .root true "p".toList _ _ _ _ 1 1 1 1 _ _ rfl rfl rfl rfl (fun _ _ => rfl)
    rfl rfl rfl rfl

end SwapDocDemo

end Kajiki.Props

import Verif.Lemmas.XmlElem
import Verif.Lemmas.XmlKeeps
import Verif.Lemmas.XmlChild
import Verif.Lemmas.CodeRead
import Verif.Lemmas.Rel
import Mathlib.Data.List.Nodup

/-!
# How documents are compiled (C18, C24, C31, C34)
-/

namespace Kajiki.Props
open Kajiki.Spec.XmlCompile Kajiki.XmlComp Kajiki.Run

/-- Every expression is valid Python. -/
private def valid : PyCompile := fun _ => none
private def names : Nat → Str := fun n => "_fn_".toList ++ (toString n).toList
private def envOf (mode : String) : CEnv := ⟨valid, mode.toList, ⟨mode.toList, false, [], true⟩, names⟩
private def top : Ctx := ⟨none, false, []⟩

private def nodesOf : Except Err (List Ir × CState) → Option (List Ir)
  | .ok r => some r.1
  | .error _ => none

/-! ## C24 -/

private theorem contains_script (tag : Str) : requiredEndTags.contains tag = decide (tag = "script".toList) := by
  simp [requiredEndTags]

/-- **C24 (the part that holds).** An element without content is written as its start tag and then: `></script>` for a
script; otherwise in an html mode `>` for one of the ten listed void elements and `></tag>` for any other;
and `/>` in the other modes. -/
theorem C24_empty_element_partial (env : CEnv) (ctx : Ctx) (tag : Str) (attrs : Dict Str) (ln : Nat)
    (hk : kindOf tag = .xml) (ha : tag ∉ env.opts.autoblocks)
    (hc : getAttr attrs "py:content".toList = []) (s t : CState) (xs : List Ir)
    (h : compileNode env ctx (.elem tag attrs ln []) s = .ok (xs, t)) :
    ∃ as, (∀ x ∈ as, isAttrNode (stripGuard attrs) x = true) ∧
      xs = .text ('<' :: tag) (stripGuard attrs) ln :: as ++
        [.text (if tag = "script".toList then "></script>".toList
          else if "html".toList.isPrefixOf env.mode then
            if tag ∈ ["area", "base", "br", "col", "hr", "img", "input", "link", "meta", "param"].map String.toList
            then ">".toList else "></".toList ++ tag ++ ">".toList
          else "/>".toList) (stripGuard attrs) ln] := by
  obtain ⟨as, body, h1, h2, rfl⟩ := xml_nodes hk ha h
  refine ⟨as, h1, ?_⟩
  unfold compileBody at h2
  simp only [hc, List.isEmpty_nil, if_true] at h2
  cases pure_ok.1 h2
  rw [List.map_singleton, anno_text]
  congr 3
  unfold emptyEnd
  rw [contains_script]
  by_cases hs : tag = "script".toList
  · subst hs; rfl
  · rw [if_neg hs, if_neg (by simpa using hs)]
    unfold isHtml
    split
    · by_cases hv : tag ∈ voidTags
      · rw [if_pos (List.contains_iff_mem.2 hv)]
        exact (if_pos hv).symm
      · rw [if_neg (by rwa [List.contains_iff_mem])]
        exact (if_neg hv).symm
    · rfl

/-- **C24 (the part that holds).** An element with children is its start tag, `>`, the children and the end tag `</tag>`;
the end tag is omitted exactly for the listed void elements in html modes. -/
theorem C24_full_element_partial (env : CEnv) (ctx : Ctx) (tag : Str) (attrs : Dict Str) (ln : Nat)
    (kids : List DNode) (hne : kids ≠ []) (hk : kindOf tag = .xml) (ha : tag ∉ env.opts.autoblocks)
    (hc : getAttr attrs "py:content".toList = []) (s t : CState) (xs : List Ir)
    (h : compileNode env ctx (.elem tag attrs ln kids) s = .ok (xs, t)) :
    ∃ as ks, (∀ x ∈ as, isAttrNode (stripGuard attrs) x = true) ∧
      contentOf env tag attrs kids s = .ok (ks, t) ∧
      xs = .text ('<' :: tag) (stripGuard attrs) ln :: as ++ .text ">".toList (stripGuard attrs) ln ::
        ks.map (anno ln) ++
        (if "html".toList.isPrefixOf env.mode &&
            decide (tag ∈ ["area", "base", "br", "col", "hr", "img", "input", "link", "meta", "param"].map String.toList)
          then [] else [.text ("</".toList ++ tag ++ ">".toList) (stripGuard attrs) ln]) := by
  obtain ⟨as, body, h1, h2, rfl⟩ := xml_nodes hk ha h
  unfold compileBody at h2
  have : kids.isEmpty = false := by cases kids <;> simp_all
  simp only [hc, List.isEmpty_nil, if_true, this, Bool.false_eq_true, if_false] at h2
  obtain ⟨ks, s1, h3, h4⟩ := bind_ok.1 h2
  cases pure_ok.1 h4
  refine ⟨as, ks, h1, h3, ?_⟩
  have hv : voidTags.contains tag = decide (tag ∈ voidTags) := by
    rw [Bool.eq_iff_iff, List.contains_iff_mem, decide_eq_true_iff]
  have hf : (fullEnd env.mode tag (stripGuard attrs)).map (anno ln) =
      (if ("html".toList.isPrefixOf env.mode && decide (tag ∈ voidTags)) = true then []
       else [.text ("</".toList ++ tag ++ ">".toList) (stripGuard attrs) ln]) := by
    unfold fullEnd isHtml
    rw [hv]
    split <;> rfl
  simp only [List.map_append, List.map_cons, anno_text, hf]
  simp only [List.cons_append, List.append_assoc]
  rfl

/-- **C24 is false** for `py:content` on a void element: in html mode it gets an end tag. -/
theorem C24_content_on_void_element :
    nodesOf (compileNode (envOf "html") top (.elem "br".toList [("py:content".toList, "x".toList)] 1 []) .start) =
      some [.text "<br".toList none 1, .text ">".toList none 1, .expr "x".toList false 1,
        .text "</br>".toList none 1] := rfl

/-- **C24 is false** for the void elements of HTML that kajiki does not list, e.g. `wbr`. -/
theorem C24_unlisted_void_element :
    nodesOf (compileNode (envOf "html") top (.elem "wbr".toList [] 1 []) .start) =
      some [.text "<wbr".toList none 1, .text "></wbr>".toList none 1] := rfl

example : nodesOf (compileNode (envOf "xml") top (.elem "p".toList [("class".toList, "a".toList)] 3 []) .start) =
    some [.text "<p".toList none 3, .attr "class".toList "xml".toList none [.text "a".toList none 3] 3,
      .text "/>".toList none 3] := rfl

/-! ## C31 -/

/-- **C31 (the part that holds).** Inside the root element a comment whose text starts with `!` compiles to nothing; any
other one to its text between `<!--` and `-->`. -/
theorem C31_comments_partial (env : CEnv) (ctx : Ctx) (text : Str) (ln : Nat) (s : CState) :
    compileNode env ctx (.comment text ln) s =
      .ok (if text.head? = some '!' then [] else [.text ("<!-- ".toList ++ text ++ " -->".toList) none ln], s) := by
  rw [compileNode]
  cases text with
  | nil => rfl
  | cons c text =>
    by_cases hc : c = '!'
    · subst hc; rfl
    · have : compileComment (c :: text) = [.text ("<!-- ".toList ++ (c :: text) ++ " -->".toList) none 0] := by
        unfold compileComment
        rw [if_neg]
        simp only [List.isPrefixOf, Bool.and_true, beq_iff_eq]
        exact fun h => hc h.symm
      rw [this, if_neg (by simpa using hc)]
      rfl

/-- **C31 is false** for comments before or after the root element: they are dropped. -/
theorem C31_beside_root_dropped (env : CEnv) (dtd : Str) (before after : List DNode) (root : DNode)
    (hb : ∀ x ∈ before ++ after, isComment x = true) (hr : isComment root = false) :
    compileDoc env ⟨dtd, before ++ root :: after⟩ = compileDoc env ⟨dtd, [root]⟩ := by
  have h : ∀ l : List DNode, (∀ x ∈ l, isComment x = true) → l.filter (fun n => !isComment n) = [] := by
    intro l hl
    rw [List.filter_eq_nil_iff]
    intro x hx
    rw [hl x hx]; simp
  have h1 : (before ++ root :: after).filter (fun n => !isComment n) = [root] := by
    rw [List.filter_append, List.filter_cons, h before fun x hx => hb x (List.mem_append_left _ hx),
      h after fun x hx => hb x (List.mem_append_right _ hx), hr]
    rfl
  have h2 : [root].filter (fun n => !isComment n) = [root] := by
    rw [List.filter_cons, hr]; rfl
  unfold compileDoc
  simp only [h1, h2]

/-- **C31 is false** inside a script: there any comment, also one that starts with `!`, makes compiling
fail (with an `AssertionError`, unless an attribute is wrong too). -/
theorem C31_in_script_fails (env : CEnv) (ctx : Ctx) (attrs : Dict Str) (ln l2 : Nat) (text : Str) (s : CState)
    (hs : env.opts.cdataScripts = true) (ha : "script".toList ∉ env.opts.autoblocks)
    (hc : getAttr attrs "py:content".toList = []) :
    ∃ e, compileNode env ctx (.elem "script".toList attrs ln [.comment text l2]) s = .error e := by
  rw [node_xml (by decide +kernel) ha]
  have : isScript env "script".toList = true := by
    unfold isScript; rw [hs]; decide +kernel
  unfold annotate compileXml
  simp only [CM.bind]
  cases compileAttrs env (stripGuard attrs) ln (sortItems (attrs.del "py:strip".toList)) with
  | error e => exact ⟨e, rfl⟩
  | ok as =>
    refine ⟨.assertion, ?_⟩
    unfold compileBody contentOf
    simp only [hc, this, List.isEmpty_nil, if_true, List.isEmpty_cons, Bool.false_eq_true, if_false]
    rfl

example : compileNode (envOf "xml") top (.comment " a ".toList 7) .start =
    .ok ([.text "<!--  a  -->".toList none 7], .start) := rfl

/-! ## C18 -/

/-- **C18.** An element with `py:content` is its start tag, the escaped expression and the end tag; its
children do not matter. -/
theorem C18_content (env : CEnv) (ctx : Ctx) (tag : Str) (attrs : Dict Str) (ln : Nat) (kids : List DNode)
    (hk : kindOf tag = .xml) (ha : tag ∉ env.opts.autoblocks) (c : Char) (cs : Str)
    (hc : attrs.get "py:content".toList = some (c :: cs)) :
    (∀ kids', compileNode env ctx (.elem tag attrs ln kids) = compileNode env ctx (.elem tag attrs ln kids')) ∧
    ∀ s t xs, compileNode env ctx (.elem tag attrs ln kids) s = .ok (xs, t) → t = s ∧
      ∃ as, (∀ x ∈ as, isAttrNode (stripGuard attrs) x = true) ∧
        xs = .text ('<' :: tag) (stripGuard attrs) ln :: as ++
          [.text ">".toList (stripGuard attrs) ln, .expr (c :: cs) false ln,
           .text ("</".toList ++ tag ++ ">".toList) (stripGuard attrs) ln] := by
  have hg : getAttr attrs "py:content".toList = c :: cs := by unfold getAttr; rw [hc]; rfl
  refine ⟨fun kids' => ?_, fun s t xs h => ?_⟩
  · rw [node_xml hk ha, node_xml hk ha]
    have : ∀ e m e' m', compileBody env tag attrs (stripGuard attrs) e m =
        compileBody env tag attrs (stripGuard attrs) e' m' := by
      intro e m e' m'
      unfold compileBody
      simp only [hg, List.isEmpty_cons, Bool.false_eq_true, if_false]
    unfold compileXml
    simp only [this kids.isEmpty _ kids'.isEmpty (contentOf env tag attrs kids')]
  · obtain ⟨as, body, h1, h2, rfl⟩ := xml_nodes hk ha h
    unfold compileBody at h2
    simp only [hg, List.isEmpty_cons, Bool.false_eq_true, if_false] at h2
    cases pure_ok.1 h2
    exact ⟨rfl, as, h1, rfl⟩

/-- **C18.** An element whose only directive is `py:replace` compiles to the escaped expression alone. -/
theorem C18_replace (env : CEnv) (ctx : Ctx) (tag : Str) (attrs : Dict Str) (ln : Nat) (kids : List DNode)
    (v : Str) (hv : attrs.get "py:replace".toList = some v)
    (ht : tag ∉ directives.map (·.1))
    (ho : ∀ d ∈ directives.map (·.1), d ≠ "py:replace".toList → attrs.get d = none)
    (ha : "py:replace".toList ∉ env.opts.autoblocks) :
    compileNode env ctx (expand (.elem tag attrs ln kids)) = CM.pure [.expr v false ln] := by
  have hn : normTag tag attrs = (tag, attrs) := by
    unfold normTag
    rw [Dict.get_none_of_not_mem ht]
  have he : pullExtends tag attrs ln = (attrs, []) := by
    unfold pullExtends
    split
    · rfl
    · rw [ho extendsTag (by decide +kernel) (by decide +kernel)]
  have key : ∀ (ds : List (Str × Str)) (a : Dict Str) (inner : Dict Str → DNode),
      (∀ d ∈ ds.map (·.1), d ≠ "py:replace".toList → attrs.get d = none) →
      (("py:replace".toList, "value".toList) ∈ ds) →
      (∀ p ∈ ds, p.1 = "py:replace".toList → p.2 = "value".toList) →
      ∃ x, wrapAll ln inner ds attrs = .elem "py:replace".toList [("value".toList, v)] ln [x] := by
    intro ds a inner h1 h2 h3
    induction ds with
    | nil => cases h2
    | cons d ds ih =>
      obtain ⟨d, a'⟩ := d
      simp only [wrapAll]
      by_cases hd : d = "py:replace".toList
      · have := h3 (d, a') List.mem_cons_self hd
        simp only at this
        subst hd this
        rw [hv]
        exact ⟨_, rfl⟩
      · rw [h1 d (by simp) hd]
        refine ih (fun e he => h1 e (by simp [he])) ?_ fun p hp => h3 p (List.mem_cons_of_mem _ hp)
        rcases List.mem_cons.1 h2 with h2 | h2
        · simp only [Prod.mk.injEq] at h2
          exact absurd h2.1.symm hd
        · exact h2
  obtain ⟨x, hx⟩ := key directives attrs (fun attrs => .elem tag attrs ln ([] ++ expandList kids)) ho
    (by decide +kernel) (by decide +kernel)
  simp only [expand, hn, he, hx]
  rw [node_kind (by decide +kernel) ha]
  have hkr : kindOf "py:replace".toList = .replace := by decide +kernel
  rw [hkr]
  rfl

/-- **C18.** What the node does when the template is rendered: evaluate the expression once, escape its
value and output that. -/
theorem C18_meaning {W : Type} (P : Prog (List Stmt)) (O : Oracle W) (call) (env : Env) (c : Str) (ln : Nat) :
    execList P O call env (Spec.Code.code [.expr c false ln]) =
      M.bind (evalM O env c) fun v => emit call env.mode (escape v) := by
  simp only [Spec.Code.code, Spec.Code.codeOne, List.append_nil, Bool.false_eq_true, if_false,
    execList, exec]
  exact M.bind_pure _

example : nodesOf (compileNode (envOf "xml") top
    (expand (.elem "p".toList [("class".toList, "k".toList), ("py:content".toList, "x".toList)] 2
      [.text "old".toList false 2])) .start) =
    some [.text "<p".toList none 2, .attr "class".toList "xml".toList none [.text "k".toList none 2] 2,
      .text ">".toList none 2, .expr "x".toList false 2, .text "</p>".toList none 2] := rfl

example : compileNode (envOf "xml") top
    (expand (.elem "p".toList [("class".toList, "k".toList), ("py:replace".toList, "x".toList)] 2
      [.text "old".toList false 2])) = CM.pure [.expr "x".toList false 2] :=
  C18_replace _ _ _ _ _ _ _ rfl (by decide +kernel) (by decide +kernel) (by decide +kernel)

/-! ## C34 -/

/-- **C34.** The body of the main function is the compiled root element; in front of it is the DOCTYPE of
the source (or the one of html5 in html5 mode), exactly when the template is neither a fragment nor
has a `py:extends`. -/
theorem C34_doctype (env : CEnv) (doc : Doc) (t : Tmpl) (root : DNode)
    (hroot : doc.kids.filter (fun n => !isComment n) = [root]) (h : compileDoc env doc = .ok t) :
    ∃ body s, compileNode env ⟨none, false, []⟩ root .start = .ok (body, s) ∧
      (∃ d ∈ t.defs, d.decl = "__main__()".toList) ∧
      ∀ d ∈ t.defs, d.decl = "__main__()".toList → d.body =
        (if env.opts.isFragment = false ∧ extendsIn env.opts root = false then
          if doc.dtd ≠ [] then [.text (strip doc.dtd ++ "\n".toList) none 1]
          else if env.mode = "html5".toList then [.text "<!DOCTYPE html>\n".toList none 1] else []
        else []) ++ body := by
  unfold compileDoc at h
  rw [hroot] at h
  simp only at h
  split at h
  · cases h
  · next body s hc =>
    refine ⟨body, s, hc, ?_⟩
    have hchild : s.isChild = extendsIn env.opts root := by
      have := node_adds env ⟨none, false, []⟩ root _ _ _ hc
      simpa [CState.start] using this
    have hkeys : (s.funs.map (·.1)).Nodup := node_keeps stable_keys env ⟨none, false, []⟩ root .start
      (by decide +kernel) body s hc
    simp only [Except.ok.injEq] at h
    subst h
    simp only [List.mem_map]
    generalize hB : (if (!env.opts.isFragment && !s.isChild) = true then doctypeNode env.mode doc.dtd ++ body else body) = B
    have hk2 := keys_set s.funs mainDecl B hkeys
    have hget : (mainDecl, B) ∈ s.funs.set mainDecl B := Dict.get_eq_some_mem (Dict.get_set_same _ _ _)
    refine ⟨⟨_, ⟨_, hget, rfl⟩, rfl⟩, ?_⟩
    rintro _ ⟨f, hf, rfl⟩ hdecl
    simp only at hdecl ⊢
    have : f = (mainDecl, B) := by
      have hnd := List.inj_on_of_nodup_map hk2
      exact hnd hf hget hdecl
    rw [this, ← hB]
    have hd : doctypeNode env.mode doc.dtd = if doc.dtd ≠ [] then [.text (strip doc.dtd ++ "\n".toList) none 1]
          else if env.mode = "html5".toList then [.text "<!DOCTYPE html>\n".toList none 1] else [] := by
      unfold doctypeNode
      cases doc.dtd with
      | nil =>
        simp only [List.isEmpty_nil, Bool.not_true, Bool.false_eq_true, if_false, ne_eq, not_true_eq_false]
        split <;> rfl
      | cons a b => rfl
    rw [← hd, hchild]
    cases env.opts.isFragment <;> cases extendsIn env.opts root <;> simp

/-- **C34.** A function whose body starts with such a text outputs it first, in every state. -/
theorem C34_output_starts_with_it (t : Tmpl) (m : Module) (hm : compilePy (generatePython t) = some m)
    (d : Def) (hd : d ∈ t.defs) (text : Str) (ln : Nat) (rest : List Ir)
    (hb : d.body = .text text none ln :: rest) :
    ∃ code, (d.decl, code) ∈ m.defs ∧ ∀ (W : Type) (P : Prog (List Stmt)) (O : Oracle W) call env s,
      text <+: (execList P O call env code s).out.txt := by
  rw [compilePy_generatePython] at hm
  split at hm
  · cases hm
    refine ⟨Spec.Code.bodyCode (mergedList d.body), ?_, ?_⟩
    · simp only [Spec.Code.codeTmpl, Spec.Code.mergedTmpl, List.map_map, List.mem_map]
      exact ⟨d, hd, rfl⟩
    · intro W P O call env s
      have hm : merged (.text text none ln) = .text text none ln := by
        unfold merged
        rfl
      rw [hb, mergedList, hm]
      have : ∃ t' l' ys, text <+: t' ∧
          consMerge (.text text none ln) (mergedList rest) = .text t' none l' :: ys := by
        generalize mergedList rest = ms
        rcases ms with _ | ⟨x, xs⟩
        · exact ⟨_, _, _, List.prefix_rfl, rfl⟩
        · cases x
          case text b g l =>
            simp only [consMerge]
            split
            · exact ⟨_, _, _, List.prefix_append _ _, rfl⟩
            · exact ⟨_, _, _, List.prefix_rfl, rfl⟩
          all_goals exact ⟨_, _, _, List.prefix_rfl, rfl⟩
      obtain ⟨t', l', ys, h1, h2⟩ := this
      rw [h2]
      simp only [Spec.Code.bodyCode, List.isEmpty_cons, Bool.false_eq_true, if_false, Spec.Code.code,
        Spec.Code.codeOne, activeGuard, List.cons_append, List.nil_append, execList, exec, M.bind, M.tell]
      exact h1.trans (List.prefix_append _ _)
  · cases hm

/-- `<!DOCTYPE html><p py:extends="a.html"/>` and the same without `py:extends` -/
example : (match compileXmlDoc valid names ⟨[], false, [], true⟩
      (transform false ⟨"<!DOCTYPE html>".toList, [.elem "p".toList [] 1 []]⟩) with
    | .ok t => t.defs.map fun d => (d.decl, d.body.length)
    | .error _ => []) = [("__main__()".toList, 3)] ∧
  (match compileXmlDoc valid names ⟨[], false, [], true⟩
      (transform false ⟨"<!DOCTYPE html>".toList, [.elem "p".toList [("py:extends".toList, "a.html".toList)] 1 []]⟩) with
    | .ok t => t.defs.map fun d => (d.decl, d.body.length)
    | .error _ => []) = [("__main__()".toList, 4)] := by decide +kernel

end Kajiki.Props

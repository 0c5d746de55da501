import Verif.Lemmas.Forms

/-!
# Attribute form and element form of directives (C20)
-/

namespace Kajiki.Props
open Kajiki.Spec.Dom Kajiki.Spec.Forms Kajiki.XmlComp Kajiki.Doms

private theorem wrapAll_first (ln : Nat) (inner : Dict Str → DNode) (d a v : Str) (ds : List (Str × Str))
    (hn : (ds.map (·.1)).Nodup) (q : Dict Str) (hm : (d, a) ∈ ds) (hv : q.get d = some v)
    (first : ∀ e ∈ (ds.map (·.1)).takeWhile (· ≠ d), q.get e = none) :
    wrapAll ln inner ds q = .elem d (directiveAttrs a v) ln [wrapAll ln inner ds (q.del d)] := by
  induction ds with
  | nil => cases hm
  | cons p ds ih =>
    obtain ⟨d', a'⟩ := p
    rw [List.map_cons, List.nodup_cons] at hn
    by_cases hd : d' = d
    · subst hd
      have : a' = a := by
        rcases List.mem_cons.1 hm with h | h
        · exact (Prod.mk.inj h).2.symm
        · exact absurd (List.mem_map_of_mem (f := (·.1)) h) hn.1
      subst this
      have hd : (q.del d').get d' = none := by rw [Dict.get_del, if_pos rfl]
      simp only [wrapAll, hv, hd]
    · have hm' : (d, a) ∈ ds := by
        rcases List.mem_cons.1 hm with h | h
        · exact absurd (Prod.mk.inj h).1.symm hd
        · exact h
      rw [List.map_cons, List.takeWhile_cons_of_pos (by simpa using hd)] at first
      have h1 : q.get d' = none := first d' (by simp)
      have h2 : (q.del d).get d' = none := by rw [Dict.get_del, h1]; simp
      simp only [wrapAll, h1, h2]
      exact ih hn.2 hm' fun e he => first e (List.mem_cons_of_mem _ he)

private theorem del_comm {α : Type} (q : Dict α) (a b : Str) : (q.del a).del b = (q.del b).del a := by
  unfold Dict.del
  rw [List.filter_filter, List.filter_filter]
  exact List.filter_congr fun x _ => Bool.and_comm _ _

private theorem pull_del (t : Str) (as : Dict Str) (l : Nat) {d : Str} (hd : d ≠ extendsTag) :
    pullExtends t (as.del d) l = ((pullExtends t as l).1.del d, (pullExtends t as l).2) := by
  unfold pullExtends
  split
  · rfl
  · rw [Dict.get_del, if_neg fun e => hd e]
    cases as.get extendsTag with
    | none => rfl
    | some v => simp only [del_comm]

private theorem pull_get (t : Str) (as : Dict Str) (l : Nat) (e : Str) :
    (pullExtends t as l).1.get e = as.get e ∨ e = extendsTag := by
  unfold pullExtends
  split
  · exact .inl rfl
  · split
    · exact .inl rfl
    · by_cases h : e = extendsTag
      · exact .inr h
      · left
        rw [Dict.get_del, if_neg fun e => h e.symm]

private theorem pull_none (t : Str) (as : Dict Str) (l : Nat) (e : Str) (h : as.get e = none) :
    (pullExtends t as l).1.get e = none := by
  unfold pullExtends
  split
  · exact h
  · split
    · exact h
    · rw [Dict.get_del, h]; simp

private theorem expand_attr {tag : Str} {attrs : Dict Str} {ln : Nat} {ks : List DNode} {d a v : Str}
    (hd : (d, a) ∈ directives) (hx : d ≠ extendsTag) (hv : attrs.get d = some v) (ht : tag ∉ order)
    (first : ∀ e ∈ order.takeWhile (· ≠ d), attrs.get e = none) :
    expand (.elem tag attrs ln ks) =
      .elem d (directiveAttrs a v) ln [expand (.elem tag (attrs.del d) ln ks)] := by
  simp only [expand, normTag_other ht]
  rw [pull_del tag attrs ln hx]
  refine wrapAll_first ln _ d a v directives directives_nodup _ hd ?_ ?_
  · rcases pull_get tag attrs ln d with h | h
    · rw [h, hv]
    · exact absurd h hx
  · intro e he
    rw [directives_order] at he
    exact pull_none _ _ _ _ (first e he)

private theorem expand_element {ln : Nat} {y : DNode} {d a v : Str} (hd : (d, a) ∈ directives) :
    expand (.elem d (directiveAttrs a v) ln [y]) =
      .elem d (directiveAttrs a v) ln [.elem nopTag (directiveAttrs a v) ln [expand y]] := by
  simp only [directives, List.mem_cons, Prod.mk.injEq, List.not_mem_nil, or_false] at hd
  rcases hd with ⟨rfl, rfl⟩ | ⟨rfl, rfl⟩ | ⟨rfl, rfl⟩ | ⟨rfl, rfl⟩ | ⟨rfl, rfl⟩ | ⟨rfl, rfl⟩ | ⟨rfl, rfl⟩ |
    ⟨rfl, rfl⟩ | ⟨rfl, rfl⟩ | ⟨rfl, rfl⟩ | ⟨rfl, rfl⟩ <;> rfl

private theorem wrapAll_top (ln : Nat) (t : Str) (ht : kindOf t ≠ .elseK) (ks : List DNode) (ds : List (Str × Str))
    (q : Dict Str) (h1 : ∀ p ∈ ds, kindOf p.1 = .elseK → q.get p.1 = none)
    (h2 : ∀ p ∈ ds, p.2 ≠ "args".toList) :
    ∃ t2 a2 ks2, wrapAll ln (fun as => .elem t as ln ks) ds q = .elem t2 a2 ln ks2 ∧ kindOf t2 ≠ .elseK ∧
      (q.get "args".toList = none → getAttr a2 "args".toList = []) := by
  induction ds with
  | nil =>
    refine ⟨t, q, ks, rfl, ht, fun h => ?_⟩
    unfold getAttr; rw [h]; rfl
  | cons p ds ih =>
    obtain ⟨d, a⟩ := p
    simp only [wrapAll]
    cases hg : q.get d with
    | none =>
      exact ih (fun p hp => h1 p (List.mem_cons_of_mem _ hp)) fun p hp => h2 p (List.mem_cons_of_mem _ hp)
    | some v =>
      refine ⟨d, _, _, rfl, ?_, fun _ => ?_⟩
      · intro e
        have := h1 (d, a) (by simp) e
        simp only at this
        rw [this] at hg
        cases hg
      · unfold directiveAttrs
        split
        · rfl
        · unfold getAttr
          rw [Dict.get_cons, if_neg (h2 (d, a) (by simp))]
          rfl

private theorem expand_top {tag : Str} {attrs : Dict Str} (ln : Nat) (ks : List DNode) (ht : tag ∉ order)
    (hk : kindOf tag ≠ .elseK) (helse : attrs.get "py:else".toList = none) :
    ∃ t2 a2 ks2, expand (.elem tag attrs ln ks) = .elem t2 a2 ln ks2 ∧ kindOf t2 ≠ .elseK ∧
      (attrs.get "args".toList = none → getAttr a2 "args".toList = []) := by
  simp only [expand, normTag_other ht]
  have he : ∀ p ∈ directives, kindOf p.1 = .elseK → p.1 = "py:else".toList := by decide +kernel
  obtain ⟨t2, a2, ks2, h1, h2, h3⟩ := wrapAll_top ln tag hk ((pullExtends tag attrs ln).2 ++ expandList ks) directives
    (pullExtends tag attrs ln).1
    (fun p hp e => by rw [he p hp e]; exact pull_none _ _ _ _ helse) (by decide +kernel)
  exact ⟨t2, a2, ks2, h1, h2, fun h => h3 (pull_none _ _ _ _ h)⟩

private theorem getAttr_directive {d a v : Str} (hd : (d, a) ∈ directives) :
    getAttr (directiveAttrs a v) "args".toList = [] := by
  have : a ≠ "args".toList := (by decide +kernel : ∀ p ∈ directives, p.2 ≠ "args".toList) _ hd
  unfold directiveAttrs
  split
  · rfl
  · unfold getAttr
    rw [Dict.get_cons, if_neg this]
    rfl

private theorem wrapAll_nops (ln : Nat) (t : Str) {ks ks' : List DNode} (h : NopsList ks ks')
    (ds : List (Str × Str)) (q : Dict Str) :
    Nops (wrapAll ln (fun as => .elem t as ln ks) ds q) (wrapAll ln (fun as => .elem t as ln ks') ds q) := by
  induction ds generalizing q with
  | nil => exact .same h
  | cons p ds ih =>
    obtain ⟨d, a⟩ := p
    simp only [wrapAll]
    cases q.get d with
    | none => exact ih q
    | some v => exact .same (.cons (ih _) .nil)

mutual
private theorem expand_forms {x y : DNode} (h : Forms x y) : Nops (expand x) (expand y) := by
  cases h with
  | leaf h => rw [expand_other x h]; exact .leaf h
  | @same tag attrs ln ks ks' h =>
    have ih := expandList_forms h
    simp only [expand]
    refine wrapAll_nops ln _ (.append ?_ ih) directives _
    unfold pullExtends
    split
    · exact .nil
    · split
      · exact .nil
      · exact .cons (.same (.cons (.same .nil) .nil)) .nil
  | @directive tag attrs ln ks y d a v hd hx hv ht hk first helse hcall h =>
    have ih := expand_forms h
    rw [expand_attr hd hx hv ht first, expand_element hd]
    have hel : (attrs.del d).get "py:else".toList = none := by
      rw [Dict.get_del]
      split
      · rfl
      · next e => exact helse fun e' => e e'
    obtain ⟨t2, a2, ks2, h1, h2, h3⟩ := expand_top ln ks ht hk hel
    rw [h1] at ih ⊢
    refine .wrap ?_ h2 ?_ ih
    · exact (by decide +kernel : ∀ p ∈ directives, kindOf p.1 ≠ .xml) _ hd
    · intro hc
      have : d = "py:call".toList := (by decide +kernel : ∀ p ∈ directives, kindOf p.1 = .call → p.1 = "py:call".toList) _ hd hc
      rw [getAttr_directive hd]
      refine h3 ?_
      rw [Dict.get_del, hcall this]
      simp

private theorem expandList_forms {xs ys : List DNode} (h : FormsList xs ys) :
    NopsList (expandList xs) (expandList ys) := by
  cases h with
  | nil => exact .nil
  | cons h hs => exact .cons (expand_forms h) (expandList_forms hs)
end

/-- **C20 (the part that holds).** Writing any number of directives of a document as elements instead of
attributes (`Forms` says which) does not change the compiled template, including line numbers. -/
theorem C20_forms_agree_partial (py : PyCompile) (gen : Nat → Str) (o : Opts) (stripText : Bool) (dtd : Str)
    (root root' : DNode) (rest : List DNode) (ho : nopTag ∉ o.autoblocks) (h : Forms root root')
    (hrest : ∀ x ∈ rest, isElem x = false) :
    compileXmlDoc py gen o (transform stripText ⟨dtd, root :: rest⟩) =
      compileXmlDoc py gen o (transform stripText ⟨dtd, root' :: rest⟩) := by
  have h1 : NopsList (onFirst merge (onFirst expand (root :: rest))) (onFirst merge (onFirst expand (root' :: rest))) :=
    .cons (merge_nops (expand_forms h)) (.leaves hrest)
  have h2 := extractList_nops h1
  have h3 : NopsList (transform stripText ⟨dtd, root :: rest⟩).kids (transform stripText ⟨dtd, root' :: rest⟩).kids := by
    unfold transform
    cases stripText with
    | true => exact stripList_nops h2
    | false => exact h2
  have hd : (transform stripText ⟨dtd, root :: rest⟩).dtd = (transform stripText ⟨dtd, root' :: rest⟩).dtd := rfl
  unfold compileXmlDoc
  rw [hd]
  revert h3 hd
  generalize transform stripText ⟨dtd, root :: rest⟩ = a
  generalize transform stripText ⟨dtd, root' :: rest⟩ = b
  intro h3 hd
  have hf : NopsList (a.kids.filter fun n => !isComment n) (b.kids.filter fun n => !isComment n) := by
    revert h3
    generalize a.kids = xs
    generalize b.kids = ys
    intro h3
    induction xs generalizing ys with
    | nil => cases h3; exact .nil
    | cons x xs ih =>
      cases h3 with
      | @cons _ y _ ys h hs =>
        have hc : isComment x = isComment y := by cases h <;> rfl
        rw [List.filter_cons, List.filter_cons, hc]
        split
        · exact .cons h (ih _ hs)
        · exact ih _ hs
  unfold compileDoc
  rw [hd]
  revert hf
  generalize (a.kids.filter fun n => !isComment n) = xs
  generalize (b.kids.filter fun n => !isComment n) = ys
  intro hf
  cases hf with
  | nil => rfl
  | cons h hs =>
    cases hs with
    | nil => simp only [node_nops ⟨py, selectMode o.mode b.dtd, o, gen⟩ ho _ h]
    | cons h' hs => rfl

/-- `<p py:if="a" py:for="x in y">…</p>` as elements -/
example (ks : List DNode) (hks : FormsList ks ks) : Forms
    (.elem "p".toList [("py:if".toList, "a".toList), ("py:for".toList, "x in y".toList)] 1 ks)
    (.elem "py:for".toList [("each".toList, "x in y".toList)] 1
      [.elem "py:if".toList [("test".toList, "a".toList)] 1 [.elem "p".toList [] 1 ks]]) :=
  .directive (a := "each".toList) (v := "x in y".toList) (by decide +kernel) (by decide +kernel) rfl (by decide +kernel)
    (by decide +kernel) (by decide +kernel) (by decide +kernel) (by decide +kernel)
    (.directive (a := "test".toList) (v := "a".toList) (by decide +kernel) (by decide +kernel) rfl (by decide +kernel)
    (by decide +kernel) (by decide +kernel) (by decide +kernel) (by decide +kernel) (.same hks))

/-- **C20 is false for `py:extends`**: the attribute goes inside the element, the element form outside. -/
theorem C20_extends_differs :
    ∃ (py : PyCompile) (gen : Nat → Str) (o : Opts) (body : List Ir) (body' : List Ir),
      compileXmlDoc py gen o (transform false ⟨[], [.elem "p".toList [("py:extends".toList, "b".toList)] 1 []]⟩) =
        .ok ⟨[], [⟨mainDecl, body, 0⟩]⟩ ∧
      compileXmlDoc py gen o (transform false ⟨[],
        [.elem "py:extends".toList [("href".toList, "b".toList)] 1 [.elem "p".toList [] 1 []]]⟩) =
        .ok ⟨[], [⟨mainDecl, body', 0⟩]⟩ ∧
      body = [.text "<p".toList none 1, .text ">".toList none 1, .ext "b".toList 1, .text "</p>".toList none 1] ∧
      body' = [.ext "b".toList 1, .text "<p".toList none 1, .text "/>".toList none 1] :=
  ⟨fun _ => none, fun _ => [], ⟨"xml".toList, false, [], true⟩, _, _, rfl, rfl, rfl, rfl⟩

end Kajiki.Props

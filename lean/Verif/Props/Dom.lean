import Verif.Lemmas.Dom

/-!
# Documents: C21, C22, C25, C26, C27, C52
-/

namespace Kajiki.Props
open Kajiki.Spec.Dom Kajiki.Doms

/-! ## The model of the recursive expansion -/

/-- The first directive attribute present, in the order of the code's loop. -/
def firstDirective (attrs : Dict Str) : List (Str × Str) → Option (Str × Str × Str)
  | [] => none
  | (d, a) :: ds =>
    match attrs.get d with
    | some v => some (d, a, v)
    | none => firstDirective attrs ds

private theorem wrapAll_unfold (ln : Nat) (inner : Dict Str → DNode) (ds : List (Str × Str))
    (hn : (ds.map (·.1)).Nodup) (attrs : Dict Str) :
    wrapAll ln inner ds attrs =
      match firstDirective attrs ds with
      | none => inner attrs
      | some (d, a, v) => .elem d (directiveAttrs a v) ln [wrapAll ln inner ds (attrs.del d)] := by
  induction ds with
  | nil => rfl
  | cons d ds ih =>
    obtain ⟨d, a⟩ := d
    rw [List.map_cons, List.nodup_cons] at hn
    cases h : attrs.get d with
    | some v =>
      simp only [wrapAll, firstDirective, h]
      rw [Dict.get_del, if_pos rfl]
    | none =>
      simp only [wrapAll, firstDirective, h]
      rw [ih hn.2]
      cases hf : firstDirective attrs ds with
      | none => rfl
      | some t =>
        obtain ⟨d', a', v⟩ := t
        dsimp only
        rw [Dict.get_del, h]
        simp

/-- The code's recursion (`kajiki/xml_template.py` 883-900): for an element that is not a directive and has
no `py:extends`, the first directive present becomes an element around the expansion of the rest; without
any, the children are expanded. -/
theorem expand_unfold (tag : Str) (attrs : Dict Str) (ln : Nat) (kids : List DNode)
    (ht : tag ∉ order) (hx : attrs.get extendsTag = none) :
    expand (.elem tag attrs ln kids) =
      match firstDirective attrs directives with
      | none => .elem tag attrs ln (expandList kids)
      | some (d, a, v) => .elem d (directiveAttrs a v) ln [expand (.elem tag (attrs.del d) ln kids)] := by
  have h : ∀ attrs : Dict Str, attrs.get extendsTag = none → expand (.elem tag attrs ln kids) =
      wrapAll ln (fun as => .elem tag as ln (expandList kids)) directives attrs := by
    intro attrs hx
    rw [expand, normTag_other ht]
    simp only [pullExtends, hx]
    split <;> rfl
  rw [h attrs hx, wrapAll_unfold _ _ _ directives_nodup]
  cases firstDirective attrs directives with
  | none => rfl
  | some t =>
    obtain ⟨d, a, v⟩ := t
    dsimp only
    rw [h]
    rw [Dict.get_del]
    split
    · rfl
    · exact hx

/-- The element inserted for `py:extends` is what expanding `<py:extends href="v"/>` gives. -/
theorem expand_extends (v : Str) (ln : Nat) :
    expand (.elem extendsTag [("href".toList, v)] ln []) = extendsChild v ln := rfl

/-! ## C21 -/

/-- **C21.** The directives of an element become nested elements in the documented order, however its
attributes are written; the element itself keeps its other attributes, in order.  (`py:extends` on a tag is
special: it becomes the first child.) -/
theorem C21_fixed_order (tag : Str) (attrs : Dict Str) (ln : Nat) (kids : List DNode)
    (ht : tag ∉ order) (hx : attrs.get extendsTag = none) :
    ∃ ws, expand (.elem tag attrs ln kids) =
        nest ln ws (.elem tag (attrs.filter fun kv => !order.contains kv.1) ln (expandList kids)) ∧
      ws.map (·.1) = order.filter (fun d => (attrs.map (·.1)).contains d) ∧
      ∀ w ∈ ws, ∃ a v, (w.1, a) ∈ directives ∧ attrs.get w.1 = some v ∧ w.2 = if a.isEmpty then [] else [(a, v)] := by
  refine ⟨present directives attrs, ?_, ?_, ?_⟩
  · rw [expand_elem, normTag_other ht]
    have : pullExtends tag attrs ln = (attrs, []) := by
      simp only [pullExtends, hx]; split <;> rfl
    rw [this]
    unfold without
    rw [directives_order]
    rfl
  · rw [present_names, directives_order]
  · intro w hw
    unfold present at hw
    rw [List.mem_filterMap] at hw
    obtain ⟨d, hd, hd'⟩ := hw
    cases h : attrs.get d.1 with
    | none => rw [h] at hd'; cases hd'
    | some v =>
      rw [h] at hd'
      cases hd'
      exact ⟨d.2, v, hd, h, rfl⟩

/-- **C21.** The same for a directive element: its own directive takes part with the value of its
attribute. -/
theorem C21_directive_element (d a : Str) (hd : (d, a) ∈ directives) (attrs : Dict Str) (ln : Nat)
    (kids : List DNode) :
    ∃ ws, expand (.elem d attrs ln kids) =
        nest ln ws (.elem nopTag ((attrs.set d (getAttr attrs a)).filter fun kv => !order.contains kv.1) ln
          (expandList kids)) ∧
      ws.map (·.1) = order.filter (fun k => k = d ∨ k ∈ attrs.map (·.1)) := by
  have hg : directives.get d = some a := by
    have : ∀ d ∈ directives, directives.get d.1 = some d.2 := by decide +kernel
    exact this (d, a) hd
  refine ⟨present directives (attrs.set d (getAttr attrs a)), ?_, ?_⟩
  · rw [expand_elem]
    have h1 : normTag d attrs = (nopTag, attrs.set d (getAttr attrs a)) := by rw [normTag, hg]
    rw [h1]
    have : ∀ as, pullExtends nopTag as ln = (as, []) := fun as => by rw [pullExtends, if_pos rfl]
    rw [this]
    unfold without
    rw [directives_order]
    rfl
  · rw [present_names, directives_order]
    refine List.filter_congr fun k _ => ?_
    rw [Bool.eq_iff_iff, List.contains_iff_mem, ← has_iff, decide_eq_true_iff, ← has_iff]
    simp only [Dict.has, Dict.get_set]
    by_cases h : d = k
    · simp [h]
    · simp [h, Ne.symm h]

/-- **C21.** The order of writing does not matter: the same wrappers, and the element has the same
remaining attributes (in the order written). -/
theorem C21_order_of_writing_irrelevant (tag : Str) (attrs attrs' : Dict Str) (ln : Nat) (kids : List DNode)
    (ht : tag ∉ order) (hx : attrs.get extendsTag = none)
    (hsame : ∀ k, attrs.get k = attrs'.get k) :
    ∃ ws, expand (.elem tag attrs ln kids) =
        nest ln ws (.elem tag (attrs.filter fun kv => !order.contains kv.1) ln (expandList kids)) ∧
      expand (.elem tag attrs' ln kids) =
        nest ln ws (.elem tag (attrs'.filter fun kv => !order.contains kv.1) ln (expandList kids)) := by
  have hp : present directives attrs' = present directives attrs := by
    unfold present; simp only [hsame]
  have h : ∀ attrs : Dict Str, attrs.get extendsTag = none → expand (.elem tag attrs ln kids) =
      nest ln (present directives attrs)
        (.elem tag (attrs.filter fun kv => !order.contains kv.1) ln (expandList kids)) := by
    intro attrs hx
    rw [expand_elem, normTag_other ht]
    have : pullExtends tag attrs ln = (attrs, []) := by
      simp only [pullExtends, hx]; split <;> rfl
    rw [this]
    unfold without
    rw [directives_order]
    rfl
  exact ⟨_, h attrs hx, by rw [h attrs' (by rw [← hsame]; exact hx), hp]⟩

private def someAttrs : Dict Str :=
  [("py:if".toList, "a".toList), ("class".toList, "x".toList), ("py:for".toList, "b in c".toList)]

/-- `<div py:if="a" class="x" py:for="b in c">`: the loop is outside. -/
example : expand (.elem "div".toList someAttrs 3 []) =
    .elem "py:for".toList [("each".toList, "b in c".toList)] 3
      [.elem "py:if".toList [("test".toList, "a".toList)] 3
        [.elem "div".toList [("class".toList, "x".toList)] 3 []]] := rfl

example : "div".toList ∉ order ∧ someAttrs.get extendsTag = none := by decide +kernel

/-! ## C22 -/

/-- **C22 (the part that holds).** When the root element is the first node of the document, no element
carries a directive attribute after the transformation.

Missing: documents that start with a comment, see `C22_leading_comment`. -/
theorem C22_no_directive_left_partial (strip : Bool) (dtd : Str) (root : DNode) (rest : List DNode)
    (hrest : ∀ x ∈ rest, isMisc x = true) :
    ∀ e ∈ elementsList (transform strip ⟨dtd, root :: rest⟩).kids, ∀ k ∈ e.2.map (·.1), k ∉ order := by
  have hm : elementsList rest = [] := by
    induction rest with
    | nil => rfl
    | cons x xs ih =>
      rw [elementsList, elements_misc (hrest x (by simp)), ih fun y hy => hrest y (by simp [hy])]
      rfl
  have h : elementsList (transform strip ⟨dtd, root :: rest⟩).kids = elements (expand root) := by
    unfold transform onFirst
    dsimp only
    split
    · rw [elementsList_strip, elementsList_extract, elementsList, elements_merge, hm, List.append_nil]
    · rw [elementsList_extract, elementsList, elements_merge, hm, List.append_nil]
  rw [h]
  exact expand_clean root

/-- **C22 is false** for documents that start with a comment: nothing is expanded. -/
theorem C22_leading_comment (strip : Bool) (dtd c v : Str) (tag : Str) :
    (transform strip ⟨dtd, [.comment c 1, .elem tag [("py:if".toList, v)] 2 []]⟩).kids =
      [.comment c 1, .elem tag [("py:if".toList, v)] 2 []] := by
  cases strip <;> rfl

/-! ## C25 -/

/-- **C25 (the part that holds).** When the root element is the first node of the document, the transformed
document does not depend on how the XML parser cuts character data into events.

Missing: documents that start with a comment, see `C25_leading_comment`. -/
theorem C25_chunking_irrelevant_partial {es es' : List Event} (h : SameEvents es es') (dtd : Str)
    (strip : Bool) (root : DNode) (rest : List DNode)
    (hp : parseEvents dtd es = .ok ⟨dtd, root :: rest⟩) (hroot : isElem root = true)
    (hrest : ∀ x ∈ rest, isMisc x = true) :
    ∃ doc', parseEvents dtd es' = .ok doc' ∧ transform strip doc' = transform strip ⟨dtd, root :: rest⟩ := by
  have hs := same_events h ⟨[], [], 0⟩
  unfold parseEvents at hp ⊢
  generalize PState.events ⟨[], [], 0⟩ es = r at hs hp
  generalize PState.events ⟨[], [], 0⟩ es' = r' at hs
  cases r with
  | error e => cases hp
  | ok p =>
    cases r' with
    | error e => exact False.elim hs
    | ok p' =>
      have hs : PEq p p' := hs
      dsimp only at hp ⊢
      obtain ⟨els, doc, cd⟩ := p
      obtain ⟨els', doc', cd'⟩ := p'
      obtain ⟨he, hd, hc⟩ := hs
      dsimp only at he hd hc hp ⊢
      cases he with
      | cons _ _ => simp at hp
      | nil =>
        simp only [List.isEmpty_nil, if_true, Except.ok.injEq, Doc.mk.injEq, true_and] at hp ⊢
        subst hp
        obtain ⟨y, rfl, hy⟩ := nf_root hroot hrest hd
        refine ⟨_, rfl, ?_⟩
        unfold transform onFirst
        dsimp only
        rw [merge_expand, merge_expand, hy]

/-- **C25 is false** for documents that start with a comment: the pieces stay separate. -/
theorem C25_leading_comment (c : Str) :
    ∃ es es' doc doc', SameEvents es es' ∧ parseEvents [] es = .ok doc ∧ parseEvents [] es' = .ok doc' ∧
      doc.kids.head? = some (.comment c 1) ∧ transform false doc ≠ transform false doc' := by
  refine ⟨[.comment c 1, .startElement ['a'] [] 2, .characters ['x', 'y'] 2, .endElement ['a']],
    [.comment c 1, .startElement ['a'] [] 2, .characters ['x'] 2, .characters ['y'] 2, .endElement ['a']],
    _, _, .cons _ (.cons _ (.split ['x'] ['y'] 2 2 _)), rfl, rfl, rfl, ?_⟩
  intro h
  have h := congrArg (fun d => (leavesList d.kids).map (·.1)) h
  change [['x', 'y']] = [['x'], ['y']] at h
  cases h

/-- The text of the open elements and of the document so far. -/
private def stateText (p : PState) : Str :=
  textOf p.doc ++ (p.els.reverse.map fun o => textOf o.kids).flatten

private theorem stateText_append (p : PState) (x : DNode) :
    stateText (p.append x) = stateText p ++ textOf [x] := by
  obtain ⟨els, doc, cd⟩ := p
  cases els with
  | nil => simp [stateText, PState.append, textOf_append]
  | cons o os => simp [stateText, PState.append, textOf_append]

private theorem events_text (es : List Event) (p p' : PState) (h : p.events es = .ok p') :
    stateText p' = stateText p ++ charData p.cdata es := by
  induction es generalizing p with
  | nil => simp only [PState.events, Except.ok.injEq] at h; subst h; simp [charData]
  | cons e es ih =>
    rw [PState.events] at h
    cases he : p.event e with
    | error err => rw [he] at h; cases h
    | ok q =>
      rw [he] at h
      dsimp only at h
      rw [ih q h]
      cases e with
      | startElement name attrs ln =>
        simp only [PState.event, Except.ok.injEq] at he
        subst he
        simp [stateText, charData, textOf, leavesList]
      | endElement name =>
        obtain ⟨els, doc, cd⟩ := p
        cases els with
        | nil => simp [PState.event] at he
        | cons o os =>
          simp only [PState.event] at he
          split at he
          · simp only [Except.ok.injEq] at he
            subst he
            rw [stateText_append, append_cdata, textOf_elem]
            simp [stateText, charData]
          · cases he
      | characters c ln =>
        simp only [PState.event, Except.ok.injEq] at he
        subst he
        simp only [PState.characters, stateText_append, append_cdata, textOf_text, charData, beq_iff_eq,
          List.append_assoc]
      | pi t d ln =>
        simp only [PState.event, Except.ok.injEq] at he
        subst he
        rw [stateText_append, append_cdata]
        simp [charData, textOf, leavesList, leaves]
      | skippedEntity name ln =>
        simp only [PState.event] at he
        cases hs : skippedEntity name with
        | error err => rw [hs] at he; cases he
        | ok c =>
          rw [hs] at he
          simp only [Except.ok.injEq] at he
          subst he
          simp only [PState.characters, stateText_append, append_cdata, textOf_text, charData, hs, beq_iff_eq,
            List.append_assoc]
      | comment t ln =>
        simp only [PState.event, Except.ok.injEq] at he
        subst he
        rw [stateText_append, append_cdata]
        simp [charData, textOf, leavesList, leaves]
      | startCDATA ln =>
        simp only [PState.event, Except.ok.injEq] at he
        subst he
        have : ∀ (q : PState) n, stateText { q with cdata := n } = stateText q := fun _ _ => rfl
        rw [this, stateText_append]
        simp [charData, textOf, leavesList, leaves, append_cdata]
      | endCDATA ln =>
        simp only [PState.event] at he
        split at he
        · cases he
        · simp only [Except.ok.injEq] at he
          subst he
          have : ∀ (q : PState) n, stateText { q with cdata := n } = stateText q := fun _ _ => rfl
          rw [this, stateText_append]
          simp [charData, textOf, leavesList, leaves, append_cdata]

mutual
private theorem textOf_extract : ∀ x : DNode, textOf (extract x) = textOf [x]
  | .elem t a l ks => by rw [extract, textOf_elem, textOf_extractList ks, textOf_elem]
  | .text d e l => by
    rw [extract]
    have := textOf_squash none (splitText d e l)
    rw [squash_splitText] at this
    exact this.symm
  | .cdata _ _ | .comment _ _ | .pi _ _ _ => rfl
private theorem textOf_extractList : ∀ xs : List DNode, textOf (extractList xs) = textOf xs
  | [] => rfl
  | x :: xs => by
    rw [extractList, textOf_append, textOf_extract x, textOf_extractList xs, ← textOf_cons]
end

/-- **C25.** The text of the parsed document, and of the transformed one, is the character data the parser
reported, with `&`, `<` and `>` as references outside CDATA sections. -/
theorem C25_text_is_character_data (dtd : Str) (es : List Event) (doc : Doc)
    (h : parseEvents dtd es = .ok doc) :
    textOf doc.kids = charData 0 es ∧ textOf (transform false doc).kids = charData 0 es := by
  have h1 : textOf doc.kids = charData 0 es := by
    unfold parseEvents at h
    cases hp : PState.events ⟨[], [], 0⟩ es with
    | error e => rw [hp] at h; cases h
    | ok p =>
      rw [hp] at h
      have := events_text es _ _ hp
      dsimp only at h
      split at h
      · rename_i hemp
        cases h
        rw [List.isEmpty_iff] at hemp
        simpa [stateText, hemp, textOf, leavesList] using this
      · cases h
  refine ⟨h1, ?_⟩
  rw [← h1]
  unfold transform
  simp only [Bool.false_eq_true, if_false]
  rw [textOf_extractList]
  cases doc.kids with
  | nil => rfl
  | cons x xs =>
    simp only [onFirst]
    rw [textOf_cons, textOf_merge]
    have : textOf [expand x] = textOf [x] := by
      simp only [textOf, leavesList, leaves_expand]
    rw [this, ← textOf_cons]

private def someEvents : List Event :=
  [.startElement "p".toList [] 1, .characters "a<".toList 1, .skippedEntity "nbsp".toList 1,
   .startCDATA 1, .characters "b<".toList 1, .endCDATA 1, .endElement "p".toList]

example : (match parseEvents [] someEvents with
    | .ok doc => textOf doc.kids == "a&lt;\u00a0b<".toList && charData 0 someEvents == textOf doc.kids
    | .error _ => false) = true := by decide +kernel

/-! ## C26 -/

mutual
private theorem merge_extract : ∀ x : DNode, nf (extract x) = nf [x]
  | .elem t a l ks => by
    have h := merge_extractList ks
    show squash none (mergeList [.elem t a l (extractList ks)]) = squash none (mergeList [.elem t a l ks])
    simp only [mergeList, merge]
    rw [show squash none (mergeList (extractList ks)) = squash none (mergeList ks) from h]
  | .text d e l => by
    have hm : mergeList (splitText d e l) = splitText d e l := by
      rw [splitText_eq]; unfold textUnlessEmpty
      split
      · rfl
      · split <;> split <;> rfl
    rw [extract, nf, hm, squash_splitText]; rfl
  | .cdata _ _ | .comment _ _ | .pi _ _ _ => rfl
private theorem merge_extractList : ∀ xs : List DNode, nf (extractList xs) = nf xs
  | [] => rfl
  | x :: xs => by
    show nf (extract x ++ extractList xs) = nf ([x] ++ xs)
    rw [nf_append (merge_extract x)]
    unfold nf
    rw [mergeList_append, mergeList_append, ← squash_suffix, ← squash_suffix none _ (mergeList xs)]
    rw [show squash none (mergeList (extractList xs)) = squash none (mergeList xs) from merge_extractList xs]
end

mutual
private theorem elementTexts_extract : ∀ x : DNode, elementTextsList (extract x) = elementTexts x
  | .elem t a l ks => by
    rw [extract, elementTextsList, elementTexts, textOf_extractList, elementTexts_extractList ks, elementTexts,
      elementTextsList, List.append_nil]
  | .text d e l => by
    rw [extract, splitText_eq]; unfold textUnlessEmpty
    split
    · rfl
    · split <;> split <;> rfl
  | .cdata _ _ | .comment _ _ | .pi _ _ _ => rfl
private theorem elementTexts_extractList : ∀ xs : List DNode,
    elementTextsList (extractList xs) = elementTextsList xs
  | [] => rfl
  | x :: xs => by
    have happ : ∀ us vs, elementTextsList (us ++ vs) = elementTextsList us ++ elementTextsList vs := by
      intro us vs
      induction us with
      | nil => rfl
      | cons u us ih => simp only [List.cons_append, elementTextsList, ih, List.append_assoc]
    rw [extractList, happ, elementTexts_extract x, elementTexts_extractList xs, elementTextsList]
end

private theorem elementTexts_squash (m : Option (Str × Bool × Nat)) (xs : List DNode) :
    elementTextsList (squash m xs) = elementTextsList xs := by
  induction xs generalizing m with
  | nil => rcases m with _ | ⟨d, e, l⟩ <;> rfl
  | cons x xs ih =>
    cases x <;> rcases m with _ | ⟨d, e, l⟩ <;>
      simp only [squash, elementTextsList, elementTexts, List.nil_append, ih]

mutual
private theorem elementTexts_merge : ∀ x : DNode, elementTexts (merge x) = elementTexts x
  | .elem t a l ks => by
    rw [merge, elementTexts, elementTexts_squash, textOf_squash, textOf_mergeList, elementTexts_mergeList ks,
      elementTexts]
    rfl
  | .text _ _ _ | .cdata _ _ | .comment _ _ | .pi _ _ _ => rfl
private theorem elementTexts_mergeList : ∀ xs : List DNode, elementTextsList (mergeList xs) = elementTextsList xs
  | [] => rfl
  | x :: xs => by rw [mergeList, elementTextsList, elementTexts_merge x, elementTexts_mergeList xs,
      elementTextsList]
end

mutual
private theorem pieces_extract : ∀ x : DNode, ∀ p ∈ leavesList (extract x), strip p.1 = [] ∨ strip p.1 = p.1
  | .elem t a l ks => by
    rw [extract, leavesList, leaves, leavesList, List.append_nil]; exact pieces_extractList ks
  | .text d e l => by
    rw [extract, splitText_eq]
    split
    · rename_i h
      intro p hp
      simp only [leavesList, leaves, List.append_nil, List.mem_singleton] at hp
      subst hp
      exact .inl (List.isEmpty_iff.1 h)
    · intro p hp
      rw [leavesList_append, leavesList, leaves, leaves_textUnlessEmpty, leaves_textUnlessEmpty,
        List.mem_append, List.mem_append, List.mem_singleton] at hp
      rcases hp with hp | rfl | hp
      · split at hp
        · cases hp
        · rw [List.mem_singleton] at hp; subst hp
          exact .inl (strip_blank fun c hc => mem_takeWhile hc)
      · exact .inr (strip_strip d)
      · split at hp
        · cases hp
        · rw [List.mem_singleton] at hp; subst hp
          exact .inl (strip_blank (trail_blank _))
  | .cdata _ _ | .comment _ _ | .pi _ _ _ => by intro p hp; cases hp
private theorem pieces_extractList : ∀ xs : List DNode,
    ∀ p ∈ leavesList (extractList xs), strip p.1 = [] ∨ strip p.1 = p.1
  | [] => by intro p hp; cases hp
  | x :: xs => by
    intro p hp
    rw [extractList, leavesList_append, List.mem_append] at hp
    rcases hp with hp | hp
    · exact pieces_extract x p hp
    · exact pieces_extractList xs p hp
end

/-- **C26.** Merging text nodes keeps the text of every element. -/
theorem C26_merging_preserves_text (x : DNode) :
    elementTexts (merge x) = elementTexts x ∧ textOf [merge x] = textOf [x] :=
  ⟨elementTexts_merge x, textOf_merge x⟩

/-- **C26.** Splitting off whitespace keeps the text of every element and everything else: merging the
pieces again gives the merged original. -/
theorem C26_splitting_preserves_text (tag : Str) (attrs : Dict Str) (ln : Nat) (ks : List DNode) :
    elementTextsList (extractList ks) = elementTextsList ks ∧ textOf (extractList ks) = textOf ks ∧
    merge (.elem tag attrs ln (extractList ks)) = merge (.elem tag attrs ln ks) := by
  refine ⟨elementTexts_extractList ks, textOf_extractList ks, ?_⟩
  simp only [merge]
  rw [show squash none (mergeList (extractList ks)) = squash none (mergeList ks) from merge_extractList ks]

/-- **C26.** Every piece is blank or has no whitespace at its ends. -/
theorem C26_pieces_blank_or_trimmed (ks : List DNode) (p : Str × Nat) (h : p ∈ leavesList (extractList ks)) :
    strip p.1 = [] ∨ strip p.1 = p.1 := pieces_extractList ks p h

/-- **C26.** The whole transformation keeps the text of the document. -/
theorem C26_transform_preserves_text (doc : Doc) :
    textOf (transform false doc).kids = textOf doc.kids ∧
    ∀ p ∈ leavesList (transform false doc).kids, strip p.1 = [] ∨ strip p.1 = p.1 := by
  refine ⟨?_, fun p hp => pieces_extractList _ p hp⟩
  unfold transform
  simp only [Bool.false_eq_true, if_false]
  rw [textOf_extractList]
  cases doc.kids with
  | nil => rfl
  | cons x xs =>
    simp only [onFirst]
    rw [textOf_cons, textOf_merge]
    have : textOf [expand x] = textOf [x] := by
      simp only [textOf, leavesList, leaves_expand]
    rw [this, ← textOf_cons]

private def spaced : DNode :=
  .elem "p".toList [] 1 [.text "\n a".toList true 1, .text " b \n".toList true 2, .elem "i".toList [] 3 []]

example : leavesList (extractList [merge spaced]) =
    [("\n ".toList, 1), ("a b".toList, 2), (" \n".toList, 2)] := by decide +kernel

/-! ## C27 -/

mutual
private theorem leaves_stripNode : ∀ x : DNode, leaves (stripNode x) =
    (leaves x).map fun p => (strip p.1, p.2 + countNL (p.1.takeWhile isSpace))
  | .elem t a l ks => by rw [stripNode, leaves, leaves_stripList ks, leaves]
  | .text d e l => by rw [stripNode, leaves, take_lead]; rfl
  | .cdata _ _ | .comment _ _ | .pi _ _ _ => rfl
private theorem leaves_stripList : ∀ xs : List DNode, leavesList (stripList xs) =
    (leavesList xs).map fun p => (strip p.1, p.2 + countNL (p.1.takeWhile isSpace))
  | [] => rfl
  | x :: xs => by
    rw [stripList, leavesList, leaves_stripNode x, leaves_stripList xs, leavesList, List.map_append]
end

mutual
private theorem skeleton_stripNode : ∀ x : DNode, skeleton (stripNode x) = skeleton x
  | .elem t a l ks => by rw [stripNode, skeleton, skeleton_stripList ks, skeleton]
  | .text _ _ _ | .cdata _ _ | .comment _ _ | .pi _ _ _ => rfl
private theorem skeleton_stripList : ∀ xs : List DNode, skeletonList (stripList xs) = skeletonList xs
  | [] => rfl
  | x :: xs => by rw [stripList, skeletonList, skeleton_stripNode x, skeleton_stripList xs, skeletonList]
end

mutual
private theorem strip_idem : ∀ x : DNode, stripNode (stripNode x) = stripNode x
  | .elem t a l ks => by simp only [stripNode, strip_idemList ks]
  | .text d e l => by
    have h := lstrip_of_head (strip_head d)
    simp only [stripNode, strip_strip, h, Nat.sub_self, List.take_zero]
    rfl
  | .cdata _ _ | .comment _ _ | .pi _ _ _ => rfl
private theorem strip_idemList : ∀ xs : List DNode, stripList (stripList xs) = stripList xs
  | [] => rfl
  | x :: xs => by simp only [stripList, strip_idem x, strip_idemList xs]
end

/-- **C27.** With `strip_text` every text piece is exactly its trimmed version, nothing else differs, and
stripping again changes nothing. -/
theorem C27_strip_text (doc : Doc) :
    (leavesList (transform true doc).kids).map (·.1) =
      (leavesList (transform false doc).kids).map (fun p => strip p.1) ∧
    skeletonList (transform true doc).kids = skeletonList (transform false doc).kids ∧
    (transform true doc).dtd = (transform false doc).dtd ∧
    stripList (transform true doc).kids = (transform true doc).kids := by
  unfold transform
  simp only [if_true, Bool.false_eq_true, if_false]
  refine ⟨?_, skeleton_stripList _, trivial, strip_idemList _⟩
  rw [leaves_stripList, List.map_map]
  rfl

example : leavesList (transform true ⟨[], [spaced]⟩).kids = [([], 2), ("a b".toList, 2), ([], 3)] := by
  decide +kernel

/-! ## C52 -/

mutual
private theorem cut_extract : ∀ x : DNode, ∃ parts, leavesList (extract x) = parts.flatten ∧
    List.Forall₂ CutAt (leaves x) parts
  | .elem t a l ks => by
    rw [extract, leavesList, leaves, leavesList, List.append_nil]; exact cut_extractList ks
  | .text d e l => by
    refine ⟨[leavesList (splitText d e l)], by simp [extract], .cons (cutAt_splitText d e l) .nil⟩
  | .cdata _ _ | .comment _ _ | .pi _ _ _ => ⟨[], rfl, .nil⟩
private theorem cut_extractList : ∀ xs : List DNode, ∃ parts, leavesList (extractList xs) = parts.flatten ∧
    List.Forall₂ CutAt (leavesList xs) parts
  | [] => ⟨[], rfl, .nil⟩
  | x :: xs => by
    obtain ⟨p1, h1, k1⟩ := cut_extract x
    obtain ⟨p2, h2, k2⟩ := cut_extractList xs
    refine ⟨p1 ++ p2, ?_, List.rel_append k1 k2⟩
    rw [extractList, leavesList_append, h1, h2, List.flatten_append]
end

/-- **C52.** The pieces each text is split into make up that text, and each carries the line of its first
character. -/
theorem C52_split_lines (ks : List DNode) :
    ∃ parts, leavesList (extractList ks) = parts.flatten ∧ List.Forall₂ CutAt (leavesList ks) parts :=
  cut_extractList ks

/-- **C52.** A stripped text carries the line of its first remaining character. -/
theorem C52_strip_lines (ks : List DNode) :
    List.Forall₂ TrimmedFrom (leavesList ks) (leavesList (stripList ks)) := by
  rw [leaves_stripList]
  induction leavesList ks with
  | nil => exact .nil
  | cons p ps ih => exact .cons (trimmedFrom p.1 p.2) ih

end Kajiki.Props

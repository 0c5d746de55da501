import Verif.Lemmas.StaticDom

/-! Translating documents without directives. -/

namespace Kajiki.StaticDoc
open Kajiki.Spec.Static Kajiki.Spec.DocSem Kajiki.Doms
open Kajiki.Spec.XmlText (doubled)

/-! ## Texts -/

theorem strip_eq_nil {t : Str} (h : strip t = []) : ∀ c ∈ t, isSpace c = true := by
  intro c hc
  rw [← cut_lead_core_trail t, h, List.nil_append] at hc
  rcases List.mem_append.1 hc with hc | hc
  · exact mem_takeWhile hc
  · exact trail_blank _ c hc

theorem blank_eq (t : Str) : blank t = (strip t).isEmpty := by
  unfold blank
  rw [Bool.eq_iff_iff, List.all_eq_true, List.isEmpty_iff]
  exact ⟨strip_blank, strip_eq_nil⟩

theorem messages_eq (t : Str) : segs t = messages t := by
  unfold segs
  induction t with
  | nil => rfl
  | cons c s ih =>
    have hs := Props.litPieces_shape s
    unfold Props.litPieces messages
    rw [← ih]
    split
    · rfl
    · cases hp : Props.litPieces s with
      | nil => rfl
      | cons p ps =>
        rw [hp] at hs
        rcases hs p (by simp) with rfl | ⟨u, rfl, h1, h2⟩
        · rfl
        · have : u ≠ ['$'] := fun h => h2 (by rw [h]; simp)
          simp [Spec.XmlText.Piece.value, this]

theorem takeWhile_doubled (u : Str) : (doubled u).takeWhile isSpace = u.takeWhile isSpace := by
  induction u with
  | nil => rfl
  | cons c u ih =>
    rw [doubled_cons]
    split
    · next h => subst h; rfl
    · rw [List.singleton_append, List.takeWhile_cons, List.takeWhile_cons, ih]

theorem dropWhile_doubled (u : Str) : (doubled u).dropWhile isSpace = doubled (u.dropWhile isSpace) := by
  induction u with
  | nil => rfl
  | cons c u ih =>
    by_cases h : c = '$'
    · subst h; rfl
    · rw [doubled_cons, if_neg h, List.singleton_append, List.dropWhile_cons, List.dropWhile_cons, ih]
      split
      · rfl
      · rw [doubled_cons, if_neg h]; rfl

theorem reverse_doubled (u : Str) : (doubled u).reverse = doubled u.reverse := by
  induction u with
  | nil => rfl
  | cons c u ih =>
    rw [doubled_cons, List.reverse_append, ih, List.reverse_cons, doubled_append]
    congr 1
    split
    · next h => subst h; rfl
    · next h => rw [doubled_cons, if_neg h]; rfl

theorem strip_doubled (u : Str) : strip (doubled u) = doubled (strip u) := by
  unfold strip rstrip lstrip
  rw [dropWhile_doubled, reverse_doubled, dropWhile_doubled, reverse_doubled]

theorem trail_doubled (u : Str) : Doms.trail (doubled u) = Doms.trail u := by
  unfold Doms.trail
  rw [reverse_doubled, takeWhile_doubled]

theorem doubled_blank {s : Str} (h : ∀ c ∈ s, isSpace c = true) : doubled s = s := by
  induction s with
  | nil => rfl
  | cons c s ih =>
    have hc : c ≠ '$' := by
      rintro rfl
      exact absurd (h '$' (by simp)) (by decide)
    rw [doubled_cons, if_neg hc, ih fun d hd => h d (by simp [hd])]
    rfl

theorem segs_blank {s : Str} (h : ∀ c ∈ s, isSpace c = true) : ∀ m ∈ segs s, ∀ c ∈ m, isSpace c = true := by
  intro m hm c hc
  refine h c ?_
  rw [← segs_flatten s]
  exact List.mem_flatten.2 ⟨m, hm, hc⟩

theorem textOut_doubled (tr : Str → Str) (tag u : Str) : textOut tr tag (doubled u) =
    if scriptTag tag then u else (messages u).flatMap (message tr) := by
  unfold textOut
  rw [und_doubled, ← messages_eq]
  split
  · next h =>
    exact (List.flatMap_id (L := segs u)).trans (segs_flatten u)
  · next h =>
    congr 1
    funext t
    simp only [message, blank_eq]

theorem textOut_blank (tr : Str → Str) (tag : Str) {s : Str} (h : ∀ c ∈ s, isSpace c = true) :
    textOut tr tag s = s := by
  have := textOut_doubled tr tag s
  rw [doubled_blank h] at this
  rw [this]
  split
  · rfl
  · rw [← messages_eq]
    have h2 : ∀ l : List Str, (∀ m ∈ l, ∀ c ∈ m, isSpace c = true) → l.flatMap (message tr) = l.flatten := by
      intro l
      induction l with
      | nil => intro _; rfl
      | cons m l ih =>
        intro hl
        have hb : blank m = true := List.all_eq_true.2 (hl m (by simp))
        rw [List.flatMap_cons, ih fun n hn => hl n (by simp [hn]), message, if_pos hb]
        rfl
    rw [h2 _ (segs_blank h), segs_flatten]

theorem trailing_lstrip {u : Str} (h : strip u ≠ []) : Doms.trail (lstrip u) = trailing u := by
  unfold trailing Doms.trail
  have hu : u.reverse = (lstrip u).reverse ++ (u.takeWhile isSpace).reverse := by
    rw [← List.reverse_append, lead_body]
  rw [hu, List.takeWhile_append, if_neg]
  intro hlen
  apply h
  have : (lstrip u).reverse.takeWhile isSpace = (lstrip u).reverse :=
    (List.takeWhile_prefix _).eq_of_length hlen
  unfold strip
  have hb : ∀ c ∈ (lstrip u).reverse, isSpace c = true := by
    intro c hc
    rw [← this] at hc
    exact mem_takeWhile hc
  unfold rstrip
  rw [show (lstrip u).reverse.dropWhile isSpace = [] from lstrip_blank hb]
  rfl

theorem split_translated (tr : Str → Str) (o : Opts) (mode tag u : Str) (e : Bool) (l : Nat) :
    serAll tr o mode tag (splitText (doubled u) e l) = translatedText tr tag u := by
  have hu : ∀ s l, (∀ c ∈ s, isSpace c = true) → serAll tr o mode tag (textUnlessEmpty s e l) = s := by
    intro s l hs
    unfold textUnlessEmpty
    split
    · next h => rw [List.isEmpty_iff.1 h]; rfl
    · rw [serAll, serAll, ser, textOut_blank tr tag hs, List.append_nil]
  rw [splitText_eq, strip_doubled]
  unfold translatedText
  by_cases hb : strip u = []
  · have hb' := strip_eq_nil hb
    rw [if_pos (by rw [hb]; rfl), blank_eq, hb, serAll, serAll, ser, doubled_blank hb', textOut_blank tr tag hb']
    simp
  · have hne : doubled (strip u) ≠ [] := by
      intro h
      have := und_doubled (strip u)
      rw [h] at this
      exact hb this.symm
    have hbl : blank u = false := by
      rw [blank_eq]
      cases h : strip u with
      | nil => exact absurd h hb
      | cons _ _ => rfl
    rw [if_neg (by rw [List.isEmpty_iff]; exact hne), serAll_append, serAll, ser, textOut_doubled,
      hu _ _ (fun c hc => mem_takeWhile hc), hu _ _ (trail_blank _), hbl, Bool.or_false, takeWhile_doubled]
    have h1 : lstrip (doubled u) = doubled (lstrip u) := dropWhile_doubled u
    rw [h1, trail_doubled]
    split
    · exact cut_lead_core_trail u
    · rw [trailing_lstrip hb, List.append_assoc]
      rfl

/-! ## Merging changes nothing -/

/-- Not both are text. -/
def Sep : DNode → DNode → Prop
  | .text _ _ _, .text _ _ _ => False
  | _, _ => True

mutual
/-- There are no neighbouring texts. -/
def Whole : DNode → Prop
  | .elem _ _ _ kids => kids.IsChain Sep ∧ WholeAll kids
  | _ => True

/-- The same for several nodes. -/
def WholeAll : List DNode → Prop
  | [] => True
  | x :: xs => Whole x ∧ WholeAll xs
end

theorem squash_sep : ∀ xs : List DNode, xs.IsChain Sep → squash none xs = xs
  | [], _ => rfl
  | .text d e l :: xs, h => by
    rw [squash]
    cases xs with
    | nil => rfl
    | cons y ys =>
      rw [List.isChain_cons_cons] at h
      cases y with
      | text => exact h.1.elim
      | _ =>
        have := squash_sep _ h.2
        rw [squash] at this
        · rw [squash]
          · rw [this]
          all_goals (intro _ _ _ h; cases h)
        all_goals (intro _ _ _ h; cases h)
  | .elem .. :: xs, h => by rw [squash, squash_sep xs h.tail]; all_goals (intro _ _ _ h; cases h)
  | .cdata .. :: xs, h => by rw [squash, squash_sep xs h.tail]; all_goals (intro _ _ _ h; cases h)
  | .comment .. :: xs, h => by rw [squash, squash_sep xs h.tail]; all_goals (intro _ _ _ h; cases h)
  | .pi .. :: xs, h => by rw [squash, squash_sep xs h.tail]; all_goals (intro _ _ _ h; cases h)

mutual
theorem merge_whole : ∀ x, Whole x → merge x = x
  | .text _ _ _, _ => rfl
  | .cdata _ _, _ => rfl
  | .comment _ _, _ => rfl
  | .pi _ _ _, _ => rfl
  | .elem t as ln kids, h => by rw [merge, mergeList_whole kids h.2, squash_sep kids h.1]

theorem mergeList_whole : ∀ xs, WholeAll xs → mergeList xs = xs
  | [], _ => rfl
  | x :: xs, h => by rw [mergeList, merge_whole x h.1, mergeList_whole xs h.2]
end

/-! ## The nodes of a document -/

theorem wholeAll_append (xs ys : List DNode) : WholeAll (xs ++ ys) ↔ WholeAll xs ∧ WholeAll ys := by
  induction xs with
  | nil => simp [WholeAll]
  | cons x xs ih => simp only [List.cons_append, WholeAll, ih, and_assoc]

/-- A text. -/
def isChars : DNode → Bool
  | .text _ _ _ => true
  | _ => false

theorem sep_of {x y : DNode} (h : (isChars x && isChars y) = false) : Sep x y := by
  cases x <;> cases y <;> trivial

theorem dom_sep (x : Static) (h : whole x = true) : (dom x).IsChain Sep ∧
    (∀ y ∈ (dom x).head?, isChars y = chars x) ∧ (∀ y ∈ (dom x).getLast?, isChars y = chars x) := by
  cases x with
  | cdata ts l l' =>
    rw [dom]
    refine ⟨?_, by rintro y ⟨⟩; rfl, ?_⟩
    · cases ts with
      | nil => exact .cons_cons trivial (.singleton _)
      | cons t ts =>
        cases ts with
        | nil => exact .cons_cons trivial (.cons_cons trivial (.singleton _))
        | cons t' ts =>
          unfold whole at h
          simp at h
    · intro y hy
      rw [← List.cons_append, List.getLast?_append] at hy
      cases hy
      rfl
  | _ => exact ⟨.singleton _, by rintro y ⟨⟩; rfl, by rintro y ⟨⟩; rfl⟩

theorem wholeAll_cons {x : Static} {xs : List Static} (h : wholeAll (x :: xs) = true) :
    whole x = true ∧ wholeAll xs = true ∧ ∀ y ∈ xs.head?, (chars x && chars y) = false := by
  cases xs with
  | nil =>
    unfold wholeAll at h
    exact ⟨h, by unfold wholeAll; rfl, by rintro y ⟨⟩⟩
  | cons y ys =>
    unfold wholeAll at h
    simp only [Bool.and_eq_true, Bool.not_eq_true'] at h
    exact ⟨h.1.1, h.2, by rintro z ⟨⟩; exact h.1.2⟩

theorem domAll_head (xs : List Static) : ∀ y ∈ (domAll xs).head?, ∃ x, xs.head? = some x ∧ isChars y = chars x := by
  intro y hy
  cases xs with
  | nil => cases hy
  | cons x xs =>
    refine ⟨x, rfl, ?_⟩
    rw [domAll] at hy
    cases x <;> (rw [dom] at hy; cases hy; rfl)

theorem domAll_sep : ∀ xs : List Static, wholeAll xs = true → (domAll xs).IsChain Sep
  | [], _ => .nil
  | x :: xs, h => by
    obtain ⟨h1, h2, h3⟩ := wholeAll_cons h
    rw [domAll]
    refine List.isChain_append.2 ⟨(dom_sep x h1).1, domAll_sep xs h2, fun y hy z hz => ?_⟩
    obtain ⟨w, hw, hz⟩ := domAll_head xs z hz
    refine sep_of ?_
    rw [(dom_sep x h1).2.2 y hy, hz]
    exact h3 w hw

mutual
theorem dom_whole : ∀ x, whole x = true → WholeAll (dom x)
  | .text t ln, _ => ⟨trivial, trivial⟩
  | .comment t ln, _ => ⟨trivial, trivial⟩
  | .cdata ts ln ln', _ => by
    rw [dom]
    refine ⟨trivial, (wholeAll_append _ _).2 ⟨?_, trivial, trivial⟩⟩
    have : ∀ ts : List (Str × Nat), WholeAll (ts.map fun p => .text (enc false p.1) false p.2) := by
      intro ts
      induction ts with
      | nil => trivial
      | cons t ts ih => exact ⟨trivial, ih⟩
    exact this ts
  | .elem tag attrs ln kids, h => by
    unfold whole at h
    exact ⟨⟨domAll_sep kids h, domAll_whole kids h⟩, trivial⟩

theorem domAll_whole : ∀ xs, wholeAll xs = true → WholeAll (domAll xs)
  | [], _ => trivial
  | x :: xs, h => by
    obtain ⟨h1, h2, -⟩ := wholeAll_cons h
    rw [domAll, wholeAll_append]
    exact ⟨dom_whole x h1, domAll_whole xs h2⟩
end

theorem extractList_empty (xs : List DNode) : (extractList xs).isEmpty = xs.isEmpty := by
  cases xs with
  | nil => rfl
  | cons x xs =>
    rw [extractList]
    cases x with
    | text d e l =>
      rw [extract, splitText_eq]
      split
      · rfl
      · cases textUnlessEmpty (d.takeWhile isSpace) e l <;> rfl
    | _ => rfl

mutual
theorem ser_extract (tr : Str → Str) (o : Opts) (mode : Str) : ∀ (x : Static) (tag : Str), plain o x = true →
    whole x = true → serAll tr o mode tag (extractList (dom x)) = translated tr o mode tag x
  | .text t ln, tag, _, _ => by
    rw [dom, extractList, extract, extractList, List.append_nil]
    unfold translated
    rw [shown_eq]
    exact split_translated tr o mode tag (saxEscape t) true ln
  | .comment t ln, tag, _, _ => by
    rw [dom, extractList, extract, extractList, List.append_nil, serAll, serAll, ser]
    unfold translated
    rw [List.append_nil]
  | .cdata ts ln ln', tag, _, h => by
    unfold translated
    rw [dom, extractList, extract, extractList_append, serAll_append, serAll_append, extractList, extract, extractList,
      List.append_nil, serAll, serAll, serAll, serAll, ser, ser, List.append_nil, List.append_nil, List.append_assoc]
    congr 1
    congr 1
    cases ts with
    | nil =>
      rw [List.map_nil, extractList, serAll]
      unfold translatedText
      rw [if_pos (by simp [blank])]
      rfl
    | cons t ts =>
      cases ts with
      | nil =>
        rw [List.map_cons, List.map_nil, extractList, extract, extractList, List.append_nil]
        have := split_translated tr o mode tag t.1 false t.2
        rw [List.map_cons, List.map_nil, List.flatten_cons, List.flatten_nil, List.append_nil]
        exact this
      | cons t' ts =>
        unfold whole at h
        simp at h
  | .elem t attrs ln kids, tag, h, hw => by
    have hp := h
    unfold plain at h
    simp only [Bool.and_eq_true, decide_eq_true_eq] at h
    obtain ⟨⟨⟨⟨⟨-, -⟩, h3⟩, -⟩, -⟩, h6⟩ := h
    unfold whole at hw
    unfold translated
    rw [dom, extractList, extract, extractList, List.append_nil, serAll, serAll, ser]
    rw [List.append_nil, sortItems_map, List.flatMap_map, sorted_eq _ h3]
    have ha : (fun a : Str × Str => attrText mode (a.1, und (doubled a.2))) = attrText mode := by
      funext a; rw [und_doubled]
    have he : (extractList (domAll kids)).isEmpty = kids.isEmpty := by
      rw [extractList_empty]
      cases kids with
      | nil => rfl
      | cons k ks =>
        rw [domAll]
        cases hd : dom k with
        | nil => exact absurd hd (dom_ne k)
        | cons _ _ => rfl
    have hs : scriptSer mode (extractList (domAll kids)) = Spec.Static.scriptContent mode kids := by
      unfold scriptSer Spec.Static.scriptContent
      rw [(extractList_same o _ (domAll_lit o kids h6)).script, scriptOut_domAll, List.append_assoc]
    rw [ha, he, hs, ser_extractAll tr o mode kids t h6 hw]
    simp only [List.append_assoc]

theorem ser_extractAll (tr : Str → Str) (o : Opts) (mode : Str) : ∀ (xs : List Static) (tag : Str),
    plainAll o xs = true → wholeAll xs = true →
      serAll tr o mode tag (extractList (domAll xs)) = translatedAll tr o mode tag xs
  | [], _, _, _ => by unfold translatedAll; rw [domAll, extractList, serAll]
  | x :: xs, tag, h, hw => by
    unfold plainAll at h
    rw [Bool.and_eq_true] at h
    obtain ⟨h1, h2, -⟩ := wholeAll_cons hw
    unfold translatedAll
    rw [domAll, extractList_append, serAll_append, ser_extract tr o mode x tag h.1 h1, ser_extractAll tr o mode xs tag h.2 h2]
end

end Kajiki.StaticDoc

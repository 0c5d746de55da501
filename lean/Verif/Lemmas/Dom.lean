import Verif.Spec.Dom
import Verif.Lemmas.Dict
import Mathlib.Data.List.Forall2

/-! # Facts about documents -/

namespace Kajiki.Doms
open Kajiki Kajiki.Spec.Dom

/-! ## Expansion -/

theorem has_iff {α : Type} (d : Dict α) (k : Str) : d.has k = true ↔ k ∈ d.map (·.1) := by
  induction d with
  | nil => simp [Dict.has]
  | cons kv d ih =>
    obtain ⟨k', v⟩ := kv
    simp only [Dict.has, Dict.get_cons, List.map_cons, List.mem_cons]
    by_cases h : k' = k
    · simp [h]
    · simp only [if_neg h]
      rw [show (Dict.get d k).isSome = Dict.has d k from rfl, ih]
      exact ⟨Or.inr, fun h' => h'.resolve_left fun e => h e.symm⟩

/-- The directives of a list that are present, with the attributes of their elements. -/
def present (ds : List (Str × Str)) (attrs : Dict Str) : List (Str × Dict Str) :=
  ds.filterMap fun d => (attrs.get d.1).map fun v => (d.1, directiveAttrs d.2 v)

/-- The attributes without those of a list. -/
def without (ds : List (Str × Str)) (attrs : Dict Str) : Dict Str :=
  attrs.filter fun kv => !(ds.map (·.1)).contains kv.1

theorem present_del {ds : List (Str × Str)} {k : Str} (h : k ∉ ds.map (·.1)) (attrs : Dict Str) :
    present ds (attrs.del k) = present ds attrs := by
  unfold present
  induction ds with
  | nil => rfl
  | cons d ds ih =>
    rw [List.map_cons, List.mem_cons, not_or] at h
    rw [List.filterMap_cons, List.filterMap_cons, ih h.2, Dict.get_del, if_neg fun e => h.1 e]

theorem without_del (ds : List (Str × Str)) (d : Str × Str) (attrs : Dict Str) :
    without ds (attrs.del d.1) = without (d :: ds) attrs := by
  unfold without Dict.del
  rw [List.filter_filter]
  refine List.filter_congr fun kv _ => ?_
  simp only [List.map_cons, List.contains_cons, Bool.not_or]
  rw [Bool.and_comm]; rfl

theorem without_absent (ds : List (Str × Str)) (d : Str × Str) (attrs : Dict Str) (h : attrs.get d.1 = none) :
    without ds attrs = without (d :: ds) attrs := by
  rw [← without_del]
  congr 1
  unfold Dict.del
  symm
  rw [List.filter_eq_self]
  rintro ⟨k, v⟩ hm
  simp only [bne_iff_ne, ne_eq]
  rintro rfl
  have := (has_iff attrs d.1).2 (List.mem_map_of_mem (f := (·.1)) hm)
  rw [Dict.has, h] at this
  exact absurd this (by simp)

theorem wrapAll_eq (ln : Nat) (inner : Dict Str → DNode) :
    ∀ (ds : List (Str × Str)) (_ : (ds.map (·.1)).Nodup) (attrs : Dict Str),
      wrapAll ln inner ds attrs = nest ln (present ds attrs) (inner (without ds attrs))
  | [], _, attrs => by
    have : without [] attrs = attrs := by unfold without; rw [List.filter_eq_self]; intro a _; rfl
    rw [this]; rfl
  | (d, a) :: ds, h, attrs => by
    rw [List.map_cons, List.nodup_cons] at h
    cases hg : attrs.get d with
    | none =>
      rw [wrapAll, hg]
      dsimp only
      rw [wrapAll_eq ln inner ds h.2, without_absent ds (d, a) attrs hg]
      simp only [present, List.filterMap_cons, hg, Option.map_none]
    | some v =>
      rw [wrapAll, hg]
      dsimp only
      rw [wrapAll_eq ln inner ds h.2, present_del h.1, without_del ds (d, a) attrs]
      simp only [present, List.filterMap_cons, hg, Option.map_some, nest, List.foldr_cons]

theorem directives_nodup : (directives.map (·.1)).Nodup := by decide +kernel

theorem directives_order : directives.map (·.1) = order := by decide +kernel

/-- Ordinary tags are not directives. -/
theorem normTag_other {tag : Str} (h : tag ∉ order) (attrs : Dict Str) : normTag tag attrs = (tag, attrs) := by
  rw [normTag, Dict.get_none_of_not_mem (by rw [directives_order]; exact h)]

theorem nop_not_directive : nopTag ∉ order := by decide +kernel

/-- The tag after normalisation is not a directive. -/
theorem normTag_tag (tag : Str) (attrs : Dict Str) : (normTag tag attrs).1 ∉ order := by
  unfold normTag
  cases h : directives.get tag with
  | some a => exact nop_not_directive
  | none =>
    intro hm
    rw [← directives_order] at hm
    have := (has_iff directives tag).2 hm
    rw [Dict.has, h] at this
    exact absurd this (by simp)

theorem present_names (ds : List (Str × Str)) (attrs : Dict Str) :
    (present ds attrs).map (·.1) = (ds.map (·.1)).filter fun d => (attrs.map (·.1)).contains d := by
  unfold present
  induction ds with
  | nil => rfl
  | cons d ds ih =>
    simp only [List.filterMap_cons, List.map_cons, List.filter_cons]
    have hc : (attrs.map (·.1)).contains d.1 = (attrs.get d.1).isSome := by
      rw [Bool.eq_iff_iff, List.contains_iff_mem, ← has_iff]; rfl
    rw [hc]
    cases h : attrs.get d.1 with
    | none => simpa using ih
    | some v => simpa using ih

mutual
theorem expand_other : ∀ x : DNode, isElem x = false → expand x = x
  | .elem _ _ _ _, h => by cases h
  | .text _ _ _, _ => rfl
  | .cdata _ _, _ => rfl
  | .comment _ _, _ => rfl
  | .pi _ _ _, _ => rfl
end

theorem expand_elem (tag : Str) (attrs : Dict Str) (ln : Nat) (kids : List DNode) :
    expand (.elem tag attrs ln kids) =
      nest ln (present directives (pullExtends (normTag tag attrs).1 (normTag tag attrs).2 ln).1)
        (.elem (normTag tag attrs).1
          (without directives (pullExtends (normTag tag attrs).1 (normTag tag attrs).2 ln).1) ln
          ((pullExtends (normTag tag attrs).1 (normTag tag attrs).2 ln).2 ++ expandList kids)) := by
  rw [expand]
  exact wrapAll_eq ln _ directives directives_nodup _

theorem elements_nest (ln : Nat) (ws : List (Str × Dict Str)) (x : DNode) :
    elements (nest ln ws x) = ws ++ elements x := by
  induction ws with
  | nil => rfl
  | cons w ws ih => simp only [nest, List.foldr_cons, elements, elementsList, List.append_nil] at ih ⊢
                    rw [ih]; rfl

theorem elementsList_append (xs ys : List DNode) :
    elementsList (xs ++ ys) = elementsList xs ++ elementsList ys := by
  induction xs with
  | nil => rfl
  | cons x xs ih => simp [elementsList, ih]

/-- No attribute is a directive. -/
def Clean (e : Str × Dict Str) : Prop := ∀ k ∈ e.2.map (·.1), k ∉ order

theorem directive_attrs_clean : ∀ d ∈ directives, d.2 ∉ order := by decide +kernel

theorem present_clean (attrs : Dict Str) : ∀ e ∈ present directives attrs, Clean e := by
  intro e he k hk
  unfold present at he
  rw [List.mem_filterMap] at he
  obtain ⟨d, hd, hd'⟩ := he
  cases h : attrs.get d.1 with
  | none => rw [h] at hd'; cases hd'
  | some v =>
    rw [h] at hd'
    cases hd'
    unfold directiveAttrs at hk
    dsimp only at hk
    split at hk
    · cases hk
    · simp only [List.map_cons, List.map_nil, List.mem_singleton] at hk
      subst hk
      exact directive_attrs_clean d hd

theorem without_clean (tag : Str) (attrs : Dict Str) : Clean (tag, without directives attrs) := by
  intro k hk
  rw [List.mem_map] at hk
  obtain ⟨kv, hkv, rfl⟩ := hk
  unfold without at hkv
  rw [List.mem_filter] at hkv
  have := hkv.2
  rw [directives_order] at this
  simpa using this

theorem extendsChild_clean (v : Str) (ln : Nat) : ∀ e ∈ elements (extendsChild v ln), Clean e := by
  intro e he
  simp only [extendsChild, elements, elementsList, List.append_nil, List.mem_cons, List.not_mem_nil,
    or_false] at he
  have h : "href".toList ∉ order := by decide +kernel
  rcases he with rfl | rfl <;> · intro k hk; simp only [List.map_cons, List.map_nil, List.mem_singleton] at hk; subst hk; exact h

mutual
theorem expand_clean : ∀ x : DNode, ∀ e ∈ elements (expand x), Clean e
  | .elem tag attrs ln kids => by
    intro e he
    rw [expand_elem, elements_nest, List.mem_append] at he
    rcases he with he | he
    · exact present_clean _ e he
    · simp only [elements, List.mem_cons] at he
      rcases he with rfl | he
      · exact without_clean _ _
      · rw [elementsList_append, List.mem_append] at he
        rcases he with he | he
        · unfold pullExtends at he
          split at he
          · cases he
          · split at he
            · cases he
            · simp only [elementsList, List.append_nil] at he
              exact extendsChild_clean _ _ e he
        · exact expandList_clean kids e he
  | .text _ _ _ => by intro e he; cases he
  | .cdata _ _ => by intro e he; cases he
  | .comment _ _ => by intro e he; cases he
  | .pi _ _ _ => by intro e he; cases he
theorem expandList_clean : ∀ xs : List DNode, ∀ e ∈ elementsList (expandList xs), Clean e
  | [] => by intro e he; cases he
  | x :: xs => by
    intro e he
    simp only [expandList, elementsList, List.mem_append] at he
    exact he.elim (expand_clean x e) (expandList_clean xs e)
end

/-! ## The other steps keep the elements -/

theorem elements_squash (m : Option (Str × Bool × Nat)) (xs : List DNode) :
    elementsList (squash m xs) = elementsList xs := by
  fun_induction squash m xs <;> simp_all [elementsList, elements]

mutual
theorem elements_merge : ∀ x : DNode, elements (merge x) = elements x
  | .elem tag attrs ln kids => by
    simp only [merge, elements, elements_squash, elementsList_merge kids]
  | .text _ _ _ | .cdata _ _ | .comment _ _ | .pi _ _ _ => rfl
theorem elementsList_merge : ∀ xs : List DNode, elementsList (mergeList xs) = elementsList xs
  | [] => rfl
  | x :: xs => by simp only [mergeList, elementsList, elements_merge x, elementsList_merge xs]
end

theorem elements_splitText (d : Str) (e : Bool) (l : Nat) : elementsList (splitText d e l) = [] := by
  unfold splitText textUnlessEmpty
  simp only
  split
  · rfl
  · split <;> split <;> rfl

mutual
theorem elements_extract : ∀ x : DNode, elementsList (extract x) = elements x
  | .elem tag attrs ln kids => by
    simp only [extract, elementsList, elements, elementsList_extract kids, List.append_nil]
  | .text d e l => by rw [extract, elements_splitText]; rfl
  | .cdata _ _ | .comment _ _ | .pi _ _ _ => rfl
theorem elementsList_extract : ∀ xs : List DNode, elementsList (extractList xs) = elementsList xs
  | [] => rfl
  | x :: xs => by
    simp only [extractList, elementsList_append, elementsList, elements_extract x, elementsList_extract xs]
end

mutual
theorem elements_strip : ∀ x : DNode, elements (stripNode x) = elements x
  | .elem tag attrs ln kids => by
    simp only [stripNode, elements, elementsList_strip kids]
  | .text _ _ _ | .cdata _ _ | .comment _ _ | .pi _ _ _ => rfl
theorem elementsList_strip : ∀ xs : List DNode, elementsList (stripList xs) = elementsList xs
  | [] => rfl
  | x :: xs => by simp only [stripList, elementsList, elements_strip x, elementsList_strip xs]
end

theorem elements_misc {x : DNode} (h : isMisc x = true) : elements x = [] := by
  cases x <;> first | rfl | cases h

/-! ## Merging and expansion commute -/

theorem isElem_nest (ln : Nat) (ws : List (Str × Dict Str)) (x : DNode) (h : isElem x = true) :
    isElem (nest ln ws x) = true := by
  cases ws with
  | nil => exact h
  | cons w ws => rfl

theorem isElem_expand (tag : Str) (attrs : Dict Str) (ln : Nat) (kids : List DNode) :
    isElem (expand (.elem tag attrs ln kids)) = true := by
  rw [expand_elem]; exact isElem_nest _ _ _ rfl

theorem squash_elem (x : DNode) (h : isElem x = true) (m : Option (Str × Bool × Nat)) (xs : List DNode) :
    squash m (x :: xs) = squash m [] ++ x :: squash none xs := by
  cases x <;> first | cases h
  rcases m with _ | ⟨d, e, l⟩ <;> rfl

theorem expand_squash (m : Option (Str × Bool × Nat)) (xs : List DNode) :
    expandList (squash m xs) = squash m (expandList xs) := by
  induction xs generalizing m with
  | nil => rcases m with _ | ⟨d, e, l⟩ <;> rfl
  | cons x xs ih =>
    cases x with
    | elem t a l ks =>
      rw [squash_elem _ rfl, expandList, squash_elem _ (isElem_expand t a l ks), ← ih]
      rcases m with _ | ⟨d, e, l⟩ <;> rfl
    | text d e l => rcases m with _ | ⟨d', e', l'⟩ <;> exact ih _
    | cdata d l => rcases m with _ | ⟨d', e', l'⟩ <;> simp only [squash, expandList, expand, ih]
    | comment d l => rcases m with _ | ⟨d', e', l'⟩ <;> simp only [squash, expandList, expand, ih]
    | pi t d l => rcases m with _ | ⟨d', e', l'⟩ <;> simp only [squash, expandList, expand, ih]

theorem merge_nest (ln : Nat) (ws : List (Str × Dict Str)) (x : DNode) (h : isElem x = true) :
    merge (nest ln ws x) = nest ln ws (merge x) := by
  induction ws with
  | nil => rfl
  | cons w ws ih =>
    have h1 : isElem (nest ln ws (merge x)) = true := by
      apply isElem_nest
      cases x <;> first | rfl | cases h
    show merge (.elem w.1 w.2 ln [nest ln ws x]) = .elem w.1 w.2 ln [nest ln ws (merge x)]
    rw [merge, mergeList, mergeList, ih, squash_elem _ h1]
    rfl

theorem mergeList_append (xs ys : List DNode) : mergeList (xs ++ ys) = mergeList xs ++ mergeList ys := by
  induction xs with
  | nil => rfl
  | cons x xs ih => simp [mergeList, ih]

theorem pull_merge (tag : Str) (attrs : Dict Str) (ln : Nat) (ys : List DNode) :
    squash none (mergeList (pullExtends tag attrs ln).2 ++ ys) =
      (pullExtends tag attrs ln).2 ++ squash none ys := by
  unfold pullExtends
  split
  · rfl
  · split <;> rfl

mutual
theorem merge_expand : ∀ x : DNode, merge (expand x) = expand (merge x)
  | .elem tag attrs ln kids => by
    rw [expand_elem, merge_nest _ _ _ rfl]
    simp only [merge]
    rw [mergeList_append, pull_merge, mergeList_expand kids, expand_elem, expand_squash]
  | .text _ _ _ | .cdata _ _ | .comment _ _ | .pi _ _ _ => rfl
theorem mergeList_expand : ∀ xs : List DNode, mergeList (expandList xs) = expandList (mergeList xs)
  | [] => rfl
  | x :: xs => by simp only [expandList, mergeList, merge_expand x, mergeList_expand xs]
end

/-! ## Squashing -/

/-- The text collected so far, in front. -/
def pending : Option (Str × Bool × Nat) → List DNode
  | none => []
  | some (d, e, l) => [.text d e l]

theorem squash_pending (m : Option (Str × Bool × Nat)) (xs : List DNode) :
    squash m xs = squash none (pending m ++ xs) := by
  rcases m with _ | ⟨d, e, l⟩ <;> rfl

/-- Squashing a prefix first makes no difference. -/
theorem squash_append (m : Option (Str × Bool × Nat)) (xs ys : List DNode) :
    squash m (xs ++ ys) = squash none (squash m xs ++ ys) := by
  induction xs generalizing m with
  | nil => rcases m with _ | ⟨d, e, l⟩ <;> rfl
  | cons x xs ih =>
    cases x with
    | text d e l => rcases m with _ | ⟨d', e', l'⟩ <;> exact ih _
    | elem t a l ks => rcases m with _ | ⟨d', e', l'⟩ <;> simp only [squash, List.cons_append, ih]
    | cdata d l => rcases m with _ | ⟨d', e', l'⟩ <;> simp only [squash, List.cons_append, ih]
    | comment d l => rcases m with _ | ⟨d', e', l'⟩ <;> simp only [squash, List.cons_append, ih]
    | pi t d l => rcases m with _ | ⟨d', e', l'⟩ <;> simp only [squash, List.cons_append, ih]

theorem squash_congr {xs xs' : List DNode} (h : squash none xs = squash none xs') (ys : List DNode) :
    squash none (xs ++ ys) = squash none (xs' ++ ys) := by
  rw [squash_append, h, ← squash_append]

theorem squash_idem (m : Option (Str × Bool × Nat)) (xs : List DNode) :
    squash none (squash m xs) = squash m xs := by
  have h := squash_append m xs []
  rw [List.append_nil, List.append_nil] at h
  exact h.symm

theorem squash_some (d d' : Str) (e e' : Bool) (l l' : Nat) (xs : List DNode) :
    squash (some (d, e, l)) (squash (some (d', e', l')) xs) = squash (some (d ++ d', e, l)) xs := by
  induction xs generalizing d' with
  | nil => rfl
  | cons x xs ih =>
    cases x with
    | text d2 e2 l2 => simp only [squash]; rw [ih, List.append_assoc]
    | _ => simp only [squash, squash_idem]

theorem squash_squash (m : Option (Str × Bool × Nat)) (xs : List DNode) :
    squash m (squash none xs) = squash m xs := by
  rcases m with _ | ⟨d, e, l⟩
  · exact squash_idem none xs
  · cases xs with
    | nil => rfl
    | cons x xs =>
      cases x with
      | text d2 e2 l2 => simp only [squash]; rw [squash_some]
      | _ => simp only [squash, squash_idem]

/-- Squashing a suffix first makes no difference. -/
theorem squash_suffix (m : Option (Str × Bool × Nat)) (zs xs : List DNode) :
    squash m (zs ++ squash none xs) = squash m (zs ++ xs) := by
  induction zs generalizing m with
  | nil => exact squash_squash m xs
  | cons z zs ih => cases z <;> rcases m with _ | ⟨d, e, l⟩ <;> simp only [List.cons_append, squash, ih]

/-! ## Parsing -/

/-- The children of a node after merging. -/
abbrev nf (xs : List DNode) : List DNode := squash none (mergeList xs)

theorem nf_append {xs xs' : List DNode} (h : nf xs = nf xs') (ys : List DNode) :
    nf (xs ++ ys) = nf (xs' ++ ys) := by
  unfold nf; rw [mergeList_append, mergeList_append]; exact squash_congr h _

/-- Open elements that agree after merging. -/
def OpenEq (o o' : Open) : Prop := o.tag = o'.tag ∧ o.attrs = o'.attrs ∧ o.ln = o'.ln ∧ nf o.kids = nf o'.kids

/-- Parser states that agree after merging. -/
structure PEq (p p' : PState) : Prop where
  els : List.Forall₂ OpenEq p.els p'.els
  doc : nf p.doc = nf p'.doc
  cdata : p.cdata = p'.cdata

theorem OpenEq.refl (o : Open) : OpenEq o o := ⟨rfl, rfl, rfl, rfl⟩

theorem PEq.refl (p : PState) : PEq p p :=
  ⟨by induction p.els with
      | nil => exact .nil
      | cons o os ih => exact .cons (.refl o) ih, rfl, rfl⟩

theorem forall₂_flip {α β : Type} {R : α → β → Prop} {S : β → α → Prop} (h : ∀ a b, R a b → S b a) :
    ∀ {xs ys}, List.Forall₂ R xs ys → List.Forall₂ S ys xs
  | _, _, .nil => .nil
  | _, _, .cons h1 h2 => .cons (h _ _ h1) (forall₂_flip h h2)

theorem forall₂_comp {α β γ : Type} {R : α → β → Prop} {S : β → γ → Prop} {T : α → γ → Prop}
    (h : ∀ a b c, R a b → S b c → T a c) :
    ∀ {xs ys zs}, List.Forall₂ R xs ys → List.Forall₂ S ys zs → List.Forall₂ T xs zs
  | _, _, _, .nil, .nil => .nil
  | _, _, _, .cons h1 h2, .cons k1 k2 => .cons (h _ _ _ h1 k1) (forall₂_comp h h2 k2)

theorem PEq.symm {p p' : PState} (h : PEq p p') : PEq p' p :=
  ⟨forall₂_flip (fun _ _ h => ⟨h.1.symm, h.2.1.symm, h.2.2.1.symm, h.2.2.2.symm⟩) h.els, h.doc.symm,
    h.cdata.symm⟩

theorem PEq.trans {p p' p'' : PState} (h : PEq p p') (k : PEq p' p'') : PEq p p'' :=
  ⟨forall₂_comp (fun _ _ _ h k => ⟨h.1.trans k.1, h.2.1.trans k.2.1, h.2.2.1.trans k.2.2.1,
    h.2.2.2.trans k.2.2.2⟩) h.els k.els, h.doc.trans k.doc, h.cdata.trans k.cdata⟩

theorem PEq.append {p p' : PState} (h : PEq p p') {x y : DNode} (hxy : ∀ ks ks', nf ks = nf ks' →
    nf (ks ++ [x]) = nf (ks' ++ [y])) : PEq (p.append x) (p'.append y) := by
  obtain ⟨els, doc, cd⟩ := p
  obtain ⟨els', doc', cd'⟩ := p'
  obtain ⟨h1, h2, h3⟩ := h
  dsimp only at h1 h2 h3
  cases h1 with
  | nil => exact ⟨.nil, hxy _ _ h2, h3⟩
  | cons ho hs =>
    exact ⟨.cons ⟨ho.1, ho.2.1, ho.2.2.1, hxy _ _ ho.2.2.2⟩ hs, h2, h3⟩

theorem PEq.same {p p' : PState} (h : PEq p p') (x : DNode) : PEq (p.append x) (p'.append x) :=
  h.append fun _ _ h => nf_append h _

/-- Results that agree after merging. -/
def REq : Except Err PState → Except Err PState → Prop
  | .ok p, .ok p' => PEq p p'
  | .error e, .error e' => e = e'
  | _, _ => False

theorem PEq.event {p p' : PState} (h : PEq p p') (e : Event) : REq (p.event e) (p'.event e) := by
  cases e with
  | startElement name attrs ln => exact ⟨.cons (.refl _) h.els, h.doc, h.cdata⟩
  | endElement name =>
    obtain ⟨els, doc, cd⟩ := p
    obtain ⟨els', doc', cd'⟩ := p'
    obtain ⟨h1, h2, h3⟩ := h
    dsimp only at h1 h2 h3
    cases h1 with
    | nil => rfl
    | @cons o o' os os' ho hs =>
      simp only [PState.event, ho.1]
      split
      · exact PEq.append ⟨hs, h2, h3⟩ fun ks ks' hk => by
          rw [nf_append hk]
          unfold nf
          rw [mergeList_append, mergeList_append]
          simp only [mergeList, merge, ho.2.1, ho.2.2.1, ho.2.2.2]
      · rfl
  | characters c ln =>
    simp only [PState.event, PState.characters, h.cdata]
    exact h.same _
  | pi t d ln => exact h.same _
  | skippedEntity name ln =>
    simp only [PState.event, PState.characters, h.cdata]
    split
    · exact h.same _
    · rfl
  | comment t ln => exact h.same _
  | startCDATA ln =>
    have h' := h.same (.cdata "<![CDATA[".toList ln)
    exact ⟨h'.els, h'.doc, by simp only [h'.cdata]⟩
  | endCDATA ln =>
    have h' := h.same (.cdata "]]>".toList ln)
    simp only [PState.event, h'.cdata]
    split
    · rfl
    · exact ⟨h'.els, h'.doc, rfl⟩

theorem PEq.events {p p' : PState} (h : PEq p p') (es : List Event) : REq (p.events es) (p'.events es) := by
  induction es generalizing p p' with
  | nil => exact h
  | cons e es ih =>
    have he := h.event e
    rw [PState.events, PState.events]
    revert he
    cases p.event e <;> cases p'.event e <;> intro he
    · exact he
    · exact he.elim
    · exact he.elim
    · exact ih he

theorem saxEscape_append (a b : Str) : saxEscape (a ++ b) = saxEscape a ++ saxEscape b := by
  simp [saxEscape]

theorem append_append (p : PState) (x y : DNode) (z : DNode)
    (h : ∀ ks, nf (ks ++ [z]) = nf (ks ++ [x] ++ [y])) : PEq (p.append z) ((p.append x).append y) := by
  obtain ⟨els, doc, cd⟩ := p
  cases els with
  | nil => exact ⟨.nil, h _, rfl⟩
  | cons o os =>
    exact ⟨.cons ⟨rfl, rfl, rfl, h _⟩ (PEq.refl ⟨os, [], 0⟩).els, rfl, rfl⟩

theorem append_cdata (p : PState) (x : DNode) : (p.append x).cdata = p.cdata := by
  unfold PState.append; split <;> rfl

theorem characters_split (p : PState) (a b : Str) (l l' : Nat) :
    PEq (p.characters (a ++ b) l) ((p.characters a l).characters b l') := by
  unfold PState.characters
  simp only [append_cdata]
  refine append_append _ _ _ _ fun ks => ?_
  unfold nf
  simp only [mergeList_append, List.append_assoc]
  rw [squash_append, squash_append none (mergeList ks)]
  generalize squash none (mergeList ks) = zs
  rw [squash_append, squash_append none zs]
  simp only [mergeList, merge, List.nil_append, List.cons_append]
  have : ∀ zs : List DNode, ∀ d d1 d2 e l l', d = d1 ++ d2 →
      squash none (zs ++ [.text d e l]) = squash none (zs ++ [.text d1 e l, .text d2 e l']) := by
    intro zs d d1 d2 e l l' hd
    rw [squash_append, squash_append none zs]
    generalize squash none zs = ws
    subst hd
    suffices ∀ m, squash m (ws ++ [.text (d1 ++ d2) e l]) = squash m (ws ++ [.text d1 e l, .text d2 e l']) from
      this none
    induction ws with
    | nil => intro m; rcases m with _ | ⟨d, e, l⟩ <;> simp [squash]
    | cons w ws ih =>
      intro m
      cases w <;> rcases m with _ | ⟨d, e, l⟩ <;> simp only [List.cons_append, squash, ih]
  apply this
  split
  · exact saxEscape_append a b
  · rfl

theorem same_events {es es' : List Event} (h : SameEvents es es') :
    ∀ p : PState, REq (p.events es) (p.events es') := by
  have refl : ∀ r, REq r r := by
    intro r; cases r with
    | error e => rfl
    | ok p => exact PEq.refl p
  induction h with
  | refl es => exact fun p => refl _
  | split a b l l' es =>
    intro p
    exact (characters_split p a b l l').events es
  | @cons e es es' _ ih =>
    intro p
    rw [PState.events, PState.events]
    cases p.event e with
    | error e => rfl
    | ok p' => exact ih p'
  | @symm es es' _ ih =>
    intro p
    have := ih p
    revert this
    cases p.events es <;> cases p.events es' <;> intro h
    · exact h.symm
    · exact h.elim
    · exact h.elim
    · exact PEq.symm h
  | @trans es es' es'' _ _ ih1 ih2 =>
    intro p
    have h1 := ih1 p
    have h2 := ih2 p
    revert h1 h2
    cases p.events es <;> cases p.events es' <;> cases p.events es'' <;> intro h1 h2 <;>
      first | exact h1.elim | exact h2.elim | skip
    · exact Eq.trans h1 h2
    · exact PEq.trans h1 h2

/-- A text node. -/
def isTextNode : DNode → Bool
  | .text _ _ _ => true
  | _ => false

theorem squash_keeps_text (d : Str) (e : Bool) (l : Nat) (ws : List DNode) :
    ∃ d' e' l', DNode.text d' e' l' ∈ squash (some (d, e, l)) ws := by
  induction ws generalizing d with
  | nil => exact ⟨_, _, _, List.mem_singleton.2 rfl⟩
  | cons w ws ih =>
    cases w <;> first
      | exact ih _
      | exact ⟨_, _, _, List.mem_cons.2 (.inl rfl)⟩

/-- Without text nodes squashing does nothing. -/
theorem squash_no_text (xs : List DNode) (h : ∀ x ∈ squash none xs, isTextNode x = false) :
    squash none xs = xs := by
  induction xs with
  | nil => rfl
  | cons x xs ih =>
    cases x with
    | text d e l =>
      obtain ⟨d', e', l', hm⟩ := squash_keeps_text d e l xs
      exact absurd (h _ hm) (by simp [isTextNode])
    | elem t a l ks => simp only [squash, List.mem_cons, forall_eq_or_imp] at h ⊢; rw [ih h.2]
    | cdata d l => simp only [squash, List.mem_cons, forall_eq_or_imp] at h ⊢; rw [ih h.2]
    | comment d l => simp only [squash, List.mem_cons, forall_eq_or_imp] at h ⊢; rw [ih h.2]
    | pi t d l => simp only [squash, List.mem_cons, forall_eq_or_imp] at h ⊢; rw [ih h.2]

theorem squash_of_no_text (xs : List DNode) (h : ∀ x ∈ xs, isTextNode x = false) : squash none xs = xs := by
  induction xs with
  | nil => rfl
  | cons x xs ih =>
    have h1 := h x (by simp)
    have h2 := ih fun y hy => h y (by simp [hy])
    cases x <;> first | (simp only [squash, h2]; done) | cases h1

theorem mergeList_misc_back {ys zs : List DNode} (hz : ∀ z ∈ zs, isMisc z = true) (h : mergeList ys = zs) :
    ys = zs := by
  induction ys generalizing zs with
  | nil => exact h
  | cons y ys ih =>
    subst h
    simp only [mergeList, List.mem_cons, forall_eq_or_imp] at hz ⊢
    rw [← ih hz.2 rfl]
    have := hz.1
    cases y <;> first | rfl | cases this

theorem mergeList_misc {ys : List DNode} (hz : ∀ z ∈ ys, isMisc z = true) : mergeList ys = ys := by
  induction ys with
  | nil => rfl
  | cons y ys ih =>
    have h1 := hz y (by simp)
    have h2 := ih fun z h => hz z (by simp [h])
    cases y <;> first | (simp only [mergeList, merge, h2]; done) | cases h1

theorem misc_not_text {x : DNode} (h : isMisc x = true) : isTextNode x = false := by
  cases x <;> first | rfl | cases h

theorem elem_not_text {x : DNode} (h : isElem x = true) : isTextNode x = false := by
  cases x <;> first | rfl | cases h

theorem isElem_merge {x : DNode} (h : isElem x = true) : isElem (merge x) = true := by
  cases x <;> first | rfl | cases h

/-- Documents with the same merged children, one of them starting with the root element. -/
theorem nf_root {root : DNode} {rest ys : List DNode} (hroot : isElem root = true)
    (hrest : ∀ x ∈ rest, isMisc x = true) (h : nf (root :: rest) = nf ys) :
    ∃ y, ys = y :: rest ∧ merge y = merge root := by
  have h1 : nf (root :: rest) = merge root :: rest := by
    unfold nf
    rw [mergeList, mergeList_misc hrest]
    refine squash_of_no_text _ fun x hx => ?_
    rw [List.mem_cons] at hx
    rcases hx with rfl | hx
    · exact elem_not_text (isElem_merge hroot)
    · exact misc_not_text (hrest x hx)
  have h2 : nf ys = mergeList ys := by
    refine squash_no_text _ fun x hx => ?_
    have hx : x ∈ nf ys := hx
    rw [← h, h1, List.mem_cons] at hx
    rcases hx with rfl | hx
    · exact elem_not_text (isElem_merge hroot)
    · exact misc_not_text (hrest x hx)
  rw [h1, h2] at h
  cases ys with
  | nil => cases h
  | cons y ys =>
    simp only [mergeList, List.cons.injEq] at h
    exact ⟨y, by rw [mergeList_misc_back hrest h.2.symm], h.1.symm⟩

/-! ## Text content -/

theorem leavesList_append (xs ys : List DNode) : leavesList (xs ++ ys) = leavesList xs ++ leavesList ys := by
  induction xs with
  | nil => rfl
  | cons x xs ih => simp [leavesList, ih]

theorem textOf_append (xs ys : List DNode) : textOf (xs ++ ys) = textOf xs ++ textOf ys := by
  simp [textOf, leavesList_append]

theorem textOf_cons (x : DNode) (xs : List DNode) : textOf (x :: xs) = textOf [x] ++ textOf xs :=
  textOf_append [x] xs

theorem textOf_elem (t : Str) (a : Dict Str) (l : Nat) (ks : List DNode) : textOf [.elem t a l ks] = textOf ks := by
  simp [textOf, leavesList, leaves]

theorem textOf_text (d : Str) (e : Bool) (l : Nat) : textOf [.text d e l] = d := by
  simp [textOf, leavesList, leaves]

theorem textOf_squash (m : Option (Str × Bool × Nat)) (xs : List DNode) :
    textOf (squash m xs) = textOf (pending m) ++ textOf xs := by
  induction xs generalizing m with
  | nil => rcases m with _ | ⟨d, e, l⟩ <;> simp [squash, pending, textOf, leavesList, leaves]
  | cons x xs ih =>
    rw [textOf_cons x xs]
    cases x with
    | text d e l =>
      rcases m with _ | ⟨d', e', l'⟩
      · simp only [squash, ih, pending, textOf_text]; rfl
      · simp only [squash, ih, pending, textOf_text, List.append_assoc]
    | elem t a l ks =>
      rcases m with _ | ⟨d', e', l'⟩
      · simp only [squash]; rw [textOf_cons, ih]; rfl
      · simp only [squash]; rw [textOf_cons, textOf_cons (.elem t a l ks), ih]; rfl
    | cdata d l =>
      rcases m with _ | ⟨d', e', l'⟩
      · simp only [squash]; rw [textOf_cons, ih]; rfl
      · simp only [squash]; rw [textOf_cons, textOf_cons (.cdata d l), ih]; rfl
    | comment d l =>
      rcases m with _ | ⟨d', e', l'⟩
      · simp only [squash]; rw [textOf_cons, ih]; rfl
      · simp only [squash]; rw [textOf_cons, textOf_cons (.comment d l), ih]; rfl
    | pi t d l =>
      rcases m with _ | ⟨d', e', l'⟩
      · simp only [squash]; rw [textOf_cons, ih]; rfl
      · simp only [squash]; rw [textOf_cons, textOf_cons (.pi t d l), ih]; rfl

mutual
theorem textOf_merge : ∀ x : DNode, textOf [merge x] = textOf [x]
  | .elem t a l ks => by
    rw [merge, textOf_elem, textOf_squash, textOf_elem, textOf_mergeList ks]; rfl
  | .text _ _ _ | .cdata _ _ | .comment _ _ | .pi _ _ _ => rfl
theorem textOf_mergeList : ∀ xs : List DNode, textOf (mergeList xs) = textOf xs
  | [] => rfl
  | x :: xs => by rw [mergeList, textOf_cons, textOf_merge x, textOf_mergeList xs, ← textOf_cons]
end

theorem leaves_nest (ln : Nat) (ws : List (Str × Dict Str)) (x : DNode) : leaves (nest ln ws x) = leaves x := by
  induction ws with
  | nil => rfl
  | cons w ws ih =>
    show leaves (.elem w.1 w.2 ln [nest ln ws x]) = _
    rw [leaves, leavesList, leavesList, ih, List.append_nil]

mutual
theorem leaves_expand : ∀ x : DNode, leaves (expand x) = leaves x
  | .elem tag attrs ln kids => by
    rw [expand_elem, leaves_nest, leaves, leavesList_append, leaves_expandList kids, leaves]
    unfold pullExtends
    split
    · rfl
    · split <;> rfl
  | .text _ _ _ | .cdata _ _ | .comment _ _ | .pi _ _ _ => rfl
theorem leaves_expandList : ∀ xs : List DNode, leavesList (expandList xs) = leavesList xs
  | [] => rfl
  | x :: xs => by simp only [expandList, leavesList, leaves_expand x, leaves_expandList xs]
end

/-! ## Cutting text -/

theorem dropWhile_suffix {α : Type} (p : α → Bool) (l : List α) : l.takeWhile p ++ l.dropWhile p = l :=
  List.takeWhile_append_dropWhile

theorem take_lead (d : Str) : d.take (d.length - (lstrip d).length) = d.takeWhile isSpace := by
  have h := dropWhile_suffix isSpace d
  have hl : d.length = (d.takeWhile isSpace).length + (lstrip d).length := by
    conv_lhs => rw [← h]
    rw [List.length_append]; rfl
  rw [hl, Nat.add_sub_cancel]
  have h2 : ∀ a b c : Str, a ++ b = c → c.take a.length = a := by
    rintro a b c rfl; exact List.take_left
  exact h2 _ _ _ h

theorem lead_body (d : Str) : d.takeWhile isSpace ++ lstrip d = d := dropWhile_suffix isSpace d

/-- The whitespace at the end. -/
def trail (s : Str) : Str := (s.reverse.takeWhile isSpace).reverse

theorem core_trail (s : Str) : rstrip s ++ trail s = s := by
  have h := congrArg List.reverse (dropWhile_suffix isSpace s.reverse)
  rwa [List.reverse_append, List.reverse_reverse] at h

theorem trail_len (s : Str) : s.length - (s.length - (rstrip s).length) = (rstrip s).length := by
  have := congrArg List.length (core_trail s)
  rw [List.length_append] at this
  omega

theorem splitText_eq (d : Str) (e : Bool) (l : Nat) : splitText d e l =
    if (strip d).isEmpty then [.text d e l]
    else textUnlessEmpty (d.takeWhile isSpace) e l ++
      (.text (strip d) e (l + countNL (d.takeWhile isSpace)) ::
        textUnlessEmpty (trail (lstrip d)) e (l + countNL (d.takeWhile isSpace) + countNL (strip d))) := by
  unfold splitText
  simp only [take_lead, trail_len]
  have h0 : ∀ a b c : Str, a ++ b = c → c.take a.length = a ∧ c.drop a.length = b := by
    rintro a b c rfl; exact ⟨List.take_left, List.drop_left⟩
  have h1 : (lstrip d).take (rstrip (lstrip d)).length = strip d := (h0 _ _ _ (core_trail (lstrip d))).1
  have h2 : (lstrip d).drop (rstrip (lstrip d)).length = trail (lstrip d) := (h0 _ _ _ (core_trail (lstrip d))).2
  rw [h1, h2]
  rfl

theorem cut_lead_core_trail (d : Str) : d.takeWhile isSpace ++ (strip d ++ trail (lstrip d)) = d := by
  show _ ++ (rstrip (lstrip d) ++ _) = d
  rw [core_trail, lead_body]

theorem squash_splitText (d : Str) (e : Bool) (l : Nat) : squash none (splitText d e l) = [.text d e l] := by
  rw [splitText_eq]
  split
  · rfl
  · have h := cut_lead_core_trail d
    unfold textUnlessEmpty
    by_cases h1 : (d.takeWhile isSpace).isEmpty = true <;> by_cases h2 : (trail (lstrip d)).isEmpty = true
    all_goals
      simp only [h1, h2, if_true, if_false, Bool.false_eq_true, List.nil_append, List.cons_append, squash,
        List.append_assoc]
      simp only [List.isEmpty_iff] at h1 h2
    · rw [h1, h2, List.append_nil, List.nil_append] at h; rw [h, h1]; rfl
    · rw [h1, List.nil_append] at h; rw [h, h1]; rfl
    · rw [h2, List.append_nil] at h; rw [h]
    · rw [h]

theorem mem_takeWhile {α : Type} {p : α → Bool} {l : List α} {a : α} (h : a ∈ l.takeWhile p) : p a = true := by
  induction l with
  | nil => cases h
  | cons x xs ih =>
    rw [List.takeWhile_cons] at h
    split at h
    · rcases List.mem_cons.1 h with rfl | h
      · assumption
      · exact ih h
    · cases h

theorem head_dropWhile {α : Type} {p : α → Bool} {l : List α} {a : α} (h : (l.dropWhile p).head? = some a) :
    p a = false := by
  induction l with
  | nil => cases h
  | cons x xs ih =>
    rw [List.dropWhile_cons] at h
    split at h
    · exact ih h
    · rename_i hx; cases h; simpa using hx

theorem lstrip_of_head {s : Str} (h : ∀ c, s.head? = some c → isSpace c = false) : lstrip s = s := by
  cases s with
  | nil => rfl
  | cons c cs => simp [lstrip, h c rfl]

theorem rstrip_of_last {s : Str} (h : ∀ c, s.getLast? = some c → isSpace c = false) : rstrip s = s := by
  have := @lstrip_of_head s.reverse (by simpa using h)
  unfold lstrip at this
  rw [rstrip, this, List.reverse_reverse]

theorem rstrip_last {s : Str} (c : Char) (h : (rstrip s).getLast? = some c) : isSpace c = false := by
  rw [rstrip, List.getLast?_reverse] at h
  exact head_dropWhile h

theorem rstrip_head {s : Str} (hs : ∀ c, s.head? = some c → isSpace c = false) (c : Char)
    (h : (rstrip s).head? = some c) : isSpace c = false := by
  have h2 := core_trail s
  cases hr : rstrip s with
  | nil => rw [hr] at h; cases h
  | cons x xs =>
    rw [hr] at h h2
    cases h
    exact hs c (by rw [← h2]; rfl)

theorem strip_head (s : Str) (c : Char) (h : (strip s).head? = some c) : isSpace c = false :=
  rstrip_head (fun _ h => head_dropWhile h) c h

theorem strip_last (s : Str) (c : Char) (h : (strip s).getLast? = some c) : isSpace c = false :=
  rstrip_last c h

theorem strip_strip (s : Str) : strip (strip s) = strip s := by
  have h1 := lstrip_of_head (strip_head s)
  have h2 := rstrip_of_last (strip_last s)
  show rstrip (lstrip (strip s)) = strip s
  rw [h1, h2]

theorem lstrip_blank {s : Str} (h : ∀ c ∈ s, isSpace c = true) : lstrip s = [] := by
  induction s with
  | nil => rfl
  | cons c cs ih =>
    rw [lstrip, List.dropWhile_cons, if_pos (h c (by simp))]
    exact ih fun x hx => h x (by simp [hx])

theorem strip_blank {s : Str} (h : ∀ c ∈ s, isSpace c = true) : strip s = [] := by
  rw [strip, lstrip_blank h]; rfl

theorem trail_blank (s : Str) : ∀ c ∈ trail s, isSpace c = true := by
  intro c hc
  rw [trail, List.mem_reverse] at hc
  exact mem_takeWhile hc

theorem leaves_textUnlessEmpty (d : Str) (e : Bool) (l : Nat) :
    leavesList (textUnlessEmpty d e l) = if d.isEmpty then [] else [(d, l)] := by
  unfold textUnlessEmpty; split <;> rfl

theorem trimmedFrom (d : Str) (l : Nat) :
    TrimmedFrom (d, l) (strip d, l + countNL (d.takeWhile isSpace)) := by
  refine ⟨d.takeWhile isSpace, trail (lstrip d), ?_, rfl, ?_, strip_head d, strip_last d⟩
  · rw [List.append_assoc]; exact (cut_lead_core_trail d).symm
  · intro c hc
    rcases List.mem_append.1 hc with hc | hc
    · exact mem_takeWhile hc
    · exact trail_blank _ c hc

theorem countNL_append (a b : Str) : countNL (a ++ b) = countNL a + countNL b := List.count_append

theorem cutAt_splitText (d : Str) (e : Bool) (l : Nat) : CutAt (d, l) (leavesList (splitText d e l)) := by
  rw [splitText_eq]
  split
  · refine ⟨by simp [leavesList, leaves], ?_⟩
    intro before p after h
    simp only [leavesList, leaves, List.append_nil] at h
    cases before with
    | nil => cases h; rfl
    | cons b bs => rcases List.cons_eq_cons.1 h with ⟨_, h⟩; simp at h
  · have hcut := cut_lead_core_trail d
    rw [leavesList_append, leavesList, leaves, leaves_textUnlessEmpty, leaves_textUnlessEmpty]
    generalize d.takeWhile isSpace = a at hcut ⊢
    generalize strip d = b at hcut ⊢
    generalize trail (lstrip d) = c at hcut ⊢
    have h3 : ∀ (xs before after : List (Str × Nat)) p, xs = before ++ p :: after →
        ∃ i, xs[i]? = some p ∧ before = xs.take i := by
      rintro xs before after p rfl
      exact ⟨before.length, by simp, by simp⟩
    by_cases h1 : a.isEmpty = true <;> by_cases h2 : c.isEmpty = true
    all_goals
      simp only [h1, h2, if_true, if_false, Bool.false_eq_true, List.nil_append, List.cons_append,
        List.append_nil]
      simp only [List.isEmpty_iff] at h1 h2
      subst hcut
      refine ⟨by simp [h1, h2], fun before p after h => ?_⟩
      obtain ⟨i, hi, rfl⟩ := h3 _ _ _ _ h
      rcases i with _ | _ | _ | i
      all_goals simp at hi
      all_goals try subst hi
      all_goals simp [h1, countNL]
    all_goals omega

end Kajiki.Doms

import Verif.Lemmas.XmlCompile
import Verif.Lemmas.Dom

/-!
# The transformation and the character data directly inside elements
-/

namespace Kajiki.XmlComp
open Kajiki.Spec.XmlCompile

/-- Every element is an element of `ys` up to names of directives, or has no text of its own. -/
def From (xs ys : List (Str × Str)) : Prop :=
  ∀ x ∈ xs, x.2 = [] ∨ ∃ y ∈ ys, y.2 = x.2 ∧ cdataTags.contains y.1 = cdataTags.contains x.1

theorem From.refl (xs : List (Str × Str)) : From xs xs := fun x hx => .inr ⟨x, hx, rfl, rfl⟩

theorem From.trans {xs ys zs : List (Str × Str)} (h : From xs ys) (h2 : From ys zs) : From xs zs := by
  intro x hx
  rcases h x hx with h | ⟨y, hy, e1, e2⟩
  · exact .inl h
  · rcases h2 y hy with h | ⟨z, hz, e3, e4⟩
    · exact .inl (e1 ▸ h)
    · exact .inr ⟨z, hz, e3.trans e1, e4.trans e2⟩

theorem From.append {a b c d : List (Str × Str)} (h : From a c) (h2 : From b d) : From (a ++ b) (c ++ d) := by
  intro x hx
  rcases List.mem_append.1 hx with hx | hx
  · exact (h x hx).imp id fun ⟨y, hy, e⟩ => ⟨y, List.mem_append_left _ hy, e⟩
  · exact (h2 x hx).imp id fun ⟨y, hy, e⟩ => ⟨y, List.mem_append_right _ hy, e⟩

theorem From.of_eq {xs ys : List (Str × Str)} (h : xs = ys) : From xs ys := h ▸ .refl _

theorem ownText_append (xs ys : List DNode) : ownText (xs ++ ys) = ownText xs ++ ownText ys := by
  induction xs with
  | nil => rfl
  | cons x xs ih => cases x <;> simp [ownText, ih]

theorem ownTextsList_append (xs ys : List DNode) :
    ownTextsList (xs ++ ys) = ownTextsList xs ++ ownTextsList ys := by
  induction xs with
  | nil => rfl
  | cons x xs ih => simp [ownTextsList, ih]

/-! ### expand -/

/-- The node is an element. -/
def isElem : DNode → Bool
  | .elem _ _ _ _ => true
  | _ => false

theorem ownText_elem {x : DNode} (h : isElem x = true) (xs : List DNode) : ownText (x :: xs) = ownText xs := by
  cases x <;> first | rfl | cases h

theorem wrapAll_elem (ln : Nat) {inner : Dict Str → DNode} (h : ∀ a, isElem (inner a) = true)
    (ds : List (Str × Str)) (as : Dict Str) : isElem (wrapAll ln inner ds as) = true := by
  induction ds generalizing as with
  | nil => exact h as
  | cons d ds ih =>
    simp only [wrapAll]
    split
    · exact ih _
    · rfl

theorem wrapAll_from (ln : Nat) {inner : Dict Str → DNode} (h : ∀ a, isElem (inner a) = true)
    {ys : List (Str × Str)} (hi : ∀ a, From (ownTexts (inner a)) ys)
    (ds : List (Str × Str)) (as : Dict Str) : From (ownTexts (wrapAll ln inner ds as)) ys := by
  induction ds generalizing as with
  | nil => exact hi as
  | cons d ds ih =>
    simp only [wrapAll]
    split
    · exact ih _
    · intro x hx
      simp only [ownTexts, ownTextsList, List.append_nil, List.mem_cons] at hx
      rcases hx with rfl | hx
      · left
        rw [ownText_elem (wrapAll_elem ln h ds _)]
        rfl
      · exact ih _ x hx

theorem normTag_cdata (tag : Str) (attrs : Dict Str) :
    cdataTags.contains tag = cdataTags.contains (normTag tag attrs).1 := by
  unfold normTag
  split
  · next a h =>
    have hm : tag ∈ directives.map (·.1) := List.mem_map_of_mem (f := (·.1)) (Dict.get_eq_some_mem h)
    have : ∀ t ∈ directives.map (·.1), cdataTags.contains t = cdataTags.contains nopTag := by decide +kernel
    exact this tag hm
  · rfl

theorem pull_own (tag : Str) (attrs : Dict Str) (ln : Nat) :
    ownText (pullExtends tag attrs ln).2 = [] ∧
      ∀ x ∈ ownTextsList (pullExtends tag attrs ln).2, x.2 = [] := by
  unfold pullExtends
  split
  · simp [ownText, ownTextsList]
  · split
    · simp [ownText, ownTextsList]
    · simp [ownText, ownTextsList, extendsChild, ownTexts]

theorem ownText_expandList (xs : List DNode) : ownText (expandList xs) = ownText xs := by
  induction xs with
  | nil => rfl
  | cons x xs ih =>
    cases x with
    | elem tag attrs ln kids =>
      simp only [expandList, expand]
      rw [ownText_elem (wrapAll_elem ln (fun _ => rfl) _ _), ih]
      rfl
    | _ => simp only [expandList, expand, ownText, ih]

mutual
theorem ownTexts_expand (x : DNode) : From (ownTexts (expand x)) (ownTexts x) := by
  cases x with
  | elem tag attrs ln kids =>
    simp only [expand]
    refine wrapAll_from ln (fun _ => rfl) (fun a => ?_) _ _
    obtain ⟨h1, h2⟩ := pull_own (normTag tag attrs).1 (normTag tag attrs).2 ln
    simp only [ownTexts, ownText_append, ownTextsList_append, h1, List.nil_append, ownText_expandList]
    intro x hx
    simp only [List.mem_cons, List.mem_append] at hx
    rcases hx with rfl | hx | hx
    · exact .inr ⟨_, List.mem_cons_self, rfl, normTag_cdata tag attrs⟩
    · exact .inl (h2 x hx)
    · exact (ownTextsList_expand kids x hx).imp id fun ⟨y, hy, e⟩ => ⟨y, List.mem_cons_of_mem _ hy, e⟩
  | _ => simp only [expand]; exact .refl _

theorem ownTextsList_expand (xs : List DNode) : From (ownTextsList (expandList xs)) (ownTextsList xs) := by
  cases xs with
  | nil => exact .refl _
  | cons x xs =>
    simp only [expandList, ownTextsList]
    exact (ownTexts_expand x).append (ownTextsList_expand xs)
end

/-! ### merge -/

/-- The text collected so far. -/
def pendingText : Option (Str × Bool × Nat) → Str
  | none => []
  | some (d, _, _) => d

theorem ownText_squash (p : Option (Str × Bool × Nat)) (xs : List DNode) :
    ownText (squash p xs) = pendingText p ++ ownText xs := by
  induction xs generalizing p with
  | nil => rcases p with _ | ⟨d, e, l⟩ <;> simp [squash, ownText, pendingText]
  | cons x xs ih =>
    cases x <;> rcases p with _ | ⟨d, e, l⟩ <;> simp [squash, ownText, pendingText, ih]

theorem ownTextsList_squash (p : Option (Str × Bool × Nat)) (xs : List DNode) :
    ownTextsList (squash p xs) = ownTextsList xs := by
  induction xs generalizing p with
  | nil => rcases p with _ | ⟨d, e, l⟩ <;> simp [squash, ownTextsList, ownTexts]
  | cons x xs ih =>
    cases x <;> rcases p with _ | ⟨d, e, l⟩ <;> simp [squash, ownTextsList, ownTexts, ih]

theorem ownText_mergeList (xs : List DNode) : ownText (mergeList xs) = ownText xs := by
  induction xs with
  | nil => rfl
  | cons x xs ih => cases x <;> simp only [mergeList, merge, ownText, ih]

mutual
theorem ownTexts_merge (x : DNode) : ownTexts (merge x) = ownTexts x := by
  cases x with
  | elem tag attrs ln kids =>
    simp only [merge, ownTexts, ownText_squash, ownTextsList_squash, pendingText, List.nil_append,
      ownText_mergeList, ownTextsList_merge kids]
  | _ => rfl

theorem ownTextsList_merge (xs : List DNode) : ownTextsList (mergeList xs) = ownTextsList xs := by
  cases xs with
  | nil => rfl
  | cons x xs => simp only [mergeList, ownTextsList, ownTexts_merge x, ownTextsList_merge xs]
end

/-! ### extract -/

theorem own_unlessEmpty (d : Str) (e : Bool) (l : Nat) :
    ownText (textUnlessEmpty d e l) = d ∧ ownTextsList (textUnlessEmpty d e l) = [] := by
  unfold textUnlessEmpty
  cases d <;> simp [ownText, ownTextsList, ownTexts]

theorem own_splitText (d : Str) (e : Bool) (l : Nat) :
    ownText (splitText d e l) = d ∧ ownTextsList (splitText d e l) = [] := by
  rw [Doms.splitText_eq]
  split
  · simp [ownText, ownTextsList, ownTexts]
  · refine ⟨?_, ?_⟩
    · rw [ownText_append, (own_unlessEmpty _ _ _).1, ownText, (own_unlessEmpty _ _ _).1]
      exact Doms.cut_lead_core_trail d
    · rw [ownTextsList_append, (own_unlessEmpty _ _ _).2, ownTextsList, (own_unlessEmpty _ _ _).2]
      rfl

theorem ownText_extractList (xs : List DNode) : ownText (extractList xs) = ownText xs := by
  induction xs with
  | nil => rfl
  | cons x xs ih =>
    cases x <;> simp [extractList, extract, ownText_append, ownText, ih, (own_splitText _ _ _).1]

mutual
theorem ownTexts_extract (x : DNode) : ownTextsList (extract x) = ownTexts x := by
  cases x with
  | elem tag attrs ln kids =>
    simp only [extract, ownTextsList, ownTexts, ownText_extractList, ownTextsList_extract kids, List.append_nil]
  | text d e l => simp only [extract, (own_splitText _ _ _).2, ownTexts]
  | _ => rfl

theorem ownTextsList_extract (xs : List DNode) : ownTextsList (extractList xs) = ownTextsList xs := by
  cases xs with
  | nil => rfl
  | cons x xs =>
    simp only [extractList, ownTextsList, ownTextsList_append, ownTexts_extract x, ownTextsList_extract xs]
end

/-! ### strip, and texts -/

theorem strip_infix (d : Str) : strip d <:+: d := by
  refine ⟨d.takeWhile isSpace, Doms.trail (lstrip d), ?_⟩
  rw [List.append_assoc]
  exact Doms.cut_lead_core_trail d

mutual
theorem parentTexts_strip (p : Str) (x : DNode) :
    ∀ a ∈ parentTexts p (stripNode x), ∃ b ∈ parentTexts p x, a.1 = b.1 ∧ a.2 <:+: b.2 := by
  cases x with
  | elem tag attrs ln kids =>
    simp only [stripNode, parentTexts]
    exact parentTextsList_strip tag kids
  | text d e l =>
    simp only [stripNode, parentTexts, List.mem_singleton]
    rintro a rfl
    exact ⟨_, rfl, rfl, strip_infix d⟩
  | _ => exact fun a ha => ⟨a, ha, rfl, List.infix_rfl⟩

theorem parentTextsList_strip (p : Str) (xs : List DNode) :
    ∀ a ∈ parentTextsList p (stripList xs), ∃ b ∈ parentTextsList p xs, a.1 = b.1 ∧ a.2 <:+: b.2 := by
  cases xs with
  | nil => intro a ha; cases ha
  | cons x xs =>
    simp only [stripList, parentTextsList, List.mem_append]
    rintro a (ha | ha)
    · obtain ⟨b, hb, h⟩ := parentTexts_strip p x a ha
      exact ⟨b, .inl hb, h⟩
    · obtain ⟨b, hb, h⟩ := parentTextsList_strip p xs a ha
      exact ⟨b, .inr hb, h⟩
end

mutual
/-- A text is directly inside an element of the tree, or is the tree. -/
theorem parentTexts_own (p : Str) (x : DNode) : ∀ a ∈ parentTexts p x,
    (∃ b ∈ ownTexts x, a.1 = b.1 ∧ a.2 <:+: b.2) ∨ (a.1 = p ∧ ∀ xs, a.2 <:+: ownText (x :: xs)) := by
  cases x with
  | elem tag attrs ln kids =>
    simp only [parentTexts]
    intro a ha
    left
    rcases parentTextsList_own tag kids a ha with ⟨b, hb, h⟩ | ⟨h1, h2⟩
    · exact ⟨b, List.mem_cons_of_mem _ hb, h⟩
    · exact ⟨_, List.mem_cons_self, h1, h2⟩
  | text d e l =>
    simp only [parentTexts, List.mem_singleton]
    rintro a rfl
    exact .inr ⟨rfl, fun xs => (List.prefix_append d _).isInfix⟩
  | cdata d l =>
    simp only [parentTexts, List.mem_singleton]
    rintro a rfl
    exact .inr ⟨rfl, fun xs => (List.prefix_append d _).isInfix⟩
  | _ => simp [parentTexts]

theorem parentTextsList_own (p : Str) (xs : List DNode) : ∀ a ∈ parentTextsList p xs,
    (∃ b ∈ ownTextsList xs, a.1 = b.1 ∧ a.2 <:+: b.2) ∨ (a.1 = p ∧ a.2 <:+: ownText xs) := by
  cases xs with
  | nil => intro a ha; cases ha
  | cons x xs =>
    simp only [parentTextsList, ownTextsList, List.mem_append]
    rintro a (ha | ha)
    · rcases parentTexts_own p x a ha with ⟨b, hb, h⟩ | ⟨h1, h2⟩
      · exact .inl ⟨b, .inl hb, h⟩
      · exact .inr ⟨h1, h2 xs⟩
    · rcases parentTextsList_own p xs a ha with ⟨b, hb, h⟩ | ⟨h1, h2⟩
      · exact .inl ⟨b, .inr hb, h⟩
      · refine .inr ⟨h1, h2.trans ?_⟩
        cases x <;> simp only [ownText] <;> first | exact List.infix_rfl | exact (List.suffix_append _ _).isInfix
end

theorem transform_own (doc : Doc) : From
    (ownTextsList (extractList (onFirst merge (onFirst expand doc.kids)))) (ownTextsList doc.kids) := by
  rw [ownTextsList_extract]
  cases doc.kids with
  | nil => exact .refl _
  | cons x xs =>
    simp only [onFirst, ownTextsList, ownTexts_merge]
    exact (ownTexts_expand x).append (.refl _)

end Kajiki.XmlComp

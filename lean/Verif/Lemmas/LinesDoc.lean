import Verif.Lemmas.Lines
import Verif.Lemmas.Dom

/-!
# Lines of texts through the transformations of a document
-/

namespace Kajiki.LinesL
open Kajiki.Spec.Lines Kajiki.Doms

theorem within_refl (p : Str × Nat) : Within p p := ⟨[], [], by simp, by simp [countNL]⟩

theorem within_trans {a b c : Str × Nat} (h : Within a b) (k : Within b c) : Within a c := by
  obtain ⟨x, y, h1, h2⟩ := h
  obtain ⟨u, v, k1, k2⟩ := k
  refine ⟨x ++ u, v ++ y, by rw [h1, k1]; simp, ?_⟩
  rw [k2, h2, countNL_append]
  omega

theorem within_atOnce {w p : Str × Nat} (h : Within w p) (hs : StartAtOnce w.1) : StartAtOnce p.1 := by
  obtain ⟨x, y, h1, -⟩ := h
  intro a ws b hp
  refine hs (x ++ a) ws (b ++ y) ?_
  rw [h1, hp]
  simp

/-- A node that is an element. -/
def IsElem : DNode → Prop
  | .elem .. => True
  | _ => False

theorem squash_one (x : DNode) : squash none [x] = [x] := by
  cases x <;> rfl

theorem elem_wrap (ln : Nat) (inner : Dict Str → DNode) (hi : ∀ a, IsElem (inner a)) (ds : List (Str × Str)) (a : Dict Str) :
    IsElem (wrapAll ln inner ds a) := by
  induction ds generalizing a with
  | nil => exact hi a
  | cons d ds ih =>
    obtain ⟨d1, d2⟩ := d
    simp only [wrapAll]
    split
    · exact ih a
    · trivial

theorem elem_merge {x : DNode} (h : IsElem x) : IsElem (merge x) := by
  cases x <;> (rw [merge]; exact h)

theorem texts_wrap (ln : Nat) (inner : Dict Str → DNode) (T : List (Str × Nat))
    (hT : ∀ a, texts (merge (inner a)) = T) (ds : List (Str × Str)) (a : Dict Str) :
    texts (merge (wrapAll ln inner ds a)) = T := by
  induction ds generalizing a with
  | nil => exact hT a
  | cons d ds ih =>
    obtain ⟨d1, d2⟩ := d
    simp only [wrapAll]
    split
    · exact ih a
    · rw [merge, mergeList, mergeList, squash_one, texts, textsList, textsList, ih,
        List.append_nil]

theorem squash_elem {x : DNode} (h : IsElem x) (m : Option (Str × Bool × Nat)) (xs : List DNode) :
    squash m (x :: xs) = squash m [] ++ x :: squash none xs := by
  cases x with
  | elem t a l ks => rcases m with _ | ⟨d, e, l⟩ <;> simp [squash]
  | _ => cases h

mutual
theorem texts_joined : ∀ x : DNode, texts (merge (expand x)) = joined x
  | .elem tag attrs ln kids => by
    rw [expand]
    refine texts_wrap ln _ _ (fun a => ?_) _ _
    rw [merge, texts, joined]
    have h : ∀ ys, (∀ y ∈ ys, IsElem y ∧ texts (merge y) = []) →
        textsList (squash none (mergeList (ys ++ expandList kids))) = joinedKids none kids := by
      intro ys hy
      induction ys with
      | nil => rw [List.nil_append]; exact texts_joinedKids none kids
      | cons y ys ih =>
        have hy' := hy y List.mem_cons_self
        rw [List.cons_append, mergeList, squash_elem (elem_merge hy'.1)]
        simp only [squash, List.nil_append, textsList]
        rw [hy'.2, List.nil_append]
        exact ih fun y k => hy y (List.mem_cons_of_mem _ k)
    refine h _ fun y hy => ?_
    unfold pullExtends at hy
    split at hy
    · simp at hy
    · split at hy
      · simp at hy
      · simp only [List.mem_singleton] at hy
        subst hy
        exact ⟨trivial, rfl⟩
  | .text _ _ _ | .cdata _ _ | .comment _ _ | .pi _ _ _ => rfl

theorem texts_joinedKids : ∀ (m : Option (Str × Bool × Nat)) (xs : List DNode),
    textsList (squash m (mergeList (expandList xs))) = joinedKids (m.map fun p => (p.1, p.2.2)) xs
  | m, [] => by
    rcases m with _ | ⟨d, e, l⟩ <;> simp [expandList, mergeList, squash, joinedKids, textsList, texts]
  | m, .text d e l :: xs => by
    rw [expandList, expand, mergeList, merge]
    rcases m with _ | ⟨d', e', l'⟩
    · rw [squash, texts_joinedKids]; rfl
    · rw [squash, texts_joinedKids]; rfl
  | m, .elem t a l ks :: xs => by
    have he : IsElem (merge (expand (.elem t a l ks))) := by
      rw [expand]
      refine elem_merge (elem_wrap _ _ (fun _ => ?_) _ _)
      exact True.intro
    rw [expandList, mergeList, squash_elem he]
    have h1 := texts_joined (.elem t a l ks)
    have h2 := texts_joinedKids none xs
    rcases m with _ | ⟨d, e, l'⟩
    · simp only [squash, List.nil_append, textsList, h1, h2, joinedKids, Option.map_none, Option.toList_none]
    · simp only [squash, List.cons_append, List.nil_append, textsList, texts, h1, h2, joinedKids, Option.map_some, Option.map_none,
        Option.toList_some]
  | m, .cdata d l :: xs => by
    have h2 := texts_joinedKids none xs
    rw [expandList, expand, mergeList, merge]
    rcases m with _ | ⟨d', e, l'⟩ <;>
      simp only [squash, textsList, texts, h2, joinedKids, joined, Option.map_none, Option.map_some, Option.toList_none,
        Option.toList_some, List.nil_append, List.cons_append]
  | m, .comment d l :: xs => by
    have h2 := texts_joinedKids none xs
    rw [expandList, expand, mergeList, merge]
    rcases m with _ | ⟨d', e, l'⟩ <;>
      simp only [squash, textsList, texts, h2, joinedKids, joined, Option.map_none, Option.map_some, Option.toList_none,
        Option.toList_some, List.nil_append, List.cons_append, List.append_nil]
  | m, .pi t d l :: xs => by
    have h2 := texts_joinedKids none xs
    rw [expandList, expand, mergeList, merge]
    rcases m with _ | ⟨d', e, l'⟩ <;>
      simp only [squash, textsList, texts, h2, joinedKids, joined, Option.map_none, Option.map_some, Option.toList_none,
        Option.toList_some, List.nil_append, List.cons_append, List.append_nil]
end

theorem textsList_append (xs ys : List DNode) : textsList (xs ++ ys) = textsList xs ++ textsList ys := by
  induction xs with
  | nil => rfl
  | cons x xs ih => rw [List.cons_append, textsList, textsList, ih, List.append_assoc]

/-- Splitting a text. -/
theorem split_within (d : Str) (e : Bool) (l : Nat) : ∀ p ∈ textsList (splitText d e l), Within (d, l) p := by
  intro p hp
  have hs : ∀ q : Str × Nat, q ∈ Kajiki.Spec.Dom.leavesList (splitText d e l) → Within (d, l) q := by
    intro q hq
    obtain ⟨h1, h2⟩ := cutAt_splitText d e l
    obtain ⟨a, b, hab⟩ := List.append_of_mem hq
    refine ⟨((a.map (·.1)).flatten), ((b.map (·.1)).flatten), ?_, h2 a q b hab⟩
    rw [← h1, hab]
    simp
  refine hs p ?_
  have ht : ∀ (d : Str) (l : Nat), textsList (textUnlessEmpty d e l) = Kajiki.Spec.Dom.leavesList (textUnlessEmpty d e l) := by
    intro d l
    unfold textUnlessEmpty
    split <;> rfl
  have : textsList (splitText d e l) = Kajiki.Spec.Dom.leavesList (splitText d e l) := by
    unfold splitText
    split
    · rfl
    · simp only [textsList_append, leavesList_append, textsList, Kajiki.Spec.Dom.leavesList, ht, texts, Kajiki.Spec.Dom.leaves]
  rw [← this]
  exact hp

mutual
theorem extract_within : ∀ x : DNode, ∀ p ∈ textsList (extract x), ∃ w ∈ texts x, Within w p
  | .elem t a l ks => by
    intro p hp
    rw [extract, textsList, texts, textsList, List.append_nil] at hp
    rw [texts]
    exact extractList_within ks p hp
  | .text d e l => fun p hp => ⟨(d, l), by simp [texts], split_within d e l p hp⟩
  | .cdata d l => fun p hp => ⟨p, by simpa [extract, textsList, texts] using hp, within_refl p⟩
  | .comment d l => fun p hp => by simp [extract, textsList, texts] at hp
  | .pi t d l => fun p hp => by simp [extract, textsList, texts] at hp

theorem extractList_within : ∀ xs : List DNode, ∀ p ∈ textsList (extractList xs), ∃ w ∈ textsList xs, Within w p
  | [] => fun p hp => by simp [extractList, textsList] at hp
  | x :: xs => by
    intro p hp
    rw [extractList, textsList_append] at hp
    rw [textsList]
    rcases List.mem_append.1 hp with hp | hp
    · obtain ⟨w, hw, h⟩ := extract_within x p hp
      exact ⟨w, List.mem_append_left _ hw, h⟩
    · obtain ⟨w, hw, h⟩ := extractList_within xs p hp
      exact ⟨w, List.mem_append_right _ hw, h⟩
end

theorem trim_within (d : Str) (l : Nat) : Within (d, l) (strip d, l + countNL (d.take (d.length - (lstrip d).length))) := by
  rw [take_lead]
  obtain ⟨a, b, h1, h2, -⟩ := trimmedFrom d l
  exact ⟨a, b, h1, h2⟩

mutual
theorem strip_within : ∀ x : DNode, ∀ p ∈ texts (stripNode x), ∃ w ∈ texts x, Within w p
  | .elem t a l ks => by
    intro p hp
    rw [stripNode, texts] at hp
    rw [texts]
    exact stripList_within ks p hp
  | .text d e l => by
    intro p hp
    rw [stripNode, texts, List.mem_singleton] at hp
    subst hp
    exact ⟨(d, l), by simp [texts], trim_within d l⟩
  | .cdata d l => fun p hp => ⟨p, hp, within_refl p⟩
  | .comment d l => fun p hp => by simp [stripNode, texts] at hp
  | .pi t d l => fun p hp => by simp [stripNode, texts] at hp

theorem stripList_within : ∀ xs : List DNode, ∀ p ∈ textsList (stripList xs), ∃ w ∈ textsList xs, Within w p
  | [] => fun p hp => by simp [stripList, textsList] at hp
  | x :: xs => by
    intro p hp
    rw [stripList, textsList] at hp
    rw [textsList]
    rcases List.mem_append.1 hp with hp | hp
    · obtain ⟨w, hw, h⟩ := strip_within x p hp
      exact ⟨w, List.mem_append_left _ hw, h⟩
    · obtain ⟨w, hw, h⟩ := stripList_within xs p hp
      exact ⟨w, List.mem_append_right _ hw, h⟩
end

theorem transform_within (s : Bool) (dtd : Str) (root : DNode) (rest : List DNode) :
    ∀ p ∈ textsList (transform s ⟨dtd, root :: rest⟩).kids, ∃ w ∈ joined root ++ textsList rest, Within w p := by
  have h : ∀ p ∈ textsList (extractList (onFirst merge (onFirst expand (root :: rest)))),
      ∃ w ∈ joined root ++ textsList rest, Within w p := by
    intro p hp
    obtain ⟨w, hw, k⟩ := extractList_within _ p hp
    rw [onFirst, onFirst, textsList, texts_joined] at hw
    exact ⟨w, hw, k⟩
  intro p hp
  unfold transform at hp
  dsimp only at hp
  split at hp
  · obtain ⟨w, hw, k⟩ := stripList_within _ p hp
    obtain ⟨v, hv, k'⟩ := h w hw
    exact ⟨v, hv, within_trans k' k⟩
  · exact h p hp

end Kajiki.LinesL

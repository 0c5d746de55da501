import Verif.Spec.Forms
import Verif.Lemmas.Dom
import Verif.Lemmas.XmlElem

/-! # Trees that differ by `py:nop` elements -/

namespace Kajiki.XmlComp
open Kajiki.Spec.Dom Kajiki.Spec.Forms Kajiki.Doms

mutual
/-- The second tree has additional `py:nop` elements directly below directives. -/
inductive Nops : DNode → DNode → Prop
  | leaf {x : DNode} (h : isElem x = false) : Nops x x
  | same {tag : Str} {attrs : Dict Str} {ln : Nat} {ks ks' : List DNode} (h : NopsList ks ks') :
      Nops (.elem tag attrs ln ks) (.elem tag attrs ln ks')
  | wrap {d : Str} {as as' : Dict Str} {ln : Nat} {t : Str} {a2 : Dict Str} {l2 : Nat} {ks : List DNode}
      {y : DNode} (hd : kindOf d ≠ .xml) (ht : kindOf t ≠ .elseK)
      (hc : kindOf d = .call → getAttr a2 "args".toList = getAttr as' "args".toList)
      (h : Nops (.elem t a2 l2 ks) y) :
      Nops (.elem d as ln [.elem t a2 l2 ks]) (.elem d as ln [.elem nopTag as' ln [y]])

/-- The same for lists. -/
inductive NopsList : List DNode → List DNode → Prop
  | nil : NopsList [] []
  | cons {x y : DNode} {xs ys : List DNode} (h : Nops x y) (hs : NopsList xs ys) :
      NopsList (x :: xs) (y :: ys)
end

theorem Nops.elem {tag : Str} {attrs : Dict Str} {ln : Nat} {ks : List DNode} {y : DNode}
    (h : Nops (.elem tag attrs ln ks) y) : ∃ ks', y = .elem tag attrs ln ks' := by
  cases h with
  | leaf h => cases h
  | same h => exact ⟨_, rfl⟩
  | wrap => exact ⟨_, rfl⟩

theorem Nops.isElem {x y : DNode} (h : Nops x y) : isElem x = isElem y := by cases h <;> rfl

theorem Nops.eq_of_not {x y : DNode} (h : Nops x y) (hx : Spec.Dom.isElem x = false) : x = y := by
  cases h with
  | leaf => rfl
  | same => cases hx
  | wrap => cases hx

theorem NopsList.append {xs ys xs' ys' : List DNode} (h : NopsList xs ys) (h' : NopsList xs' ys') :
    NopsList (xs ++ xs') (ys ++ ys') := by
  induction xs generalizing ys with
  | nil => cases h; exact h'
  | cons x xs ih => cases h with | cons h hs => exact .cons h (ih hs)

theorem NopsList.leaves {xs : List DNode} (h : ∀ x ∈ xs, Spec.Dom.isElem x = false) : NopsList xs xs := by
  induction xs with
  | nil => exact .nil
  | cons x xs ih => exact .cons (.leaf (h x (by simp))) (ih fun y hy => h y (by simp [hy]))

/-! ## Transformation -/

theorem squash_nops {xs ys : List DNode} (h : NopsList xs ys) (m : Option (Str × Bool × Nat)) :
    NopsList (squash m xs) (squash m ys) := by
  induction xs generalizing ys m with
  | nil =>
    cases h
    cases m with
    | none => exact .nil
    | some m => obtain ⟨d, e, l⟩ := m; exact .cons (.leaf rfl) .nil
  | cons x xs ih =>
    cases h with
    | @cons _ y _ ys h hs =>
      by_cases hx : Spec.Dom.isElem x = true
      · have hy : Spec.Dom.isElem y = true := h.isElem ▸ hx
        rw [squash_elem x hx, squash_elem y hy]
        cases m with
        | none => exact .cons h (ih hs _)
        | some m => obtain ⟨d, e, l⟩ := m; exact .cons (.leaf rfl) (.cons h (ih hs _))
      · rw [Bool.not_eq_true] at hx
        cases h.eq_of_not hx
        cases x <;> rcases m with _ | ⟨d, e, l⟩ <;> simp only [squash] <;>
          first
          | exact ih hs _
          | exact .cons (.leaf rfl) (ih hs _)
          | exact .cons (.leaf rfl) (.cons (.leaf rfl) (ih hs _))
          | cases hx

mutual
theorem merge_nops {x y : DNode} (h : Nops x y) : Nops (merge x) (merge y) := by
  cases h with
  | leaf h => cases x <;> first | exact .leaf rfl | cases h
  | same h => exact .same (squash_nops (mergeList_nops h) none)
  | wrap hd ht hc h =>
    obtain ⟨ks', rfl⟩ := h.elem
    have := merge_nops h
    exact .wrap hd ht hc this

theorem mergeList_nops {xs ys : List DNode} (h : NopsList xs ys) : NopsList (mergeList xs) (mergeList ys) := by
  cases h with
  | nil => exact .nil
  | cons h hs => exact .cons (merge_nops h) (mergeList_nops hs)
end

theorem splitText_leaves (d : Str) (e : Bool) (l : Nat) : ∀ x ∈ splitText d e l, Spec.Dom.isElem x = false := by
  intro x hx
  have hu : ∀ d e l, ∀ x ∈ textUnlessEmpty d e l, Spec.Dom.isElem x = false := by
    intro d e l x hx
    unfold textUnlessEmpty at hx
    split at hx
    · cases hx
    · simp only [List.mem_singleton] at hx; subst hx; rfl
  unfold splitText at hx
  split at hx
  · simp only [List.mem_singleton] at hx; subst hx; rfl
  · simp only [List.mem_append, List.mem_cons] at hx
    rcases hx with hx | rfl | hx
    · exact hu _ _ _ x hx
    · rfl
    · exact hu _ _ _ x hx

mutual
theorem extract_nops {x y : DNode} (h : Nops x y) : NopsList (extract x) (extract y) := by
  cases h with
  | leaf h =>
    cases x with
    | elem => cases h
    | text d e l => exact .leaves (splitText_leaves d e l)
    | _ => exact .cons (.leaf rfl) .nil
  | same h => exact .cons (.same (extractList_nops h)) .nil
  | wrap hd ht hc h =>
    obtain ⟨ks', rfl⟩ := h.elem
    have := extract_nops h
    cases this with
    | cons h1 h2 => exact .cons (.wrap hd ht hc h1) .nil

theorem extractList_nops {xs ys : List DNode} (h : NopsList xs ys) : NopsList (extractList xs) (extractList ys) := by
  cases h with
  | nil => exact .nil
  | cons h hs => exact .append (extract_nops h) (extractList_nops hs)
end

mutual
theorem strip_nops {x y : DNode} (h : Nops x y) : Nops (stripNode x) (stripNode y) := by
  cases h with
  | leaf h => cases x <;> first | exact .leaf rfl | cases h
  | same h => exact .same (stripList_nops h)
  | wrap hd ht hc h =>
    obtain ⟨ks', rfl⟩ := h.elem
    exact .wrap hd ht hc (strip_nops h)

theorem stripList_nops {xs ys : List DNode} (h : NopsList xs ys) : NopsList (stripList xs) (stripList ys) := by
  cases h with
  | nil => exact .nil
  | cons h hs => exact .cons (strip_nops h) (stripList_nops hs)
end

/-! ## Compilation -/

theorem anno_anno (l : Nat) (x : Ir) : anno l (anno l x) = anno l x := by
  unfold anno
  by_cases h : x.ln = 0
  · rw [if_pos h]
    split
    · cases x <;> rfl
    · rfl
  · rw [if_neg h, if_neg h]

theorem annotate_annotate (l : Nat) (m : CM (List Ir)) : annotate l (annotate l m) = annotate l m := by
  funext s
  simp only [annotate, CM.bind, CM.pure]
  cases m s with
  | error e => rfl
  | ok r =>
    simp only [List.map_map]
    congr 2
    exact List.map_congr_left fun x _ => anno_anno l x

/-- Where an element is matters only for `py:else`. -/
theorem node_ctx (env : CEnv) (c c' : Ctx) {t : Str} (ht : kindOf t ≠ .elseK) (a : Dict Str) (l : Nat)
    (ks : List DNode) : compileNode env c (.elem t a l ks) = compileNode env c' (.elem t a l ks) := by
  simp only [compileNode]
  cases isAutoblock env t a with
  | error e => rfl
  | ok r =>
    rw [lift_bind, lift_bind]
    split
    · rfl
    · generalize kindOf t = k at ht ⊢
      cases k <;> first | rfl | exact absurd rfl ht

theorem kids_single (env : CEnv) (c : Ctx) {t : Str} (ht : kindOf t ≠ .elseK) (a : Dict Str) (l : Nat)
    (ks : List DNode) (p : Option Str) (sw : Bool) (prev : Str) :
    compileKids env false p sw prev [.elem t a l ks] = compileNode env c (.elem t a l ks) := by
  simp only [compileKids]
  rw [node_ctx env ⟨p, sw, prev⟩ c ht]
  funext s
  simp only [CM.bind, CM.pure]
  cases compileNode env c (.elem t a l ks) s with
  | error e => rfl
  | ok r => simp

theorem callerDecl_nops {xs ys : List DNode} (h : NopsList xs ys) : callerDecl xs = callerDecl ys := by
  cases h with
  | nil => rfl
  | @cons x y xs ys h hs =>
    cases h with
    | leaf h => cases x <;> rfl
    | same => rfl
    | wrap => rfl

theorem script_nops (env : CEnv) (tag : Str) {xs ys : List DNode} (h : NopsList xs ys) :
    compileScript env tag xs = compileScript env tag ys := by
  induction xs generalizing ys with
  | nil => cases h; rfl
  | cons x xs ih =>
    cases h with
    | cons h hs =>
      cases h with
      | leaf h =>
        cases x with
        | elem => cases h
        | text d e l => simp only [compileScript, ih hs]
        | cdata d l => simp only [compileScript, ih hs]
        | _ => rfl
      | same => rfl
      | wrap => rfl

theorem tagOf_nops {x y : DNode} (h : Nops x y) : tagOf x = tagOf y := by cases h <;> rfl

theorem compileKind_congr (env : CEnv) (ctx : Ctx) (as : Dict Str) (ks ks' : List DNode) (m : CM (List Ir)) (k : Kind)
    (h : k = .call → callerDecl ks = callerDecl ks') :
    compileKind env ctx as ks m k = compileKind env ctx as ks' m k := by
  cases k <;> first | rfl | (unfold compileKind compileCall; rw [h rfl])

mutual
theorem node_nops (env : CEnv) (hn : nopTag ∉ env.opts.autoblocks) (ctx : Ctx) {x y : DNode} (h : Nops x y) :
    compileNode env ctx x = compileNode env ctx y := by
  cases h with
  | leaf h => rfl
  | @same tag attrs ln ks ks' h =>
    have hk := fun r p s q => kids_nops env hn r p s q h
    have he : ks.isEmpty = ks'.isEmpty := by cases h <;> rfl
    simp only [compileNode, hk, he, scriptKids, script_nops env tag h,
      compileKind_congr env ctx _ ks ks' _ _ fun _ => callerDecl_nops h]
  | @wrap d as as' ln t a2 l2 ks y hd ht hc h =>
    obtain ⟨ks', rfl⟩ := h.elem
    have ih := node_nops env hn ⟨none, false, []⟩ h
    have hnop : kindOf nopTag ≠ .xml := by decide +kernel
    have hnop2 : kindOf nopTag ≠ .elseK := by decide +kernel
    have hnop3 : kindOf nopTag = .nop := by decide +kernel
    have key : ∀ p sw prev, annotate ln (compileKids env false p sw prev [.elem t a2 l2 ks]) =
        annotate ln (compileKids env false p sw prev [.elem nopTag as' ln [.elem t a2 l2 ks']]) := by
      intro p sw prev
      rw [kids_single env ⟨none, false, []⟩ ht, kids_single env ⟨none, false, []⟩ hnop2,
        node_kind hnop hn, hnop3]
      unfold compileKind
      rw [annotate_annotate, annotate_annotate, kids_single env ⟨none, false, []⟩ ht, ih]
    have hcd : kindOf d = .call → callerDecl [.elem t a2 l2 ks] =
        callerDecl [.elem nopTag as' ln [.elem t a2 l2 ks']] := by
      intro e
      simp only [callerDecl, hc e]
    simp only [compileNode, key]
    cases isAutoblock env d as with
    | error e => rfl
    | ok r =>
      rw [lift_bind, lift_bind]
      split
      · rfl
      · clear hc key
        revert hd hcd
        generalize kindOf d = k
        intro hd hcd
        cases k <;> first
          | exact absurd rfl hd
          | exact congrArg _ (compileKind_congr env ctx _ _ _ _ _ hcd)

theorem kids_nops (env : CEnv) (hn : nopTag ∉ env.opts.autoblocks) (raw : Bool) (p : Option Str) (sw : Bool) (prev : Str)
    {xs ys : List DNode} (h : NopsList xs ys) :
    compileKids env raw p sw prev xs = compileKids env raw p sw prev ys := by
  cases h with
  | nil => rfl
  | @cons x y xs ys h hs =>
    have h1 := fun q => kids_nops env hn raw p sw q hs
    have h2 := node_nops env hn ⟨p, sw, prev⟩ h
    have h3 := tagOf_nops h
    cases h with
    | leaf h =>
      cases x with
      | elem => cases h
      | _ => simp only [compileKids, h1]
    | same h => simp only [compileKids, h1, h2, h3]
    | wrap hd ht hc h => simp only [compileKids, h1, h2, h3]
end

end Kajiki.XmlComp

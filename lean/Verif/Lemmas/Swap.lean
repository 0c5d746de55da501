import Verif.Spec.Swap

/-!
# Lemmas for C79
-/

namespace Kajiki.SwapL
open Kajiki.Spec.Pure Kajiki.Spec.Swap
open Kajiki.Spec.DocSem (Dir dirOf attr script scriptTag plainAttrs special cut)
open Kajiki.Spec.Pure.Shown

variable {py : Py} {c : CEnv}

theorem next_assoc {α β γ : Type} (m : Shown α) (f : α → Shown β) (g : β → Shown γ) :
    (m.next f).next g = m.next fun a => (f a).next g := by
  unfold Shown.next
  cases m.res with
  | error e => rfl
  | ok a =>
    dsimp only
    cases h : (f a).res with
    | error e => rfl
    | ok b => simp [List.append_assoc]

theorem done_next {α β : Type} (a : α) (f : α → Shown β) : (done a).next f = f a := by
  unfold Shown.next done
  simp

theorem next_done {α : Type} (m : Shown α) : (m.next fun a => done a) = m := by
  unfold Shown.next done
  cases m with | mk t r =>
  cases r <;> simp

section
variable {G : Look} {over : Str → Option (Shown Unit)}

theorem otherwise_not : ∀ xs : List DNode, startsElse xs = false →
    otherwise py G over c xs = fun ρ => done ρ
  | [], _ => by unfold otherwise; rfl
  | .elem t as l kids :: xs, h => by
    unfold startsElse at h
    unfold otherwise
    funext ρ
    rw [if_neg (by simpa using h)]
  | .text .. :: _, _ => by unfold otherwise; rfl
  | .cdata .. :: _, _ => by unfold otherwise; rfl
  | .comment .. :: _, _ => by unfold otherwise; rfl
  | .pi .. :: _, _ => by unfold otherwise; rfl

theorem otherwise_append (xs ys : List DNode) (hy : startsElse ys = false) :
    otherwise py G over c (xs ++ ys) = otherwise py G over c xs := by
  cases xs with
  | nil => rw [List.nil_append, otherwise_not _ hy, otherwise_not _ rfl]
  | cons x xs => cases x <;> · unfold otherwise; rfl

theorem nodes_append (raw : Bool) (tag : Str) (ys : List DNode) (hy : startsElse ys = false) :
    ∀ (xs : List DNode) (ρ : Vars), nodes py G over c raw tag (xs ++ ys) ρ =
      (nodes py G over c raw tag xs ρ).next fun ρ => nodes py G over c raw tag ys ρ
  | [], ρ => by
    rw [List.nil_append]
    conv_rhs => rw [nodes]
    rw [done_next]
  | x :: xs, ρ => by
    rw [List.cons_append]
    rw [nodes, nodes, otherwise_append _ _ hy, next_assoc]
    refine congrArg (Shown.next _) (funext fun σ => ?_)
    exact nodes_append raw tag ys hy xs σ

theorem startsElse_append {xs ys : List DNode} (hx : startsElse xs = false) (hy : startsElse ys = false) :
    startsElse (xs ++ ys) = false := by
  cases xs with
  | nil => exact hy
  | cons x xs => cases x <;> exact hx

/-- What holds of two nodes of which one is the other with parts exchanged. -/
def One (py : Py) (c : CEnv) (G : Look) (over : Str → Option (Shown Unit)) (sw : Bool) (x y : DNode) : Prop :=
  (sw = false → ∀ els tag, node py G over c els tag x = node py G over c els tag y) ∧
  (sw = true → ∀ v rest, choice py G over c v rest x = choice py G over c v rest y) ∧
  ∀ xs ys, otherwise py G over c (x :: xs) = otherwise py G over c (y :: ys)

/-- What holds of nodes of which one are the others with parts exchanged. -/
def All (py : Py) (c : CEnv) (G : Look) (over : Str → Option (Shown Unit)) (sw raw : Bool) (tag : Str)
    (xs ys : List DNode) : Prop :=
  (sw = false → nodes py G over c raw tag xs = nodes py G over c raw tag ys ∧
    otherwise py G over c xs = otherwise py G over c ys) ∧
  (sw = true → ∀ v rest, choices py G over c v rest xs = choices py G over c v rest ys)

mutual
theorem one : ∀ {sw : Bool} {x y : DNode}, Swapped py c sw x y → One py c G over sw x y
  | _, x, _, .same _ _ => by
    refine ⟨fun _ _ _ => rfl, fun _ _ _ => rfl, fun xs ys => ?_⟩
    cases x <;> · unfold otherwise; rfl
  | sw, .elem t as l xs, .elem _ _ l' ys, .elem hs he h => by
    have ih := all h
    refine ⟨fun hsw els tag => ?_, fun hsw v rest => ?_, fun us vs => ?_⟩
    · subst hsw
      funext ρ
      rw [node, node]
      cases hd : dirOf t with
      | none =>
        rw [hd] at ih
        have hn : nodes py G over c true t xs = nodes py G over c true t ys := (ih.1 rfl).1
        dsimp only
        rw [he hd, hs hd, hn]
        simp only [Bool.false_eq_true, if_false]
      | some d =>
        rw [hd] at ih
        have hn (h1 : d ≠ .switchD) : nodes py G over c false t xs = nodes py G over c false t ys := (ih.1 (by simp [h1])).1
        cases d with
        | switchD => dsimp only; simp only [ih.2 rfl]
        | forD => dsimp only; rw [hn (by decide)]
        | withD => dsimp only; rw [hn (by decide)]
        | ifD => dsimp only; rw [hn (by decide)]
        | nop => dsimp only; rw [hn (by decide)]
        | block => dsimp only; rw [hn (by decide)]
        | _ => rfl
    · funext ρ
      rw [choice, choice]
      cases hd : dirOf t with
      | none => rfl
      | some d =>
        rw [hd] at ih
        have hn (h1 : d ≠ .switchD) (h2 : d ≠ .nop) : nodes py G over c false t xs = nodes py G over c false t ys :=
          (ih.1 (by simp [h1, h2])).1
        cases d with
        | caseD => dsimp only; rw [hn (by decide) (by decide)]
        | elseD => dsimp only; rw [hn (by decide) (by decide)]
        | nop => dsimp only; rw [ih.2 (by rw [hsw]; rfl)]
        | _ => rfl
    · rw [otherwise, otherwise]
      funext ρ
      by_cases hd : dirOf t = some .elseD
      · rw [if_pos hd, if_pos hd]
        rw [hd] at ih
        exact congrFun (ih.1 (by simp)).1 ρ
      · rw [if_neg hd, if_neg hd]
theorem all : ∀ {sw raw : Bool} {tag : Str} {xs ys : List DNode}, SwappedAll py c sw raw tag xs ys →
    All py c G over sw raw tag xs ys
  | _, _, _, _, _, .nil => ⟨fun _ => ⟨rfl, rfl⟩, fun _ _ _ => rfl⟩
  | sw, raw, tag, x :: xs, y :: ys, .cons h hs => by
    have i1 := one h
    have i2 := all hs
    refine ⟨fun hsw => ⟨?_, ?_⟩, fun hsw v rest => ?_⟩
    · rw [nodes, nodes, (i2.1 hsw).1, (i2.1 hsw).2]
      funext ρ
      cases h with
      | same => rfl
      | elem _ _ _ => cases raw <;> simp only [i1.1 hsw]
    · exact i1.2.2 _ _
    · rw [choices, choices]
      funext ρ
      rw [i1.2.1 hsw, i2.2 hsw]
  | _, raw, tag, _, _, .part (us := us) (vs := vs) (xs := xs) (ys := ys) h hu hv hx hy hs => by
    have ih := all hs
    refine ⟨fun _ => ⟨?_, ?_⟩, nofun⟩
    · funext ρ
      rw [nodes_append _ _ _ hx, nodes_append _ _ _ hy, h G over ρ, (ih.1 rfl).1]
    · rw [otherwise_not _ (startsElse_append hu hx), otherwise_not _ (startsElse_append hv hy)]
end

/-! ## Laws -/

theorem seq_done (m : Shown Unit) : m.seq (done ()) = m := by
  unfold Shown.seq Shown.next done
  cases m with | mk t r =>
  cases r <;> simp

theorem text_tag {tag tag' : Str} (h : scriptTag tag = scriptTag tag') (look : Look) (d : Str) :
    Spec.Pure.text py c look tag d = Spec.Pure.text py c look tag' d := by
  unfold Spec.Pure.text
  rw [h]

/-- The name of the element matters only for scripts. -/
theorem node_tag {tag tag' : Str} (h : scriptTag tag = scriptTag tag') (els : Vars → Shown Vars) (x : DNode) :
    node py G over c els tag x = node py G over c els tag' x := by
  cases x with
  | text d _ _ => rw [node, node]; funext ρ; rw [text_tag h]
  | cdata d _ => rw [node, node]; funext ρ; rw [text_tag h]
  | comment d _ => rw [node, node]
  | pi t d _ => rw [node, node]
  | elem t as l kids => rw [node, node]

theorem nodes_tag {tag tag' : Str} (h : scriptTag tag = scriptTag tag') (raw raw' : Bool) :
    ∀ xs : List DNode, raw = raw' ∨ sections xs = false →
      nodes py G over c raw tag xs = nodes py G over c raw' tag' xs
  | [], _ => by rw [nodes, nodes]
  | x :: xs, hr => by
    have hs : raw = raw' ∨ sections xs = false := hr.imp_right fun hs => by
      cases x <;> first | exact hs | cases hs
    rw [nodes, nodes, nodes_tag h raw raw' xs hs]
    funext ρ
    have hn := fun els => node_tag (py := py) (c := c) (G := G) (over := over) h els x
    cases x with
    | cdata d l =>
      rcases hr with rfl | hr
      · cases raw
        · dsimp only; rw [hn]
        · rfl
      · cases hr
    | _ => cases raw <;> cases raw' <;> · dsimp only; rw [hn]

/-- One node. -/
theorem nodes_one (raw : Bool) (tag : Str) (x : DNode) (hx : sections [x] = false) :
    nodes py G over c raw tag [x] = node py G over c (fun ρ => done ρ) tag x := by
  rw [nodes, otherwise_not [] rfl]
  funext ρ
  have h0 : nodes py G over c raw tag [] = fun ρ => done ρ := by rw [nodes]
  rw [h0, next_done]
  cases x with
  | cdata => cases hx
  | _ => cases raw <;> rfl

theorem text_expr (look : Look) (tag d e : Str) (h : cut c.py d = [.inr e]) :
    Spec.Pure.text py c look tag d = value py look e := by
  unfold Spec.Pure.text
  rw [h]
  unfold Shown.each Shown.each
  exact seq_done _

/-- A part of a tag that is left out. -/
theorem tagPart_none {look : Look} {attrs : Dict Str} (h : Dict.get attrs "py:strip".toList = some []) (m : Shown Unit) :
    tagPart py look attrs m = done () := by
  unfold tagPart kept
  rw [h]
  dsimp only
  rw [done_next]
  rfl

theorem each_done {γ : Type} : ∀ l : List γ, each (fun _ => done ()) l = done ()
  | [] => rfl
  | _ :: l => by unfold Shown.each; rw [each_done l]; exact seq_done _

theorem startTag_none {look : Look} {tag : Str} {attrs : Dict Str} (h : Dict.get attrs "py:strip".toList = some []) :
    startTag py c look tag attrs = done () := by
  unfold startTag
  simp only [tagPart_none h, each_done, ite_self, seq_done]

theorem get_filter (k : Str) (k' : Str) (h : k' ≠ k) : ∀ d : Dict Str,
    Dict.get (d.filter (·.1 ≠ k)) k' = Dict.get d k'
  | [] => rfl
  | (a, v) :: d => by
    have hc (d : Dict Str) : Dict.get ((a, v) :: d) k' = if a = k' then some v else Dict.get d k' := rfl
    rw [List.filter_cons, hc]
    by_cases ha : a = k
    · rw [if_neg (by simpa using ha), if_neg (by rw [ha]; exact fun h' => h h'.symm)]
      exact get_filter k k' h d
    · rw [if_pos (by simpa using ha), hc, get_filter k k' h d]

theorem get_filter_same (k : Str) : ∀ d : Dict Str, Dict.get (d.filter (·.1 ≠ k)) k = none
  | [] => rfl
  | (a, v) :: d => by
    rw [List.filter_cons]
    by_cases ha : a = k
    · rw [if_neg (by simpa using ha)]; exact get_filter_same k d
    · rw [if_pos (by simpa using ha)]
      unfold Dict.get
      rw [if_neg ha]
      exact get_filter_same k d

theorem plainAttrs_filter (o : Opts) (t : Str) (as : Dict Str) (k : Str) :
    plainAttrs o t (as.filter (·.1 ≠ k)) = (plainAttrs o t as).filter (·.1 ≠ k) := by
  unfold plainAttrs
  split
  · rw [List.filter_filter, List.filter_filter]
    exact List.filter_congr fun x _ => Bool.and_comm _ _
  · rfl

/-- `py:content` is no part of the tags. -/
theorem tagPart_content (look : Look) (attrs : Dict Str) (m : Shown Unit) :
    tagPart py look (attrs.filter (·.1 ≠ "py:content".toList)) m = tagPart py look attrs m := by
  unfold tagPart kept
  rw [get_filter _ _ (by decide)]

theorem startTag_content (look : Look) (tag : Str) (attrs : Dict Str) :
    startTag py c look tag (attrs.filter (·.1 ≠ "py:content".toList)) = startTag py c look tag attrs := by
  unfold startTag
  have h : ((attrs.filter (·.1 ≠ "py:content".toList)).filter fun kv => !special kv.1) =
      attrs.filter fun kv => !special kv.1 := by
    rw [List.filter_filter]
    refine List.filter_congr fun x _ => ?_
    by_cases hx : x.1 = "py:content".toList
    · rw [hx]; rfl
    · have : decide (x.1 ≠ "py:content".toList) = true := decide_eq_true hx
      rw [this, Bool.and_true]
  have h2 : attr (attrs.filter (·.1 ≠ "py:content".toList)) "py:attrs" = attr attrs "py:attrs" := by
    unfold attr
    rw [get_filter _ _ (by decide)]
  rw [h, h2]
  simp only [tagPart_content]

/-- A condition with a `py:else`. -/
theorem if_else (raw : Bool) (tag : Str) (as bs : Dict Str) (l m : Nat) (xs ys : List DNode) (ρ : Vars) :
    nodes py G over c raw tag [.elem "py:if".toList as l xs, .elem "py:else".toList bs m ys] ρ =
      (get (py.eval (attr as "test") (look G ρ))).next fun v =>
        if truthy v then nodes py G over c false "py:nop".toList xs ρ
        else nodes py G over c false "py:nop".toList ys ρ := by
  have h1 : dirOf "py:if".toList = some .ifD := by decide +kernel
  have h2 : dirOf "py:else".toList = some .elseD := by decide +kernel
  have h3 : nodes py G over c raw tag [.elem "py:else".toList bs m ys] = fun ρ => done ρ := by
    rw [nodes_one _ _ _ rfl, node]
    funext ρ
    rw [h2]
  rw [nodes, h3, otherwise, h2]
  dsimp only
  rw [next_done]
  have hx : nodes py G over c false "py:if".toList xs = nodes py G over c false "py:nop".toList xs :=
    nodes_tag (by decide +kernel) _ _ _ (.inl rfl)
  have hy : nodes py G over c false "py:else".toList ys = nodes py G over c false "py:nop".toList ys :=
    nodes_tag (by decide +kernel) _ _ _ (.inl rfl)
  cases raw <;>
  · dsimp only
    rw [node, h1, hx, hy]
    dsimp only
    rw [if_pos rfl]

/-- A case with a `py:else`. -/
theorem case_else (v : Val) (rest : Vars → Shown Vars) (cs bs : Dict Str) (l m : Nat) (xs ys : List DNode) (ρ : Vars) :
    choices py G over c v rest [.elem "py:case".toList cs l xs, .elem "py:else".toList bs m ys] ρ =
      (get (py.eval (attr cs "value") (look G ρ))).next fun u =>
        if pyEq u v then nodes py G over c false "py:nop".toList xs ρ
        else nodes py G over c false "py:nop".toList ys ρ := by
  have h1 : dirOf "py:case".toList = some .caseD := by decide +kernel
  have h2 : dirOf "py:else".toList = some .elseD := by decide +kernel
  have hx : nodes py G over c false "py:case".toList xs = nodes py G over c false "py:nop".toList xs :=
    nodes_tag (by decide +kernel) _ _ _ (.inl rfl)
  have hy : nodes py G over c false "py:else".toList ys = nodes py G over c false "py:nop".toList ys :=
    nodes_tag (by decide +kernel) _ _ _ (.inl rfl)
  rw [choices, choice, h1, hx]
  dsimp only
  rw [choices, choice, h2, hy]

end
end Kajiki.SwapL

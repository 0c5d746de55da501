import Verif.Spec.Translated
import Verif.Lemmas.Swap

/-!
# Lemmas for C88
-/

namespace Kajiki.TranslatedL
open Kajiki.Spec.Pure Kajiki.Spec.Language Kajiki.SwapL
open Kajiki.Spec.DocSem (Dir dirOf attr script scriptTag plainAttrs special cut Template)
open Kajiki.Spec.Pure.Shown

variable {py : Py} {c : CEnv}

theorem put_put {β : Type} (s t : Str) (m : Shown β) : (put s).seq ((put t).seq m) = (put (s ++ t)).seq m := by
  unfold put Shown.seq Shown.next
  simp [List.append_assoc]

theorem put_nil {β : Type} (m : Shown β) : (put []).seq m = m := by
  unfold put Shown.seq Shown.next
  simp

/-- What pieces show: literal text as it is. -/
def pieces (py : Py) (look : Look) (xs : List (Str ⊕ Str)) : Shown Unit :=
  each (fun
    | .inl t => put t
    | .inr e => value py look e) xs

theorem pieces_inl (look : Look) (t : Str) (xs : List (Str ⊕ Str)) :
    pieces py look (.inl t :: xs) = (put t).seq (pieces py look xs) := rfl
theorem pieces_inr (look : Look) (e : Str) (xs : List (Str ⊕ Str)) :
    pieces py look (.inr e :: xs) = (value py look e).seq (pieces py look xs) := rfl

theorem pieces_joined (look : Look) : ∀ xs : List (Str ⊕ Str), pieces py look (joined xs) = pieces py look xs
  | [] => rfl
  | .inr e :: xs => by
    unfold joined
    rw [pieces_inr, pieces_inr, pieces_joined look xs]
  | .inl s :: xs => by
    have ih := pieces_joined look xs
    rw [pieces_inl, ← ih]
    rw [joined]
    cases h : joined xs with
    | nil =>
      dsimp only
      cases s with
      | nil => rw [put_nil]; rfl
      | cons a as => rfl
    | cons y ys =>
      cases y with
      | inl t =>
        dsimp only
        rw [pieces_inl, pieces_inl, put_put]
      | inr e =>
        dsimp only
        cases s with
        | nil => rw [put_nil]; rfl
        | cons a as => rfl

theorem text_said (look : Look) (tag d : Str) :
    Spec.Pure.text py c look tag d = pieces (untranslated py) look ((cut c.py d).map (said py.tr tag)) := by
  unfold Spec.Pure.text
  generalize cut c.py d = xs
  induction xs with
  | nil => rfl
  | cons x xs ih =>
    cases x with
    | inl t =>
      rw [List.map_cons]
      change (put _).seq _ = (put _).seq _
      rw [ih]
      rfl
    | inr e =>
      rw [List.map_cons]
      change (value py look e).seq _ = (value (untranslated py) look e).seq _
      rw [ih]
      rfl

theorem text_untranslated (look : Look) (tag d : Str) :
    Spec.Pure.text (untranslated py) c look tag d = pieces (untranslated py) look (cut c.py d) := by
  unfold Spec.Pure.text
  generalize cut c.py d = xs
  induction xs with
  | nil => rfl
  | cons x xs ih =>
    cases x with
    | inl t =>
      change (put (if scriptTag tag || (strip t).isEmpty then t else id t)).seq _ = (put t).seq _
      rw [ih]
      split <;> rfl
    | inr e =>
      change (value (untranslated py) look e).seq _ = (value (untranslated py) look e).seq _
      rw [ih]
      rfl

theorem text_same {tag d d' : Str} (h : SaysSame py.tr c tag d d') (look : Look) :
    Spec.Pure.text (untranslated py) c look tag d' = Spec.Pure.text py c look tag d := by
  rw [text_untranslated, text_said, ← pieces_joined, h, pieces_joined]

theorem parts_same (look : Look) (xs : List (Str ⊕ Str)) : parts (untranslated py) look xs = parts py look xs := by
  induction xs with
  | nil => rfl
  | cons x xs ih =>
    cases x with
    | inl t => rw [parts, parts, ih]
    | inr e => rw [parts, parts, ih]; rfl

theorem startTag_same (look : Look) (t : Str) (as : Dict Str) :
    startTag (untranslated py) c look t as = startTag py c look t as := by
  have h : ∀ kv, oneAttribute (untranslated py) c look kv = oneAttribute py c look kv := by
    intro kv
    unfold oneAttribute
    rw [parts_same]
  unfold startTag
  simp only [h]
  rfl

theorem assign_same (G : Look) (vs : List (Str × Str)) (ρ : Vars) : assign (untranslated py) G vs ρ = assign py G vs ρ := by
  induction vs generalizing ρ with
  | nil => rfl
  | cons v vs ih =>
    obtain ⟨k, e⟩ := v
    rw [assign, assign]
    simp only [ih]
    rfl

section
variable {G : Look} {over : Str → Option (Shown Unit)}

/-- What a child of an element shows. -/
def child (py : Py) (G : Look) (over : Str → Option (Shown Unit)) (c : CEnv) (raw : Bool) (els : Vars → Shown Vars)
    (tag : Str) (x : DNode) (ρ : Vars) : Shown Vars :=
  match raw, x with
  | true, .cdata d _ => keeping ρ (put d)
  | _, x => node py G over c els tag x ρ

theorem nodes_cons (py : Py) (raw : Bool) (tag : Str) (x : DNode) (xs : List DNode) (ρ : Vars) :
    nodes py G over c raw tag (x :: xs) ρ =
      (child py G over c raw (fun ρ => otherwise py G over c xs ρ) tag x ρ).next fun ρ => nodes py G over c raw tag xs ρ := by
  rw [nodes]
  rfl

/-- What holds of a node and its translation. -/
def One (py : Py) (c : CEnv) (G : Look) (over : Str → Option (Shown Unit)) (raw : Bool) (tag : Str) (x y : DNode) : Prop :=
  (∀ els, child (untranslated py) G over c raw els tag y = child py G over c raw els tag x) ∧
  (∀ v rest, choice (untranslated py) G over c v rest y = choice py G over c v rest x) ∧
  ∀ xs ys, otherwise (untranslated py) G over c (y :: ys) = otherwise py G over c (x :: xs)

/-- What holds of nodes and their translations. -/
def All (py : Py) (c : CEnv) (G : Look) (over : Str → Option (Shown Unit)) (raw : Bool) (tag : Str)
    (xs ys : List DNode) : Prop :=
  nodes (untranslated py) G over c raw tag ys = nodes py G over c raw tag xs ∧
  otherwise (untranslated py) G over c ys = otherwise py G over c xs ∧
  (∀ v rest, choices (untranslated py) G over c v rest ys = choices py G over c v rest xs) ∧ ys.isEmpty = xs.isEmpty

theorem plain {raw : Bool} {tag : Str} {x y : DNode} (hx : ∀ t as l kids, x ≠ .elem t as l kids)
    (hy : ∀ t as l kids, y ≠ .elem t as l kids)
    (h : ∀ els, child (untranslated py) G over c raw els tag y = child py G over c raw els tag x) :
    One py c G over raw tag x y := by
  refine ⟨h, fun v rest => ?_, fun xs ys => ?_⟩
  · cases x with
    | elem => exact absurd rfl (hx _ _ _ _)
    | _ =>
      cases y with
      | elem => exact absurd rfl (hy _ _ _ _)
      | _ => unfold choice; rfl
  · cases x with
    | elem => exact absurd rfl (hx _ _ _ _)
    | _ =>
      cases y with
      | elem => exact absurd rfl (hy _ _ _ _)
      | _ => unfold otherwise; rfl

theorem child_elem (py : Py) (raw : Bool) (els : Vars → Shown Vars) (tag t : Str) (as : Dict Str) (l : Nat)
    (kids : List DNode) : child py G over c raw els tag (.elem t as l kids) = node py G over c els tag (.elem t as l kids) := by
  funext ρ
  unfold child
  cases raw <;> rfl

theorem child_text (py : Py) (raw : Bool) (els : Vars → Shown Vars) (tag d : Str) (e : Bool) (l : Nat) (ρ : Vars) :
    child py G over c raw els tag (.text d e l) ρ = keeping ρ (Spec.Pure.text py c (look G ρ) tag d) := by
  unfold child
  cases raw <;> (dsimp only; rw [node])

mutual
theorem one : ∀ {raw : Bool} {tag : Str} {x y : DNode}, Translated py.tr c raw tag x y → One py c G over raw tag x y
  | raw, tag, _, _, .text h => by
    refine plain nofun nofun fun els => ?_
    funext ρ
    rw [child_text, child_text, text_same h]
  | _, tag, _, _, .cdata h => by
    refine plain nofun nofun fun els => ?_
    funext ρ
    unfold child
    dsimp only
    rw [node, node]
    dsimp only
    rw [text_same h]
  | _, _, _, _, .marker => plain nofun nofun fun _ => rfl
  | raw, _, _, _, .comment => by
    refine plain nofun nofun fun els => ?_
    funext ρ
    unfold child
    cases raw <;> (dsimp only; rw [node, node])
  | raw, _, _, _, .pi => by
    refine plain nofun nofun fun els => ?_
    funext ρ
    unfold child
    cases raw <;> (dsimp only; rw [node, node]; rfl)
  | raw, _, .elem t as l kids, .elem _ _ l' _, .script hd hs => by
    refine ⟨fun els => ?_, fun v rest => ?_, fun us vs => ?_⟩
    · rw [child_elem, child_elem]
      funext ρ
      rw [node, node, hd]
      dsimp only
      rw [hs, startTag_same]
      simp only [if_true]
      rfl
    · funext ρ
      rw [choice, choice, hd]
    · rw [otherwise, otherwise, hd]
      rfl
  | raw, _, .elem t as l xs, .elem _ _ l' ys, .elem hs h => by
    obtain ⟨i1, i2, i3, i4⟩ := all h
    refine ⟨fun els => ?_, fun v rest => ?_, fun us vs => ?_⟩
    · rw [child_elem, child_elem]
      funext ρ
      rw [node, node]
      cases hd : dirOf t with
      | none =>
        rw [hd] at i1
        dsimp only [Option.isNone] at i1
        dsimp only
        rw [i4, hs hd, i1, startTag_same]
        rfl
      | some d =>
        rw [hd] at i1
        dsimp only [Option.isNone] at i1
        cases d with
        | switchD => dsimp only; simp only [i3]; rfl
        | forD => dsimp only; rw [i1]; rfl
        | withD => dsimp only; rw [i1, assign_same]
        | ifD => dsimp only; rw [i1]; rfl
        | nop => dsimp only; rw [i1]
        | block => dsimp only; rw [i1]
        | _ => rfl
    · funext ρ
      rw [choice, choice]
      cases hd : dirOf t with
      | none => rfl
      | some d =>
        rw [hd] at i1
        dsimp only [Option.isNone] at i1
        cases d with
        | caseD => dsimp only; rw [i1]; rfl
        | elseD => dsimp only; rw [i1]
        | nop => dsimp only; rw [i3]
        | _ => rfl
    · rw [otherwise, otherwise]
      funext ρ
      by_cases hd : dirOf t = some .elseD
      · rw [if_pos hd, if_pos hd]
        rw [hd] at i1
        exact congrFun i1 ρ
      · rw [if_neg hd, if_neg hd]
theorem all : ∀ {raw : Bool} {tag : Str} {xs ys : List DNode}, TranslatedAll py.tr c raw tag xs ys →
    All py c G over raw tag xs ys
  | _, _, _, _, .nil => by
    refine ⟨?_, ?_, fun _ _ => ?_, rfl⟩
    · unfold nodes; rfl
    · unfold otherwise; rfl
    · unfold choices; rfl
  | raw, tag, x :: xs, y :: ys, .cons h hs => by
    obtain ⟨o1, o2, o3⟩ := one h
    obtain ⟨i1, i2, i3, -⟩ := all hs
    refine ⟨?_, o3 _ _, fun v rest => ?_, rfl⟩
    · funext ρ
      rw [nodes_cons, nodes_cons, i1, i2, o1]
    · rw [choices, choices, i3, o2]
end

end

theorem shown_translated {G : Look} {t t' : Template} {root root' : DNode} (hc : t'.conf = t.conf)
    (hd : t'.doctype root' = t.doctype root) (h : Translated py.tr t.conf false [] root root') :
    shown (untranslated py) G t' root' = shown py G t root := by
  unfold shown
  rw [hc, hd]
  exact congrArg _ (congrFun ((one h).1 _) [])

theorem shownIn_translated {ts ts' : List Template} {py : Py} (load : Str → Option Nat) (G : Look)
    (h : List.Forall₂ (IsTranslation py.tr) ts ts') : ∀ n i : Nat,
      Spec.Include.shownIn ts' load (untranslated py) G n i = Spec.Include.shownIn ts load py G n i
  | 0, _ => rfl
  | n + 1, i => by
    unfold Spec.Include.shownIn
    cases ht : ts[i]? with
    | none =>
      have : ts'[i]? = none := by
        rw [List.getElem?_eq_none_iff] at ht ⊢
        rw [← h.length_eq]
        exact ht
      rw [this]
    | some t =>
      obtain ⟨hi, rfl⟩ := List.getElem?_eq_some_iff.1 ht
      have hi' : i < ts'.length := h.length_eq ▸ hi
      have hs : IsTranslation py.tr ts[i] ts'[i] := (List.forall₂_iff_get.1 h).2 i hi hi'
      obtain ⟨root, root', h1, h2, h3, h4⟩ := hs.roots
      rw [List.getElem?_eq_getElem hi']
      dsimp only
      rw [h1, h2]
      dsimp only
      simp only [shownIn_translated load G h n]
      rw [hs.base]
      exact congrArg (fun m => Shown.next m _) (shown_translated (py := { py with incl := fun href => match load href with
        | none => raise .ioError
        | some j => Spec.Include.shownIn ts load py G n j }) hs.conf h3 h4)

end Kajiki.TranslatedL

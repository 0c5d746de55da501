import Verif.Spec.Paste
import Verif.Lemmas.Swap
import Verif.Lemmas.PureRun

/-!
# Lemmas for C83

Two runs are compared: that of a node, and that of the node with other templates pasted in.  The first may fail because of
the limit of nested calls, then nothing is claimed (`Rel`).  Local variables may differ in those that are hidden (`V`).
-/

namespace Kajiki.PasteL
open Kajiki.Spec.Pure Kajiki.Spec.Paste Kajiki.SwapL
open Kajiki.Spec.DocSem (Dir dirOf attr script scriptTag plainAttrs special cut Template pyLines resolve)
open Kajiki.Spec.Pure.Shown

/-! ## Results -/

/-- The results are related, or both are the same exception. -/
def Same {α β : Type} (S : α → β → Prop) : Except Err α → Except Err β → Prop
  | .ok a, .ok b => S a b
  | .error e, .error e' => e = e'
  | _, _ => False

/-- Both show the same, or the first fails because of the limit (if that is an excuse). -/
def Rel {α β : Type} (lax : Prop) (S : α → β → Prop) (m : Shown α) (m' : Shown β) : Prop :=
  (lax ∧ m.res = .error .recursion) ∨ m.text = m'.text ∧ Same S m.res m'.res

variable {lax : Prop} {glob : Str → Prop}

theorem Rel.refl {α : Type} {S : α → α → Prop} (h : ∀ a, S a a) (m : Shown α) : Rel lax S m m := by
  refine .inr ⟨rfl, ?_⟩
  cases m.res with
  | ok a => exact h a
  | error e => rfl

theorem Rel.done {α β : Type} {S : α → β → Prop} {a : α} {b : β} (h : S a b) : Rel lax S (done a) (done b) := .inr ⟨rfl, h⟩

theorem Rel.mono {α β : Type} {S T : α → β → Prop} {m : Shown α} {m' : Shown β} (h : Rel lax S m m')
    (hS : ∀ a b, S a b → T a b) : Rel lax T m m' := by
  rcases h with h | ⟨h1, h2⟩
  · exact .inl h
  · refine .inr ⟨h1, ?_⟩
    revert h2
    cases m.res with
    | error e =>
      cases m'.res with
      | error e' => exact id
      | ok b => exact id
    | ok a =>
      cases m'.res with
      | error e' => exact id
      | ok b => exact hS a b

theorem Rel.next {α β γ δ : Type} {S : α → β → Prop} {T : γ → δ → Prop} {m : Shown α} {m' : Shown β}
    {f : α → Shown γ} {f' : β → Shown δ} (h : Rel lax S m m') (hf : ∀ a b, S a b → Rel lax T (f a) (f' b)) :
    Rel lax T (m.next f) (m'.next f') := by
  rcases h with h | ⟨h1, h2⟩
  · left; unfold Shown.next; rw [h.2]; exact ⟨h.1, rfl⟩
  · unfold Shown.next
    rw [h1]
    cases hr : m.res with
    | error e =>
      cases hr' : m'.res with
      | error e' => rw [hr, hr'] at h2; cases h2; exact .inr ⟨rfl, rfl⟩
      | ok b => rw [hr, hr'] at h2; cases h2
    | ok a =>
      cases hr' : m'.res with
      | error e' => rw [hr, hr'] at h2; cases h2
      | ok b =>
        rw [hr, hr'] at h2
        rcases hf a b h2 with h | ⟨g1, g2⟩
        · exact .inl h
        · exact .inr ⟨by dsimp only; rw [g1], g2⟩

/-- The same start. -/
theorem Rel.next' {α γ δ : Type} {T : γ → δ → Prop} (m : Shown α)
    {f : α → Shown γ} {f' : α → Shown δ} (hf : ∀ a, m.res = .ok a → Rel lax T (f a) (f' a)) :
    Rel lax T (m.next f) (m.next f') := by
  unfold Shown.next
  cases hr : m.res with
  | error e => exact .inr ⟨rfl, rfl⟩
  | ok a =>
    rcases hf a hr with h | ⟨g1, g2⟩
    · exact .inl h
    · exact .inr ⟨by dsimp only; rw [g1], g2⟩

theorem Rel.seq' {γ δ : Type} {T : γ → δ → Prop} (m : Shown Unit) {x : Shown γ} {x' : Shown δ} (h : Rel lax T x x') :
    Rel lax T (m.seq x) (m.seq x') := Rel.next' m fun _ _ => h

/-! ## Local variables -/

/-- They differ only in hidden variables, the second has other ones than `names` as `K` says, and those whose global
variables differ (`glob`) are there unless they are hidden. -/
def V (glob hid names : Str → Prop) (K : Str → Option Val) (ρ ρ' : Vars) : Prop :=
  (∀ k, ¬hid k → Dict.get ρ k = Dict.get ρ' k) ∧ (∀ k, ¬names k → Dict.get ρ' k = K k) ∧
  ∀ k, ¬hid k → glob k → Dict.get ρ k ≠ none

theorem get_update_or {α : Type} (d e : Dict α) (k : Str) :
    Dict.get (d.update e) k = (Dict.get (Dict.update [] e) k).or (Dict.get d k) := by
  rw [Dict.get_update, Dict.get_update]
  cases List.find? (fun kv => kv.1 == k) e.reverse <;> simp [Dict.get]

theorem get_update_none {α : Type} {e : Dict α} {k : Str} (h : Dict.get e k = none) : Dict.get (Dict.update [] e) k = none := by
  rw [Dict.get_update]
  have hn : List.find? (fun kv => kv.1 == k) e.reverse = none := by
    rw [List.find?_eq_none]
    intro kv hkv
    have hkv := List.mem_reverse.1 hkv
    rw [Dict.get_eq_find, Option.map_eq_none_iff, List.find?_eq_none] at h
    simpa using h kv hkv
  rw [hn]
  rfl

theorem get_update_some {α : Type} {e : Dict α} {k : Str} (h : Dict.get e k ≠ none) : Dict.get (Dict.update [] e) k ≠ none := by
  rw [Dict.get_update]
  cases hn : List.find? (fun kv => kv.1 == k) e.reverse with
  | some kv => simp
  | none =>
    exfalso
    apply h
    rw [Dict.get_eq_find, Option.map_eq_none_iff, List.find?_eq_none]
    intro kv hkv
    exact (List.find?_eq_none.1 hn) kv (List.mem_reverse.2 hkv)

section
variable {hid names : Str → Prop} {K : Str → Option Val} {ρ ρ' : Vars}

theorem get_update_keeps {α : Type} {d e : Dict α} {k : Str} (h : Dict.get d k ≠ none) : Dict.get (d.update e) k ≠ none := by
  rw [get_update_or]
  cases Dict.get (Dict.update [] e) k with
  | none => exact h
  | some v => nofun

theorem V.update (h : V glob hid names K ρ ρ') {b : Dict Val} (hb : ∀ k, ¬names k → Dict.get b k = none) :
    V glob hid names K (ρ.update b) (ρ'.update b) := by
  refine ⟨fun k hk => ?_, fun k hk => ?_, fun k hk hg => get_update_keeps (h.2.2 k hk hg)⟩
  · rw [get_update_or ρ, get_update_or ρ', h.1 k hk]
  · rw [get_update_or, get_update_none (hb k hk), Option.none_or, h.2.1 k hk]

/-- What is set is no longer hidden. -/
theorem V.bind (h : V glob hid names K ρ ρ') {b : Dict Val} (hb : ∀ k, ¬names k → Dict.get b k = none) {sets : Str → Prop}
    (hs : ∀ k, sets k → Dict.get b k ≠ none) :
    V glob (fun k => hid k ∧ ¬sets k) names K (ρ.update b) (ρ'.update b) := by
  refine ⟨fun k hk => ?_, (h.update hb).2.1, fun k hk hg => ?_⟩
  · by_cases hk' : sets k
    · rw [get_update_or ρ, get_update_or ρ']
      cases hg : Dict.get (Dict.update [] b) k with
      | none => exact absurd hg (get_update_some (hs k hk'))
      | some v => rfl
    · exact (h.update hb).1 k fun hh => hk ⟨hh, hk'⟩
  · by_cases hk' : sets k
    · rw [get_update_or]
      cases hg : Dict.get (Dict.update [] b) k with
      | none => exact absurd hg (get_update_some (hs k hk'))
      | some v => nofun
    · exact (h.update hb).2.2 k (fun hh => hk ⟨hh, hk'⟩) hg

theorem V.weaken {hid' : Str → Prop} (h : V glob hid' names K ρ ρ') (hh : ∀ k, hid' k → hid k) : V glob hid names K ρ ρ' :=
  ⟨fun k hk => h.1 k fun hk' => hk (hh k hk'), h.2.1, fun k hk => h.2.2 k fun hk' => hk (hh k hk')⟩

theorem get_restore (ks : List Str) (before after : Vars) (k : Str) :
    Dict.get (restore ks before after) k =
      if k ∈ ks then some ((Dict.get before k).getD .unit) else Dict.get after k := by
  unfold restore
  rw [Dict.get_update]
  have hz : ks.zip (ks.map fun k => (Dict.get before k).getD .unit) = ks.map fun k => (k, (Dict.get before k).getD .unit) := by
    induction ks with
    | nil => rfl
    | cons a ks ih => simp only [List.map_cons, List.zip_cons_cons, ih]
  rw [hz]
  by_cases hk : k ∈ ks
  · rw [if_pos hk]
    cases hf : List.find? (fun kv => kv.1 == k) (ks.map fun k => (k, (Dict.get before k).getD Val.unit)).reverse with
    | none =>
      have := (List.find?_eq_none.1 hf) (k, (Dict.get before k).getD .unit)
        (List.mem_reverse.2 (List.mem_map.2 ⟨k, hk, rfl⟩))
      simp at this
    | some kv =>
      have h1 := List.find?_some hf
      have h2 := List.mem_reverse.1 (List.mem_of_find?_eq_some hf)
      obtain ⟨x, -, rfl⟩ := List.mem_map.1 h2
      have h3 : x = k := by simpa using h1
      subst h3
      rfl
  · rw [if_neg hk]
    have hf : List.find? (fun kv => kv.1 == k) (ks.map fun k => (k, (Dict.get before k).getD Val.unit)).reverse = none := by
      rw [List.find?_eq_none]
      intro kv hkv
      obtain ⟨x, hx, rfl⟩ := List.mem_map.1 (List.mem_reverse.1 hkv)
      intro he
      have : x = k := by simpa using he
      exact hk (this ▸ hx)
    rw [hf]

theorem V.restore (ks : List Str) (hks : ∀ k ∈ ks, names k) (h : V glob hid names K ρ ρ') {τ τ' : Vars}
    (h' : V glob (fun k => hid k ∧ k ∉ ks) names K τ τ') :
    V glob hid names K (Spec.Pure.restore ks ρ τ) (Spec.Pure.restore ks ρ' τ') := by
  refine ⟨fun k hk => ?_, fun k hk => ?_, fun k hk hg => ?_⟩
  · rw [get_restore, get_restore]
    split
    · rw [h.1 k hk]
    · exact h'.1 k fun hh => hk hh.1
  · rw [get_restore, if_neg fun hm => hk (hks k hm), h'.2.1 k hk]
  · rw [get_restore]
    split
    · nofun
    · exact h'.2.2 k (fun hh => hk hh.1) hg

theorem V.look (h : V glob hid names K ρ ρ') {G G' : Look} (hG : ∀ k, ¬glob k → G k = G' k) (k : Str) (hk : ¬hid k) :
    look G ρ k = look G' ρ' k := by
  unfold Spec.Pure.look
  rw [← h.1 k hk]
  by_cases hg : glob k
  · cases he : Dict.get ρ k with
    | none => exact absurd he (h.2.2 k hk hg)
    | some v => rfl
  · rw [hG k hg]

end

/-! ## Parts of nodes -/

theorem each_congr {γ : Type} {f g : γ → Shown Unit} : ∀ {as : List γ}, (∀ a ∈ as, f a = g a) → each f as = each g as
  | [], _ => rfl
  | a :: as, h => by
    rw [each, each, h a (by simp), each_congr fun b hb => h b (List.mem_cons_of_mem _ hb)]

section
variable {q : Py} {I I' : Str → Shown Unit} (hnc : ∀ e, q.call e = none) {hid : Str → Prop} {L L' : Look}
  (h : ∀ k, ¬hid k → L k = L' k)
include h

theorem kept_eq {attrs : Dict Str} (ha : ∀ e, Dict.get attrs "py:strip".toList = some e → e ≠ [] → Ignores hid (q.eval e)) :
    kept { q with incl := I } L attrs = kept { q with incl := I' } L' attrs := by
  unfold kept
  cases he : Dict.get attrs "py:strip".toList with
  | none => rfl
  | some e =>
    cases e with
    | nil => rfl
    | cons x e => dsimp only; rw [ha _ he (by simp) L L' h]

theorem parts_eq : ∀ {xs : List (Str ⊕ Str)}, (∀ e, .inr e ∈ xs → Ignores hid (q.eval e)) →
    parts { q with incl := I } L xs = parts { q with incl := I' } L' xs
  | [], _ => rfl
  | .inl t :: xs, ha => by
    rw [parts, parts, parts_eq fun e he => ha e (List.mem_cons_of_mem _ he)]
  | .inr e :: xs, ha => by
    rw [parts, parts, parts_eq fun e he => ha e (List.mem_cons_of_mem _ he)]
    dsimp only
    rw [ha e (by simp) L L' h]

theorem startTag_eq {c c' : CEnv} (hc : SameOptions c c') {tag : Str} {attrs : Dict Str}
    (h1 : ∀ e, Dict.get attrs "py:strip".toList = some e → e ≠ [] → Ignores hid (q.eval e))
    (h2 : ∀ kv ∈ attrs, special kv.1 = false → ∀ e, .inr e ∈ cut c.py kv.2 → Ignores hid (q.eval e))
    (h3 : attr attrs "py:attrs" ≠ [] → Ignores hid (q.eval (attr attrs "py:attrs"))) :
    startTag { q with incl := I } c L tag attrs = startTag { q with incl := I' } c' L' tag attrs := by
  unfold startTag tagPart
  rw [kept_eq (I := I) (I' := I') h h1]
  refine congrArg (Shown.seq _) ?_
  have e1 : each (fun kv => (kept { q with incl := I' } L' attrs).next fun b =>
        if b = true then oneAttribute { q with incl := I } c L kv else done ())
        (sortItems (attrs.filter fun kv => !special kv.1)) =
      each (fun kv => (kept { q with incl := I' } L' attrs).next fun b =>
        if b = true then oneAttribute { q with incl := I' } c' L' kv else done ())
        (sortItems (attrs.filter fun kv => !special kv.1)) := by
    refine each_congr fun kv hkv => ?_
    have hm := List.mem_filter.1 ((Wf.sortItems_perm _).mem_iff.1 hkv)
    unfold oneAttribute
    rw [← hc.1, ← hc.2.1, parts_eq (I := I) (I' := I') h (h2 kv hm.1 (by simpa using hm.2))]
  rw [e1]
  refine congrArg (Shown.seq _) ?_
  split
  · rfl
  · next he =>
    unfold moreAttributes
    dsimp only
    rw [h3 (by simpa using he) L L' h, hc.2.1]

include hnc

theorem value_eq {e : Str} (he : Ignores hid (q.eval e)) :
    value { q with incl := I } L e = value { q with incl := I' } L' e := by
  unfold value
  dsimp only
  rw [hnc, he L L' h]

theorem text_eq {c c' : CEnv} (hc : SameOptions c c') {tag d : Str}
    (hd : ∀ e, .inr e ∈ cut c.py d → Ignores hid (q.eval e) ∧ Ignores hid (q.eval (resolve e))) :
    Spec.Pure.text { q with incl := I } c L tag d = Spec.Pure.text { q with incl := I' } c' L' tag d := by
  unfold Spec.Pure.text
  rw [← hc.1]
  refine each_congr fun a ha => ?_
  cases a with
  | inl t => rfl
  | inr e => exact value_eq hnc h (hd e ha).1

theorem scriptText_eq {c c' : CEnv} (hc : SameOptions c c') {esc : Bool} {d : Str}
    (hd : ∀ e, .inr e ∈ cut c.py d → Ignores hid (q.eval e) ∧ Ignores hid (q.eval (resolve e))) :
    scriptText { q with incl := I } c L esc d = scriptText { q with incl := I' } c' L' esc d := by
  unfold scriptText
  rw [← hc.1]
  refine each_congr fun a ha => ?_
  cases a with
  | inl t => rfl
  | inr e =>
    cases esc with
    | true => exact value_eq hnc h (hd e ha).2
    | false => exact value_eq hnc h (hd e ha).1

end

/-! ## Nodes -/

theorem keeping_rel {hid names : Str → Prop} {K : Str → Option Val} {ρ ρ' : Vars} (h : V glob hid names K ρ ρ')
    {m m' : Shown Unit} (hm : m = m') : Rel lax (V glob hid names K) (keeping ρ m) (keeping ρ' m') := by
  subst hm
  exact Rel.next' m fun _ _ => .done h

theorem loop_rel {hid names : Str → Prop} {K : Str → Option Val} {g g' : Vars → Shown Vars} {bs : List (Dict Val)}
    (hg : ∀ b ∈ bs, ∀ ρ ρ', V glob hid names K ρ ρ' → Rel lax (V glob hid names K) (g (ρ.update b)) (g' (ρ'.update b))) :
    ∀ {ρ ρ'}, V glob hid names K ρ ρ' → Rel lax (V glob hid names K) (Spec.Pure.loop g bs ρ) (Spec.Pure.loop g' bs ρ') := by
  induction bs with
  | nil => exact fun h => .done h
  | cons b bs ih =>
    intro ρ ρ' h
    rw [Spec.Pure.loop, Spec.Pure.loop]
    exact (hg b (by simp) ρ ρ' h).next fun σ σ' hσ => ih (fun b hb => hg b (List.mem_cons_of_mem _ hb)) hσ

theorem assign_rel {q : Py} {I I' : Str → Shown Unit} {G G' : Look}
    (hG : ∀ k, ¬glob k → G k = G' k) {names : Str → Prop} {K : Str → Option Val} :
    ∀ {vs : List (Str × Str)} {hid : Str → Prop}, ignoresAssignments q hid vs → (∀ kv ∈ vs, names kv.1) → ∀ {ρ ρ'},
      V glob hid names K ρ ρ' → Rel lax (V glob (fun k => hid k ∧ k ∉ vs.map (·.1)) names K)
        (assign { q with incl := I } G vs ρ) (assign { q with incl := I' } G' vs ρ')
  | [], _, _, _, _, _, h => .done (h.weaken fun k hk => ⟨hk, by simp⟩)
  | (x, e) :: vs, hid, hi, hn, ρ, ρ', h => by
    rw [assign, assign]
    dsimp only
    rw [hi.1 _ _ (h.look hG)]
    refine Rel.next' _ fun v _ => ?_
    have hb : ∀ k, ¬names k → Dict.get [(x, v)] k = none := fun k hk => by
      rw [Dict.get, if_neg]
      · rfl
      · intro hx
        exact hk (hx ▸ hn (x, e) (by simp))
    have h' := (h.bind hb (sets := fun k => k = x) fun k hk => by rw [hk, Dict.get, if_pos rfl]; simp).weaken
      (hid := fun k => hid k ∧ k ≠ x) fun k hk => hk
    have ih := assign_rel (I := I) (I' := I') hG hi.2 (fun kv hkv => hn kv (List.mem_cons_of_mem _ hkv)) h'
    rcases ih with ih | ⟨i1, i2⟩
    · exact .inl ih
    · refine .inr ⟨i1, ?_⟩
      revert i2
      unfold Same
      split
      · intro hh
        refine hh.weaken fun k hk => ⟨hk.1.1, ?_⟩
        simp only [List.map_cons, List.mem_cons, not_or]
        exact ⟨hk.1.2, hk.2⟩
      · exact id
      · exact id

theorem pasteAll_isEmpty (f : Str → Option DNode) (xs : List DNode) : (pasteAll f xs).isEmpty = xs.isEmpty := by
  cases xs with
  | nil => unfold pasteAll; rfl
  | cons x xs => unfold pasteAll; rfl

section
variable {q : Py} {I I' : Str → Shown Unit} {f : Str → Option DNode} {left names : Str → Prop} {G G' : Look}
  {over : Str → Option (Shown Unit)} {c c' : CEnv}

/-- What is pasted shows what is included. -/
def Shows (lax : Prop) (q : Py) (I I' : Str → Shown Unit) (f : Str → Option DNode) (glob left names : Str → Prop) (G' : Look)
    (over : Str → Option (Shown Unit)) (c' : CEnv) : Prop :=
  (∀ href, f href = none → Rel lax (fun _ _ => True) (I href) (I' href)) ∧
  ∀ href r, f href = some r → (∃ t as l kids, r = .elem t as l kids ∧ dirOf t = none) ∧
    ∀ hid : Str → Prop, (∀ k, left k → hid k) → ∀ els tag ρ ρ', V glob hid names (fun _ => none) ρ ρ' →
      Rel lax (V glob hid names fun _ => none) (keeping ρ (I href)) (node { q with incl := I' } G' over c' els tag r ρ')

theorem paste_elem (hs : Shows lax q I I' f glob left names G' over c') {t : Str} {as : Dict Str} {l : Nat} {kids : List DNode} :
    ∃ t' as' l' kids', paste f (.elem t as l kids) = .elem t' as' l' kids' := by
  rw [paste]
  by_cases hd : dirOf t = some .incl
  · rw [if_pos hd]
    cases hf : f (attr as "href") with
    | none => exact ⟨_, _, _, _, rfl⟩
    | some r =>
      obtain ⟨⟨t', as', l', kids', rfl, -⟩, -⟩ := hs.2 _ _ hf
      exact ⟨_, _, _, _, rfl⟩
  · rw [if_neg hd]
    exact ⟨_, _, _, _, rfl⟩

theorem paste_not_else (hs : Shows lax q I I' f glob left names G' over c') {t : Str} {as : Dict Str} {l : Nat} {kids : List DNode}
    (h : dirOf t ≠ some .elseD) :
    ∃ t' as' l' kids', paste f (.elem t as l kids) = .elem t' as' l' kids' ∧ dirOf t' ≠ some .elseD := by
  rw [paste]
  by_cases hd : dirOf t = some .incl
  · rw [if_pos hd]
    cases hf : f (attr as "href") with
    | none => exact ⟨_, _, _, _, rfl, h⟩
    | some r =>
      obtain ⟨⟨t', as', l', kids', rfl, hd'⟩, -⟩ := hs.2 _ _ hf
      exact ⟨_, _, _, _, rfl, by rw [hd']; nofun⟩
  · rw [if_neg hd]
    exact ⟨_, _, _, _, rfl, h⟩

theorem script_eq (hnc : ∀ e, q.call e = none) (hc : SameOptions c c') (hs : Shows lax q I I' f glob left names G' over c')
    {hid : Str → Prop} {L L' : Look} (h : ∀ k, ¬hid k → L k = L' k) {kids : List DNode}
    (hk : CarefulAll q left glob c hid kids) :
    scriptContent { q with incl := I } c L kids = scriptContent { q with incl := I' } c' L' (pasteAll f kids) := by
  unfold scriptContent
  rw [hc.2.1]
  refine congrArg (Shown.seq _) (congrArg (fun m => Shown.seq m _) ?_)
  induction kids with
  | nil => unfold pasteAll; rfl
  | cons x xs ih =>
    unfold CarefulAll at hk
    unfold pasteAll
    rw [each, each, ih hk.2]
    refine congrArg (fun m => Shown.seq m _) ?_
    cases x with
    | text d e l =>
      unfold paste
      unfold Careful at hk
      exact scriptText_eq hnc h hc hk.1
    | elem t as l kids =>
      obtain ⟨t', as', l', kids', hp⟩ := paste_elem hs (t := t) (as := as) (l := l) (kids := kids)
      rw [hp]
    | _ => unfold paste; rfl

variable (hG : ∀ k, ¬glob k → G k = G' k) (hnc : ∀ e, q.call e = none) (hc : SameOptions c c') (hs : Shows lax q I I' f glob left names G' over c')

/-- What is claimed of a node. -/
def One (lax : Prop) (q : Py) (I I' : Str → Shown Unit) (f : Str → Option DNode) (glob names : Str → Prop) (G G' : Look)
    (over : Str → Option (Shown Unit)) (c c' : CEnv) (hid : Str → Prop) (K : Str → Option Val) (x : DNode) : Prop :=
  (∀ els els', (∀ ρ ρ', V glob hid names K ρ ρ' → Rel lax (V glob hid names K) (els ρ) (els' ρ')) → ∀ tag ρ ρ', V glob hid names K ρ ρ' →
    Rel lax (V glob hid names K) (node { q with incl := I } G over c els tag x ρ)
      (node { q with incl := I' } G' over c' els' tag (paste f x) ρ')) ∧
  ∀ v rest rest', (∀ ρ ρ', V glob hid names K ρ ρ' → Rel lax (V glob hid names K) (rest ρ) (rest' ρ')) → ∀ ρ ρ', V glob hid names K ρ ρ' →
    Rel lax (V glob hid names K) (choice { q with incl := I } G over c v rest x ρ)
      (choice { q with incl := I' } G' over c' v rest' (paste f x) ρ')

/-- What is claimed of several nodes. -/
def All (lax : Prop) (q : Py) (I I' : Str → Shown Unit) (f : Str → Option DNode) (glob names : Str → Prop) (G G' : Look)
    (over : Str → Option (Shown Unit)) (c c' : CEnv) (hid : Str → Prop) (K : Str → Option Val) (xs : List DNode) : Prop :=
  (∀ raw tag ρ ρ', V glob hid names K ρ ρ' → Rel lax (V glob hid names K) (nodes { q with incl := I } G over c raw tag xs ρ)
      (nodes { q with incl := I' } G' over c' raw tag (pasteAll f xs) ρ')) ∧
  (∀ ρ ρ', V glob hid names K ρ ρ' → Rel lax (V glob hid names K) (otherwise { q with incl := I } G over c xs ρ)
      (otherwise { q with incl := I' } G' over c' (pasteAll f xs) ρ')) ∧
  ∀ v rest rest', (∀ ρ ρ', V glob hid names K ρ ρ' → Rel lax (V glob hid names K) (rest ρ) (rest' ρ')) → ∀ ρ ρ', V glob hid names K ρ ρ' →
    Rel lax (V glob hid names K) (choices { q with incl := I } G over c v rest xs ρ)
      (choices { q with incl := I' } G' over c' v rest' (pasteAll f xs) ρ')

include hc in
theorem plainAttrs_eq (t : Str) (as : Dict Str) : plainAttrs c.opts t as = plainAttrs c'.opts t as := by
  unfold plainAttrs; rw [hc.2.2.1]

include hc in
theorem scripts_eq (t : Str) : script c.opts t = script c'.opts t := by
  unfold script; rw [hc.2.2.2]

include hG hnc hc hs in
/-- An ordinary element. -/
theorem ordinary_rel {hid : Str → Prop} {K : Str → Option Val} {t : Str} {as : Dict Str} {l : Nat} {kids : List DNode}
    (hd : dirOf t = none) (hx : Careful q left glob c hid (.elem t as l kids))
    (ih : All lax q I I' f glob names G G' over c c' hid K kids) (els els' : Vars → Shown Vars) (tag : Str) {ρ ρ' : Vars}
    (h : V glob hid names K ρ ρ') :
    Rel lax (V glob hid names K) (node { q with incl := I } G over c els tag (.elem t as l kids) ρ)
      (node { q with incl := I' } G' over c' els' tag (.elem t as l (pasteAll f kids)) ρ') := by
  rw [Careful, hd] at hx
  dsimp only at hx
  obtain ⟨h1, h2, h3, h4, h5⟩ := hx
  rw [node, node, hd]
  dsimp only
  rw [pasteAll_isEmpty, ← plainAttrs_eq hc, ← scripts_eq hc, ← hc.2.1]
  generalize plainAttrs c.opts t as = attrs at *
  rw [startTag_eq (I := I) (I' := I') (h.look hG) hc h1 h2 h3]
  have htag : ∀ {σ σ' : Vars}, V glob hid names K σ σ' → ∀ s, Rel lax (V glob hid names K)
      (keeping σ (tagPart { q with incl := I } (look G σ) attrs (put s)))
      (keeping σ' (tagPart { q with incl := I' } (look G' σ') attrs (put s))) := fun hσ s => by
    refine keeping_rel hσ ?_
    unfold tagPart
    rw [kept_eq (I := I) (I' := I') (hσ.look hG) h1]
  refine Rel.seq' _ ?_
  split
  · next hcon =>
    refine (htag h _).next fun σ σ' hσ => ?_
    refine (keeping_rel hσ (value_eq hnc (hσ.look hG) (h4 (by simpa using hcon)))).next fun τ τ' hτ => htag hτ _
  · split
    · exact htag h _
    · refine (htag h _).next fun σ σ' hσ => ?_
      refine Rel.next (S := V glob hid names K) ?_ fun τ τ' hτ => ?_
      · split
        · exact keeping_rel hσ (script_eq hnc hc hs (hσ.look hG) h5)
        · exact ih.1 _ _ _ _ hσ
      · split
        · exact .done hτ
        · exact htag hτ _

include hG hnc hc hs in
set_option linter.unusedSectionVars false in
mutual
theorem node_rel : ∀ (x : DNode) (hid : Str → Prop) (K : Str → Option Val), (∀ href r, f href = some r → ∀ k, K k = none) →
    Careful q left glob c hid x → Sets q names x → One lax q I I' f glob names G G' over c c' hid K x
  | .text d _ _, hid, K, _, hx, _ => by
    unfold Careful at hx
    unfold One paste
    refine ⟨fun els els' he tag ρ ρ' h => ?_, fun v rest rest' hr ρ ρ' h => ?_⟩
    · rw [node, node]; exact keeping_rel h (text_eq hnc (h.look hG) hc hx)
    · unfold choice; exact hr _ _ h
  | .cdata d _, hid, K, _, hx, _ => by
    unfold Careful at hx
    unfold One paste
    refine ⟨fun els els' he tag ρ ρ' h => ?_, fun v rest rest' hr ρ ρ' h => ?_⟩
    · rw [node, node]; exact keeping_rel h (text_eq hnc (h.look hG) hc hx)
    · unfold choice; exact hr _ _ h
  | .comment d _, hid, K, _, _, _ => by
    unfold One paste
    refine ⟨fun els els' he tag ρ ρ' h => ?_, fun v rest rest' hr ρ ρ' h => ?_⟩
    · rw [node, node]; exact keeping_rel h rfl
    · unfold choice; exact hr _ _ h
  | .pi _ d _, hid, K, _, hx, hb => by
    unfold Careful at hx
    unfold Sets at hb
    unfold One paste
    refine ⟨fun els els' he tag ρ ρ' h => ?_, fun v rest rest' hr ρ ρ' h => ?_⟩
    · rw [node, node]
      dsimp only
      split
      · exact .done h
      · rw [hx _ _ (h.look hG)]
        refine Rel.next' _ fun b hbr => .done (h.update (hb (look G' ρ') b ?_))
        revert hbr
        cases q.block (pyLines (strip d)).2 (look G' ρ') with
        | ok a => intro hh; cases hh; rfl
        | error e => intro hh; cases hh
    · unfold choice; exact hr _ _ h
  | .elem t as l kids, hid, K, hK, hx, hb => by
    unfold Sets at hb
    have ih := fun hid' hk => nodes_rel kids hid' K hK hk hb.2.2
    cases hd : dirOf t with
    | none =>
      have hx' := hx
      rw [Careful, hd] at hx'
      have i := ih hid hx'.2.2.2.2
      unfold One paste
      rw [if_neg (by rw [hd]; nofun)]
      refine ⟨fun els els' he tag ρ ρ' h => ordinary_rel hG hnc hc hs hd hx i _ _ _ h, fun v rest rest' hr ρ ρ' h => ?_⟩
      rw [choice, choice, hd]
      exact hr _ _ h
    | some d =>
      by_cases hi : d = .incl
      · subst hi
        rw [Careful, hd] at hx
        dsimp only at hx
        unfold One paste
        rw [if_pos hd]
        cases hf : f (attr as "href") with
        | none =>
          refine ⟨fun els els' he tag ρ ρ' h => ?_, fun v rest rest' hr ρ ρ' h => ?_⟩
          · rw [Option.getD_none, node, node, hd]
            exact (hs.1 _ hf).next fun _ _ _ => .done h
          · rw [Option.getD_none, choice, choice, hd]
            exact hr _ _ h
        | some r =>
          obtain ⟨⟨t', as', l', kids', rfl, hd'⟩, hp⟩ := hs.2 _ _ hf
          have hK0 : K = fun _ => none := funext (hK _ _ hf)
          subst hK0
          refine ⟨fun els els' he tag ρ ρ' h => ?_, fun v rest rest' hr ρ ρ' h => ?_⟩
          · rw [Option.getD_some, node, hd]
            exact hp hid hx els' tag ρ ρ' h
          · rw [Option.getD_some, choice, choice, hd, hd']
            exact hr _ _ h
      · rw [Careful, hd] at hx
        unfold One paste
        rw [if_neg (by rw [hd]; simpa using hi)]
        refine ⟨fun els els' he tag ρ ρ' h => ?_, fun v rest rest' hr ρ ρ' h => ?_⟩
        · rw [node, node, hd]
          cases d with
          | incl => exact absurd rfl hi
          | replace => exact keeping_rel h (value_eq hnc (h.look hG) hx)
          | forD =>
            obtain ⟨h1, sets, h2, h3⟩ := hx
            dsimp only
            rw [h1 _ _ (h.look hG)]
            refine Rel.next' _ fun bs hbs => ?_
            have hbs' : q.iter (attr as "each") (look G' ρ') = .ok bs := by
              revert hbs
              cases q.iter (attr as "each") (look G' ρ') with
              | ok a => intro hh; cases hh; rfl
              | error e => intro hh; cases hh
            refine loop_rel (fun b hbm σ σ' hσ => ?_) h
            have := (ih _ h3).1 false t _ _ (hσ.bind (hb.1 hd _ _ hbs' b hbm) (h2 _ _ hbs' b hbm))
            rcases this with this | ⟨i1, i2⟩
            · exact .inl this
            · refine .inr ⟨i1, ?_⟩
              revert i2
              unfold Same
              split
              · exact fun hh => hh.weaken fun k hk => hk.1
              · exact id
              · exact id
          | withD =>
            dsimp only at hx ⊢
            refine (assign_rel hG hx.1 (hb.2.1 hd) h).next fun σ σ' hσ => ?_
            refine ((ih _ hx.2).1 false t _ _ hσ).next fun τ τ' hτ => .done ?_
            refine h.restore _ (fun k hk => ?_) hτ
            obtain ⟨kv, hkv, rfl⟩ := List.mem_map.1 hk
            exact hb.2.1 hd kv hkv
          | switchD =>
            dsimp only at hx ⊢
            rw [hx.1 _ _ (h.look hG)]
            exact Rel.next' _ fun v _ => (ih _ hx.2).2.2 v _ _ (fun _ _ hh => .done hh) _ _ h
          | ifD =>
            dsimp only at hx ⊢
            rw [hx.1 _ _ (h.look hG)]
            refine Rel.next' _ fun v _ => ?_
            split
            · exact (ih _ hx.2).1 false t _ _ h
            · exact he _ _ h
          | nop => exact (ih _ hx).1 false t _ _ h
          | block =>
            dsimp only
            cases over (attr as "name") with
            | some m => exact keeping_rel h rfl
            | none =>
              have i := (nodes_rel kids hid (fun _ => none) (fun _ _ _ _ => rfl) hx.2 hb.2.2).1 false t [] []
                ⟨fun _ _ => rfl, fun _ _ => rfl, fun k hk hg => absurd (hx.1 k hg) hk⟩
              have i' : Rel lax (fun _ _ => True) ((nodes { q with incl := I } G over c false t kids []).next fun _ => done ())
                  ((nodes { q with incl := I' } G' over c' false t (pasteAll f kids) []).next fun _ => done ()) :=
                i.next fun _ _ _ => .done trivial
              exact i'.next fun _ _ _ => .done h
          | _ => exact .done h
        · rw [choice, choice, hd]
          cases d with
          | caseD =>
            dsimp only at hx ⊢
            rw [hx.1 _ _ (h.look hG)]
            refine Rel.next' _ fun u _ => ?_
            split
            · exact (ih _ hx.2).1 false t _ _ h
            · exact hr _ _ h
          | elseD => exact (ih _ hx).1 false t _ _ h
          | nop => exact (ih _ hx).2.2 v _ _ hr _ _ h
          | _ => exact hr _ _ h
theorem nodes_rel : ∀ (xs : List DNode) (hid : Str → Prop) (K : Str → Option Val), (∀ href r, f href = some r → ∀ k, K k = none) →
    CarefulAll q left glob c hid xs → SetsAll q names xs → All lax q I I' f glob names G G' over c c' hid K xs
  | [], hid, K, _, _, _ => by
    unfold All pasteAll
    refine ⟨fun raw tag ρ ρ' h => ?_, fun ρ ρ' h => ?_, fun v rest rest' hr ρ ρ' h => ?_⟩
    · rw [nodes, nodes]; exact .done h
    · rw [otherwise_not [] rfl, otherwise_not [] rfl]; exact .done h
    · rw [choices, choices]; exact hr _ _ h
  | x :: xs, hid, K, hK, hx, hb => by
    unfold CarefulAll at hx
    unfold SetsAll at hb
    have i := nodes_rel xs hid K hK hx.2 hb.2
    have j := node_rel x hid K hK hx.1 hb.1
    unfold All
    rw [pasteAll]
    refine ⟨fun raw tag ρ ρ' h => ?_, fun ρ ρ' h => ?_, fun v rest rest' hr ρ ρ' h => ?_⟩
    · rw [nodes, nodes]
      refine Rel.next (S := V glob hid names K) ?_ fun σ σ' hσ => i.1 raw tag σ σ' hσ
      have j1 := j.1 _ _ i.2.1 tag _ _ h
      cases x with
      | cdata d l =>
        unfold paste at j1 ⊢
        cases raw with
        | true => exact keeping_rel h rfl
        | false => exact j1
      | elem t as l kids =>
        obtain ⟨t', as', l', kids', hp⟩ := paste_elem hs (t := t) (as := as) (l := l) (kids := kids)
        rw [hp] at j1 ⊢
        cases raw <;> exact j1
      | _ => unfold paste at j1 ⊢; cases raw <;> exact j1
    · cases x with
      | elem t as l kids =>
        by_cases hd : dirOf t = some .elseD
        · have hk : CarefulAll q left glob c hid kids := by
            have := hx.1
            rw [Careful, hd] at this
            exact this
          have hbk : SetsAll q names kids := by
            have := hb.1
            rw [Sets] at this
            exact this.2.2
          have ik := nodes_rel kids hid K hK hk hbk
          rw [paste, if_neg (by rw [hd]; nofun), otherwise, otherwise]
          dsimp only
          rw [if_pos hd, if_pos hd]
          exact ik.1 false t _ _ h
        · rw [otherwise_not _ (by unfold Spec.Swap.startsElse; simpa using hd)]
          rw [otherwise_not]
          · exact .done h
          · obtain ⟨t', as', l', kids', hp, hd'⟩ := paste_not_else hs (l := l) (as := as) (kids := kids) hd
            rw [hp]
            unfold Spec.Swap.startsElse
            simpa using hd'
      | _ => unfold paste; rw [otherwise_not _ rfl, otherwise_not _ rfl]; exact .done h
    · rw [choices, choices]
      exact j.2 v _ _ (fun σ σ' hσ => i.2.2 v rest rest' hr σ σ' hσ) _ _ h
end

end

/-! ## Templates -/

mutual
theorem paste_none : ∀ x : DNode, paste (fun _ => none) x = x
  | .elem t as l kids => by
    rw [paste, pasteAll_none kids]
    split <;> rfl
  | .text .. => by unfold paste; rfl
  | .cdata .. => by unfold paste; rfl
  | .comment .. => by unfold paste; rfl
  | .pi .. => by unfold paste; rfl
theorem pasteAll_none : ∀ xs : List DNode, pasteAll (fun _ => none) xs = xs
  | [] => by unfold pasteAll; rfl
  | x :: xs => by rw [pasteAll, paste_none x, pasteAll_none xs]
end

/-- Comments beside the root element are ignored. -/
def counts : DNode → Bool
  | .comment _ _ => false
  | _ => true

theorem root?_eq (t : Template) : t.root? = match t.doc.kids.filter counts with
    | [root] => some root
    | _ => none := by
  have h : counts = fun | .comment _ _ => false | _ => true := by
    funext x
    cases x <;> rfl
  rw [h]
  rfl

theorem counts_paste {f : Str → Option DNode} (hf : ∀ href r, f href = some r → ∃ t as l kids, r = .elem t as l kids) (x : DNode) :
    counts (paste f x) = counts x := by
  cases x with
  | elem t as l kids =>
    rw [paste]
    by_cases hd : dirOf t = some .incl
    · rw [if_pos hd]
      cases h : f (attr as "href") with
      | none => rfl
      | some r => obtain ⟨_, _, _, _, rfl⟩ := hf _ _ h; rfl
    · rw [if_neg hd]
      rfl
  | _ => unfold paste; rfl

theorem pasteAll_filter {f : Str → Option DNode} (hf : ∀ href r, f href = some r → ∃ t as l kids, r = .elem t as l kids) :
    ∀ xs : List DNode, (pasteAll f xs).filter counts = pasteAll f (xs.filter counts)
  | [] => by unfold pasteAll; rfl
  | x :: xs => by
    conv_lhs => rw [pasteAll]
    rw [List.filter_cons, List.filter_cons, pasteAll_filter hf xs, counts_paste hf]
    split
    · rw [pasteAll]
    · rfl

theorem root_pasted {f : Str → Option DNode} (hf : ∀ href r, f href = some r → ∃ t as l kids, r = .elem t as l kids) {t : Template}
    {root : DNode} (h : t.root? = some root) : (pasted f t).root? = some (paste f root) := by
  rw [root?_eq] at h ⊢
  unfold pasted
  dsimp only
  rw [pasteAll_filter hf]
  split at h
  · next r hr =>
    cases h
    rw [hr]
    unfold pasteAll
    unfold pasteAll
    rfl
  · cases h

/-- What an ordinary element shows does not depend on the place. -/
theorem node_plain {py : Py} {G : Look} {over : Str → Option (Shown Unit)} {c : CEnv} {t : Str} {as : Dict Str} {l : Nat}
    {kids : List DNode} (hd : dirOf t = none) (els els' : Vars → Shown Vars) (tag tag' : Str) (ρ : Vars) :
    node py G over c els tag (.elem t as l kids) ρ = node py G over c els' tag' (.elem t as l kids) ρ := by
  rw [node, node, hd]

theorem sameOptions_refl (c : CEnv) : SameOptions c c := ⟨rfl, rfl, rfl, rfl⟩

section
variable {ts ts' : List Template} {load : Str → Option Nat} {py : Py} {G : Look}

/-- What included templates show. -/
def incls (ts : List Template) (load : Str → Option Nat) (py : Py) (G : Look) (n : Nat) (href : Str) : Shown Unit :=
  match load href with
  | none => raise .ioError
  | some j => Spec.Include.shownIn ts load py G n j

theorem shownIn_eq (n i : Nat) {t : Template} (ht : ts[i]? = some t) {root : DNode} (hr : t.root? = some root) :
    Spec.Include.shownIn ts load py G (n + 1) i =
      (shown { py with incl := incls ts load py G n } (Spec.Include.inherited G t.base) t root).next fun _ => done () := by
  rw [Spec.Include.shownIn, ht]
  dsimp only
  rw [hr]
  rfl

/-- What is pasted shows what is included. -/
theorem fitting_shows (hnc : ∀ e, py.call e = none) {n n' : Nat}
    (ih : ∀ m, m < n → ∀ i, Rel True (fun _ _ => True) (Spec.Include.shownIn ts load py G m i) (Spec.Include.shownIn ts' load py G n' i))
    {names left : Str → Prop} (hl : ∀ k, left k → names k) {t u : Template} {href : Str} {i : Nat} {r : DNode}
    (hload : load href = some i) (hu : ts[i]? = some u) (hf : Fitting py names left t u r) (hid : Str → Prop)
    (hh : ∀ k, left k → hid k) (els : Vars → Shown Vars) (tag : Str) (ρ ρ' : Vars)
    (h : V (fun _ => False) hid names (fun _ => none) ρ ρ') :
    Rel True (V (fun _ => False) hid names fun _ => none) (keeping ρ (incls ts load py G n href))
      (node { py with incl := incls ts' load py G n' } (Spec.Include.inherited G t.base) (fun _ => none) t.conf els tag r ρ') := by
  have hin : ∀ n, incls ts load py G n href = Spec.Include.shownIn ts load py G n i := fun n => by
    unfold incls
    rw [hload]
  rw [hin]
  cases n with
  | zero => exact .inl ⟨trivial, rfl⟩
  | succ m =>
    obtain ⟨tag', as', l', kids', hr, hd⟩ := hf.plain
    rw [shownIn_eq m i hu hf.isRoot]
    have hG : Spec.Include.inherited G u.base = Spec.Include.inherited G t.base := by
      funext k
      unfold Spec.Include.inherited
      rw [hf.module k]
    have hs : Shows True py (incls ts load py G m) (incls ts' load py G n') (fun _ => none) (fun _ => False) (fun _ => False) left
        (Spec.Include.inherited G t.base) (fun _ => none) t.conf := by
      refine ⟨fun href' _ => ?_, fun _ _ hh => by cases hh⟩
      unfold incls
      cases load href' with
      | none => exact Rel.refl (fun _ => trivial) _
      | some j => exact ih m (Nat.lt_succ_self m) j
    have key := (node_rel (fun _ _ => rfl) hnc hf.options hs r names (Dict.get ρ') (fun _ _ hh => by cases hh) hf.careful hf.sets).1
      (fun ρ => done ρ) (fun ρ => done ρ) (fun _ _ hh => .done hh) [] [] ρ' ⟨fun k hk => (h.2.1 k hk).symm, fun _ _ => rfl, fun _ _ hh => hh.elim⟩
    rw [paste_none] at key
    unfold shown
    rw [hf.noDoctype, hG]
    have hp : node { py with incl := incls ts' load py G n' } (Spec.Include.inherited G t.base) (fun _ => none) t.conf els tag r ρ' =
        (node { py with incl := incls ts' load py G n' } (Spec.Include.inherited G t.base) (fun _ => none) t.conf
          (fun ρ => done ρ) [] r ρ').next fun σ => done σ := by
      rw [next_done, hr]
      exact node_plain hd _ _ _ _ _
    rw [hp]
    unfold keeping
    rw [next_assoc]
    refine Rel.next (S := V (fun _ => False) names left (Dict.get ρ')) key fun σ σ' hσ => ?_
    rw [done_next]
    refine .done ⟨fun k hk => ?_, fun k hk => ?_, fun _ _ hg => hg.elim⟩
    · rw [hσ.2.1 k fun hk' => hk (hh k hk'), h.1 k hk]
    · rw [hσ.2.1 k fun hk' => hk (hl k hk'), h.2.1 k hk]

/-- Templates with others pasted in. -/
theorem shownIn_rel (hnc : ∀ e, py.call e = none) (hP : List.Forall₂ (Pasted py ts load) ts ts')
    (hroot : ∀ t ∈ ts, ∃ root, t.root? = some root) (hdt : ∀ t ∈ ts ++ ts', ∀ root, t.root? = some root →
      (Spec.DocSem.after t.conf.opts .root root).child = false) :
    ∀ n n' : Nat, n ≤ n' → ∀ i, Rel True (fun _ _ => True) (Spec.Include.shownIn ts load py G n i)
      (Spec.Include.shownIn ts' load py G n' i) := by
  intro n
  induction n using Nat.strongRecOn with
  | ind n ih =>
    intro n' hn i
    cases n with
    | zero => exact .inl ⟨trivial, rfl⟩
    | succ m =>
      obtain ⟨m', rfl⟩ : ∃ m', n' = m' + 1 := ⟨n' - 1, by omega⟩
      have hlen := hP.length_eq
      cases ht : ts[i]? with
      | none =>
        have ht' : ts'[i]? = none := by
          rw [List.getElem?_eq_none_iff] at ht ⊢
          omega
        rw [Spec.Include.shownIn, Spec.Include.shownIn, ht, ht']
        exact Rel.refl (fun _ => trivial) _
      | some t =>
        obtain ⟨hi, rfl⟩ := List.getElem?_eq_some_iff.1 ht
        have hi' : i < ts'.length := by omega
        obtain ⟨⟨f, names, left, hpt, hl, hc, hf⟩⟩ := hP.get hi hi'
        rw [List.get_eq_getElem] at hpt hc hf
        rw [List.get_eq_getElem] at hpt
        have ht' : ts'[i]? = some (ts'[i]) := List.getElem?_eq_getElem hi'
        obtain ⟨root, hr⟩ := hroot _ (List.getElem_mem hi)
        have hfe : ∀ href r, f href = some r → ∃ t as l kids, r = DNode.elem t as l kids := fun href r hh => by
          obtain ⟨_, _, _, _, hfit⟩ := hf href r hh
          obtain ⟨a, b, c, d, e, -⟩ := hfit.plain
          exact ⟨a, b, c, d, e⟩
        have hr' := root_pasted hfe hr
        rw [shownIn_eq m i ht hr, shownIn_eq m' i ht' (by rw [hpt]; exact hr')]
        have hd1 := hdt _ (List.mem_append_left _ (List.getElem_mem hi)) _ hr
        have hd2 := hdt _ (List.mem_append_right _ (List.getElem_mem hi')) _ (by rw [hpt]; exact hr')
        rw [hpt] at hd2 ⊢
        have hdoc : (pasted f ts[i]).doctype (paste f root) = (ts[i]).doctype root := by
          unfold Spec.DocSem.Template.doctype
          rw [hd1, hd2]
          rfl
        unfold shown
        rw [hdoc]
        have hs : Shows True py (incls ts load py G m) (incls ts' load py G m') f (fun _ => False) left names
            (Spec.Include.inherited G (ts[i]).base) (fun _ => none) (ts[i]).conf := by
          refine ⟨fun href _ => ?_, fun href r hh => ?_⟩
          · unfold incls
            cases load href with
            | none => exact Rel.refl (fun _ => trivial) _
            | some j => exact ih m (Nat.lt_succ_self m) m' (by omega) j
          · obtain ⟨j, u, h1, h2, h3⟩ := hf href r hh
            obtain ⟨a, b, c, d, e, e'⟩ := h3.plain
            refine ⟨⟨a, b, c, d, e, e'⟩, fun hid hh els tag ρ ρ' hV => ?_⟩
            exact fitting_shows hnc (fun p hp j => ih p (by omega) m' (by omega) j) hl h1 h2 h3 hid hh els tag ρ ρ' hV
        have key := (node_rel (fun _ _ => rfl) hnc (sameOptions_refl _) hs root left (fun _ => none) (fun _ _ _ _ => rfl) (hc root hr).1
          (hc root hr).2).1 (fun ρ => done ρ) (fun ρ => done ρ) (fun _ _ hh => .done hh) [] [] [] ⟨fun _ _ => rfl, fun _ _ => rfl, fun _ _ hh => hh.elim⟩
        exact Rel.next (S := V (fun _ => False) left names fun _ => none) (Rel.seq' _ key) fun _ _ _ => .done trivial

end

mutual
theorem sets_all (py : Py) : ∀ x, Sets py (fun _ => True) x
  | .text .. => by unfold Sets; trivial
  | .cdata .. => by unfold Sets; trivial
  | .comment .. => by unfold Sets; trivial
  | .pi .. => by unfold Sets; exact fun _ _ _ _ h => (h trivial).elim
  | .elem t as l kids => by
    unfold Sets
    exact ⟨fun _ _ _ _ _ _ _ h => (h trivial).elim, fun _ _ _ => trivial, setsAll_all py kids⟩
theorem setsAll_all (py : Py) : ∀ xs, SetsAll py (fun _ => True) xs
  | [] => by unfold SetsAll; trivial
  | x :: xs => by unfold SetsAll; exact ⟨sets_all py x, setsAll_all py xs⟩
end

/-! ## Variables that are set before they are looked at -/

section
variable {ts : List Template} {load : Str → Option Nat} {py : Py} {G G' : Look} {hid : Str → Prop}

/-- Global variables with the names of local ones have no influence. -/
theorem shownIn_hidden (hnc : ∀ e, py.call e = none) (hG : ∀ k, ¬hid k → G k = G' k)
    (hc : ∀ t ∈ ts, ∀ root, t.root? = some root → Careful py (fun _ => False) hid t.conf hid root) :
    ∀ n i : Nat, Rel False (fun _ _ => True) (Spec.Include.shownIn ts load py G n i) (Spec.Include.shownIn ts load py G' n i)
  | 0, _ => Rel.refl (fun _ => trivial) _
  | n + 1, i => by
    cases ht : ts[i]? with
    | none =>
      rw [Spec.Include.shownIn, Spec.Include.shownIn, ht]
      exact Rel.refl (fun _ => trivial) _
    | some t =>
      cases hr : t.root? with
      | none =>
        rw [Spec.Include.shownIn, Spec.Include.shownIn, ht]
        dsimp only
        rw [hr]
        exact Rel.refl (fun _ => trivial) _
      | some root =>
        rw [shownIn_eq n i ht hr, shownIn_eq n i ht hr]
        have hs : Shows False py (incls ts load py G n) (incls ts load py G' n) (fun _ => none) hid (fun _ => False)
            (fun _ => True) (Spec.Include.inherited G' t.base) (fun _ => none) t.conf := by
          refine ⟨fun href _ => ?_, fun _ _ hh => by cases hh⟩
          unfold incls
          cases load href with
          | none => exact Rel.refl (fun _ => trivial) _
          | some j => exact shownIn_hidden hnc hG hc n j
        have key := (node_rel (G := Spec.Include.inherited G t.base) (fun k hk => by
            unfold Spec.Include.inherited; rw [hG k hk]) hnc (sameOptions_refl _) hs root hid (fun _ => none)
          (fun _ _ hh => by cases hh) (hc t (List.mem_of_getElem? ht) root hr) (sets_all _ _)).1 (fun ρ => done ρ)
          (fun ρ => done ρ) (fun _ _ hh => .done hh) [] [] []
          ⟨fun _ _ => rfl, fun _ _ => rfl, fun k hk hg => absurd hg hk⟩
        rw [paste_none] at key
        unfold shown
        exact Rel.next (S := V hid hid (fun _ => True) fun _ => none) (Rel.seq' _ key) fun _ _ _ => .done trivial

/-- The same for a template without others. -/
theorem shown_hidden {t : Template} {root : DNode} (hnc : ∀ e, py.call e = none) (hG : ∀ k, ¬hid k → G k = G' k)
    (hc : Careful py (fun _ => False) hid t.conf hid root) :
    Rel False (fun _ _ => True) (shown py G t root) (shown py G' t root) := by
  have hs : Shows False py py.incl py.incl (fun _ => none) hid (fun _ => False) (fun _ => True) G' (fun _ => none) t.conf :=
    ⟨fun _ _ => Rel.refl (fun _ => trivial) _, fun _ _ hh => by cases hh⟩
  have key := (node_rel hG hnc (sameOptions_refl _) hs root hid (fun _ => none)
    (fun _ _ hh => by cases hh) hc (sets_all _ _)).1 (fun ρ => done ρ)
    (fun ρ => done ρ) (fun _ _ hh => .done hh) [] [] []
    ⟨fun _ _ => rfl, fun _ _ => rfl, fun k hk hg => absurd hg hk⟩
  rw [paste_none] at key
  unfold shown
  refine Rel.seq' _ ?_
  exact key.mono fun _ _ _ => trivial

end

/-! ## Templates that stay as they are -/

theorem ignores_nothing {α : Type} (m : Look → α) : Ignores (fun _ => False) m :=
  fun _ _ h => congrArg m (funext fun k => h k id)

theorem hid_nothing (p : Str → Prop) : (fun k => False ∧ p k) = fun _ => False := funext fun _ => by simp

theorem assignments_nothing (py : Py) : ∀ vs, ignoresAssignments py (fun _ => False) vs
  | [] => trivial
  | (k, e) :: vs => ⟨ignores_nothing _, by rw [hid_nothing fun x => x ≠ k]; exact assignments_nothing py vs⟩

mutual
theorem careful_nothing (py : Py) (c : CEnv) : ∀ x, Careful py (fun _ => False) (fun _ => False) c (fun _ => False) x
  | .text .. => by unfold Careful; exact fun _ _ => ⟨ignores_nothing _, ignores_nothing _⟩
  | .cdata .. => by unfold Careful; exact fun _ _ => ⟨ignores_nothing _, ignores_nothing _⟩
  | .comment .. => by unfold Careful; trivial
  | .pi .. => by unfold Careful; exact ignores_nothing _
  | .elem t as l kids => by
    have ih := carefulAll_nothing py c kids
    rw [Careful]
    cases dirOf t with
    | none =>
      exact ⟨fun _ _ _ => ignores_nothing _, fun _ _ _ _ _ => ignores_nothing _, fun _ => ignores_nothing _,
        fun _ => ignores_nothing _, ih⟩
    | some d =>
      cases d with
      | replace => exact ignores_nothing _
      | forD => exact ⟨ignores_nothing _, fun _ => False, fun _ _ _ _ _ _ h => h.elim, by rw [hid_nothing]; exact ih⟩
      | withD => exact ⟨assignments_nothing _ _, by rw [hid_nothing]; exact ih⟩
      | switchD => exact ⟨ignores_nothing _, ih⟩
      | caseD => exact ⟨ignores_nothing _, ih⟩
      | ifD => exact ⟨ignores_nothing _, ih⟩
      | elseD => exact ih
      | nop => exact ih
      | block => exact ⟨fun _ h => h, ih⟩
      | incl => exact fun _ h => h
      | _ => trivial
theorem carefulAll_nothing (py : Py) (c : CEnv) : ∀ xs, CarefulAll py (fun _ => False) (fun _ => False) c (fun _ => False) xs
  | [] => by unfold CarefulAll; trivial
  | x :: xs => by unfold CarefulAll; exact ⟨careful_nothing py c x, carefulAll_nothing py c xs⟩
end

/-- Nothing need be pasted. -/
theorem pasted_refl (py : Py) (ts : List Template) (load : Str → Option Nat) (t : Template) : Pasted py ts load t t := by
  refine ⟨⟨fun _ => none, fun _ => True, fun _ => False, ?_, fun _ _ => trivial,
    fun root _ => ⟨careful_nothing _ _ _, sets_all _ _⟩, fun _ _ h => by cases h⟩⟩
  unfold pasted
  rw [pasteAll_none]

end Kajiki.PasteL

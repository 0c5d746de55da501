import Verif.Lemmas.FillDom
import Verif.Lemmas.StaticRun

/-! Documents with expressions are accepted, and what rendering them gives. -/

namespace Kajiki.FillDoc
open Kajiki.Run Kajiki.Spec.Fill Kajiki.Spec.DocSem Kajiki.Spec.Accept
open Kajiki.Spec.Static (reserved)
open Kajiki.StaticDoc (Bare BareAll BareTemplate)
open Kajiki.Spec.XmlText (Piece)

section
variable {py : PyCompile} {G : Str → Prop}

mutual
theorem bare (o : Opts) : ∀ x, Ok py G o x → Bare o (toD x)
  | .text _ _ _, _ => trivial
  | .cdata _ _, _ => trivial
  | .comment _ _, _ => trivial
  | .elem _ _ _ kids, h => ⟨h.1, plain_keys fun kv hkv => (h.2.1 kv hkv).1, h.2.2.2.1, bareAll o kids h.2.2.2.2.2⟩

theorem bareAll (o : Opts) : ∀ xs, OkAll py G o xs → BareAll o (toDAll xs)
  | [], _ => trivial
  | x :: xs, h => ⟨bare o x h.1, bareAll o xs h.2⟩
end

theorem scans_enc {e : Bool} {ts : List Item} (h : Text py e ts) : scans py (enc e ts) = true := by
  unfold scans
  rw [compile_enc h]
  rfl

theorem resolvable_pieces {ts : List Item} (h : ∀ t ∈ ts, t.ok py true) :
    ((pieces true ts).map Piece.value).all resolvable = true := by
  have hr : ∀ t, unescape (saxEscape t) = .ok t → resolvable (.inl (saxEscape t)) = true := by
    intro t ht
    change fine (unescape (saxEscape t)) = true
    rw [ht]
    rfl
  rw [List.all_eq_true]
  intro a ha
  cases a with
  | inr x =>
    have := unescape_saxEscape x
    rw [saxEscape_plain (plain_expression h (expressions_inr ha))] at this
    change fine (unescape x) = true
    rw [this]
    rfl
  | inl t =>
    rw [pieces_esc, List.map_map] at ha
    obtain ⟨p, -, hp⟩ := List.mem_map.1 ha
    cases p with
    | text t' =>
      have hp : Sum.inl (saxEscape t') = Sum.inl t := hp
      rw [← hp]
      exact hr t' (unescape_saxEscape t')
    | dollar =>
      have hp : Sum.inl ['$'] = Sum.inl t := hp
      have h2 := hr ['$'] (unescape_saxEscape _)
      rw [saxEscape_plain (by decide), hp] at h2
      exact h2
    | name n => cases hp
    | expr ws x => cases hp

theorem scriptAccepted_ok (c : CEnv) (xs : List T) (h : OkAll c.py G c.opts xs) (ht : ∀ x ∈ xs, isTextT x = true) :
    scriptAccepted c (toDAll xs) = true := by
  induction xs with
  | nil => rfl
  | cons x xs ih =>
    have ih := ih h.2 fun x hx => ht x (by simp [hx])
    have hx := ht x (by simp)
    rw [toDAll]
    cases x with
    | cdata d l => exact ih
    | text ts e l =>
      have hk : Known c.py G e ts := h.1
      rw [toD, scriptAccepted, ih, scans_enc hk.text, cut_enc hk.text]
      cases e with
      | false => rfl
      | true => rw [resolvable_pieces hk.text.1]; rfl
    | _ => cases hx

mutual
theorem accepted_ok (c : CEnv) (p : Place) (parent : Option Str) (sw : Bool) (prev : Str) :
    ∀ x, Ok c.py G c.opts x → (∀ d l, x ≠ .cdata d l) → (isTextT x = true → parent.isSome = true) →
      accepted c p parent sw prev (toD x) = true
  | .text ts e _, h, _, hp => by
    rw [toD]
    unfold accepted
    rw [scans_enc h.text, hp rfl]
    rfl
  | .cdata d l, _, hn, _ => absurd rfl (hn d l)
  | .comment _ _, _, _, _ => by rw [toD]; unfold accepted; rfl
  | .elem t as ln kids, h, _, _ => by
    obtain ⟨h1, h2, h3, h4, h5, h6⟩ := h
    have h2' := plain_keys fun kv hkv => (h2 kv hkv).1
    rw [toD]
    unfold accepted
    have hm : markAccepted c.opts t (as.map fun kv => (kv.1, written kv.2)) = true := by
      unfold markAccepted
      rw [h4]; rfl
    rw [hm, Bool.true_and]
    dsimp only
    rw [StaticDoc.auto_plain h4, if_neg Bool.false_ne_true, StaticDoc.dirOf_plain h1]
    dsimp only
    rw [StaticDoc.plainAttrs_plain h4, Bool.and_eq_true, List.all_eq_true]
    refine ⟨fun kv hkv => ?_, ?_⟩
    · obtain ⟨q, hq, rfl⟩ := List.mem_map.1 hkv
      rw [written_eq, scans_enc (h2 q hq).2.text, Bool.or_true]
    · rw [Bool.or_eq_true]
      right
      split
      · next hs => exact scriptAccepted_ok c kids h6 (h5 hs)
      · exact acceptedAll_ok c p (some t) _ [] kids h6 rfl

theorem acceptedAll_ok (c : CEnv) (p : Place) (parent : Option Str) (sw : Bool) (prev : Str) :
    ∀ xs, OkAll c.py G c.opts xs → parent.isSome = true → acceptedAll c p true parent sw prev (toDAll xs) = true
  | [], _, _ => by rw [toDAll, acceptedAll]
  | x :: xs, h, hp => by
    obtain ⟨h1, h2⟩ := h
    rw [toDAll]
    unfold acceptedAll
    rw [StaticDoc.after_bare c.opts p _ (bare _ _ h1), acceptedAll_ok c p parent sw _ xs h2 hp, Bool.and_true]
    cases x with
    | cdata d l => rfl
    | text ts e l =>
      have := accepted_ok c p parent sw prev _ h1 (by intros; nofun) fun _ => hp
      rw [toD] at this ⊢
      exact this
    | comment d l =>
      have := accepted_ok c p parent sw prev _ h1 (by intros; nofun) fun _ => hp
      rw [toD] at this ⊢
      exact this
    | elem t as ln ks =>
      have := accepted_ok c p parent sw prev _ h1 (by intros; nofun) fun _ => hp
      rw [toD] at this ⊢
      exact this
end

end

/-! ## The variables of the context -/

theorem get_update (d : Dict Val) {e : Dict Val} (hn : (e.map (·.1)).Nodup) {k : Str} {x : Val}
    (h : Dict.get e k = some x) : Dict.get (Dict.update d e) k = some x := by
  induction e generalizing d with
  | nil => cases h
  | cons p e ih =>
    obtain ⟨k', v⟩ := p
    rw [List.map_cons, List.nodup_cons] at hn
    rw [Dict.get_cons] at h
    change Dict.get (Dict.update (d.set k' v) e) k = some x
    split at h
    · next hk =>
      cases h
      subst hk
      have : Dict.get e k' = none := by
        have h' := hn.1
        clear * - h'
        induction e with
        | nil => rfl
        | cons q e ih =>
          rw [List.map_cons, List.mem_cons, not_or] at h'
          obtain ⟨k, v⟩ := q
          rw [Dict.get_cons, if_neg (Ne.symm h'.1)]
          exact ih h'.2
      rw [StaticDoc.get_update_none _ this, Dict.get_set_same]
    · exact ih _ hn.2 h

theorem shows_context (i j : Nat) (base methods methods' context : Dict Val) (hn : (context.map (·.1)).Nodup) :
    Shows context ⟨j, context, newGlobals i base methods context, methods'⟩ := by
  intro k x hk h1 h2
  unfold newGlobals
  dsimp only
  have h1' : ['_'] ≠ k := Ne.symm h1
  rw [Dict.get_set_other _ _ (Ne.symm h2), Dict.get_set_other _ _ h1']
  exact get_update _ hn hk

end Kajiki.FillDoc

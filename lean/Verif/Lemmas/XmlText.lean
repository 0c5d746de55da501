import Verif.Spec.XmlText
import Verif.Lemmas.Dom

/-!
# Lemmas about expressions in text
-/

namespace Kajiki.XmlTexts
open Kajiki.Spec.XmlText

theorem nameStart_eq : nameStart = isNameStart := by
  funext c
  rw [Bool.eq_iff_iff]
  constructor
  · intro h
    have h : c ∈ "_abcdefghijklmnopqrstuvwxyzABCDEFGHIJKLMNOPQRSTUVWXYZ\u0130\u0131\u017f\u212a".toList := by
      simpa [nameStart] using h
    have key : ∀ c ∈ "_abcdefghijklmnopqrstuvwxyzABCDEFGHIJKLMNOPQRSTUVWXYZ\u0130\u0131\u017f\u212a".toList,
        isNameStart c = true := by decide +kernel
    exact key c h
  · intro h
    have key : ∀ n ∈ 0x130 :: 0x131 :: 0x17f :: 0x212a :: 0x5f :: (List.range' 0x61 26 ++ List.range' 0x41 26),
        nameStart (Char.ofNat n) = true := by decide +kernel
    have hc : Char.ofNat c.toNat = c := Char.ofNat_toNat c
    have hn : c.toNat ∈ 0x130 :: 0x131 :: 0x17f :: 0x212a :: 0x5f :: (List.range' 0x61 26 ++ List.range' 0x41 26) := by
      simp only [isNameStart, Bool.or_eq_true, beq_iff_eq, Bool.and_eq_true, decide_eq_true_eq] at h
      simp only [List.mem_cons, List.mem_append, List.mem_range'_1]
      rcases h with (((((h | h) | h) | h) | h) | h) | h
      · subst h; decide
      all_goals omega
    rw [← hc]
    exact key _ hn

theorem nameChar_eq : nameChar = isNameChar := by
  funext c
  unfold nameChar isNameChar
  rw [nameStart_eq, Bool.eq_iff_iff]
  simp only [Bool.or_eq_true, Bool.and_eq_true, beq_iff_eq, decide_eq_true_eq, or_assoc]
  refine or_congr Iff.rfl ⟨fun h => ?_, fun h => ?_⟩
  · have h : c ∈ "0123456789.".toList := by simpa using h
    have key : ∀ c ∈ "0123456789.".toList, '0' ≤ c ∧ c ≤ '9' ∨ c = '.' := by decide +kernel
    exact key c h
  · rcases h with ⟨h1, h2⟩ | rfl
    · have h1 : 0x30 ≤ c.toNat := h1
      have h2 : c.toNat ≤ 0x39 := h2
      have key : ∀ n ∈ List.range' 0x30 10, "0123456789.".toList.contains (Char.ofNat n) = true := by decide +kernel
      rw [← Char.ofNat_toNat c]
      exact key _ (by rw [List.mem_range'_1]; omega)
    · decide +kernel

theorem dollarAt_none {s : Str} : dollarAt s = none ↔ ¬ Marker s := by
  constructor
  · rintro h ⟨c, rest, rfl, h1⟩
    rcases h1 with rfl | rfl | h1
    · simp [dollarAt] at h
    · simp [dollarAt] at h
    · by_cases hb : c = '{'
      · subst hb; simp [dollarAt] at h
      · by_cases hd : c = '$'
        · subst hd; simp [dollarAt] at h
        · rw [dollarAt] at h
          · rw [nameStart_eq] at h1; simp [h1] at h
          · exact fun h => hb h
          · exact fun h => hd h
  · intro h
    unfold dollarAt
    split
    · exact absurd ⟨_, _, rfl, .inr (.inl rfl)⟩ h
    · exact absurd ⟨_, _, rfl, .inl rfl⟩ h
    · split
      · rename_i hn; exact absurd ⟨_, _, rfl, .inr (.inr (by rw [nameStart_eq]; exact hn))⟩ h
      · rfl
    · rfl

theorem nameStart_facts {c : Char} (h : isNameStart c = true) : c ≠ '{' ∧ c ≠ '$' := by
  constructor <;> (rintro rfl; exact absurd h (by decide))

/-- The three kinds of matches. -/
theorem dollarAt_some {s : Str} {k : DKind} {n : Nat} (h : dollarAt s = some (k, n)) :
    (∃ r, s = '$' :: '{' :: r ∧ k = .braced ∧ n = 2) ∨ (∃ r, s = '$' :: '$' :: r ∧ k = .dollar ∧ n = 2) ∨
    (∃ c cs r, s = '$' :: c :: cs ++ r ∧ k = .named (c :: cs) ∧ n = 2 + cs.length ∧ isNameStart c = true ∧
      (∀ x ∈ cs, isNameChar x = true) ∧ ∀ x, r.head? = some x → isNameChar x = false) := by
  unfold dollarAt at h
  split at h
  · cases h; exact .inl ⟨_, rfl, rfl, rfl⟩
  · cases h; exact .inr (.inl ⟨_, rfl, rfl, rfl⟩)
  · rename_i c s _ _
    split at h
    · rename_i hn
      cases h
      refine .inr (.inr ⟨c, s.takeWhile isNameChar, s.dropWhile isNameChar, ?_, rfl, rfl, hn, ?_, ?_⟩)
      · simp [List.takeWhile_append_dropWhile]
      · exact fun x hx => Doms.mem_takeWhile hx
      · exact fun x hx => Doms.head_dropWhile hx
    · cases h
  · cases h

theorem takeWhile_exact {α : Type} {p : α → Bool} {cs r : List α} (h : ∀ x ∈ cs, p x = true)
    (hr : ∀ x, r.head? = some x → p x = false) : (cs ++ r).takeWhile p = cs := by
  induction cs with
  | nil =>
    cases r with
    | nil => rfl
    | cons x xs => simp [hr x rfl]
  | cons c cs ih =>
    rw [List.cons_append, List.takeWhile_cons, if_pos (h c (by simp)), ih fun x hx => h x (by simp [hx])]

theorem dollarAt_name {c : Char} {cs r : Str} (hc : isNameStart c = true) (h : ∀ x ∈ cs, isNameChar x = true)
    (hr : ∀ x, r.head? = some x → isNameChar x = false) :
    dollarAt ('$' :: c :: (cs ++ r)) = some (.named (c :: cs), 2 + cs.length) := by
  obtain ⟨h1, h2⟩ := nameStart_facts hc
  rw [dollarAt]
  · rw [if_pos hc, takeWhile_exact h hr]
  · exact fun h => h1 h
  · exact fun h => h2 h

theorem dollars_skip (n pos : Nat) (u r : Str) (h : u.length = n) :
    dollars n pos (u ++ r) = dollars 0 (pos + n) r := by
  induction n generalizing pos u with
  | zero => rw [List.length_eq_zero_iff.1 h]; rfl
  | succ n ih =>
    cases u with
    | nil => cases h
    | cons c u =>
      rw [List.cons_append, dollars, ih (pos + 1) u (by simpa using h)]
      congr 1; omega

theorem dollars_plain (pos : Nat) (u r : Str) (h : ∀ a b, u = a ++ b → b ≠ [] → ¬ Marker (b ++ r)) :
    dollars 0 pos (u ++ r) = dollars 0 (pos + u.length) r := by
  induction u generalizing pos with
  | nil => rfl
  | cons c u ih =>
    have h0 := h [] (c :: u) rfl (by simp)
    rw [List.cons_append, dollars, ← List.cons_append, dollarAt_none.2 h0]
    dsimp only
    rw [ih (pos + 1) fun a b hab hb => h (c :: a) b (by rw [hab]; rfl) hb]
    rw [List.length_cons]; congr 1; omega

theorem no_marker_of_no_dollar {u r : Str} (h : '$' ∉ u) : ∀ a b, u = a ++ b → b ≠ [] → ¬ Marker (b ++ r) := by
  rintro a b rfl hb ⟨c, rest, hm, _⟩
  cases b with
  | nil => exact hb rfl
  | cons x xs =>
    simp only [List.cons_append, List.cons.injEq] at hm
    exact h (by simp [hm.1])

/-- A test for texts without special sequences. -/
theorem no_marker_of_tails {u r : Str} 
    (h : (List.range u.length).all (fun i => (dollarAt (u.drop i ++ r)).isNone) = true) :
    ∀ a b, u = a ++ b → b ≠ [] → ¬ Marker (b ++ r) := by
  rintro a b rfl hb
  rw [List.all_eq_true] at h
  have hp : 0 < b.length := List.length_pos_of_ne_nil hb
  have := h a.length (List.mem_range.2 (by rw [List.length_append]; omega))
  rw [List.drop_left, Option.isNone_iff_eq_none] at this
  exact dollarAt_none.1 this

theorem foldl_lens (xs : List Str) (n : Nat) :
    xs.foldl (fun n l => n + (l.length + 1)) n = n + (xs.map (·.length + 1)).sum := by
  induction xs generalizing n with
  | nil => rfl
  | cons x xs ih => rw [List.foldl_cons, ih, List.map_cons, List.sum_cons]; omega

theorem slice_append (pre u r : Str) (a b : Nat) (ha : a = pre.length) (hb : b = a + u.length) :
    slice (pre ++ (u ++ r)) a b = u := by
  subst ha hb
  unfold slice
  rw [List.drop_take, List.drop_left, Nat.add_sub_cancel_left, List.take_left]

theorem space_not_dollar {u : Str} (h : ∀ x ∈ u, isSpace x = true) : '$' ∉ u :=
  fun hm => absurd (h _ hm) (by decide)

/-- An accepted expression. -/
theorem bracedExpr_ok {py : PyCompile} {src : Str} {pos : Nat} {e : Str} {stop : Nat}
    (h : bracedExpr py src pos = .ok (e, stop)) :
    ∃ ws rest, src.drop pos = ws ++ (e ++ '}' :: rest) ∧ (∀ x ∈ ws, isSpace x = true) ∧
      (∀ x, (e ++ ['}']).head? = some x → isSpace x = false) ∧ py e = none ∧
      stop = pos + ws.length + e.length + 1 := by
  unfold bracedExpr at h
  dsimp only at h
  generalize hd : src.drop pos = d at h
  have hlead := Doms.lead_body d
  have hlen : d.length - (lstrip d).length = (d.takeWhile isSpace).length := by
    have := congrArg List.length hlead
    rw [List.length_append] at this; omega
  rw [hlen] at h
  generalize hw : d.takeWhile isSpace = ws at h hlead
  have hdrop : src.drop (pos + ws.length) = lstrip d := by
    rw [← List.drop_drop, hd]
    conv_lhs => rw [← hlead]
    exact List.drop_left
  rw [hdrop] at h
  generalize hl : lstrip d = body at h hlead hdrop
  cases hp : py body with
  | none => rw [hp] at h; cases h
  | some lo =>
    obtain ⟨lineno, offset⟩ := lo
    rw [hp] at h
    dsimp only at h
    generalize hs : errorEnd body (pos + ws.length) lineno offset = stop' at h
    have hslice : ∀ k, slice src (pos + ws.length) k = body.take (k - (pos + ws.length)) := by
      intro k
      unfold slice
      rw [List.drop_take, hdrop]
    rw [hslice, hslice] at h
    generalize hk : stop' - (pos + ws.length) = k at h
    cases hg : (body.take k).getLast? with
    | none => rw [hg] at h; cases h
    | some c =>
      rw [hg] at h
      dsimp only at h
      split at h
      · cases h
      · rename_i hc
        simp only [ne_eq, not_not] at hc
        subst hc
        have hk1 : stop' - 1 - (pos + ws.length) = k - 1 := by omega
        rw [hk1] at h
        cases hp2 : py (body.take (k - 1)) with
        | some _ => rw [hp2] at h; cases h
        | none =>
          rw [hp2] at h
          simp only [Except.ok.injEq, Prod.mk.injEq] at h
          obtain ⟨rfl, rfl⟩ := h
          have hkpos : k ≠ 0 := by rintro rfl; simp at hg
          have hkle : k ≤ body.length := by
            by_contra hgt
            have : body.take (k - 1) = body := List.take_of_length_le (by omega)
            rw [this, hp] at hp2; cases hp2
          have hcut : body = body.take (k - 1) ++ '}' :: body.drop k := by
            have h1 : body.take k = body.take (k - 1) ++ ['}'] := by
              have hne : k = (k - 1) + 1 := by omega
              have hlt : k - 1 < body.length := by omega
              have h2 : body.take k = body.take (k - 1) ++ [body[k - 1]] := by
                conv_lhs => rw [hne]
                exact (List.take_append_getElem hlt).symm
              rw [h2, List.getLast?_append] at hg
              simp only [List.getLast?_singleton] at hg
              simp at hg
              rw [h2, hg]
            calc body = body.take k ++ body.drop k := (List.take_append_drop k body).symm
              _ = _ := by rw [h1]; simp
          refine ⟨ws, body.drop k, ?_, ?_, ?_, hp2, ?_⟩
          · rw [← hcut, hlead]
          · intro x hx; rw [← hw] at hx; exact Doms.mem_takeWhile hx
          · intro x hx
            apply Doms.head_dropWhile (p := isSpace) (l := d)
            show (lstrip d).head? = some x
            rw [hl, hcut]
            cases hb : body.take (k - 1) with
            | nil => rw [hb] at hx; exact hx
            | cons y ys => rw [hb] at hx; exact hx
          · rw [List.length_take]; omega

/-- When an expression is accepted. -/
theorem bracedExpr_intro {py : PyCompile} {src : Str} {pos : Nat} {ws e rest : Str}
    (hd : src.drop pos = ws ++ (e ++ '}' :: rest))
    (hws : ∀ x ∈ ws, isSpace x = true)
    (he : ∀ x, (e ++ ['}']).head? = some x → isSpace x = false) (hpy : py e = none)
    (herr : ErrorAtBrace py e rest) :
    bracedExpr py src pos = .ok (e, pos + ws.length + e.length + 1) := by
  obtain ⟨lineno, offset, hp, hoff⟩ := herr
  unfold bracedExpr
  dsimp only
  have hbody : lstrip (src.drop pos) = e ++ '}' :: rest := by
    rw [hd]
    have hdw : ∀ (a b : Str), (∀ x ∈ a, isSpace x = true) → (∀ x, b.head? = some x → isSpace x = false) →
        lstrip (a ++ b) = b := by
      intro a b ha hb
      induction a with
      | nil => exact Doms.lstrip_of_head hb
      | cons x xs ih =>
        rw [lstrip, List.cons_append, List.dropWhile_cons, if_pos (ha x (by simp))]
        exact ih fun y hy => ha y (by simp [hy])
    refine hdw _ _ hws ?_
    intro x hx
    apply he
    cases e with
    | nil => exact hx
    | cons y ys => exact hx
  have hlen : (src.drop pos).length - (lstrip (src.drop pos)).length = ws.length := by
    rw [hbody, hd]; simp
  rw [hlen]
  have hdrop : src.drop (pos + ws.length) = e ++ '}' :: rest := by
    rw [← List.drop_drop, hd]; exact List.drop_left
  rw [hdrop, hp]
  dsimp only
  have hend : errorEnd (e ++ '}' :: rest) (pos + ws.length) lineno offset = pos + ws.length + (e.length + 1) := by
    unfold errorEnd
    rw [foldl_lens, Nat.zero_add]; omega
  rw [hend]
  have hslice : ∀ k, slice src (pos + ws.length) k = (e ++ '}' :: rest).take (k - (pos + ws.length)) := by
    intro k
    unfold slice
    rw [List.drop_take, hdrop]
  rw [hslice, hslice, Nat.add_sub_cancel_left,
    show pos + ws.length + (e.length + 1) - 1 - (pos + ws.length) = e.length by omega]
  have h1 : (e ++ '}' :: rest).take (e.length + 1) = e ++ ['}'] := by
    rw [List.take_append, List.take_of_length_le (by omega)]
    simp
  have h2 : (e ++ '}' :: rest).take e.length = e := List.take_left
  rw [h1, h2, List.getLast?_append]
  simp only [List.getLast?_singleton]
  simp [hpy]
  omega

end Kajiki.XmlTexts

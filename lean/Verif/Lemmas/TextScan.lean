import Verif.Spec.Text
import Verif.Lemmas.XmlText

/-!
# Lemmas about the scanner of text templates
-/

namespace Kajiki.Texts
open Kajiki.Spec.Text

theorem letter_eq : letter = isTagChar := by
  funext c
  have : isTagChar c = (Spec.XmlText.nameStart c && c != '_') := by rw [XmlTexts.nameStart_eq]; rfl
  rw [this]
  unfold letter Spec.XmlText.nameStart
  rw [show "_abcdefghijklmnopqrstuvwxyzABCDEFGHIJKLMNOPQRSTUVWXYZ\u0130\u0131\u017f\u212a".toList =
    '_' :: "abcdefghijklmnopqrstuvwxyzABCDEFGHIJKLMNOPQRSTUVWXYZ\u0130\u0131\u017f\u212a".toList by decide +kernel,
    List.contains_cons]
  by_cases h : c = '_'
  · subst h
    decide +kernel
  · rw [beq_false_of_ne h, Bool.false_or, bne_iff_ne.2 h, Bool.and_true]

/-! ## One match -/

/-- What `_pattern` matches: `m` is the match, `r` the text after it. -/
inductive TagAt : Bool → Str → Str → TKind → Prop
  | escaped {b r} : TagAt b ['$', '$'] r .escaped
  | braced {b r} : TagAt b ['$', '{'] r .braced
  | named {b c cs r} : isNameStart c = true → (∀ x ∈ cs, isNameChar x = true) →
      (∀ x, r.head? = some x → isNameChar x = false) → TagAt b ('$' :: c :: cs) r (.named (c :: cs))
  | exprInvalid {b r} : TagAt b ['$'] r .exprInvalid
  | bare {ws name r} : (∀ x ∈ ws, isSpace x = true) → Named name r →
      TagAt true (ws ++ '%' :: name) r (.bare name)
  | bareInvalid {ws r} : (∀ x ∈ ws, isSpace x = true) → (∀ x, r.head? = some x → isTagChar x = false) →
      TagAt true (ws ++ ['%']) r .bareInvalid
  | ljust {ws name r} : (∀ x ∈ ws, isSpace x = true) → Named name r →
      TagAt true (ws ++ '{' :: '%' :: '-' :: name) r (.ljust name)
  | begin_ {b name r} : Named name r → TagAt b ('{' :: '%' :: name) r (.begin_ name)
  | beginInvalid {b r} : (∀ x, r.head? = some x → isTagChar x = false) → TagAt b ['{', '%'] r .beginInvalid

theorem beginAt_some {b : Bool} {s : Str} {k : TKind} {n : Nat} (h : tagAt.beginAt s = some (k, n)) :
    ∃ m r, s = m ++ r ∧ n = m.length ∧ TagAt b m r k := by
  unfold tagAt.beginAt at h
  split at h
  · rename_i r
    dsimp only at h
    split at h
    · rename_i he
      cases h
      refine ⟨['{', '%'], r, rfl, rfl, .beginInvalid fun x hx => ?_⟩
      have hd := Doms.head_dropWhile (p := isTagChar) (l := r) (a := x)
      have e : r.dropWhile isTagChar = r := by
        have := List.takeWhile_append_dropWhile (p := isTagChar) (l := r)
        rw [List.isEmpty_iff.1 he] at this; simpa using this
      rw [e] at hd; exact hd hx
    · rename_i he
      cases h
      refine ⟨'{' :: '%' :: r.takeWhile isTagChar, r.dropWhile isTagChar, ?_, ?_, .begin_ ⟨?_, ?_, ?_⟩⟩
      · simp [List.takeWhile_append_dropWhile]
      · simp; omega
      · intro e; rw [e] at he; exact he rfl
      · rw [letter_eq]; exact fun x hx => Doms.mem_takeWhile hx
      · rw [letter_eq]; exact fun x hx => Doms.head_dropWhile hx
  · cases h

theorem tagAt_some {b : Bool} {s : Str} {k : TKind} {n : Nat} (h : tagAt b s = some (k, n)) :
    ∃ m r, s = m ++ r ∧ n = m.length ∧ TagAt b m r k := by
  have hws : ∀ x ∈ s.takeWhile isSpace, isSpace x = true := fun x hx => Doms.mem_takeWhile hx
  have hcat := List.takeWhile_append_dropWhile (p := isSpace) (l := s)
  unfold tagAt at h
  dsimp only at h
  split at h
  · cases h; exact ⟨['$', '$'], _, rfl, rfl, .escaped⟩
  · cases h; exact ⟨['$', '{'], _, rfl, rfl, .braced⟩
  · rename_i c r _ _
    split at h
    · rename_i hn
      cases h
      refine ⟨'$' :: c :: r.takeWhile isNameChar, r.dropWhile isNameChar, ?_, ?_, .named hn ?_ ?_⟩
      · simp [List.takeWhile_append_dropWhile]
      · simp; omega
      · exact fun x hx => Doms.mem_takeWhile hx
      · exact fun x hx => Doms.head_dropWhile hx
    · cases h; exact ⟨['$'], _, rfl, rfl, .exprInvalid⟩
  · cases h; exact ⟨['$'], _, rfl, rfl, .exprInvalid⟩
  · split at h
    · rename_i r hd
      rw [hd] at hcat
      split at h
      · rename_i he
        cases h
        refine ⟨_ ++ ['%'], r, by rw [List.append_assoc]; exact hcat.symm, by simp, .bareInvalid hws ?_⟩
        intro x hx
        have hd := Doms.head_dropWhile (p := isTagChar) (l := r) (a := x)
        have e : r.dropWhile isTagChar = r := by
          have := List.takeWhile_append_dropWhile (p := isTagChar) (l := r)
          rw [List.isEmpty_iff.1 he] at this; simpa using this
        rw [e] at hd; exact hd hx
      · rename_i he
        cases h
        refine ⟨_ ++ '%' :: r.takeWhile isTagChar, r.dropWhile isTagChar, ?_, by simp; omega,
          .bare hws ⟨?_, ?_, ?_⟩⟩
        · rw [List.append_assoc, List.cons_append, List.takeWhile_append_dropWhile]; exact hcat.symm
        · intro e; rw [e] at he; exact he rfl
        · rw [letter_eq]; exact fun x hx => Doms.mem_takeWhile hx
        · rw [letter_eq]; exact fun x hx => Doms.head_dropWhile hx
    · rename_i r hd
      rw [hd] at hcat
      split at h
      · exact beginAt_some h
      · rename_i he
        cases h
        refine ⟨_ ++ '{' :: '%' :: '-' :: r.takeWhile isTagChar, r.dropWhile isTagChar, ?_, by simp; omega,
          .ljust hws ⟨?_, ?_, ?_⟩⟩
        · rw [List.append_assoc, List.cons_append, List.cons_append, List.cons_append,
            List.takeWhile_append_dropWhile]; exact hcat.symm
        · intro e; rw [e] at he; exact he rfl
        · rw [letter_eq]; exact fun x hx => Doms.mem_takeWhile hx
        · rw [letter_eq]; exact fun x hx => Doms.head_dropWhile hx
    · exact beginAt_some h

theorem tagChar_ne {c : Char} (h : letter c = true) : c ≠ '}' ∧ c ≠ '\n' ∧ c ≠ '$' ∧ c ≠ '{' := by
  refine ⟨?_, ?_, ?_, ?_⟩ <;> (rintro rfl; exact absurd h (by decide +kernel))

theorem nameChar_ne {c : Char} (h : isNameChar c = true) : c ≠ '}' ∧ c ≠ '\n' := by
  refine ⟨?_, ?_⟩ <;> (rintro rfl; exact absurd h (by decide +kernel))

theorem space_ne {c : Char} (h : isSpace c = true) : c ≠ '}' ∧ c ≠ '%' ∧ c ≠ '$' ∧ c ≠ '{' := by
  refine ⟨?_, ?_, ?_, ?_⟩ <;> (rintro rfl; exact absurd h (by decide))

theorem TagAt.ne_nil {b m r k} (h : TagAt b m r k) : m ≠ [] := by
  cases h <;> simp

theorem TagAt.noClose {b m r k} (h : TagAt b m r k) : '}' ∉ m := by
  cases h with
  | escaped | braced | exprInvalid | beginInvalid => decide
  | named hc hcs _ =>
    intro hm
    simp only [List.mem_cons] at hm
    rcases hm with hm | hm | hm
    · exact absurd hm (by decide)
    · subst hm; exact absurd hc (by decide)
    · exact (nameChar_ne (hcs _ hm)).1 rfl
  | bare hw hn =>
    intro hm
    simp only [List.mem_append, List.mem_cons] at hm
    rcases hm with hm | hm | hm
    · exact (space_ne (hw _ hm)).1 rfl
    · exact absurd hm (by decide)
    · exact (tagChar_ne (hn.letters _ hm)).1 rfl
  | bareInvalid hw _ =>
    intro hm
    simp only [List.mem_append, List.mem_singleton] at hm
    rcases hm with hm | hm
    · exact (space_ne (hw _ hm)).1 rfl
    · exact absurd hm (by decide)
  | ljust hw hn =>
    intro hm
    simp only [List.mem_append, List.mem_cons] at hm
    rcases hm with hm | hm | hm | hm | hm
    · exact (space_ne (hw _ hm)).1 rfl
    · exact absurd hm (by decide)
    · exact absurd hm (by decide)
    · exact absurd hm (by decide)
    · exact (tagChar_ne (hn.letters _ hm)).1 rfl
  | begin_ hn =>
    intro hm
    simp only [List.mem_cons] at hm
    rcases hm with hm | hm | hm
    · exact absurd hm (by decide)
    · exact absurd hm (by decide)
    · exact (tagChar_ne (hn.letters _ hm)).1 rfl

/-- Matches not at the start of a line. -/
theorem TagAt.inner {m r k} (h : TagAt false m r k) :
    '\n' ∉ m ∧ ∃ c m', m = c :: m' ∧ (c = '$' ∨ c = '{') := by
  cases h with
  | escaped | braced | exprInvalid | beginInvalid =>
    exact ⟨by decide, _, _, rfl, by decide⟩
  | named hc hcs _ =>
    refine ⟨?_, _, _, rfl, .inl rfl⟩
    intro hm
    simp only [List.mem_cons] at hm
    rcases hm with hm | hm | hm
    · exact absurd hm (by decide)
    · subst hm; exact absurd hc (by decide)
    · exact (nameChar_ne (hcs _ hm)).2 rfl
  | begin_ hn =>
    refine ⟨?_, _, _, rfl, .inr rfl⟩
    intro hm
    simp only [List.mem_cons] at hm
    rcases hm with hm | hm | hm
    · exact absurd hm (by decide)
    · exact absurd hm (by decide)
    · exact (tagChar_ne (hn.letters _ hm)).2.1 rfl

/-- Something other than a lone `%` starts here. -/
def Special (b : Bool) (s : Str) : Prop := ∃ k n, tagAt b s = some (k, n) ∧ k ≠ .bareInvalid

theorem special_dollar (b : Bool) (s : Str) : Special b ('$' :: s) := by
  unfold Special tagAt
  cases s with
  | nil => exact ⟨_, _, rfl, by decide⟩
  | cons c s =>
    by_cases h1 : c = '$'
    · subst h1; exact ⟨_, _, rfl, by decide⟩
    · by_cases h2 : c = '{'
      · subst h2; exact ⟨_, _, rfl, by decide⟩
      · simp only []
        by_cases h3 : isNameStart c = true
        · rw [if_pos h3]; exact ⟨_, _, rfl, by simp⟩
        · rw [if_neg h3]; exact ⟨_, _, rfl, by simp⟩

theorem beginAt_brace (s : Str) : ∃ k n, tagAt.beginAt ('{' :: '%' :: s) = some (k, n) ∧ k ≠ .bareInvalid := by
  rw [tagAt.beginAt]
  by_cases h : (s.takeWhile isTagChar).isEmpty = true
  · rw [if_pos h]; exact ⟨_, _, rfl, by simp⟩
  · rw [if_neg h]; exact ⟨_, _, rfl, by simp⟩

theorem dropWhile_exact {α : Type} {p : α → Bool} {cs r : List α} (h : ∀ x ∈ cs, p x = true)
    (hr : ∀ x, r.head? = some x → p x = false) : (cs ++ r).dropWhile p = r := by
  induction cs with
  | nil =>
    cases r with
    | nil => rfl
    | cons x xs => simp [hr x rfl]
  | cons c cs ih =>
    rw [List.cons_append, List.dropWhile_cons, if_pos (h c (by simp)), ih fun x hx => h x (by simp [hx])]

/-- After white space that is not followed by white space. -/
theorem tagAt_ws {ws r : Str} {c : Char} (h : ∀ x ∈ ws, isSpace x = true) (hc : isSpace c = false) (hd : c ≠ '$') (b : Bool) :
    tagAt b (ws ++ c :: r) =
      match b, c :: r with
      | true, '%' :: r =>
        if (r.takeWhile isTagChar).isEmpty then some (.bareInvalid, ws.length + 1)
        else some (.bare (r.takeWhile isTagChar), ws.length + 1 + (r.takeWhile isTagChar).length)
      | true, '{' :: '%' :: '-' :: q =>
        if (q.takeWhile isTagChar).isEmpty then tagAt.beginAt (ws ++ c :: r)
        else some (.ljust (q.takeWhile isTagChar), ws.length + 3 + (q.takeWhile isTagChar).length)
      | _, _ => tagAt.beginAt (ws ++ c :: r) := by
  have hr : ∀ x, (c :: r).head? = some x → isSpace x = false := by rintro x ⟨⟩; exact hc
  have e1 := dropWhile_exact h hr
  have e2 := XmlTexts.takeWhile_exact h hr
  have hh : ∀ s, ws ++ c :: r ≠ '$' :: s := by
    intro s e
    cases ws with
    | nil => cases e; exact hd rfl
    | cons a ws => cases e; exact absurd (h '$' (by simp)) (by decide)
  unfold tagAt
  simp only [e2]
  split
  · rename_i e; exact absurd e (hh _)
  · rename_i e; exact absurd e (hh _)
  · rename_i e; exact absurd e (hh _)
  · rename_i e; exact absurd e (hh _)
  · rw [e1]; rfl

theorem special_brace (b : Bool) (s : Str) : Special b ('{' :: '%' :: s) := by
  have := tagAt_ws (ws := []) (r := '%' :: s) (c := '{') (by simp) (by decide) (by decide) b
  unfold Special
  rw [show '{' :: '%' :: s = [] ++ '{' :: '%' :: s from rfl, this]
  split
  · rename_i h; cases h
  · rename_i h; cases h
    split
    · exact beginAt_brace _
    · exact ⟨_, _, rfl, by simp⟩
  · exact beginAt_brace _

theorem special_line {s : Str} (h : DirectiveLine s) : Special true s := by
  obtain ⟨ws, c, r, rfl, hw, hc⟩ := h
  rw [letter_eq] at hc
  unfold Special
  rw [tagAt_ws hw (by decide) (by decide)]
  simp only [List.takeWhile_cons, hc, if_true]
  exact ⟨_, _, rfl, by simp⟩

theorem beginAt_head {s : Str} {c : Char} (h : s.head? = some c) (hc : c ≠ '{') : tagAt.beginAt s = none := by
  unfold tagAt.beginAt
  split
  · cases h; exact absurd rfl hc
  · rfl

/-- Nothing else starts inside a lone `%` with its white space. -/
theorem bareInvalid_inside {ws r : Str} (hw : ∀ x ∈ ws, isSpace x = true)
    (hr : ∀ x, r.head? = some x → isTagChar x = false) (j : Nat) (hj : j < ws.length + 1) (b : Bool) :
    ¬ Special b ((ws ++ '%' :: r).drop j) := by
  rintro ⟨k, n, h1, h2⟩
  rw [List.drop_append_of_le_length (by omega)] at h1
  have hw' : ∀ x ∈ ws.drop j, isSpace x = true := fun x hx => hw x (List.mem_of_mem_drop hx)
  have he : (r.takeWhile isTagChar).isEmpty = true := by
    cases r with
    | nil => rfl
    | cons x xs => simp [hr x rfl]
  rw [tagAt_ws hw' (by decide) (by decide)] at h1
  have hb : tagAt.beginAt (ws.drop j ++ '%' :: r) = none := by
    cases hd : ws.drop j with
    | nil => exact beginAt_head rfl (by decide)
    | cons a t =>
      refine beginAt_head rfl ?_
      exact (space_ne (hw' a (by rw [hd]; simp))).2.2.2
  cases b
  · simp only [hb] at h1; cases h1
  · simp only [he, if_true] at h1; cases h1; exact h2 rfl

/-! ## All matches -/

/-- `^` matches at a position. -/
def bolAt (src : Str) : Nat → Bool
  | 0 => true
  | i + 1 => src[i]? == some '\n'

/-- A match of the pattern. -/
def IsMatch (src : Str) (m : Nat × Nat × TKind) : Prop :=
  tagAt (bolAt src m.1) (src.drop m.1) = some (m.2.2, m.2.1 - m.1) ∧ m.1 < m.2.1

theorem tagMatches_spec (src : Str) : ∀ (s : Str) (skip pos : Nat), src.drop pos = s →
    let ms := tagMatches skip pos (bolAt src pos) s
    (∀ m ∈ ms, pos + skip ≤ m.1 ∧ IsMatch src m) ∧ ms.Pairwise (fun m m' => m.2.1 ≤ m'.1) ∧
    ∀ i, pos + skip ≤ i → tagAt (bolAt src i) (src.drop i) ≠ none → ∃ m ∈ ms, m.1 ≤ i ∧ i < m.2.1 := by
  intro s
  induction s with
  | nil =>
    intro skip pos h
    have e : tagMatches skip pos (bolAt src pos) [] = [] := by cases skip <;> rfl
    simp only [e]
    refine ⟨by simp, by simp, fun i hi h1 => absurd ?_ h1⟩
    have : src.drop i = [] := by
      have := List.drop_eq_nil_iff.1 h
      exact List.drop_eq_nil_iff.2 (by omega)
    rw [this]; cases bolAt src i <;> rfl
  | cons c s ih =>
    intro skip pos h
    have hs : src.drop (pos + 1) = s := by
      rw [← List.drop_drop, h]; rfl
    have hb : (c == '\n') = bolAt src (pos + 1) := by
      have : src[pos]? = some c := by
        have := congrArg List.head? h
        rwa [List.head?_drop] at this
      simp [bolAt, this]
    cases skip with
    | succ n =>
      have := ih n (pos + 1) hs
      simp only [tagMatches]
      rw [hb]
      have e : pos + 1 + n = pos + (n + 1) := by omega
      rw [e] at this
      exact this
    | zero =>
      simp only [tagMatches]
      rw [hb]
      cases ht : tagAt (bolAt src pos) (c :: s) with
      | none =>
        obtain ⟨h1, h2, h3⟩ := ih 0 (pos + 1) hs
        refine ⟨fun m hm => ⟨by have := (h1 m hm).1; omega, (h1 m hm).2⟩, h2, fun i hi hne => ?_⟩
        rcases Nat.lt_or_ge pos i with hp | hp
        · exact h3 i (by omega) hne
        · have : i = pos := by omega
          subst this; rw [h] at hne; exact absurd ht hne
      | some kn =>
        obtain ⟨k, n⟩ := kn
        obtain ⟨m0, r0, he, hn, ht0⟩ := tagAt_some ht
        have hpos : 0 < n := by
          rw [hn]; exact List.length_pos_iff.2 ht0.ne_nil
        obtain ⟨h1, h2, h3⟩ := ih (n - 1) (pos + 1) hs
        refine ⟨?_, ?_, ?_⟩
        · intro m hm
          rcases List.mem_cons.1 hm with rfl | hm
          · refine ⟨by simp, ?_, by simp; omega⟩
            dsimp only
            rw [h, ht]
            congr 2
            omega
          · exact ⟨by have := (h1 m hm).1; omega, (h1 m hm).2⟩
        · refine List.pairwise_cons.2 ⟨fun m hm => ?_, h2⟩
          have := (h1 m hm).1
          dsimp only
          omega
        · intro i hi hne
          by_cases hin : i < pos + n
          · exact ⟨(pos, pos + n, k), by simp, by simpa using hi, hin⟩
          · obtain ⟨m, hm, h⟩ := h3 i (by omega) hne
            exact ⟨m, by simp [hm], h⟩

theorem IsMatch.parts {src : Str} {a b : Nat} {k : TKind} (h : IsMatch src (a, b, k)) :
    ∃ m r, src.drop a = m ++ r ∧ b = a + m.length ∧ TagAt (bolAt src a) m r k ∧ src.drop b = r ∧ b ≤ src.length := by
  obtain ⟨h1, h2⟩ := h
  dsimp only at h1 h2
  obtain ⟨m, r, e, hn, ht⟩ := tagAt_some h1
  have hb : b = a + m.length := by omega
  refine ⟨m, r, e, hb, ht, ?_, ?_⟩
  · rw [hb, ← List.drop_drop, e, List.drop_left]
  · have := congrArg List.length e
    rw [List.length_drop, List.length_append] at this
    omega

theorem mem_of_drop {src m r : Str} {a i : Nat} {c : Char} (h : src.drop a = m ++ r) (h1 : a ≤ i) (h2 : i < a + m.length)
    (hc : src[i]? = some c) : c ∈ m := by
  have : (src.drop a)[i - a]? = some c := by
    rw [List.getElem?_drop, show a + (i - a) = i by omega]; exact hc
  rw [h, List.getElem?_append_left (by omega)] at this
  exact List.mem_of_getElem? this

/-- A match ends before a closing brace. -/
theorem IsMatch.before_close {src : Str} {a b i : Nat} {k : TKind} (h : IsMatch src (a, b, k))
    (hi : src[i]? = some '}') (ha : a < i + 1) : b < i + 1 := by
  obtain ⟨m, r, e, hb, ht, -, -⟩ := h.parts
  by_contra hc
  exact ht.noClose (mem_of_drop e (by omega) (by omega) hi)

theorem slice_append {src : Str} {a b : Nat} (h : a ≤ b) : src.drop a = slice src a b ++ src.drop b := by
  unfold slice
  by_cases hb : b ≤ src.length
  · conv_lhs => rw [← List.take_append_drop b src]
    rw [List.drop_append_of_le_length (by simp; omega)]
  · rw [List.take_of_length_le (by omega), List.drop_eq_nil_of_le (i := b) (by omega), List.append_nil]

/-- Text in which nothing starts is plain. -/
theorem plain_slice {src : Str} {a b : Nat} (h : a ≤ b)
    (hs : ∀ i, a ≤ i → i < b → ¬ Special (bolAt src i) (src.drop i)) : Plain (slice src a b) := by
  have key : ∀ u v, slice src a b = u ++ v → src.drop (a + u.length) = v ++ src.drop b := by
    intro u v e
    rw [← List.drop_drop, slice_append h, e, List.append_assoc, List.drop_left]
  have lt : ∀ u v, slice src a b = u ++ v → v ≠ [] → a + u.length < b := by
    intro u v e hv
    have := congrArg List.length e
    have hl := List.length_pos_iff.2 hv
    simp [slice] at this
    omega
  refine ⟨?_, ?_, ?_⟩
  · intro hm
    obtain ⟨u, v, e⟩ := List.append_of_mem hm
    refine hs _ (by omega) (lt u _ e (by simp)) ?_
    rw [key u _ e]
    exact special_dollar _ _
  · rintro ⟨u, v, e⟩
    have e : slice src a b = u ++ ('{' :: '%' :: v) := by rw [← e]; simp
    refine hs _ (by omega) (lt u _ e (by simp)) ?_
    rw [key u _ e]
    exact special_brace _ _
  · rintro u v e ⟨ws, c, r, hv, hw, hc⟩
    have e' : slice src a b = (u ++ ['\n']) ++ v := by rw [e]; simp
    refine hs (a + (u ++ ['\n']).length) (by omega) (lt _ v e' (by rw [hv]; simp)) ?_
    have hb : bolAt src (a + (u ++ ['\n']).length) = true := by
      have := congrArg List.head? (key u _ e)
      rw [List.head?_drop] at this
      simp only [List.length_append, List.length_singleton, bolAt, ← Nat.add_assoc]
      rw [this]; rfl
    rw [key _ _ e', hb]
    exact special_line ⟨ws, c, r ++ src.drop b, by rw [hv]; simp, hw, hc⟩

theorem find_char_none {c : Char} {s : Str} (h : find [c] s = none) : c ∉ s := by
  induction s with
  | nil => simp
  | cons x xs ih =>
    unfold find at h
    split at h
    · cases h
    · rename_i hp
      have hx : c ≠ x := by rintro rfl; exact hp (by simp [List.isPrefixOf])
      simp only [Option.map_eq_none_iff] at h
      simp [hx, ih h]

theorem find_some {pat : Str} (hp : pat ≠ []) {s : Str} {n : Nat} (h : find pat s = some n) :
    ∃ u v, s = u ++ pat ++ v ∧ u.length = n ∧ ∀ a b, a ++ pat ++ b = u ++ pat ++ v → n ≤ a.length := by
  induction s generalizing n with
  | nil =>
    unfold find at h
    split at h
    · rename_i h1; exact absurd (List.isEmpty_iff.1 h1) hp
    · cases h
  | cons x xs ih =>
    unfold find at h
    split at h
    · rename_i h1
      cases h
      obtain ⟨v, hv⟩ := List.isPrefixOf_iff_prefix.1 h1
      exact ⟨[], v, by simp [hv], rfl, by simp⟩
    · rename_i h1
      obtain ⟨n', h2, rfl⟩ := Option.map_eq_some_iff.1 h
      obtain ⟨u, v, e, hu, hmin⟩ := ih h2
      refine ⟨x :: u, v, by simp [e], by simp [hu], ?_⟩
      intro a b hab
      cases a with
      | nil =>
        exfalso
        refine h1 (List.isPrefixOf_iff_prefix.2 ⟨b, ?_⟩)
        rw [e]; simpa using hab
      | cons y a =>
        simp only [List.cons_append, List.cons.injEq] at hab
        have := hmin a b hab.2
        simp; omega

end Kajiki.Texts

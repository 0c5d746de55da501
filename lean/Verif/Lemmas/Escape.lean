import Verif.Model.Runtime

/-! Helper lemmas about escaping. -/

namespace Kajiki

theorem toStr_str (s : Str) : toStr (.str s) = s := rfl

theorem escape_str (s : Str) : escape (.str s) = .str (escapeStr s) := by
  have h : escape (.str s) = .str (escapeStr (toStr (.str s))) := rfl
  rw [h, toStr_str]

/-- What one character becomes. -/
def escChar (c : Char) : Str :=
  if c = '&' then "&amp;".toList else if c = '<' then "&lt;".toList
  else if c = '>' then "&gt;".toList else if c = '"' then "&quot;".toList else [c]

theorem escapeStr_eq (s : Str) : escapeStr s = s.flatMap escChar := by
  have h : ∀ s : Str, replaceChar '"' "&quot;".toList (replaceChar '>' "&gt;".toList
      (replaceChar '<' "&lt;".toList (replaceChar '&' "&amp;".toList s))) = s.flatMap escChar := by
    intro s
    simp only [replaceChar, List.flatMap_assoc]
    congr 1
    funext c
    simp only [escChar]
    by_cases h1 : c = '&'
    · subst h1; decide
    by_cases h2 : c = '<'
    · subst h2; decide
    by_cases h3 : c = '>'
    · subst h3; decide
    by_cases h4 : c = '"'
    · subst h4; decide
    simp [h1, h2, h3, h4]
  unfold escapeStr
  split
  · exact h s
  · rename_i hn
    induction s with
    | nil => rfl
    | cons c s ih =>
      simp only [needsEscape, List.any_cons, Bool.or_eq_true, decide_eq_true_eq, not_or] at hn
      rw [List.flatMap_cons, ← ih (by simpa [needsEscape] using hn.2)]
      simp [escChar, hn.1]

theorem escapeStr_append (s t : Str) : escapeStr (s ++ t) = escapeStr s ++ escapeStr t := by
  simp [escapeStr_eq]

theorem escapeStr_no (s : Str) : ∀ c ∈ escapeStr s, c ≠ '<' ∧ c ≠ '>' ∧ c ≠ '"' := by
  rw [escapeStr_eq]
  intro c hc
  simp only [List.mem_flatMap] at hc
  obtain ⟨x, _, hx⟩ := hc
  simp only [escChar] at hx
  split at hx
  · revert c; decide
  · split at hx
    · revert c; decide
    · split at hx
      · revert c; decide
      · split at hx
        · revert c; decide
        · simp at hx; subst hx; simp_all

theorem skip_prefix (e R pre post : Str) (he : '&' ∉ e) (h : e ++ R = pre ++ '&' :: post) :
    ∃ pre', pre = e ++ pre' ∧ R = pre' ++ '&' :: post := by
  induction e generalizing pre with
  | nil => exact ⟨pre, rfl, h⟩
  | cons a e ih =>
    cases pre with
    | nil => simp at h; simp [h.1] at he
    | cons p pre =>
      simp only [List.cons_append, List.cons.injEq] at h
      obtain ⟨pre', h1, h2⟩ := ih pre (fun hh => he (List.mem_cons_of_mem _ hh)) h.2
      exact ⟨pre', by rw [h.1, h1]; rfl, h2⟩

theorem escapeStr_amp (s pre post : Str) (h : escapeStr s = pre ++ '&' :: post) :
    ∃ e ∈ ["amp;".toList, "lt;".toList, "gt;".toList, "quot;".toList], e <+: post := by
  rw [escapeStr_eq] at h
  induction s generalizing pre with
  | nil => simp at h
  | cons c s ih =>
    rw [List.flatMap_cons] at h
    have step : ∀ e : Str, e ∈ ["amp;".toList, "lt;".toList, "gt;".toList, "quot;".toList] →
        '&' ∉ e → '&' :: e ++ s.flatMap escChar = pre ++ '&' :: post →
        ∃ e ∈ ["amp;".toList, "lt;".toList, "gt;".toList, "quot;".toList], e <+: post := by
      intro e hmem hne heq
      cases pre with
      | nil =>
        simp at heq
        exact ⟨e, hmem, ⟨_, heq⟩⟩
      | cons p pre =>
        simp only [List.cons_append, List.cons.injEq] at heq
        obtain ⟨pre', _, h2⟩ := skip_prefix _ _ _ _ hne heq.2
        exact ih _ h2
    by_cases h1 : c = '&'
    · subst h1; exact step "amp;".toList (by decide) (by decide) h
    by_cases h2 : c = '<'
    · subst h2; exact step "lt;".toList (by decide) (by decide) h
    by_cases h3 : c = '>'
    · subst h3; exact step "gt;".toList (by decide) (by decide) h
    by_cases h4 : c = '"'
    · subst h4; exact step "quot;".toList (by decide) (by decide) h
    · simp only [escChar, h1, h2, h3, h4, if_false] at h
      obtain ⟨pre', _, h2⟩ := skip_prefix [c] _ _ _ (by simpa using fun h => h1 h.symm) h
      exact ih _ h2

end Kajiki

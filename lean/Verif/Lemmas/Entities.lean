import Verif.Model.Entities

/-! Helper lemmas for `Verif.Model.Entities`. -/

namespace Kajiki

set_option maxRecDepth 20000 in
theorem html5_amp : html5Get ['a', 'm', 'p', ';'] = some ['&'] := by decide +kernel
set_option maxRecDepth 20000 in
theorem html5_gt : html5Get ['g', 't', ';'] = some ['>'] := by decide +kernel
set_option maxRecDepth 20000 in
theorem html5_lt : html5Get ['l', 't', ';'] = some ['<'] := by decide +kernel

theorem entityBody_amp (t : Str) : entityBody ('a' :: 'm' :: 'p' :: ';' :: t) = some 4 := by
  have h1 : List.takeWhile isHex ('a' :: 'm' :: 'p' :: ';' :: t) = ['a'] := by
    rw [List.takeWhile_cons_of_pos (by decide), List.takeWhile_cons_of_neg (by decide)]
  have h2 : List.takeWhile isWordAscii ('a' :: 'm' :: 'p' :: ';' :: t) = ['a', 'm', 'p'] := by
    rw [List.takeWhile_cons_of_pos (by decide), List.takeWhile_cons_of_pos (by decide),
      List.takeWhile_cons_of_pos (by decide), List.takeWhile_cons_of_neg (by decide)]
  unfold entityBody
  simp [h1, h2]

theorem entityBody_gt (t : Str) : entityBody ('g' :: 't' :: ';' :: t) = some 3 := by
  have h1 : List.takeWhile isHex ('g' :: 't' :: ';' :: t) = [] := by
    rw [List.takeWhile_cons_of_neg (by decide)]
  have h2 : List.takeWhile isWordAscii ('g' :: 't' :: ';' :: t) = ['g', 't'] := by
    rw [List.takeWhile_cons_of_pos (by decide), List.takeWhile_cons_of_pos (by decide),
      List.takeWhile_cons_of_neg (by decide)]
  unfold entityBody
  simp [h1, h2]

theorem entityBody_lt (t : Str) : entityBody ('l' :: 't' :: ';' :: t) = some 3 := by
  have h1 : List.takeWhile isHex ('l' :: 't' :: ';' :: t) = [] := by
    rw [List.takeWhile_cons_of_neg (by decide)]
  have h2 : List.takeWhile isWordAscii ('l' :: 't' :: ';' :: t) = ['l', 't'] := by
    rw [List.takeWhile_cons_of_pos (by decide), List.takeWhile_cons_of_pos (by decide),
      List.takeWhile_cons_of_neg (by decide)]
  unfold entityBody
  simp [h1, h2]

theorem entityAt_plain {c : Char} {t : Str} (h1 : c ≠ '#') (h2 : c ≠ 'x') (h3 : c ≠ 'X') :
    entityAt (c :: t) = entityBody (c :: t) := by
  unfold entityAt
  split
  rename_i heq
  split at heq
  · rename_i h; cases h; exact absurd rfl h1
  · cases heq
    simp [h2, h3]

theorem unescapeAux_cons {c : Char} (h : c ≠ '&') (s : Str) :
    unescapeAux 0 (c :: s) = (unescapeAux 0 s).map (c :: ·) := by
  rw [unescapeAux.eq_def]; simp [h]

theorem unescapeAux_amp (s : Str) :
    unescapeAux 0 ('&' :: 'a' :: 'm' :: 'p' :: ';' :: s) = (unescapeAux 0 s).map ('&' :: ·) := by
  rw [unescapeAux.eq_def]
  simp only [if_true, entityAt_plain (c := 'a') (by decide) (by decide) (by decide),
    entityBody_amp]
  have : replaceEntity (List.take 4 ('a' :: 'm' :: 'p' :: ';' :: s)) = .ok ['&'] := by
    simp only [List.take_succ_cons, List.take_zero]
    unfold replaceEntity
    simp only [html5_amp]
    rfl
  rw [this]
  simp [unescapeAux]

theorem unescapeAux_gt (s : Str) :
    unescapeAux 0 ('&' :: 'g' :: 't' :: ';' :: s) = (unescapeAux 0 s).map ('>' :: ·) := by
  rw [unescapeAux.eq_def]
  simp only [if_true, entityAt_plain (c := 'g') (by decide) (by decide) (by decide),
    entityBody_gt]
  have : replaceEntity (List.take 3 ('g' :: 't' :: ';' :: s)) = .ok ['>'] := by
    simp only [List.take_succ_cons, List.take_zero]
    unfold replaceEntity
    simp only [html5_gt]
    rfl
  rw [this]
  simp [unescapeAux]

theorem unescapeAux_lt (s : Str) :
    unescapeAux 0 ('&' :: 'l' :: 't' :: ';' :: s) = (unescapeAux 0 s).map ('<' :: ·) := by
  rw [unescapeAux.eq_def]
  simp only [if_true, entityAt_plain (c := 'l') (by decide) (by decide) (by decide),
    entityBody_lt]
  have : replaceEntity (List.take 3 ('l' :: 't' :: ';' :: s)) = .ok ['<'] := by
    simp only [List.take_succ_cons, List.take_zero]
    unfold replaceEntity
    simp only [html5_lt]
    rfl
  rw [this]
  simp [unescapeAux]

theorem saxEscape_cons (c : Char) (s : Str) : saxEscape (c :: s) = saxEscapeChar c ++ saxEscape s := by
  simp [saxEscape]

theorem saxEscape_append (s t : Str) : saxEscape (s ++ t) = saxEscape s ++ saxEscape t := by
  simp [saxEscape]

theorem unescapeAux_saxEscape (s : Str) : unescapeAux 0 (saxEscape s) = .ok s := by
  induction s with
  | nil => rfl
  | cons c s ih =>
    rw [saxEscape_cons]
    unfold saxEscapeChar
    split
    · rename_i h; subst h
      show unescapeAux 0 ('&' :: 'a' :: 'm' :: 'p' :: ';' :: saxEscape s) = _
      rw [unescapeAux_amp, ih]; rfl
    · split
      · rename_i h; subst h
        show unescapeAux 0 ('&' :: 'g' :: 't' :: ';' :: saxEscape s) = _
        rw [unescapeAux_gt, ih]; rfl
      · split
        · rename_i h; subst h
          show unescapeAux 0 ('&' :: 'l' :: 't' :: ';' :: saxEscape s) = _
          rw [unescapeAux_lt, ih]; rfl
        · rename_i h _ _
          rw [List.singleton_append, unescapeAux_cons h, ih]; rfl

theorem unescape_saxEscape (s : Str) : unescape (saxEscape s) = .ok s := by
  unfold unescape
  split
  · exact unescapeAux_saxEscape s
  · rename_i h
    have hno : '&' ∉ saxEscape s := by simpa using h
    have : saxEscape s = s := by
      clear h
      induction s with
      | nil => rfl
      | cons c s ih =>
        rw [saxEscape_cons] at hno ⊢
        have h1 : '&' ∉ saxEscapeChar c := fun h => hno (List.mem_append_left _ h)
        have h2 : '&' ∉ saxEscape s := fun h => hno (List.mem_append_right _ h)
        rw [ih h2]
        have : saxEscapeChar c = [c] := by
          unfold saxEscapeChar at h1 ⊢
          split
          · rename_i hc; rw [if_pos hc] at h1; exact absurd (by decide) h1
          · rename_i hc; rw [if_neg hc] at h1
            split
            · rename_i hc; rw [if_pos hc] at h1; exact absurd (by decide) h1
            · rename_i hc; rw [if_neg hc] at h1
              split
              · rename_i hc; rw [if_pos hc] at h1; exact absurd (by decide) h1
              · rfl
        rw [this]; rfl
    rw [this]

end Kajiki

import Verif.Lemmas.Doctype

/-!
# C32, C33: DOCTYPE extraction and mode detection
-/

namespace Kajiki.Spec

/-- `d` is a DOCTYPE declaration: `<!DOCTYPE`, at least one character, no `>` before the final one. -/
def IsDoctype (d : Str) : Prop :=
  ∃ run : Str, run ≠ [] ∧ (∀ c ∈ run, c ≠ '>') ∧ d = "<!DOCTYPE".toList ++ run ++ ['>']

/-- `w` is `text` with every blank replaced by one or more whitespace characters and letters
written in any case. -/
inductive Variant : Str → Str → Prop
  | nil : Variant [] []
  | char {c d : Char} {s w : Str} : c ≠ ' ' → d.toLower = c.toLower → Variant s w →
      Variant (c :: s) (d :: w)
  | blank {ws s w : Str} : ws ≠ [] → (∀ c ∈ ws, isSpace c = true) → Variant s w →
      Variant (' ' :: s) (ws ++ w)

end Kajiki.Spec

namespace Kajiki.Props
open Kajiki.Spec

/-! ## C32 -/

/-- C32: when the markup contains a DOCTYPE, `extract_dtd` returns a DOCTYPE declaration `d`, its
position and the rest such that putting `d` back at that position restores the markup, and no
DOCTYPE declaration starts earlier. -/
theorem C32_extract_some (markup d rest : Str) (pos : Nat) (hd : d ≠ [])
    (h : extractDtd markup = (d, pos, rest)) :
    IsDoctype d ∧ rest.take pos ++ d ++ rest.drop pos = markup ∧
    ∀ (p q d' : Str), IsDoctype d' → markup = p ++ d' ++ q → pos ≤ p.length := by
  unfold extractDtd at h
  cases hs : dtdSearch markup with
  | none => rw [hs] at h; simp at h; exact absurd h.1 hd
  | some m =>
    obtain ⟨found, start⟩ := m
    rw [hs] at h
    simp only [Prod.mk.injEq] at h
    obtain ⟨rfl, rfl, rfl⟩ := h
    obtain ⟨tail, hle, hmk, hat, hno⟩ := dtdSearch_some hs
    obtain ⟨run, _, h1, h2, h3, _⟩ := dtdAt_spec hat
    have hdrop : markup.drop start = found ++ tail := by
      have := congrArg (List.drop start) hmk
      rw [List.append_assoc, List.drop_append_of_le_length (by simp; omega)] at this
      simpa using this
    have hpre : found.isPrefixOf (markup.drop start) = true := by
      rw [hdrop, List.isPrefixOf_iff_prefix]; exact ⟨tail, rfl⟩
    have hrem : removeFirst found markup = markup.take start ++ tail := by
      rw [removeFirst_at hpre hd hle, hdrop, List.drop_left]
      intro j hj
      cases hx : found.isPrefixOf (markup.drop j) with
      | false => rfl
      | true =>
        obtain ⟨t, ht⟩ := List.isPrefixOf_iff_prefix.1 hx
        have := dtdAt_append (rest := t) (dtdAt_self hat)
        rw [ht, hno j hj] at this
        cases this
    refine ⟨⟨run, h1, h2, h3⟩, ?_, ?_⟩
    · rw [hrem]
      have hl : (markup.take start).length = start := by simp; omega
      rw [List.take_append_of_le_length (by omega), List.drop_append_of_le_length (by omega)]
      rw [List.take_of_length_le (by omega), List.drop_of_length_le (by omega), List.nil_append]
      exact hmk.symm
    · intro p q d' ⟨run', r1, r2, r3⟩ he
      apply Classical.byContradiction
      intro hlt
      have := hno p.length (by omega)
      rw [he, List.append_assoc, List.drop_left, r3] at this
      have h := dtdAt_of (rest := q) r1 r2
      unfold dtdOpen at h
      rw [h] at this
      cases this

/-- C32: when there is no DOCTYPE declaration anywhere, nothing is changed. -/
theorem C32_extract_none (markup : Str)
    (h : ∀ p q d : Str, IsDoctype d → markup ≠ p ++ d ++ q) :
    extractDtd markup = ([], 0, markup) := by
  unfold extractDtd
  cases hs : dtdSearch markup with
  | none => rfl
  | some m =>
    obtain ⟨found, start⟩ := m
    obtain ⟨tail, _, hmk, hat, _⟩ := dtdSearch_some hs
    obtain ⟨run, _, h1, h2, h3, _⟩ := dtdAt_spec hat
    exact absurd hmk (h _ _ _ ⟨run, h1, h2, h3⟩)

/-- C32: an empty answer means that there is no DOCTYPE declaration anywhere. -/
theorem C32_extract_empty (markup rest : Str) (pos : Nat) (h : extractDtd markup = ([], pos, rest)) :
    ∀ p q d : Str, IsDoctype d → markup ≠ p ++ d ++ q := by
  unfold extractDtd at h
  cases hs : dtdSearch markup with
  | none =>
    intro p q d ⟨run, r1, r2, r3⟩ he
    have := dtdSearch_none hs p.length
    rw [he, List.append_assoc, List.drop_left, r3] at this
    have h := dtdAt_of (rest := q) r1 r2
    unfold dtdOpen at h
    rw [h] at this
    cases this
  | some m =>
    obtain ⟨found, start⟩ := m
    rw [hs] at h
    simp only [Prod.mk.injEq] at h
    obtain ⟨tail, _, _, hat, _⟩ := dtdSearch_some hs
    obtain ⟨run, _, h1, h2, h3, _⟩ := dtdAt_spec hat
    rw [h.1] at h3
    exact absurd h3.symm (by simp)

example : extractDtd "<?xml?> <!DOCTYPE html> <p><!DOCTYPE html></p>".toList =
    ("<!DOCTYPE html>".toList, 8, "<?xml?>  <p><!DOCTYPE html></p>".toList) := by decide +kernel

/-! ## C33 -/

theorem fold_of_toLower {c d : Char} (h : d.toLower = c.toLower) : fold d = fold c := by
  rw [← fold_toLower d, h, fold_toLower]

theorem norm_variant {s w : Str} (h : Variant s w) (b : Bool) : normAux b w = normAux b s := by
  induction h generalizing b with
  | nil => rfl
  | @char c d s w hc hl _ ih =>
    have hf := fold_of_toLower hl
    have hs : isSpace d = isSpace c := by rw [← isSpace_fold d, hf, isSpace_fold]
    simp only [normAux, hs, hf, ih]
  | @blank ws s w hne hall _ ih =>
    have hrun : ∀ (ws : Str), (∀ c ∈ ws, isSpace c = true) →
        normAux true (ws ++ w) = normAux true w := by
      intro ws
      induction ws with
      | nil => intro _; rfl
      | cons c ws ih =>
        intro h
        have hc := h c (by simp)
        simp only [List.cons_append, normAux, hc, if_true]
        exact ih fun x hx => h x (by simp [hx])
    cases ws with
    | nil => exact absurd rfl hne
    | cons c ws =>
      have hc := hall c (by simp)
      simp only [List.cons_append, normAux, hc, isSpace_blank, if_true]
      rw [hrun ws fun x hx => hall x (by simp [hx]), ih]

/-- C33: every registered DOCTYPE, in any letter case and with any whitespace between its parts,
is recognised as itself.  Two exceptions: `xhtml5`, whose text is the same as that of `html5`, is
recognised as `html5`; and `xhtml1rdfa` is not recognised (see `C33_rdfa_not_recognised`). -/
theorem C33_recognised (d : Dtd) (hd : d ∈ dtds) (w : Str) (hw : Variant d.str w)
    (h1 : d.name ≠ "xhtml5".toList) (h2 : d.name ≠ "xhtml1rdfa".toList) :
    matching w = some d := by
  rw [matching_norm, norm_variant hw, ← matching_norm]
  have : ∀ d ∈ dtds, d.name ≠ "xhtml5".toList → d.name ≠ "xhtml1rdfa".toList →
      matching d.str = some d := by decide +kernel
  exact this d hd h1 h2

/-- C33: without an explicit mode, every registered DOCTYPE, in any case and spacing, selects its
own rendering mode (`xhtml5` shares its text with `html5` and selects `html5`). -/
theorem C33_mode_from_doctype (d : Dtd) (hd : d ∈ dtds) (w : Str) (hw : Variant d.str w) :
    selectMode [] w =
      if d.name = "xhtml5".toList then "html5".toList else d.mode := by
  have hm : matching w = matching d.str := by
    rw [matching_norm, norm_variant hw, ← matching_norm]
  have : ∀ d ∈ dtds, selectMode [] d.str =
      if d.name = "xhtml5".toList then "html5".toList else d.mode := by decide +kernel
  rw [← this d hd]
  unfold selectMode
  rw [hm]

/-- C33: an explicit mode always wins. -/
theorem C33_explicit_mode_wins (mode w : Str) (h : mode ≠ []) : selectMode mode w = mode := by
  unfold selectMode
  cases mode with
  | nil => exact absurd rfl h
  | cons a t => rfl

/-- C33: the effective mode is never anything but the explicit mode, or one of the three modes. -/
theorem C33_mode_range (w : Str) :
    selectMode [] w = "xml".toList ∨ selectMode [] w = "html".toList ∨
    selectMode [] w = "html5".toList := by
  unfold selectMode
  cases h : matching w with
  | none => left; rfl
  | some d =>
    have hmem := List.mem_of_find?_eq_some h
    have : ∀ d ∈ byUri.map (·.2), d.mode = "xml".toList ∨ d.mode = "html".toList ∨
        d.mode = "html5".toList := by decide +kernel
    simpa using this d hmem

/-- A matched pattern without `+` means that some prefix of the text spells the DTD, ignoring
case (as `re.IGNORECASE` does) and the amount of whitespace. -/
inductive _root_.Kajiki.Spec.Spells : Str → Str → Prop
  | nil : Spells [] []
  | char {c d : Char} {s w : Str} : c ≠ ' ' → fold d = fold c → Spells s w →
      Spells (c :: s) (d :: w)
  | blank {ws s w : Str} : ws ≠ [] → (∀ c ∈ ws, isSpace c = true) → Spells s w →
      Spells (' ' :: s) (ws ++ w)

theorem spells_of_match (text : Str) (hplus : '+' ∉ text) :
    ∀ w, patMatch (compileDtd text) w = true → ∃ p q, w = p ++ q ∧ Spells text p := by
  induction text with
  | nil => intro w _; exact ⟨[], w, rfl, .nil⟩
  | cons c s ih =>
    have hs : '+' ∉ s := fun h => hplus (by simp [h])
    by_cases hc : c = ' '
    · subst hc
      have hcomp : compileDtd (' ' :: s) = .spaces :: compileDtd s := by
        simp [compileDtd]
      intro w hw
      rw [hcomp] at hw
      induction w with
      | nil => simp [patMatch] at hw
      | cons d w ihw =>
        simp only [patMatch, Bool.and_eq_true, Bool.or_eq_true] at hw
        obtain ⟨hd, hw⟩ := hw
        rcases hw with hw | hw
        · obtain ⟨p, q, e, hsp⟩ := ihw hw
          generalize htt : (' ' :: s : Str) = tt at hsp
          cases hsp with
          | nil => cases htt
          | char h1 _ _ => cases htt; exact absurd rfl h1
          | @blank ws s' w' h1 h2 h3 =>
            cases htt
            refine ⟨(d :: ws) ++ w', q, by rw [e]; simp, .blank (by simp) ?_ h3⟩
            intro x hx
            rcases List.mem_cons.1 hx with rfl | hx
            · exact hd
            · exact h2 x hx
        · obtain ⟨p, q, e, hsp⟩ := ih hs w hw
          refine ⟨[d] ++ p, q, by rw [e]; simp, .blank (by simp) ?_ hsp⟩
          intro x hx
          simp at hx; subst hx; exact hd
    · have hcomp : compileDtd (c :: s) = .one c :: compileDtd s := by
        cases s with
        | nil => simp [compileDtd]
        | cons b t =>
          have hb : b ≠ '+' := fun h => hs (by simp [h])
          rw [compileDtd.eq_def]
          split
          · rename_i h; cases h
          · rename_i h; cases h; exact absurd rfl hc
          · rename_i h; cases h; exact absurd rfl hb
          · rename_i h; cases h; rfl
      intro w hw
      rw [hcomp] at hw
      cases w with
      | nil => simp [patMatch] at hw
      | cons d w =>
        simp only [patMatch, Bool.and_eq_true, beq_iff_eq] at hw
        obtain ⟨p, q, e, hsp⟩ := ih hs w hw.2
        exact ⟨d :: p, q, by rw [e]; rfl, .char hc hw.1 hsp⟩

/-- C33: a text none of whose prefixes spells a registered HTML (non-XML) DOCTYPE means `xml`. -/
theorem C33_unknown_is_xml (w : Str)
    (h : ∀ d ∈ dtds, d.mode ≠ "xml".toList → ∀ p q, w = p ++ q → ¬ Spells d.str p) :
    selectMode [] w = "xml".toList := by
  unfold selectMode
  cases hm : matching w with
  | none => rfl
  | some d =>
    have hmem := List.mem_of_find?_eq_some hm
    have hp := List.find?_some hm
    have hall : ∀ d ∈ byUri.map (·.2), d ∈ dtds ∧ (d.mode ≠ "xml".toList → '+' ∉ d.str) := by
      decide +kernel
    obtain ⟨hin, hplus⟩ := hall d hmem
    by_cases hx : d.mode = "xml".toList
    · simpa using hx
    · obtain ⟨p, q, e, hs⟩ := spells_of_match d.str (hplus hx) w hp
      exact absurd hs (h d hin hx p q e)

/-- C33 (negative): the XHTML+RDFa DOCTYPE is not recognised, not even in the exact form Kajiki
itself prints: its `+` acts as a repetition in the pattern. -/
theorem C33_rdfa_not_recognised :
    ∃ d ∈ dtds, d.name = "xhtml1rdfa".toList ∧ matching d.str = none := by decide +kernel

/-- A variant with other case and a line break, and what is detected for it. -/
example : selectMode [] ("<!doctype HTML PUBLIC\n\t\"-//W3C//DTD HTML 4.01//EN\" " ++
    "\"http://www.w3.org/TR/html4/strict.dtd\">").toList = "html".toList := by decide +kernel

/-- The hypothesis of the theorems above holds for a re-cased, re-spaced text. -/
example : Variant ['<', 'D', ' ', 'h', '>'] ['<', 'd', ' ', '\n', 'H', '>'] :=
  .char (by decide) (by decide) (.char (by decide) (by decide)
    (.blank (ws := [' ', '\n']) (by decide) (by decide)
      (.char (by decide) (by decide) (.char (by decide) (by decide) .nil))))

end Kajiki.Props

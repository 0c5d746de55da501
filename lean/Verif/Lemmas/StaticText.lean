import Verif.Spec.Static
import Verif.Props.XmlText
import Verif.Lemmas.DocComp
import Verif.Lemmas.Entities
import Verif.Lemmas.Escape
import Verif.Lemmas.WellFormedDoc
import Mathlib.Data.List.Nodup

/-! Text and attributes of documents without directives. -/

namespace Kajiki.StaticDoc
open Kajiki.Spec.Static Kajiki.Spec.XmlText Kajiki.Spec.DocSem Kajiki.Props
open Kajiki.DocComp (Sorted sortItems_sorted)

/-! ## Doubling -/

theorem doubled_append (a b : Str) : doubled (a ++ b) = doubled a ++ doubled b := by simp [doubled]

theorem doubled_cons (c : Char) (s : Str) :
    doubled (c :: s) = (if c = '$' then ['$', '$'] else [c]) ++ doubled s := rfl

/-- Undo doubling. -/
def und : Str → Str
  | [] => []
  | ['$'] => ['$']
  | '$' :: _ :: s => '$' :: und s
  | c :: s => c :: und s

theorem und_doubled (t : Str) : und (doubled t) = t := by
  induction t with
  | nil => rfl
  | cons c s ih =>
    rw [doubled_cons]
    split
    · next h => subst h; simp [und, ih]
    · next h =>
      simp only [List.singleton_append]
      rw [und]
      · rw [ih]
      · intro h'; exact absurd h' h
      · intro x y h'; exact absurd h' h

theorem saxEscape_doubled (t : Str) : saxEscape (doubled t) = doubled (saxEscape t) := by
  unfold saxEscape doubled
  rw [List.flatMap_assoc, List.flatMap_assoc]
  congr 1
  funext c
  by_cases h : c = '$'
  · subst h; rfl
  · by_cases h1 : c = '&'
    · subst h1; rfl
    · by_cases h2 : c = '>'
      · subst h2; rfl
      · by_cases h3 : c = '<'
        · subst h3; rfl
        · simp [saxEscapeChar, h, h1, h2, h3]

/-- How a text is written in the document; `e` tells that it is not in a CDATA section. -/
def enc (e : Bool) (t : Str) : Str := if e then doubled (saxEscape t) else doubled t

theorem enc_append (e : Bool) (a b : Str) : enc e (a ++ b) = enc e a ++ enc e b := by
  cases e <;> simp [enc, doubled_append, saxEscape]

/-- One character. -/
theorem enc_cons (e : Bool) (c : Char) (s : Str) : enc e (c :: s) = enc e [c] ++ enc e s := by
  rw [← enc_append]; rfl

theorem enc_char (e : Bool) (c : Char) :
    (isSpace c = true → enc e [c] = [c]) ∧ (enc e [c] ≠ []) ∧
    (isSpace c = false → ∀ x ∈ enc e [c], isSpace x = false) := by
  by_cases h : c = '$'
  · subst h; cases e <;> decide
  · by_cases h1 : c = '&'
    · subst h1; cases e <;> decide
    · by_cases h2 : c = '>'
      · subst h2; cases e <;> decide
      · by_cases h3 : c = '<'
        · subst h3; cases e <;> decide
        · have : enc e [c] = [c] := by cases e <;> simp [enc, doubled, saxEscape, saxEscapeChar, h, h1, h2, h3]
          rw [this]
          simp

/-- Whitespace can be split off in front. -/
theorem enc_lead {e : Bool} {t a b : Str} (h : enc e t = a ++ b) (ha : ∀ c ∈ a, isSpace c = true) :
    ∃ t', t = a ++ t' ∧ b = enc e t' := by
  induction a generalizing t with
  | nil => exact ⟨t, rfl, h.symm⟩
  | cons x a ih =>
    cases t with
    | nil => cases e <;> cases h
    | cons c t =>
      rw [enc_cons] at h
      obtain ⟨h1, h2, h3⟩ := enc_char e c
      cases hc : isSpace c with
      | true =>
        rw [h1 hc] at h
        simp only [List.cons_append, List.cons.injEq] at h
        obtain ⟨rfl, h⟩ := h
        obtain ⟨t', rfl, rfl⟩ := ih h fun d hd => ha d (List.mem_cons_of_mem _ hd)
        exact ⟨t', rfl, rfl⟩
      | false =>
        cases he : enc e [c] with
        | nil => exact absurd he h2
        | cons y l =>
          rw [he] at h
          simp only [List.cons_append, List.cons.injEq] at h
          have := h3 hc y (by rw [he]; simp)
          rw [h.1, ha x (by simp)] at this
          cases this

/-- Whitespace can be split off at the end. -/
theorem enc_trail {e : Bool} {t a b : Str} (h : enc e t = a ++ b) (hb : ∀ c ∈ b, isSpace c = true) :
    ∃ t', t = t' ++ b ∧ a = enc e t' := by
  induction t generalizing a b with
  | nil =>
    have : a ++ b = [] := by rw [← h]; cases e <;> rfl
    obtain ⟨rfl, rfl⟩ := List.append_eq_nil_iff.1 this
    exact ⟨[], rfl, by cases e <;> rfl⟩
  | cons c t ih =>
    rw [enc_cons] at h
    obtain ⟨h1, h2, h3⟩ := enc_char e c
    rcases List.append_eq_append_iff.1 h with ⟨l, h4, h5⟩ | ⟨l, h4, h5⟩
    · -- a = enc [c] ++ l, enc t = l ++ b
      obtain ⟨t', rfl, rfl⟩ := ih h5 hb
      exact ⟨c :: t', rfl, by rw [h4, enc_cons e c t']⟩
    · -- enc [c] = a ++ l, b = l ++ enc t
      cases hl : l with
      | nil =>
        rw [hl] at h4 h5
        rw [List.append_nil] at h4
        rw [List.nil_append] at h5
        obtain ⟨t', h6, h7⟩ := ih (a := []) (by rw [← h5]; rfl) hb
        cases t' with
        | cons d t' =>
          rw [enc_cons] at h7
          exact absurd (List.append_eq_nil_iff.1 h7.symm).1 (enc_char e d).2.1
        | nil => exact ⟨[c], by rw [h6]; rfl, h4.symm⟩
      | cons y l' =>
        cases hc : isSpace c with
        | true =>
          rw [h1 hc] at h4
          have ha : a = [] ∧ l = [c] := by
            rw [hl] at h4 ⊢
            cases a with
            | nil => simpa using h4.symm
            | cons _ _ => simp at h4
          obtain ⟨rfl, hl'⟩ := ha
          rw [hl'] at h5
          obtain ⟨t', h6, h7⟩ := ih (a := []) (b := enc e t) (by simp)
            (fun d hd => hb d (by rw [h5]; exact List.mem_append_right _ hd))
          cases t' with
          | cons d t' =>
            rw [enc_cons] at h7
            exact absurd (List.append_eq_nil_iff.1 h7.symm).1 (enc_char e d).2.1
          | nil =>
            refine ⟨[], ?_, by cases e <;> rfl⟩
            rw [h5]; simpa using h6
        | false =>
          have := h3 hc y (by rw [h4, hl]; simp)
          rw [hb y (by rw [h5, hl]; simp)] at this
          cases this

/-! ## Cutting -/

/-- The text of the pieces. -/
def segs (t : Str) : List Str := (litPieces t).map fun p => p.value.elim id id

theorem segs_flatten (t : Str) : (segs t).flatten = t := (litPieces_source t).2

theorem cut_doubled (py : PyCompile) (t : Str) : cut py (doubled t) = (segs t).map .inl := by
  unfold cut
  rw [compile_doubled]
  have hsh := litPieces_shape t
  unfold segs
  generalize litPieces t = ps at hsh
  dsimp only
  generalize (0 : Nat) = ln
  induction ps generalizing ln with
  | nil => rfl
  | cons p ps ih =>
    have := ih (fun q hq => hsh q (by simp [hq])) (ln + countNL (p.value.elim id id))
    obtain ⟨u, hu⟩ : ∃ u, p.value = .inl u := by
      rcases hsh p (by simp) with rfl | ⟨u, rfl, _⟩
      · exact ⟨_, rfl⟩
      · exact ⟨_, rfl⟩
    have hn : Spec.XmlText.node ⟨false, false⟩ ln p.value = .text u none ln := by rw [hu]; rfl
    rw [Spec.XmlText.nodes, hn, List.filterMap_cons]
    simp only [this, List.map_cons]
    rw [hu]
    rfl

theorem scans_doubled (py : PyCompile) (t : Str) : compileTextSrc py ⟨false, false⟩ (doubled t) 0 =
    .ok (Spec.XmlText.nodes ⟨false, false⟩ 0 (litPieces t)) := compile_doubled ..

/-- Put text in front of pieces. -/
def pre (w : Str) : List Piece → List Piece
  | .text t :: ps => .text (w ++ t) :: ps
  | ps => .text w :: ps

theorem litPieces_pre (w s : Str) (hw : '$' ∉ w) (hne : w ≠ []) : litPieces (w ++ s) = pre w (litPieces s) := by
  induction w with
  | nil => exact absurd rfl hne
  | cons c w ih =>
    have hc : c ≠ '$' := by rintro rfl; simp at hw
    rw [List.cons_append, litPieces, if_neg hc]
    cases w with
    | nil =>
      rw [List.nil_append]
      cases litPieces s with
      | nil => rfl
      | cons p ps => cases p <;> rfl
    | cons d w =>
      rw [ih (fun h => hw (List.mem_cons_of_mem _ h)) (by simp)]
      cases litPieces s with
      | nil => rfl
      | cons p ps => cases p <;> rfl

/-- Escape the text of a piece. -/
def escPiece : Piece → Piece
  | .text t => .text (saxEscape t)
  | p => p

theorem saxEscapeChar_dollar {c : Char} (h : c ≠ '$') : '$' ∉ saxEscapeChar c ∧ saxEscapeChar c ≠ [] := by
  unfold saxEscapeChar
  split
  · decide
  · split
    · decide
    · split
      · decide
      · simp [Ne.symm h]

theorem litPieces_saxEscape (t : Str) : litPieces (saxEscape t) = (litPieces t).map escPiece := by
  induction t with
  | nil => rfl
  | cons c s ih =>
    by_cases hc : c = '$'
    · subst hc
      have : saxEscape ('$' :: s) = '$' :: saxEscape s := rfl
      rw [this, litPieces, if_pos rfl, litPieces, if_pos rfl, ih]
      rfl
    · have : saxEscape (c :: s) = saxEscapeChar c ++ saxEscape s := rfl
      obtain ⟨h1, h2⟩ := saxEscapeChar_dollar hc
      rw [this, litPieces_pre _ _ h1 h2, ih]
      have h3 := litPieces_pre [c] s (by simp [Ne.symm hc]) (by simp)
      rw [List.singleton_append] at h3
      rw [h3]
      have hs : saxEscape [c] = saxEscapeChar c := by simp [saxEscape]
      cases litPieces s with
      | nil => simp [pre, escPiece, hs]
      | cons p ps => cases p <;> simp [pre, escPiece, saxEscape]

theorem segs_saxEscape (t : Str) : segs (saxEscape t) = (segs t).map saxEscape := by
  unfold segs
  rw [litPieces_saxEscape, List.map_map, List.map_map]
  apply List.map_congr_left
  intro p hp
  rcases litPieces_shape t p hp with rfl | ⟨u, rfl, _⟩ <;> rfl

/-! ## Attributes -/

theorem shown_eq (t : Str) : shown t = saxEscape t := by
  unfold shown saxEscape
  congr 1
  funext c
  unfold reference saxEscapeChar
  split
  · rfl
  · split
    · next h => subst h; rfl
    · split <;> rfl

theorem quoted_eq (t : Str) : quoted t = escapeStr t := by
  rw [escapeStr_eq]
  unfold quoted
  congr 1
  funext c
  unfold reference escChar
  by_cases h : c = '"'
  · subst h; rfl
  · rw [if_neg h]
    simp [h]

theorem lowerAscii_flags : ∀ k ∈ flags, lowerAscii k = k := by decide +kernel

/-- The attribute that is rendered for a collected value. -/
theorem renderCollected_text (mode : Str) (k v : Str) :
    (renderCollected k mode (some v)).flatten = attrText mode (k, v) := by
  have hf : emptyAttrs = flags := rfl
  unfold renderCollected renderAttr attrText
  have hb : boolLike (.str v) = false := rfl
  simp only [Option.elim, hb, Bool.and_false, Bool.false_eq_true, if_false]
  rw [hf]
  change List.flatten (if (html mode && flags.contains k) = true then _ else _) = _
  by_cases h : (html mode && flags.contains k) = true
  · rw [if_pos h, if_pos h]
    have : k ∈ flags := by
      rw [Bool.and_eq_true] at h
      exact List.contains_iff_mem.1 h.2
    simp [lowerAscii_flags k this]
  · rw [if_neg h, if_neg h, escape_str, toStr_str, quoted_eq]
    simp

theorem strLt_iff (a b : Str) : strLt a b = decide (a < b) := by
  induction a generalizing b with
  | nil => cases b <;> simp [strLt]
  | cons x a ih =>
    cases b with
    | nil => simp [strLt]
    | cons y b =>
      unfold strLt
      rw [ih]
      by_cases h : x < y
      · have : x.toNat < y.toNat := h
        simp [this, List.cons_lt_cons_iff, h]
      · have h' : ¬ x.toNat < y.toNat := h
        simp only [if_neg h', List.cons_lt_cons_iff, h, false_or]
        by_cases he : x = y <;> simp [he]

theorem le_iff (a b : Str) : a ≤ b ↔ strLt b a = false := by
  rw [strLt_iff, decide_eq_false_iff_not]
  exact Iff.rfl

private instance : IsTrans (Str × Str) fun a b => a.1 ≤ b.1 :=
  ⟨fun a b c h1 h2 => by simp only [le_iff] at *; exact DocComp.le_trans' h1 h2⟩

private instance : Std.Total fun a b : Str × Str => a.1 ≤ b.1 :=
  ⟨fun a b => by
    simp only [le_iff]
    cases h : strLt b.1 a.1 with
    | false => exact .inl rfl
    | true => exact .inr (DocComp.strLt_asymm h)⟩

theorem sorted_eq (as : List (Str × Str)) (hn : (as.map (·.1)).Nodup) : sorted as = sortItems as := by
  refine List.Perm.eq_of_pairwise (le := fun a b => a.1 ≤ b.1) ?_ ?_ ?_ ?_
  · intro a b ha hb h1 h2
    simp only [le_iff] at h1 h2
    have hk : a.1 = b.1 := by
      rcases strLt_total a.1 b.1 with h | h | h
      · rw [h] at h2; cases h2
      · exact h
      · rw [h] at h1; cases h1
    have ha' := (List.perm_insertionSort _ as).mem_iff.1 ha
    have hb' := (Wf.sortItems_perm as).mem_iff.1 hb
    exact List.inj_on_of_nodup_map hn ha' hb' hk
  · exact List.pairwise_insertionSort _ as
  · exact (sortItems_sorted as).imp fun h => by
      simp only [le_iff]
      exact h
  · exact (List.perm_insertionSort _ as).trans (Wf.sortItems_perm as).symm

theorem sortItems_map (f : Str → Str) (as : List (Str × Str)) :
    sortItems (as.map fun kv => (kv.1, f kv.2)) = (sortItems as).map fun kv => (kv.1, f kv.2) := by
  have hi : ∀ (x : Str × Str) (l : List (Str × Str)), insertAttr (x.1, f x.2) (l.map fun kv => (kv.1, f kv.2)) =
      (insertAttr x l).map fun kv => (kv.1, f kv.2) := by
    intro x l
    induction l with
    | nil => rfl
    | cons y l ih =>
      simp only [List.map_cons, insertAttr]
      split
      · rw [ih]; rfl
      · rfl
  induction as with
  | nil => rfl
  | cons x as ih =>
    change insertAttr (x.1, f x.2) (sortItems (as.map _)) = (insertAttr x (sortItems as)).map _
    rw [ih, hi]

end Kajiki.StaticDoc

import Verif.Spec.Fill
import Verif.Lemmas.StaticText
import Mathlib.Data.List.Chain
import Mathlib.Data.List.Induction

/-! Text with expressions. -/

namespace Kajiki.FillDoc
open Kajiki.Spec.Fill Kajiki.Spec.DocSem Kajiki.Props
open Kajiki.Spec.XmlText (Piece doubled source WellCut NoDollar ErrorsAtBraces nameStart nameChar)
open Kajiki.StaticDoc (pre escPiece)
open Kajiki.Spec.Static (reference)

/-! ## How text is written in the document -/

/-- A character in the document; `e` tells that it is not in a CDATA section. -/
def escChar (e : Bool) (c : Char) : Str := if e then saxEscapeChar c else [c]

/-- A character or an expression in the document. -/
def encTok (e : Bool) : Item → Str
  | .ch c => if c = '$' then ['$', '$'] else escChar e c
  | t => t.written

/-- A text in the document. -/
def enc (e : Bool) (ts : List Item) : Str := ts.flatMap (encTok e)

theorem encTok_ch (e : Bool) (c : Char) : encTok e (.ch c) = if c = '$' then ['$', '$'] else escChar e c := rfl

theorem enc_nil (e : Bool) : enc e [] = [] := rfl

theorem enc_cons (e : Bool) (t : Item) (ts : List Item) : enc e (t :: ts) = encTok e t ++ enc e ts := rfl

theorem enc_append (e : Bool) (a b : List Item) : enc e (a ++ b) = enc e a ++ enc e b := by simp [enc]

theorem written_eq (ts : List Item) : written ts = enc false ts := by
  unfold written enc
  congr 1
  funext t
  cases t <;> rfl

theorem nameChar_plain {c : Char} (h : nameChar c = true) : c ≠ '&' ∧ c ≠ '<' ∧ c ≠ '>' ∧ c ≠ '$' := by
  refine ⟨?_, ?_, ?_, ?_⟩ <;> (rintro rfl; revert h; decide +kernel)

theorem nameStart_nameChar {c : Char} (h : nameStart c = true) : nameChar c = true := by
  unfold nameChar; rw [h]; rfl

theorem saxEscape_plain {s : Str} (h : ∀ c ∈ s, c ≠ '&' ∧ c ≠ '<' ∧ c ≠ '>') : saxEscape s = s := by
  induction s with
  | nil => rfl
  | cons c s ih =>
    obtain ⟨h1, h2, h3⟩ := h c (by simp)
    have : saxEscape (c :: s) = saxEscapeChar c ++ saxEscape s := rfl
    rw [this, ih fun d hd => h d (by simp [hd])]
    simp [saxEscapeChar, h1, h2, h3]

theorem saxEscape_append (a b : Str) : saxEscape (a ++ b) = saxEscape a ++ saxEscape b := by simp [saxEscape]

theorem space_plain {c : Char} (h : isSpace c = true) : c ≠ '&' ∧ c ≠ '<' ∧ c ≠ '>' := by
  refine ⟨?_, ?_, ?_⟩ <;> (rintro rfl; revert h; decide +kernel)

variable {py : PyCompile}

/-- The text of a name. -/
theorem name_plain {e : Bool} {n : Str} (h : (Item.name n).ok py e) : ∀ c ∈ n, nameChar c = true := by
  obtain ⟨c, cs, rfl, h1, h2⟩ := h
  intro d hd
  rcases List.mem_cons.1 hd with rfl | hd
  · exact nameStart_nameChar h1
  · exact h2 d hd

theorem saxEscape_tok {t : Item} (h : t.ok py true) : saxEscape t.written = encTok true t := by
  cases t with
  | ch c =>
    rw [encTok_ch]
    by_cases hc : c = '$'
    · subst hc; rfl
    · simp [Item.written, hc, saxEscape, escChar]
  | name n =>
    refine saxEscape_plain fun c hc => ?_
    rcases List.mem_cons.1 hc with rfl | hc
    · decide
    · obtain ⟨h1, h2, h3, -⟩ := nameChar_plain (name_plain h c hc)
      exact ⟨h1, h2, h3⟩
  | expr ws e =>
    obtain ⟨h1, -, -, -, -, h6⟩ := h
    obtain ⟨h7, h8, h9⟩ := h6 rfl
    refine saxEscape_plain fun c hc => ?_
    unfold Item.written at hc
    simp only [List.cons_append, List.mem_cons, List.mem_append, List.not_mem_nil, or_false] at hc
    rcases hc with rfl | rfl | (hc | hc) | rfl
    · decide
    · decide
    · exact space_plain (h1 c hc)
    · refine ⟨?_, ?_, ?_⟩ <;> (rintro rfl; contradiction)
    · decide

theorem saxEscape_written {ts : List Item} (h : ∀ t ∈ ts, t.ok py true) : saxEscape (written ts) = enc true ts := by
  induction ts with
  | nil => rfl
  | cons t ts ih =>
    have : written (t :: ts) = t.written ++ written ts := rfl
    rw [this, saxEscape_append, saxEscape_tok (h t (by simp)), ih fun u hu => h u (by simp [hu])]
    rfl

/-! ## Whitespace around text -/

theorem isSpace_dollar : isSpace '$' = false := by decide +kernel

/-- Whitespace is itself, everything else starts and ends with something else. -/
theorem encTok_space {e : Bool} {t : Item} (h : t.ok py e) :
    (∃ c, t = .ch c ∧ isSpace c = true ∧ encTok e t = [c]) ∨
    (∃ x l, encTok e t = x :: l ∧ isSpace x = false) ∧ (∃ l x, encTok e t = l ++ [x] ∧ isSpace x = false) := by
  cases t with
  | ch c =>
    by_cases hd : c = '$'
    · subst hd
      exact .inr ⟨⟨'$', ['$'], rfl, isSpace_dollar⟩, ['$'], '$', rfl, isSpace_dollar⟩
    · have he : encTok e (.ch c) = StaticDoc.enc e [c] := by
        unfold StaticDoc.enc
        rw [encTok_ch, if_neg hd]
        cases e with
        | false => simp [escChar, doubled, hd]
        | true =>
          simp only [escChar, if_true]
          have := StaticDoc.saxEscapeChar_dollar hd
          have h2 : saxEscape [c] = saxEscapeChar c := by simp [saxEscape]
          rw [h2]
          have : ∀ s : Str, '$' ∉ s → doubled s = s := by
            intro s hs
            induction s with
            | nil => rfl
            | cons x s ih =>
              rw [StaticDoc.doubled_cons, if_neg (by rintro rfl; simp at hs), ih (fun h => hs (by simp [h]))]
              rfl
          rw [this _ (StaticDoc.saxEscapeChar_dollar hd).1]
      obtain ⟨h1, h2, h3⟩ := StaticDoc.enc_char e c
      rw [he]
      cases hc : isSpace c with
      | true => exact .inl ⟨c, rfl, hc, h1 hc⟩
      | false =>
        have h3 := h3 hc
        refine .inr ⟨?_, ?_⟩
        · cases hl : StaticDoc.enc e [c] with
          | nil => exact absurd hl h2
          | cons x l => exact ⟨x, l, rfl, h3 x (by rw [hl]; simp)⟩
        · refine ⟨_, _, (List.dropLast_append_getLast h2).symm, h3 _ (List.getLast_mem h2)⟩
  | name n =>
    refine .inr ⟨⟨'$', n, rfl, isSpace_dollar⟩, ?_⟩
    have hne : n ≠ [] := by obtain ⟨c, cs, rfl, -⟩ := h; simp
    refine ⟨'$' :: n.dropLast, n.getLast hne, ?_, ?_⟩
    · change '$' :: n = _
      rw [List.cons_append, List.dropLast_append_getLast]
    · have := name_plain h _ (List.getLast_mem hne)
      generalize n.getLast hne = c at this
      cases hc : isSpace c with
      | false => rfl
      | true =>
        have hs : ∀ c, nameChar c = true → isSpace c = false := by
          intro c hc
          have : ∀ c ∈ ("_abcdefghijklmnopqrstuvwxyzABCDEFGHIJKLMNOPQRSTUVWXYZİıſK".toList ++
              "0123456789.".toList), isSpace c = false := by decide +kernel
          refine this c ?_
          unfold nameChar nameStart at hc
          rw [Bool.or_eq_true, List.contains_iff_mem, List.contains_iff_mem] at hc
          exact List.mem_append.2 hc
        rw [hs c this] at hc
        cases hc
  | expr ws e' =>
    exact .inr ⟨⟨'$', _, rfl, isSpace_dollar⟩, '$' :: '{' :: ws ++ e', '}', rfl, by decide +kernel⟩

/-- Characters. -/
def chars (a : Str) : List Item := a.map .ch

/-- Whitespace can be split off in front. -/
theorem enc_lead {e : Bool} {ts : List Item} {a b : Str} (ht : ∀ t ∈ ts, t.ok py e) (h : enc e ts = a ++ b)
    (ha : ∀ c ∈ a, isSpace c = true) : ∃ ts', ts = chars a ++ ts' ∧ b = enc e ts' := by
  induction a generalizing ts with
  | nil => exact ⟨ts, rfl, h.symm⟩
  | cons x a ih =>
    cases ts with
    | nil => cases h
    | cons t ts =>
      rw [enc_cons] at h
      rcases encTok_space (ht t (by simp)) with ⟨c, rfl, hc, he⟩ | ⟨⟨y, l, he, hy⟩, -⟩
      · rw [he] at h
        simp only [List.cons_append, List.nil_append, List.cons.injEq] at h
        obtain ⟨rfl, h⟩ := h
        obtain ⟨ts', rfl, rfl⟩ := ih (fun t ht' => ht t (by simp [ht'])) h fun d hd => ha d (by simp [hd])
        exact ⟨ts', rfl, rfl⟩
      · rw [he] at h
        simp only [List.cons_append, List.cons.injEq] at h
        rw [h.1, ha x (by simp)] at hy
        cases hy

theorem enc_ne {e : Bool} {ts : List Item} (ht : ∀ t ∈ ts, t.ok py e) (h : enc e ts = []) : ts = [] := by
  cases ts with
  | nil => rfl
  | cons t ts =>
    rw [enc_cons, List.append_eq_nil_iff] at h
    rcases encTok_space (ht t (by simp)) with ⟨c, rfl, hc, he⟩ | ⟨⟨y, l, he, hy⟩, -⟩ <;> rw [he] at h <;> cases h.1

/-- Whitespace can be split off at the end. -/
theorem enc_trail {e : Bool} {ts : List Item} {a b : Str} (ht : ∀ t ∈ ts, t.ok py e) (h : enc e ts = a ++ b)
    (hb : ∀ c ∈ b, isSpace c = true) : ∃ ts', ts = ts' ++ chars b ∧ a = enc e ts' := by
  induction ts using List.reverseRecOn generalizing b with
  | nil =>
    obtain ⟨rfl, rfl⟩ := List.append_eq_nil_iff.1 (h.symm.trans (enc_nil e))
    exact ⟨[], rfl, rfl⟩
  | append_singleton ts t ih =>
    have ih := fun b => ih (b := b) (fun t ht' => ht t (by simp [ht']))
    rw [enc_append] at h
    have h1 : enc e [t] = encTok e t := by simp [enc]
    rw [h1] at h
    rcases List.eq_nil_or_concat b with rfl | ⟨b', x, rfl⟩
    · exact ⟨ts ++ [t], by simp [chars], by rw [enc_append, h1, h, List.append_nil]⟩
    · rw [List.concat_eq_append] at h hb ⊢
      rcases encTok_space (ht t (by simp)) with ⟨c, rfl, hc, he⟩ | ⟨-, l, y, he, hy⟩
      · rw [he, ← List.append_assoc] at h
        obtain ⟨h2, h3⟩ := List.append_inj' h rfl
        cases h3
        obtain ⟨ts', rfl, rfl⟩ := ih b' h2 fun d hd => hb d (by simp [hd])
        exact ⟨ts', by simp [chars], rfl⟩
      · rw [he, ← List.append_assoc, ← List.append_assoc] at h
        obtain ⟨h2, h3⟩ := List.append_inj' h rfl
        cases h3
        rw [hb x (by simp)] at hy
        cases hy

/-! ## Cutting -/

/-- The pieces of a text. -/
def pieces (e : Bool) : List Item → List Piece
  | [] => []
  | .ch c :: ts => if c = '$' then .dollar :: pieces e ts else pre (escChar e c) (pieces e ts)
  | .name n :: ts => .name n :: pieces e ts
  | .expr ws x :: ts => .expr ws x :: pieces e ts

theorem source_pre (w : Str) (ps : List Piece) : source (pre w ps) = w ++ source ps := by
  unfold pre
  split <;> simp [source, Piece.source]

theorem source_pieces (e : Bool) (ts : List Item) : source (pieces e ts) = enc e ts := by
  induction ts with
  | nil => rfl
  | cons t ts ih =>
    cases t with
    | ch c =>
      rw [pieces, enc_cons, encTok]
      split
      · rw [← ih]; rfl
      · rw [source_pre, ih]
    | name n => rw [pieces, enc_cons, ← ih]; rfl
    | expr ws x => rw [pieces, enc_cons, ← ih]; rfl

theorem escChar_dollar (e : Bool) {c : Char} (h : c ≠ '$') : '$' ∉ escChar e c ∧ escChar e c ≠ [] := by
  unfold escChar
  cases e with
  | true => exact StaticDoc.saxEscapeChar_dollar h
  | false => simp [Ne.symm h]

theorem pieces_text (e : Bool) (ts : List Item) : ∀ t, Piece.text t ∈ pieces e ts → '$' ∉ t ∧ t ≠ [] := by
  induction ts with
  | nil => intro t ht; cases ht
  | cons x ts ih =>
    intro t ht
    cases x with
    | ch c =>
      rw [pieces] at ht
      split at ht
      · exact ih t (by simpa using ht)
      · next hc =>
        obtain ⟨h1, h2⟩ := escChar_dollar e hc
        unfold pre at ht
        split at ht
        · next u ps hu =>
          rw [hu] at ih
          rcases List.mem_cons.1 ht with ht | ht
          · cases ht
            have := (ih u (by simp)).1
            exact ⟨by simp [h1, this], by simp [h2]⟩
          · exact ih t (by simp [ht])
        · rcases List.mem_cons.1 ht with ht | ht
          · cases ht; exact ⟨h1, h2⟩
          · exact ih t ht
    | name n => rw [pieces] at ht; exact ih t (by simpa using ht)
    | expr ws x => rw [pieces] at ht; exact ih t (by simpa using ht)

theorem nameChar_escChar {e : Bool} {c : Char} (h : nameChar c = false) :
    ∀ x, (encTok e (.ch c)).head? = some x → nameChar x = false := by
  intro x hx
  rw [encTok_ch] at hx
  split at hx
  · cases hx; decide +kernel
  · unfold escChar at hx
    cases e with
    | false => cases hx; exact h
    | true =>
      simp only [if_true] at hx
      unfold saxEscapeChar at hx
      split at hx
      · cases hx; decide +kernel
      · split at hx
        · cases hx; decide +kernel
        · split at hx
          · cases hx; decide +kernel
          · cases hx; exact h

theorem pieces_wellCut {e : Bool} {ts : List Item} (h : Text py e ts) : WellCut py (pieces e ts) := by
  obtain ⟨h1, h2⟩ := h
  induction ts with
  | nil => trivial
  | cons t ts ih =>
    have ih := ih (fun u hu => h1 u (by simp [hu])) h2.tail
    have ht := h1 t (by simp)
    cases t with
    | ch c =>
      have hp := pieces_text e (.ch c :: ts)
      rw [pieces] at hp ⊢
      split
      · exact ⟨ih, trivial⟩
      · next hc =>
        rw [if_neg hc] at hp
        unfold pre at hp ⊢
        split
        · next u ps hu =>
          rw [hu] at ih hp
          obtain ⟨hw, -, -, hq⟩ := ih
          obtain ⟨h3, h4⟩ := hp (escChar e c ++ u) (by simp)
          exact ⟨hw, h4, Kajiki.XmlTexts.no_marker_of_no_dollar h3, hq⟩
        · next hn =>
          obtain ⟨h3, h4⟩ := escChar_dollar e hc
          refine ⟨ih, h4, Kajiki.XmlTexts.no_marker_of_no_dollar h3, ?_⟩
          intro q hq
          cases q with
          | text u =>
            cases hl : pieces e ts with
            | nil => rw [hl] at hq; cases hq
            | cons p ps =>
              rw [hl] at hq
              cases hq
              exact absurd hl (hn u ps)
          | _ => rfl
    | name n =>
      refine ⟨ih, ht, ?_⟩
      rw [source_pieces]
      intro x hx
      cases ts with
      | nil => cases hx
      | cons u ts =>
        have ha : apart (.name n) u := (List.isChain_cons_cons.1 h2).1
        cases u with
        | ch c =>
          refine nameChar_escChar (e := e) ha x ?_
          rw [enc_cons] at hx
          rcases encTok_space (h1 (.ch c) (by simp)) with ⟨d, -, -, he⟩ | ⟨⟨y, l, he, -⟩, -⟩ <;>
            rw [he] at hx ⊢ <;> exact hx
        | name m => cases hx; decide +kernel
        | expr ws y => cases hx; decide +kernel
    | expr ws x => exact ⟨ih, ht.1, ht.2.1, ht.2.2.2.1⟩

theorem pieces_expr (e : Bool) (ts : List Item) : ∀ ws x, Piece.expr ws x ∈ pieces e ts → Item.expr ws x ∈ ts := by
  induction ts with
  | nil => intro ws x h; cases h
  | cons t ts ih =>
    intro ws x h
    refine List.mem_cons.2 ?_
    cases t with
    | ch c =>
      right
      rw [pieces] at h
      split at h
      · exact ih ws x (by simpa using h)
      · unfold pre at h
        split at h
        · next u ps hu => exact ih ws x (by rw [hu]; simpa using h)
        · exact ih ws x (by simpa using h)
    | name n => rw [pieces] at h; exact .inr (ih ws x (by simpa using h))
    | expr ws' x' =>
      rw [pieces] at h
      rcases List.mem_cons.1 h with h | h
      · cases h; exact .inl rfl
      · exact .inr (ih ws x h)

theorem errors_pieces {ps : List Piece} (h : ∀ ws x, Piece.expr ws x ∈ ps → ∀ rest, Spec.XmlText.ErrorAtBrace py x rest) :
    ErrorsAtBraces py ps := by
  induction ps with
  | nil => trivial
  | cons p ps ih =>
    have ih := ih fun ws x hx => h ws x (by simp [hx])
    cases p with
    | expr ws x => exact ⟨h ws x (by simp) _, ih⟩
    | _ => exact ih

theorem compile_enc {e : Bool} {ts : List Item} (h : Text py e ts) (m : TextMode) (ln : Nat) :
    compileTextSrc py m (enc e ts) ln = .ok (Spec.XmlText.nodes m ln (pieces e ts)) := by
  rw [← source_pieces]
  refine C28_pieces_read_back py m _ ln (pieces_wellCut h) ?_ (errors_pieces ?_)
  · intro ws x hx
    exact (h.1 _ (pieces_expr e ts ws x hx)).2.2.1
  · intro ws x hx
    exact (h.1 _ (pieces_expr e ts ws x hx)).2.2.2.2.1

theorem cut_enc {e : Bool} {ts : List Item} (h : Text py e ts) : cut py (enc e ts) = (pieces e ts).map Piece.value := by
  unfold cut
  rw [compile_enc h]
  dsimp only
  generalize pieces e ts = ps
  generalize (0 : Nat) = ln
  induction ps generalizing ln with
  | nil => rfl
  | cons p ps ih =>
    rw [Spec.XmlText.nodes, List.filterMap_cons, List.map_cons]
    cases hv : p.value with
    | inl t =>
      have : Spec.XmlText.node ⟨false, false⟩ ln (.inl t) = .text t none ln := rfl
      rw [this]
      exact congrArg _ (ih _)
    | inr x =>
      have : Spec.XmlText.node ⟨false, false⟩ ln (.inr x) = .expr x false ln := rfl
      rw [this]
      exact congrArg _ (ih _)

theorem pieces_esc (ts : List Item) : pieces true ts = (pieces false ts).map escPiece := by
  induction ts with
  | nil => rfl
  | cons t ts ih =>
    cases t with
    | ch c =>
      rw [pieces, pieces, ih]
      split
      · rfl
      · have hs : saxEscape [c] = saxEscapeChar c := by simp [saxEscape]
        cases pieces false ts with
        | nil => simp [pre, escPiece, escChar, hs]
        | cons p ps => cases p <;> simp [pre, escPiece, escChar, saxEscape]
    | name n => rw [pieces, pieces, ih]; rfl
    | expr ws x => rw [pieces, pieces, ih]; rfl

/-- What the tokens stand for. -/
def Item.out (f : Char → Str) (g : Str → Str) : Item → Str
  | .ch c => f c
  | .name x => g x
  | .expr _ x => g x

/-- Pieces show what the tokens show. -/
theorem pieces_out (e : Bool) (g : Str → Str) (ts : List Item) :
    ((pieces e ts).map Piece.value).flatMap (Sum.elim id g) = ts.flatMap (Item.out (escChar e) g) := by
  induction ts with
  | nil => rfl
  | cons t ts ih =>
    rw [List.flatMap_cons, ← ih]
    cases t with
    | ch c =>
      rw [pieces]
      split
      · next hc =>
        subst hc
        cases e <;> rfl
      · unfold pre
        split
        · next u ps hu => rw [hu]; simp [Piece.value, Item.out]
        · simp [Piece.value, Item.out]
    | name n => rfl
    | expr ws x => rfl

/-- Parts of texts. -/
theorem Text.append {e : Bool} {a b : List Item} (h : Text py e (a ++ b)) : Text py e a ∧ Text py e b := by
  obtain ⟨h1, h2⟩ := h
  obtain ⟨h3, h4, -⟩ := List.isChain_append.1 h2
  exact ⟨⟨fun t ht => h1 t (by simp [ht]), h3⟩, fun t ht => h1 t (by simp [ht]), h4⟩

theorem Text.join {e : Bool} {a b : List Item} (ha : Text py e a) (hb : Text py e b)
    (h : ∀ x ∈ a.getLast?, ∀ y ∈ b.head?, apart x y) : Text py e (a ++ b) := by
  refine ⟨fun t ht => (List.mem_append.1 ht).elim (ha.1 t) (hb.1 t), ?_⟩
  exact List.isChain_append.2 ⟨ha.2, hb.2, h⟩

end Kajiki.FillDoc

import Verif.Lemmas.TextEscape
import Verif.Lemmas.TextTree
import Verif.Lemmas.TextCover
import Verif.Spec.TextSource

/-!
# The scanner reads what is written
-/

namespace Kajiki.Texts
open Kajiki.Spec.Text Kajiki.Spec.TextSource
open Kajiki.Spec.XmlText (ErrorAtBrace nameStart nameChar)

theorem lineStart_nil (b : Bool) : lineStart b [] = b := rfl

theorem lineStart_append (b : Bool) (a c : Str) : lineStart b (a ++ c) = lineStart (lineStart b a) c := by
  unfold lineStart
  cases c with
  | nil => simp
  | cons x c =>
    rw [List.getLast?_append]
    cases h : (x :: c).getLast? with
    | none => simp at h
    | some y => rfl

theorem lineStart_cons (b : Bool) (x : Char) (a : Str) : lineStart b (x :: a) = lineStart (x == '\n') a := by
  have := lineStart_append b [x] a
  exact this

/-- Nothing matches where nothing starts. -/
theorem tagAt_none {b : Bool} {s : Str} (h : ¬ Starts b s) : tagAt b s = none := by
  cases ht : tagAt b s with
  | none => rfl
  | some p =>
    obtain ⟨k, n⟩ := p
    obtain ⟨m, r, rfl, -, hm⟩ := tagAt_some ht
    exfalso
    apply h
    cases hm with
    | escaped => exact .inl ⟨_, rfl⟩
    | braced => exact .inl ⟨_, rfl⟩
    | named => exact .inl ⟨_, rfl⟩
    | exprInvalid => exact .inl ⟨_, rfl⟩
    | bare hw => exact .inr (.inr ⟨rfl, _, _, hw, .inl (by rw [List.append_assoc]; rfl)⟩)
    | bareInvalid hw => exact .inr (.inr ⟨rfl, _, _, hw, .inl (by rw [List.append_assoc]; rfl)⟩)
    | @ljust ws name r hw hn =>
      cases name with
      | nil => exact absurd rfl hn.nonempty
      | cons c name =>
        exact .inr (.inr ⟨rfl, ws, name ++ r, hw, .inr ⟨c, hn.letters c (by simp), by rw [List.append_assoc]; rfl⟩⟩)
    | begin_ => exact .inr (.inl ⟨_, rfl⟩)
    | beginInvalid => exact .inr (.inl ⟨_, rfl⟩)

theorem quiet_tail {b : Bool} {x : Char} {t rest : Str} (h : Quiet b (x :: t) rest) :
    Quiet (x == '\n') t rest := by
  intro a c e hc
  have := h (x :: a) c (by rw [e]; rfl) hc
  rwa [lineStart_cons] at this

theorem quiet_append {b : Bool} {s t rest : Str} (h : Quiet b s (t ++ rest)) (h2 : Quiet (lineStart b s) t rest) :
    Quiet b (s ++ t) rest := by
  induction s generalizing b with
  | nil => exact h2
  | cons x s ih =>
    rw [lineStart_cons] at h2
    have h3 := ih (quiet_tail h) h2
    intro a c e hc
    cases a with
    | nil =>
      have := h [] (x :: s) rfl (by simp)
      rw [lineStart_nil] at this ⊢
      rw [List.nil_append] at e
      rw [← e, List.append_assoc]
      exact this
    | cons y a =>
      rw [List.cons_append, List.cons_append] at e
      injection e with e1 e2
      subst e1
      rw [lineStart_cons]
      exact h3 a c e2 hc

/-- Characters that cannot start anything, in the middle of a line. -/
theorem quiet_plain {t rest : Str} (h : ∀ x ∈ t, x ≠ '$' ∧ x ≠ '{' ∧ x ≠ '\n') : Quiet false t rest := by
  intro a b e hb
  have hl : lineStart false a = false := by
    unfold lineStart
    cases hl : a.getLast? with
    | none => rfl
    | some c =>
      have : c ∈ t := by rw [e]; exact List.mem_append_left _ (List.mem_of_getLast? hl)
      simp [(h c this).2.2]
  cases b with
  | nil => exact absurd rfl hb
  | cons x b =>
    have hx := h x (by rw [e]; simp)
    rintro (⟨r, h⟩ | ⟨r, h⟩ | ⟨h, -⟩)
    · exact hx.1 (List.cons.inj h).1
    · exact hx.2.1 (List.cons.inj h).1
    · rw [hl] at h; cases h

theorem tagMatches_quiet {t : Str} : ∀ {b : Bool} {rest : Str} (pos : Nat), Quiet b t rest →
    tagMatches 0 pos b (t ++ rest) = tagMatches 0 (pos + t.length) (lineStart b t) rest := by
  induction t with
  | nil => intro b rest pos _; rfl
  | cons x t ih =>
    intro b rest pos h
    have h0 := h [] (x :: t) rfl (by simp)
    rw [List.cons_append, tagMatches, show tagAt b (x :: (t ++ rest)) = none from tagAt_none h0]
    simp only []
    rw [ih _ (quiet_tail h), lineStart_cons, List.length_cons, Nat.add_assoc, Nat.add_comm 1]

theorem tagMatches_skip {m : Str} : ∀ (b : Bool) (rest : Str) (pos : Nat),
    tagMatches m.length pos b (m ++ rest) = tagMatches 0 (pos + m.length) (lineStart b m) rest := by
  induction m with
  | nil => intro b rest pos; rfl
  | cons x m ih =>
    intro b rest pos
    rw [List.cons_append, List.length_cons, tagMatches, ih, lineStart_cons, Nat.add_assoc, Nat.add_comm 1]

theorem tagMatches_match {m rest : Str} {b : Bool} {k : TKind} (pos : Nat) (hm : m ≠ [])
    (h : tagAt b (m ++ rest) = some (k, m.length)) :
    tagMatches 0 pos b (m ++ rest) =
      (pos, pos + m.length, k) :: tagMatches 0 (pos + m.length) (lineStart b m) rest := by
  cases m with
  | nil => exact absurd rfl hm
  | cons x m =>
    rw [List.cons_append] at h ⊢
    rw [tagMatches, h]
    simp only [List.length_cons, Nat.add_sub_cancel]
    rw [tagMatches_skip, lineStart_cons, Nat.add_assoc, Nat.add_comm 1]

theorem named_exact {name r : Str} (h : Named name r) : (name ++ r).takeWhile isTagChar = name :=
  XmlTexts.takeWhile_exact (fun x hx => letter_eq ▸ h.letters x hx) fun x hx => letter_eq ▸ h.longest x hx

theorem Named.name_empty {name r : Str} (h : Named name r) : name.isEmpty = false := by
  cases name with
  | nil => exact absurd rfl h.nonempty
  | cons => rfl

theorem tagAt_bare {ws name r : Str} (hw : Spaces ws) (h : Named name r) :
    tagAt true ((ws ++ '%' :: name) ++ r) = some (.bare name, (ws ++ '%' :: name).length) := by
  rw [List.append_assoc, List.cons_append, tagAt_ws hw (by decide) (by decide)]
  simp only [named_exact h, Named.name_empty h, Bool.false_eq_true, if_false]
  simp; omega

theorem tagAt_ljust {ws name r : Str} (hw : Spaces ws) (h : Named name r) :
    tagAt true ((ws ++ '{' :: '%' :: '-' :: name) ++ r) =
      some (.ljust name, (ws ++ '{' :: '%' :: '-' :: name).length) := by
  rw [List.append_assoc, List.cons_append, tagAt_ws hw (by decide) (by decide)]
  simp only [List.cons_append, named_exact h, Named.name_empty h, Bool.false_eq_true, if_false]
  simp; omega

theorem tagAt_begin {name r : Str} (b : Bool) (h : Named name r) :
    tagAt b (('{' :: '%' :: name) ++ r) = some (.begin_ name, ('{' :: '%' :: name).length) := by
  have hb : tagAt.beginAt (('{' :: '%' :: name) ++ r) = some (.begin_ name, ('{' :: '%' :: name).length) := by
    simp only [List.cons_append, tagAt.beginAt, named_exact h, Named.name_empty h, Bool.false_eq_true, if_false]
    simp; omega
  have := tagAt_ws (ws := []) (r := '%' :: (name ++ r)) (c := '{') (by simp) (by decide) (by decide) b
  rw [show ('{' :: '%' :: name) ++ r = [] ++ '{' :: '%' :: (name ++ r) from rfl, this]
  rw [show ([] : Str) ++ '{' :: '%' :: (name ++ r) = ('{' :: '%' :: name) ++ r from rfl, hb]
  have hne : ∀ q, name ++ r ≠ '-' :: q := by
    intro q e
    cases hn : name with
    | nil => exact h.nonempty hn
    | cons x xs =>
      rw [hn] at e
      obtain ⟨rfl, -⟩ := List.cons.inj e
      exact absurd (h.letters '-' (by rw [hn]; simp)) (by decide +kernel)
  split
  · rename_i e; cases e
  · rename_i e
    exact absurd (by simpa using e) (hne _)
  · rfl

theorem tagAt_dollar (b : Bool) (r : Str) : tagAt b (['$', '$'] ++ r) = some (.escaped, 2) := rfl

theorem tagAt_braced (b : Bool) (r : Str) : tagAt b (['$', '{'] ++ r) = some (.braced, 2) := rfl

theorem tagAt_name {c : Char} {cs r : Str} (b : Bool) (hc : nameStart c = true) (hcs : ∀ x ∈ cs, nameChar x = true)
    (hr : ∀ x, r.head? = some x → nameChar x = false) :
    tagAt b (('$' :: c :: cs) ++ r) = some (.named (c :: cs), ('$' :: c :: cs).length) := by
  have e1 : (cs ++ r).takeWhile isNameChar = cs :=
    XmlTexts.takeWhile_exact (fun x hx => by rw [← XmlTexts.nameChar_eq]; exact hcs x hx)
      fun x hx => by rw [← XmlTexts.nameChar_eq]; exact hr x hx
  have h1 : c ≠ '$' := by rintro rfl; exact absurd hc (by decide +kernel)
  have h2 : c ≠ '{' := by rintro rfl; exact absurd hc (by decide +kernel)
  rw [XmlTexts.nameStart_eq] at hc
  unfold tagAt
  simp only [List.cons_append]
  rw [if_pos hc, e1]
  simp; omega

theorem tagAt_starts {b : Bool} {s : Str} (h : Starts b s) : ∃ k n, tagAt b s = some (k, n) := by
  rcases h with ⟨r, rfl⟩ | ⟨r, rfl⟩ | ⟨rfl, ws, r, hw, rfl | ⟨c, hc, rfl⟩⟩
  · unfold tagAt
    split
    · exact ⟨_, _, rfl⟩
    · exact ⟨_, _, rfl⟩
    · split <;> exact ⟨_, _, rfl⟩
    · exact ⟨_, _, rfl⟩
    · rename_i h1 h2 h3 h4
      cases r with
      | nil => exact absurd rfl h4
      | cons x r => exact absurd rfl (h3 _ _)
  · have h1 := tagAt_ws (ws := []) (r := '%' :: r) (c := '{') (by simp) (by decide) (by decide) b
    rw [List.nil_append] at h1
    rw [h1]
    have h2 : ∃ k n, tagAt.beginAt ('{' :: '%' :: r) = some (k, n) := by
      simp only [tagAt.beginAt]
      by_cases h : (r.takeWhile isTagChar).isEmpty = true
      · rw [if_pos h]; exact ⟨_, _, rfl⟩
      · rw [if_neg h]; exact ⟨_, _, rfl⟩
    split
    · rename_i e; cases e
    · split
      · exact h2
      · exact ⟨_, _, rfl⟩
    · exact h2
  · rw [tagAt_ws hw (by decide) (by decide)]
    by_cases h : (r.takeWhile isTagChar).isEmpty = true
    · simp only [if_pos h]; exact ⟨_, _, rfl⟩
    · simp only [if_neg h]; exact ⟨_, _, rfl⟩
  · rw [tagAt_ws hw (by decide) (by decide)]
    rw [letter_eq] at hc
    simp only [List.takeWhile_cons, hc, if_true, List.isEmpty_cons, Bool.false_eq_true, if_false]
    exact ⟨_, _, rfl⟩

theorem tagAt_percent {ws r : Str} (hw : Spaces ws) (h : ∀ x, r.head? = some x → letter x = false) :
    tagAt true ((ws ++ ['%']) ++ r) = some (.bareInvalid, (ws ++ ['%']).length) := by
  have e : r.takeWhile isTagChar = [] := by
    cases r with
    | nil => rfl
    | cons x r =>
      have := h x rfl
      rw [letter_eq] at this
      rw [List.takeWhile_cons, this]; rfl
  rw [List.append_assoc, List.singleton_append, tagAt_ws hw (by decide) (by decide)]
  simp [e]

/-! ## The loop -/

section
variable {py : PyCompile} {src : Str}

theorem loop_text {pos ln start stop : Nat} {k : TKind} {ms : List (Nat × Nat × TKind)} (h : start > pos) :
    scanLoop py src pos ln ((start, stop, k) :: ms) =
      Toks.cons [.text (slice src pos start) (ln + countNL (slice src pos start))]
        (scanLoop py src start (ln + countNL (slice src pos start)) ((start, stop, k) :: ms)) := by
  conv_lhs => unfold scanLoop
  conv_rhs => unfold scanLoop
  simp only [h, if_true, gt_iff_lt, Nat.lt_irrefl, if_false]
  split
  · simp [Toks.cons]
  · split
    · simp [Toks.cons]
    · split <;> simp [Toks.cons]

theorem loop_token {start stop ln p l : Nat} {k : TKind} {ms : List (Nat × Nat × TKind)} {t : TTok}
    (hk : k ≠ .bareInvalid ∧ k ≠ .exprInvalid ∧ k ≠ .beginInvalid) (hs : start ≤ stop)
    (h : scanToken py src k stop ln = .ok (t, p, l)) :
    scanLoop py src start ln ((start, stop, k) :: ms) = Toks.cons [t] (scanLoop py src p l ms) := by
  conv_lhs => unfold scanLoop
  simp only [gt_iff_lt, Nat.lt_irrefl, if_false, hk.1, hk.2.1, hk.2.2, false_or, Nat.not_lt.2 hs, h, List.nil_append]

theorem loop_percent {start stop ln : Nat} {ms : List (Nat × Nat × TKind)} :
    scanLoop py src start ln ((start, stop, .bareInvalid) :: ms) = scanLoop py src start ln ms := by
  conv_lhs => unfold scanLoop
  simp only [gt_iff_lt, Nat.lt_irrefl, if_false, if_true, Toks.cons, List.nil_append]

theorem slice_mid (a b c : Str) : slice (a ++ (b ++ c)) a.length (a ++ b).length = b := by
  rw [← List.append_assoc, slice, List.take_left, List.drop_left]

/-- Text up to where something starts. -/
theorem loop_until {pre t rest : Str} {b : Bool} {ln : Nat} {toks : List TTok} (ht : t ≠ [])
    (hr : rest = [] ∨ Starts b rest)
    (ih : scanLoop py (pre ++ (t ++ rest)) (pre ++ t).length (ln + countNL t)
      (tagMatches 0 (pre ++ t).length b rest) = (toks, none)) :
    scanLoop py (pre ++ (t ++ rest)) pre.length ln (tagMatches 0 (pre ++ t).length b rest) =
      (.text t (ln + countNL t) :: toks, none) := by
  have hl : 0 < t.length := List.length_pos_iff.2 ht
  rcases hr with rfl | h
  · simp only [tagMatches, scanLoop, List.append_nil, ne_eq, not_true_eq_false, if_false] at ih ⊢
    rw [if_pos (by simp; omega)]
    simp only [List.drop_left]
    cases ih; rfl
  · obtain ⟨k, n, e⟩ := tagAt_starts h
    cases rest with
    | nil => simp [Starts] at h
    | cons x rest =>
      rw [tagMatches, e] at ih ⊢
      simp only at ih ⊢
      rw [loop_text (by simp; omega), slice_mid, ih]
      rfl

end

/-! ## Tokens -/

theorem find_close {body rest : Str} (h : ¬ "%}".toList <:+: body) :
    find "%}".toList (body ++ '%' :: '}' :: rest) = some body.length := by
  rw [show "%}".toList = ['%', '}'] by decide +kernel] at h ⊢
  induction body with
  | nil => simp [find]
  | cons c body ih =>
    have hp : ['%', '}'].isPrefixOf (c :: (body ++ '%' :: '}' :: rest)) = false := by
      cases body with
      | nil => simp [List.isPrefixOf]
      | cons d body =>
        rw [Bool.eq_false_iff]
        intro hp
        simp only [List.cons_append, List.isPrefixOf, Bool.and_eq_true, beq_iff_eq] at hp
        exact h ⟨[], body, by rw [← hp.1, ← hp.2.1]; rfl⟩
    rw [List.cons_append, find, hp]
    simp only [Bool.false_eq_true, if_false]
    rw [ih fun hi => h (hi.trans (List.infix_cons (List.infix_refl _)))]
    rfl

theorem findFrom_mid {pat a b : Str} {n : Nat} (h : find pat b = some n) :
    findFrom pat (a ++ b) a.length = some (a.length + n) := by
  rw [findFrom, List.drop_left, h]
  simp [Nat.add_comm]

theorem scanTag_plain {a name body rest : Str} {ln : Nat} (h : ¬ "%}".toList <:+: body)
    (hl : body.getLast? ≠ some '-') :
    scanTag (a ++ (body ++ '%' :: '}' :: rest)) name a.length ln =
      .ok (.tag name body ln, (a ++ (body ++ ['%', '}'])).length, ln + countNL body) := by
  unfold scanTag
  rw [findFrom_mid (find_close h)]
  simp only []
  rw [← List.length_append, slice_mid, if_neg hl]
  simp; omega

theorem scanTag_minus {a name body bl rest : Str} {ln : Nat} (h : ¬ "%}".toList <:+: body) (hb : Blank bl)
    (hr : rest ≠ []) (hh : ∀ x, rest.head? = some x → x ≠ ' ' ∧ x ≠ '\t') :
    scanTag (a ++ (body ++ '-' :: '%' :: '}' :: (bl ++ rest))) name a.length ln =
      .ok (.tag name body ln, (a ++ (body ++ '-' :: '%' :: '}' :: bl)).length, ln + countNL body) := by
  have h' : ¬ "%}".toList <:+: body ++ ['-'] := by
    rw [show "%}".toList = ['%', '}'] by decide +kernel] at h ⊢
    rintro ⟨x, y, e⟩
    rcases List.eq_nil_or_concat y with rfl | ⟨y, c, rfl⟩
    · rw [List.append_nil] at e
      have := congrArg List.getLast? e
      simp at this
    · rw [List.concat_eq_append, ← List.append_assoc] at e
      exact h ⟨x, y, (List.append_inj' e rfl).1⟩
  have e1 : a ++ (body ++ '-' :: '%' :: '}' :: (bl ++ rest)) = a ++ ((body ++ ['-']) ++ '%' :: '}' :: (bl ++ rest)) := by
    simp
  have e2 : (a ++ ((body ++ ['-']) ++ '%' :: '}' :: (bl ++ rest))).drop ((a ++ (body ++ ['-'])).length + 2) =
      bl ++ rest := by
    rw [← List.drop_drop, ← List.append_assoc a (body ++ ['-']) ('%' :: _), List.drop_left]
    rfl
  have e3 : (bl ++ rest).takeWhile (fun c => c == ' ' || c == '\t') = bl := by
    apply XmlTexts.takeWhile_exact
    · intro x hx; simpa using hb x hx
    · intro x hx; simpa using hh x hx
  unfold scanTag
  rw [e1, findFrom_mid (find_close h')]
  simp only []
  rw [← List.length_append, slice_mid, e2, e3, if_pos (by simp), if_neg (by simpa using hr)]
  simp [countNL]; omega

theorem scanBraced_at {py : PyCompile} {a e rest : Str} {ln : Nat} (h : ErrorAtBrace py e rest) :
    scanBraced py (a ++ (e ++ '}' :: rest)) a.length ln =
      (.expr e (ln + countNL e), (a ++ (e ++ ['}'])).length, ln + countNL e) := by
  obtain ⟨l, o, h1, h2⟩ := h
  unfold scanBraced
  rw [List.drop_left, h1]
  simp only []
  rw [errorEnd_eq, h2]
  have e1 : slice (a ++ (e ++ '}' :: rest)) a.length (a.length + (e.length + 1) - 1) = e := by
    rw [show a.length + (e.length + 1) - 1 = (a ++ e).length by simp]
    exact slice_mid a e _
  rw [e1]
  simp

theorem scanBare_line {a name body rest : Str} {ln : Nat} (h : '\n' ∉ body) :
    scanBare (a ++ (body ++ '\n' :: rest)) name a.length ln =
      (.tag name body (ln + 1), (a ++ (body ++ ['\n'])).length, ln + 1) := by
  unfold scanBare
  rw [findFrom_mid (find_char h)]
  simp only [Option.getD_some]
  rw [← List.length_append, slice_mid]
  simp; omega

theorem find_char_absent {c : Char} {s : Str} (h : c ∉ s) : find [c] s = none := by
  induction s with
  | nil => rfl
  | cons x s ih =>
    simp only [List.mem_cons, not_or] at h
    simp [find, List.isPrefixOf, h.1, ih h.2]

theorem scanBare_last {a name body : Str} {ln : Nat} (h : '\n' ∉ body) :
    scanBare (a ++ body) name a.length ln = (.tag name body (ln + 1), (a ++ body).length + 1, ln + 1) := by
  unfold scanBare
  rw [findFrom, List.drop_left, find_char_absent h]
  simp only [Option.map_none, Option.getD_none]
  rw [show slice (a ++ body) a.length (a ++ body).length = body by
    have := slice_mid a body []; simpa using this]

/-! ## The whole source -/

theorem tagMatches_end (n pos : Nat) (b : Bool) : tagMatches n pos b [] = [] := by
  cases n <;> rfl

theorem toks_cons (t : TTok) (ts : List TTok) : Toks.cons [t] (ts, none) = (t :: ts, none) := rfl

theorem lineStart_plain {b : Bool} {a : Str} {c : Char} (h : c ≠ '\n') : lineStart b (a ++ [c]) = false := by
  unfold lineStart
  simp [h]

theorem lineStart_body {body : Str} (h : '\n' ∉ body) : lineStart false body = false := by
  unfold lineStart
  cases hl : body.getLast? with
  | none => rfl
  | some c =>
    have hc := List.mem_of_getLast? hl
    simp only [beq_eq_false_iff_ne]
    rintro rfl
    exact h hc

theorem lineStart_letters {b : Bool} {a name r : Str} (h : Named name r) : lineStart b (a ++ name) = false := by
  have hn : name ≠ [] := h.nonempty
  rw [lineStart_append]
  unfold lineStart
  cases hl : name.getLast? with
  | none => rw [List.getLast?_eq_none_iff] at hl; exact absurd hl hn
  | some c =>
    have hc := h.letters c (List.mem_of_getLast? hl)
    simp only [beq_eq_false_iff_ne]
    rintro rfl
    exact absurd hc (by decide +kernel)

theorem quiet_one {c : Char} {rest : Str} (h : c ≠ '$' ∧ c ≠ '{') : Quiet false [c] rest := by
  intro a b e hb
  cases a with
  | nil =>
    rw [List.nil_append] at e
    subst e
    rintro (⟨r, e⟩ | ⟨r, e⟩ | ⟨e, -⟩)
    · injection e with e _; exact h.1 e
    · injection e with e _; exact h.2 e
    · cases e
  | cons x a =>
    rw [List.cons_append] at e
    injection e with _ e
    have := (List.append_eq_nil_iff.1 e.symm).2
    exact absurd this hb

theorem quiet_brace {b : Bool} {rest : Str} : Quiet b ['}'] rest := by
  intro a c e hc
  cases a with
  | nil =>
    rw [List.nil_append] at e
    subst e
    rintro (⟨r, e⟩ | ⟨r, e⟩ | ⟨-, ws, r, hw, e⟩)
    · cases e
    · cases e
    · cases ws with
      | nil => rcases e with e | ⟨_, _, e⟩ <;> cases e
      | cons x ws =>
        have := hw x (by simp)
        have hx : '}' = x := by rcases e with e | ⟨_, _, e⟩ <;> exact (List.cons.inj e).1
        subst hx
        exact absurd this (by decide +kernel)
  | cons x a =>
    rw [List.cons_append] at e
    injection e with _ e
    exact absurd (List.append_eq_nil_iff.1 e.symm).2 hc

theorem quiet_minus {body bl rest : Str} (hbl : Blank bl) (hq : Quiet false (body ++ ['-', '%']) ('}' :: (bl ++ rest))) :
    Quiet false (body ++ '-' :: '%' :: '}' :: bl) rest := by
  rw [show body ++ '-' :: '%' :: '}' :: bl = (body ++ ['-', '%']) ++ (['}'] ++ bl) by simp]
  refine quiet_append (by rw [List.append_assoc]; exact hq) (quiet_append quiet_brace ?_)
  apply quiet_plain
  intro x hx
  rcases hbl x hx with rfl | rfl <;> decide

/-- One token: the match `m`, and `q` up to where the scanner goes on. -/
theorem loop_step {py : PyCompile} {pre m q rest : Str} {b : Bool} {ln l : Nat} {k : TKind} {t : TTok}
    {toks : List TTok} (hm : m ≠ []) (hk : k ≠ .bareInvalid ∧ k ≠ .exprInvalid ∧ k ≠ .beginInvalid)
    (ht : tagAt b (m ++ (q ++ rest)) = some (k, m.length)) (hq : Quiet (lineStart b m) q rest)
    (hs : scanToken py (pre ++ (m ++ (q ++ rest))) k (pre ++ m).length ln =
      .ok (t, (pre ++ (m ++ q)).length, l))
    (ih : scanLoop py ((pre ++ (m ++ q)) ++ rest) (pre ++ (m ++ q)).length l
      (tagMatches 0 (pre ++ (m ++ q)).length (lineStart b (m ++ q)) rest) = (toks, none)) :
    scanLoop py (pre ++ (m ++ (q ++ rest))) pre.length ln (tagMatches 0 pre.length b (m ++ (q ++ rest))) =
      (t :: toks, none) := by
  rw [tagMatches_match _ hm ht, ← List.length_append, loop_token hk (by simp) hs, tagMatches_quiet _ hq,
    ← lineStart_append, ← List.length_append, List.append_assoc pre m q]
  simp only [List.append_assoc] at ih ⊢
  rw [ih]
  rfl

theorem loop_reads {py : PyCompile} {b : Bool} {ln : Nat} {toks : List TTok} {s : Str} (h : Reads py b ln toks s) :
    ∀ pre : Str, scanLoop py (pre ++ s) pre.length ln (tagMatches 0 pre.length b s) = (toks, none) := by
  induction h with
  | nil => intro pre; simp [tagMatches_end, scanLoop]
  | @text bol ln t toks rest ht hq hr _ ih =>
    intro pre
    have := ih (pre ++ t)
    rw [tagMatches_quiet _ hq, ← List.length_append]
    rw [List.append_assoc] at this
    exact loop_until ht hr this
  | @percent ln ws t toks rest hw hl hq hr _ ih =>
    intro pre
    have := ih (pre ++ (ws ++ '%' :: t))
    rw [show ws ++ '%' :: (t ++ rest) = (ws ++ ['%']) ++ (t ++ rest) by simp,
      tagMatches_match _ (by simp) (tagAt_percent hw hl), loop_percent, lineStart_plain (by decide),
      tagMatches_quiet _ hq, ← List.length_append, ← List.length_append]
    rw [show (ws ++ ['%']) ++ (t ++ rest) = (ws ++ '%' :: t) ++ rest by simp,
      show pre ++ (ws ++ ['%']) ++ t = pre ++ (ws ++ '%' :: t) by simp]
    rw [List.append_assoc] at this
    exact loop_until (by simp) hr this
  | @dollar bol ln toks rest _ ih =>
    intro pre
    refine loop_step (m := ['$', '$']) (q := []) (by simp) (by simp) (tagAt_dollar _ _) ?_ rfl ?_
    · intro a b e hb; exact absurd (List.append_eq_nil_iff.1 e.symm).2 hb
    · exact ih _
  | @name bol ln c cs toks rest hc hcs hr _ ih =>
    intro pre
    have hl : lineStart bol ('$' :: c :: cs) = false := by
      unfold lineStart
      cases hl : ('$' :: c :: cs).getLast? with
      | none => simp at hl
      | some x =>
        have hx := List.mem_of_getLast? hl
        simp only [beq_eq_false_iff_ne]
        rintro rfl
        rcases List.mem_cons.1 hx with e | hx
        · exact absurd e (by decide)
        · rcases List.mem_cons.1 hx with rfl | hx
          · exact absurd hc (by decide +kernel)
          · exact absurd (hcs _ hx) (by decide +kernel)
    refine loop_step (m := '$' :: c :: cs) (q := []) (by simp) (by simp) (tagAt_name _ hc hcs hr) ?_
      (by simp [scanToken]; rfl) ?_
    · intro a b e hb; exact absurd (List.append_eq_nil_iff.1 e.symm).2 hb
    · rw [List.append_nil, hl]; exact ih _
  | @braced bol ln e toks rest he hq _ ih =>
    intro pre
    have := ih (pre ++ (['$', '{'] ++ (e ++ ['}'])))
    have hs := scanBraced_at (a := pre ++ ['$', '{']) (ln := ln) he
    rw [show '$' :: '{' :: (e ++ '}' :: rest) = ['$', '{'] ++ ((e ++ ['}']) ++ rest) by simp]
    refine loop_step (k := .braced) (l := ln + countNL e) (by simp) (by simp) rfl ?_ ?_ ?_
    · exact quiet_append hq quiet_brace
    · rw [scanToken]
      simp only [List.append_assoc, List.singleton_append] at hs ⊢
      rw [hs]
    · rw [← List.append_assoc ['$', '{'], lineStart_plain (by decide)]
      exact this
  | @line ln ws name body toks rest hw hn hb hq _ ih =>
    intro pre
    have := ih (pre ++ ((ws ++ '%' :: name) ++ (body ++ ['\n'])))
    have hs := scanBare_line (a := pre ++ (ws ++ '%' :: name)) (name := name) (rest := rest) (ln := ln) hb
    have hn' : Named name ((body ++ ['\n']) ++ rest) := ⟨hn.nonempty, hn.letters, by
      cases body with
      | nil => rintro x ⟨⟩; decide +kernel
      | cons y body => exact hn.longest⟩
    have hl : lineStart true (ws ++ '%' :: name) = false := by
      rw [show ws ++ '%' :: name = (ws ++ ['%']) ++ name by simp]
      exact lineStart_letters hn
    rw [show ws ++ '%' :: (name ++ (body ++ '\n' :: rest)) = (ws ++ '%' :: name) ++ ((body ++ ['\n']) ++ rest) by simp]
    refine loop_step (k := .bare name) (l := ln + 1) (by simp) (by simp) (tagAt_bare hw hn') ?_ ?_ ?_
    · rw [hl]
      refine quiet_append hq ?_
      rw [lineStart_body hb]
      exact quiet_one (by decide)
    · rw [scanToken]
      simp only [List.append_assoc, List.singleton_append] at hs ⊢
      rw [hs]
    · rw [← List.append_assoc (ws ++ _), show ∀ a, lineStart true (a ++ ['\n']) = true by
        intro a; unfold lineStart; simp]
      rw [List.append_assoc (ws ++ _)]
      exact this
  | @lastLine ln ws name body hw hn hb hq =>
    intro pre
    have hs := scanBare_last (a := pre ++ (ws ++ '%' :: name)) (name := name) (ln := ln) hb
    have hl : lineStart true (ws ++ '%' :: name) = false := by
      rw [show ws ++ '%' :: name = (ws ++ ['%']) ++ name by simp]
      exact lineStart_letters hn
    rw [show ws ++ '%' :: (name ++ body) = (ws ++ '%' :: name) ++ body by simp,
      tagMatches_match _ (by simp) (tagAt_bare hw hn), ← List.length_append]
    rw [loop_token (t := .tag name body (ln + 1)) (p := (pre ++ ((ws ++ '%' :: name) ++ body)).length + 1)
      (l := ln + 1) (by simp) (by simp) (by
      rw [scanToken]
      simp only [List.append_assoc] at hs ⊢
      rw [hs])]
    have hq' := tagMatches_quiet (pre ++ (ws ++ '%' :: name)).length (by rw [← hl] at hq; exact hq)
    rw [List.append_nil] at hq'
    rw [hq', tagMatches_end, scanLoop, if_pos (by simp), List.drop_eq_nil_of_le (by simp)]
    rfl
  | @tag bol ln name body toks rest hn hb hd hq _ ih =>
    intro pre
    have := ih (pre ++ (('{' :: '%' :: name) ++ (body ++ ['%', '}'])))
    have hs := scanTag_plain (a := pre ++ ('{' :: '%' :: name)) (name := name) (rest := rest) (ln := ln) hb hd
    have hn' : Named name ((body ++ ['%', '}']) ++ rest) := ⟨hn.nonempty, hn.letters, by
      cases body with
      | nil => rintro x ⟨⟩; exact hn.longest _ rfl
      | cons y body => exact hn.longest⟩
    have hl : lineStart bol ('{' :: '%' :: name) = false := lineStart_letters (a := ['{', '%']) hn
    rw [show '{' :: '%' :: (name ++ (body ++ '%' :: '}' :: rest)) =
      ('{' :: '%' :: name) ++ ((body ++ ['%', '}']) ++ rest) by simp]
    refine loop_step (k := .begin_ name) (l := ln + countNL body) (by simp) (by simp) (tagAt_begin _ hn') ?_ ?_ ?_
    · rw [hl, show body ++ ['%', '}'] = (body ++ ['%']) ++ ['}'] by simp]
      exact quiet_append hq quiet_brace
    · rw [scanToken]
      simp only [List.append_assoc, List.cons_append, List.nil_append] at hs ⊢
      rw [hs]
    · rw [show ('{' :: '%' :: name) ++ (body ++ ['%', '}']) = (('{' :: '%' :: name) ++ (body ++ ['%'])) ++ ['}'] by simp,
        lineStart_plain (by decide)]
      simpa using this
  | @tagL ln ws name body toks rest hw hn hb hd hq _ ih =>
    intro pre
    have := ih (pre ++ ((ws ++ '{' :: '%' :: '-' :: name) ++ (body ++ ['%', '}'])))
    have hs := scanTag_plain (a := pre ++ (ws ++ '{' :: '%' :: '-' :: name)) (name := name) (rest := rest) (ln := ln) hb hd
    have hn' : Named name ((body ++ ['%', '}']) ++ rest) := ⟨hn.nonempty, hn.letters, by
      cases body with
      | nil => rintro x ⟨⟩; exact hn.longest _ rfl
      | cons y body => exact hn.longest⟩
    have hl : lineStart true (ws ++ '{' :: '%' :: '-' :: name) = false := by
      rw [show ws ++ '{' :: '%' :: '-' :: name = (ws ++ ['{', '%', '-']) ++ name by simp]
      exact lineStart_letters hn
    rw [show ws ++ '{' :: '%' :: '-' :: (name ++ (body ++ '%' :: '}' :: rest)) =
      (ws ++ '{' :: '%' :: '-' :: name) ++ ((body ++ ['%', '}']) ++ rest) by simp]
    refine loop_step (k := .ljust name) (l := ln + countNL body) (by simp) (by simp) (tagAt_ljust hw hn') ?_ ?_ ?_
    · rw [hl, show body ++ ['%', '}'] = (body ++ ['%']) ++ ['}'] by simp]
      exact quiet_append hq quiet_brace
    · rw [scanToken]
      simp only [List.append_assoc, List.cons_append, List.nil_append] at hs ⊢
      rw [hs]
    · rw [show (ws ++ '{' :: '%' :: '-' :: name) ++ (body ++ ['%', '}']) =
          ((ws ++ '{' :: '%' :: '-' :: name) ++ (body ++ ['%'])) ++ ['}'] by simp,
        lineStart_plain (by decide)]
      simpa using this
  | @tagR bol ln name body bl toks rest hn hb hbl hr hh hq _ ih =>
    intro pre
    have := ih (pre ++ (('{' :: '%' :: name) ++ (body ++ '-' :: '%' :: '}' :: bl)))
    have hs := scanTag_minus (a := pre ++ ('{' :: '%' :: name)) (name := name) (ln := ln) hb hbl hr hh
    have hn' : Named name ((body ++ '-' :: '%' :: '}' :: bl) ++ rest) := ⟨hn.nonempty, hn.letters, by
      cases body with
      | nil => rintro x ⟨⟩; exact hn.longest _ rfl
      | cons y body => exact hn.longest⟩
    have hl : lineStart bol ('{' :: '%' :: name) = false := lineStart_letters (a := ['{', '%']) hn
    have hbl' : lineStart false bl = false := lineStart_body fun h => by rcases hbl _ h with h | h <;> cases h
    rw [show '{' :: '%' :: (name ++ (body ++ '-' :: '%' :: '}' :: (bl ++ rest))) =
      ('{' :: '%' :: name) ++ ((body ++ '-' :: '%' :: '}' :: bl) ++ rest) by simp]
    refine loop_step (k := .begin_ name) (l := ln + countNL body) (by simp) (by simp) (tagAt_begin _ hn') ?_ ?_ ?_
    · rw [hl]
      exact quiet_minus hbl hq
    · rw [scanToken]
      simp only [List.append_assoc, List.cons_append] at hs ⊢
      rw [hs]
    · rw [show ('{' :: '%' :: name) ++ (body ++ '-' :: '%' :: '}' :: bl) =
          ((('{' :: '%' :: name) ++ (body ++ ['-', '%'])) ++ ['}']) ++ bl by simp,
        lineStart_append, lineStart_plain (by decide), hbl']
      simpa using this
  | @tagLR ln ws name body bl toks rest hw hn hb hbl hr hh hq _ ih =>
    intro pre
    have := ih (pre ++ ((ws ++ '{' :: '%' :: '-' :: name) ++ (body ++ '-' :: '%' :: '}' :: bl)))
    have hs := scanTag_minus (a := pre ++ (ws ++ '{' :: '%' :: '-' :: name)) (name := name) (ln := ln) hb hbl hr hh
    have hn' : Named name ((body ++ '-' :: '%' :: '}' :: bl) ++ rest) := ⟨hn.nonempty, hn.letters, by
      cases body with
      | nil => rintro x ⟨⟩; exact hn.longest _ rfl
      | cons y body => exact hn.longest⟩
    have hl : lineStart true (ws ++ '{' :: '%' :: '-' :: name) = false := by
      rw [show ws ++ '{' :: '%' :: '-' :: name = (ws ++ ['{', '%', '-']) ++ name by simp]
      exact lineStart_letters hn
    have hbl' : lineStart false bl = false := lineStart_body fun h => by rcases hbl _ h with h | h <;> cases h
    rw [show ws ++ '{' :: '%' :: '-' :: (name ++ (body ++ '-' :: '%' :: '}' :: (bl ++ rest))) =
      (ws ++ '{' :: '%' :: '-' :: name) ++ ((body ++ '-' :: '%' :: '}' :: bl) ++ rest) by simp]
    refine loop_step (k := .ljust name) (l := ln + countNL body) (by simp) (by simp) (tagAt_ljust hw hn') ?_ ?_ ?_
    · rw [hl]
      exact quiet_minus hbl hq
    · rw [scanToken]
      simp only [List.append_assoc, List.cons_append] at hs ⊢
      rw [hs]
    · rw [show (ws ++ '{' :: '%' :: '-' :: name) ++ (body ++ '-' :: '%' :: '}' :: bl) =
          (((ws ++ '{' :: '%' :: '-' :: name) ++ (body ++ ['-', '%'])) ++ ['}']) ++ bl by simp,
        lineStart_append, lineStart_plain (by decide), hbl']
      simpa using this

theorem scan_reads {py : PyCompile} {toks : List TTok} {src : Str} (h : Reads py true 1 toks src) :
    scan py src = (toks, none) := loop_reads h []

/-! ## Checks -/

/-- A test for `Quiet`. -/
def quietB : Bool → Str → Str → Bool
  | _, [], _ => true
  | b, x :: t, rest => (tagAt b (x :: t ++ rest)).isNone && quietB (x == '\n') t rest

theorem quiet_of {t : Str} : ∀ {b : Bool} {rest : Str}, quietB b t rest = true → Quiet b t rest := by
  induction t with
  | nil => intro b rest _ a c e hc; exact absurd (List.append_eq_nil_iff.1 e.symm).2 hc
  | cons x t ih =>
    intro b rest h a c e hc
    simp only [quietB, Bool.and_eq_true] at h
    cases a with
    | nil =>
      rw [List.nil_append] at e
      subst e
      intro hs
      obtain ⟨k, n, e⟩ := tagAt_starts hs
      rw [lineStart_nil] at e
      rw [e] at h
      cases h.1
    | cons y a =>
      rw [List.cons_append] at e
      injection e with e1 e2
      subst e1
      rw [lineStart_cons]
      exact ih h.2 a c e2 hc

theorem starts_of {b : Bool} {s : Str} (h : (tagAt b s).isSome = true) : Starts b s := by
  by_contra hn
  rw [tagAt_none hn] at h
  cases h

/-- A test for `Named`. -/
theorem named_of {name body : Str} (h : (!name.isEmpty && name.all letter && body.head?.all (!letter ·)) = true) :
    Named name body := by
  simp only [Bool.and_eq_true, Bool.not_eq_true', List.all_eq_true] at h
  refine ⟨by rintro rfl; exact absurd h.1.1 (by decide), h.1.2, fun x hx => ?_⟩
  have := h.2
  rw [hx] at this
  simpa using this

end Kajiki.Texts

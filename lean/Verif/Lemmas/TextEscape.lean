import Verif.Lemmas.TextScan

/-!
# Scanning and parsing text without directives
-/

namespace Kajiki.Texts
open Kajiki.Spec.Text

theorem unescape_append {u v : Str} (h : unescapeNewlines u = .ok v) (w : Str) :
    unescapeNewlines (u ++ w) = (unescapeNewlines w).map (v ++ ·) := by
  fun_induction unescapeNewlines u generalizing v with
  | case1 => cases h; rw [List.nil_append]; cases unescapeNewlines w <;> rfl
  | case2 => cases h
  | case3 c s ih =>
    cases hs : unescapeNewlines s with
    | error e => rw [hs] at h; cases h
    | ok r =>
      rw [hs] at h
      simp only [Except.map] at h
      cases h
      simp only [List.cons_append, unescapeNewlines, ih hs]
      cases unescapeNewlines w with
      | error e => rfl
      | ok x => by_cases hc : c = '\n' <;> simp [Except.map, hc]
  | case4 c s h1 h2 ih =>
    cases hs : unescapeNewlines s with
    | error e => rw [hs] at h; cases h
    | ok r =>
      rw [hs] at h
      simp only [Except.map] at h
      cases h
      have hne : c ≠ '\\' := by
        rintro rfl
        cases s with
        | nil => exact h1 rfl rfl
        | cons a b => exact h2 a b rfl rfl
      rw [List.cons_append, unescapeNewlines, ih hs]
      · cases unescapeNewlines w <;> simp [Except.map]
      · intro h; exact absurd h hne
      · intro _ _ h; exact absurd h hne

/-- Tokens that are all text, and the text they stand for. -/
inductive TextToks : List TTok → Str → Prop
  | nil : TextToks [] []
  | cons {t w ln ts o} : unescapeNewlines t = .ok w → TextToks ts o → TextToks (.text t ln :: ts) (w ++ o)

theorem TagAt.noDirective {src m r : Str} {pos : Nat} {k : TKind} (hn : NoDirective src)
    (hd : src.drop pos = m ++ r) (ht : TagAt (bolAt src pos) m r k) :
    (k = .escaped ∨ k = .braced ∨ (∃ n, k = .named n) ∨ k = .exprInvalid) ∨ k = .bareInvalid := by
  obtain ⟨h1, h2, h3⟩ := hn
  have hinf : ∀ a b, m ++ r = a ++ '{' :: '%' :: b → False := by
    intro a b e
    refine h1 ⟨src.take pos ++ a, b, ?_⟩
    have := List.take_append_drop pos src
    rw [hd, e] at this
    conv_rhs => rw [← this]
    simp
  have hline : bolAt src pos = true → ¬ DirectiveLine (m ++ r) := by
    intro hb hl
    cases pos with
    | zero => rw [← hd] at hl; exact h2 hl
    | succ i =>
      have hi : src[i]? = some '\n' := by simpa [bolAt] using hb
      obtain ⟨hlt, hi⟩ := List.getElem?_eq_some_iff.1 hi
      refine h3 (src.take i) (m ++ r) ?_ hl
      rw [← hd, ← hi, ← List.drop_eq_getElem_cons hlt, List.take_append_drop]
  generalize bolAt src pos = b at ht hline
  cases ht with
  | escaped => exact .inl (.inl rfl)
  | braced => exact .inl (.inr (.inl rfl))
  | named => exact .inl (.inr (.inr (.inl ⟨_, rfl⟩)))
  | exprInvalid => exact .inl (.inr (.inr (.inr rfl)))
  | bareInvalid => exact .inr rfl
  | bare hw hn =>
    rename_i ws name
    exfalso
    cases name with
    | nil => exact hn.nonempty rfl
    | cons c cs => exact hline rfl ⟨ws, c, cs ++ r, by simp, hw, hn.letters c (by simp)⟩
  | ljust hw hn =>
    rename_i ws name
    exact absurd (hinf ws ('-' :: name ++ r) (by simp)) (by simp)
  | begin_ hn =>
    rename_i name
    exact absurd (hinf [] (name ++ r) (by simp)) (by simp)
  | beginInvalid _ => exact absurd (hinf [] r (by simp)) (by simp)

/-- Nothing starts at other characters, except a lone `%`. -/
theorem tagAt_plain {src s : Str} {pos : Nat} {c : Char} (hn : NoDirective src) (hd : src.drop pos = c :: s)
    (hc : c ≠ '$') : tagAt (bolAt src pos) (c :: s) = none ∨
      ∃ ws r, c :: s = ws ++ '%' :: r ∧ (∀ x ∈ ws, isSpace x = true) ∧
        tagAt (bolAt src pos) (c :: s) = some (.bareInvalid, ws.length + 1) ∧ bolAt src pos = true := by
  cases ht : tagAt (bolAt src pos) (c :: s) with
  | none => exact .inl rfl
  | some kn =>
    obtain ⟨k, n⟩ := kn
    obtain ⟨m, r, e, hn', ht'⟩ := tagAt_some ht
    have hk := ht'.noDirective hn (by rw [hd, e])
    generalize bolAt src pos = b at ht' hk
    cases ht' with
    | escaped | braced | exprInvalid => cases e; exact absurd rfl hc
    | named => cases e; exact absurd rfl hc
    | bareInvalid hw hr =>
      rename_i ws
      refine .inr ⟨ws, r, by rw [e]; simp, hw, ?_, rfl⟩
      simp [hn']
    | bare | ljust | begin_ | beginInvalid => simp at hk

theorem bolAt_next {src s : Str} {pos : Nat} {c : Char} (hd : src.drop pos = c :: s) :
    bolAt src (pos + 1) = (c == '\n') := by
  have : src[pos]? = some c := by
    have := congrArg List.head? hd
    rwa [List.head?_drop] at this
  simp [bolAt, this]

theorem drop_next {src s : Str} {pos : Nat} {c : Char} (hd : src.drop pos = c :: s) : src.drop (pos + 1) = s := by
  rw [← List.drop_drop, hd]; rfl

theorem slice_next {src s : Str} {q pos : Nat} {c : Char} (hq : q ≤ pos) (hd : src.drop pos = c :: s) :
    slice src q (pos + 1) = slice src q pos ++ [c] := by
  have hlt : pos < src.length := by
    by_contra h
    rw [List.drop_eq_nil_of_le (by omega)] at hd; cases hd
  have hc : src[pos] = c := by
    rw [List.drop_eq_getElem_cons hlt] at hd; exact (List.cons.inj hd).1
  unfold slice
  rw [List.take_add_one, List.getElem?_eq_getElem hlt, hc, List.drop_append_of_le_length (by simp; omega)]
  rfl

theorem slice_self (src : Str) (q : Nat) : slice src q q = [] := by
  unfold slice; apply List.drop_eq_nil_of_le; simp; omega

theorem unescape_one {c : Char} (h : c ≠ '\\') : unescapeNewlines [c] = .ok [c] := by
  rw [unescapeNewlines]
  · rfl
  · intro h1; exact absurd h1 h
  · intro _ _ h1; exact absurd h1 h

/-- The scanner at a text with escapes; `u` is the text since the last token. -/
theorem loop_escaped (py : PyCompile) {src : Str} (hn : NoDirective src) {s out : Str} (h : Escaped s out) :
    ∀ (skip pos q ln : Nat) (v : Str), src.drop pos = s → q ≤ pos → pos ≤ src.length →
      unescapeNewlines (slice src q pos) = .ok v → (∀ x ∈ s.take skip, isSpace x = true ∨ x = '%') →
      ∃ toks, scanLoop py src q ln (tagMatches skip pos (bolAt src pos) s) = (toks, none) ∧
        TextToks toks (v ++ out) := by
  induction h with
  | nil =>
    intro skip pos q ln v hd hq hl hu hsk
    have e : tagMatches skip pos (bolAt src pos) [] = [] := by cases skip <;> rfl
    rw [e]
    have hdq : src.drop q = slice src q pos := by
      rw [slice_append hq, hd, List.append_nil]
    unfold scanLoop
    split
    · refine ⟨_, rfl, ?_⟩
      rw [hdq]
      exact .cons hu .nil
    · rename_i hne
      simp only [ne_eq, not_not] at hne
      have : slice src q pos = [] := by rw [← hdq, hne, List.drop_length]
      rw [this] at hu
      cases hu
      exact ⟨[], rfl, .nil⟩
  | @plain c s t hc1 hc2 _ ih =>
    intro skip pos q ln v hd hq hl hu hsk
    have hl' : pos + 1 ≤ src.length := by
      have := congrArg List.length hd
      simp at this; omega
    have hu' : ∀ q v, q ≤ pos → unescapeNewlines (slice src q pos) = .ok v →
        unescapeNewlines (slice src q (pos + 1)) = .ok (v ++ [c]) := by
      intro q v hq hu
      rw [slice_next hq hd, unescape_append hu, unescape_one hc2]; rfl
    cases skip with
    | succ n =>
      obtain ⟨toks, h1, h2⟩ := ih n (pos + 1) q ln _ (drop_next hd) (by omega) hl' (hu' q v hq hu)
        (fun x hx => hsk x (by simp [hx]))
      refine ⟨toks, ?_, by simpa using h2⟩
      rw [tagMatches, ← bolAt_next hd]; exact h1
    | zero =>
      rcases tagAt_plain hn hd hc1 with ht | ⟨ws, r, e, hw, ht, -⟩
      · obtain ⟨toks, h1, h2⟩ := ih 0 (pos + 1) q ln _ (drop_next hd) (by omega) hl' (hu' q v hq hu) (by simp)
        refine ⟨toks, ?_, by simpa using h2⟩
        rw [tagMatches, ht, ← bolAt_next hd]; exact h1
      · have hsk' : ∀ x ∈ s.take ws.length, isSpace x = true ∨ x = '%' := by
          intro x hx
          have : x ∈ (c :: s).take (ws.length + 1) := by simp [hx]
          rw [e, List.take_append] at this
          simp only [show ws.length + 1 - ws.length = 1 by omega, List.mem_append] at this
          rcases this with h | h
          · exact .inl (hw x (List.mem_of_mem_take h))
          · right; simpa using h
        have h0 : unescapeNewlines (slice src pos pos) = .ok [] := by rw [slice_self]; rfl
        by_cases hgt : pos > q
        · obtain ⟨toks, h1, h2⟩ := ih ws.length (pos + 1) pos (ln + countNL (slice src q pos)) _ (drop_next hd)
            (by omega) hl' (hu' pos [] (Nat.le_refl _) h0) hsk'
          refine ⟨.text (slice src q pos) (ln + countNL (slice src q pos)) :: toks, ?_, .cons hu h2⟩
          rw [tagMatches, ht]
          simp only [Nat.add_sub_cancel]
          unfold scanLoop
          simp only [if_pos hgt, if_true]
          rw [← bolAt_next hd, h1]; rfl
        · have hqe : q = pos := by omega
          subst hqe
          rw [slice_self] at hu
          cases hu
          obtain ⟨toks, h1, h2⟩ := ih ws.length (q + 1) q ln _ (drop_next hd)
            (by omega) hl' (hu' q [] (Nat.le_refl _) h0) hsk'
          refine ⟨toks, ?_, h2⟩
          rw [tagMatches, ht]
          simp only [Nat.add_sub_cancel]
          unfold scanLoop
          simp only [if_neg hgt, if_true]
          rw [← bolAt_next hd, h1]; rfl
  | @protect c s t hc1 hc2 _ ih =>
    intro skip pos q ln v hd hq hl hu hsk
    have hd1 := drop_next hd
    have hl' : pos + 1 + 1 ≤ src.length := by
      have := congrArg List.length hd
      simp at this; omega
    cases skip with
    | succ n =>
      rcases hsk '\\' (by simp) with h | h <;> exact absurd h (by decide)
    | zero =>
      have h1 : tagAt (bolAt src pos) ('\\' :: c :: s) = none := by
        rcases tagAt_plain hn hd (by decide) with ht | ⟨ws, r, e, hw, -⟩
        · exact ht
        · exfalso
          cases ws with
          | nil => cases e
          | cons a ws =>
            rw [List.cons_append] at e
            rw [← (List.cons.inj e).1] at hw
            exact absurd (hw '\\' (by simp)) (by decide)
      have hb := bolAt_next hd
      have h2 : tagAt (bolAt src (pos + 1)) (c :: s) = none := by
        rcases tagAt_plain hn hd1 hc1 with ht | ⟨ws, r, e, hw, -, hb'⟩
        · exact ht
        · rw [hb] at hb'; cases hb'
      obtain ⟨toks, h3, h4⟩ := ih 0 (pos + 1 + 1) q ln (v ++ [c]) (drop_next hd1) (by omega) hl' (by
        rw [slice_next (by omega) hd1, slice_next hq hd, List.append_assoc, unescape_append hu]
        simp [unescapeNewlines, Except.map, hc2]) (by simp)
      refine ⟨toks, ?_, by simpa using h4⟩
      rw [tagMatches, h1]
      simp only
      rw [← hb, tagMatches, h2]
      simp only
      rw [← bolAt_next hd1]; exact h3
  | @join s t _ ih =>
    intro skip pos q ln v hd hq hl hu hsk
    have hd1 := drop_next hd
    have hl' : pos + 1 + 1 ≤ src.length := by
      have := congrArg List.length hd
      simp at this; omega
    cases skip with
    | succ n =>
      rcases hsk '\\' (by simp) with h | h <;> exact absurd h (by decide)
    | zero =>
      have h1 : tagAt (bolAt src pos) ('\\' :: '\n' :: s) = none := by
        rcases tagAt_plain hn hd (by decide) with ht | ⟨ws, r, e, hw, -⟩
        · exact ht
        · exfalso
          cases ws with
          | nil => cases e
          | cons a ws =>
            rw [List.cons_append] at e
            rw [← (List.cons.inj e).1] at hw
            exact absurd (hw '\\' (by simp)) (by decide)
      have hb := bolAt_next hd
      have h2 : tagAt (bolAt src (pos + 1)) ('\n' :: s) = none := by
        rcases tagAt_plain hn hd1 (by decide) with ht | ⟨ws, r, e, hw, -, hb'⟩
        · exact ht
        · rw [hb] at hb'; cases hb'
      obtain ⟨toks, h3, h4⟩ := ih 0 (pos + 1 + 1) q ln v (drop_next hd1) (by omega) hl' (by
        rw [slice_next (by omega) hd1, slice_next hq hd, List.append_assoc, unescape_append hu]
        simp [unescapeNewlines, Except.map]) (by simp)
      refine ⟨toks, ?_, h4⟩
      rw [tagMatches, h1]
      simp only
      rw [← hb, tagMatches, h2]
      simp only
      rw [← bolAt_next hd1]; exact h3
  | @dollar s t _ ih =>
    intro skip pos q ln v hd hq hl hu hsk
    have hd1 := drop_next hd
    have hl' : pos + 1 + 1 ≤ src.length := by
      have := congrArg List.length hd
      simp at this; omega
    cases skip with
    | succ n =>
      rcases hsk '$' (by simp) with h | h <;> exact absurd h (by decide)
    | zero =>
      have h1 : tagAt (bolAt src pos) ('$' :: '$' :: s) = some (.escaped, 2) := by simp [tagAt]
      have hb := bolAt_next hd
      have hloop : ∀ ln, ∃ toks, scanLoop py src (pos + 2) ln (tagMatches 1 (pos + 1) ('$' == '\n') ('$' :: s)) =
          (toks, none) ∧ TextToks toks t := by
        intro ln
        obtain ⟨toks, h3, h4⟩ := ih 0 (pos + 1 + 1) (pos + 1 + 1) ln [] (drop_next hd1) (Nat.le_refl _) hl' (by
          rw [slice_self]; rfl) (by simp)
        refine ⟨toks, ?_, h4⟩
        rw [tagMatches, ← bolAt_next hd1]; exact h3
      have hsk : ¬ pos + 2 < pos := by omega
      by_cases hgt : pos > q
      · obtain ⟨toks, h3, h4⟩ := hloop (ln + countNL (slice src q pos))
        refine ⟨.text (slice src q pos) (ln + countNL (slice src q pos)) ::
          .text ['$'] (ln + countNL (slice src q pos)) :: toks, ?_, .cons hu (.cons (w := ['$']) rfl h4)⟩
        rw [tagMatches, h1]
        simp only
        unfold scanLoop
        simp only [if_pos hgt, hsk, or_false, reduceCtorEq, if_false, scanToken]
        rw [show 2 - 1 = 1 from rfl, h3]; rfl
      · have hqe : q = pos := by omega
        subst hqe
        rw [slice_self] at hu
        cases hu
        obtain ⟨toks, h3, h4⟩ := hloop ln
        refine ⟨.text ['$'] ln :: toks, ?_, .cons (w := ['$']) rfl h4⟩
        rw [tagMatches, h1]
        simp only
        unfold scanLoop
        simp only [if_neg hgt, hsk, or_false, reduceCtorEq, if_false, scanToken]
        rw [show 2 - 1 = 1 from rfl, h3]; rfl

theorem scan_escaped (py : PyCompile) {src out : Str} (hn : NoDirective src) (h : Escaped src out) :
    ∃ toks, scan py src = (toks, none) ∧ TextToks toks out := by
  have := loop_escaped py hn h 0 0 0 1 [] rfl (Nat.le_refl _) (by omega) (by rw [slice_self]; rfl) (by simp)
  simpa [scan, bolAt] using this

/-- Nodes that are all plain text, and their text. -/
inductive TextNodes : List Ir → Str → Prop
  | nil : TextNodes [] []
  | cons {t ln xs o} : TextNodes xs o → TextNodes (.text t none ln :: xs) (t ++ o)

theorem parse_textToks {env : TEnv} (he : env.err = none) {toks : List TTok} {o : Str} (h : TextToks toks o)
    (n : Nat) (hn : toks.length < n) (stops : List Str) (st : TState) :
    ∃ xs, parseBody env n stops toks st = .ok (xs, none, [], st) ∧ TextNodes (present xs) o := by
  induction h generalizing n with
  | nil =>
    cases n with
    | zero => omega
    | succ n => exact ⟨[], by simp [parseBody, he], .nil⟩
  | @cons t w ln ts o hu _ ih =>
    cases n with
    | zero => omega
    | succ n =>
      obtain ⟨xs, h1, h2⟩ := ih n (by simp at hn; omega)
      refine ⟨some (.text w none ln) :: xs, ?_, ?_⟩
      · rw [parseBody, hu, h1]; rfl
      · exact .cons h2

end Kajiki.Texts

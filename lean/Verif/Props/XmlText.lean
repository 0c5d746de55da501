import Verif.Lemmas.XmlText

/-!
# Expressions in text (C28, C29)
-/

namespace Kajiki.Props
open Kajiki.Spec.XmlText Kajiki.XmlTexts

/-! ## C29 -/

/-- **C29.** An accepted `${` is followed by whitespace, the expression and `}`; the expression is valid
Python, and the position afterwards is right behind that brace. -/
theorem C29_accepted (py : PyCompile) (before after e : Str) (stop : Nat)
    (h : bracedExpr py (before ++ after) before.length = .ok (e, stop)) :
    ∃ ws rest, after = ws ++ e ++ '}' :: rest ∧ (∀ x ∈ ws, isSpace x = true) ∧ py e = none ∧
      (before ++ after).drop stop = rest ∧ stop ≤ (before ++ after).length := by
  obtain ⟨ws, rest, h1, h2, -, h3, h4⟩ := bracedExpr_ok h
  rw [List.drop_left] at h1
  subst h1
  refine ⟨ws, rest, by simp, h2, h3, ?_, ?_⟩
  · have : before ++ (ws ++ (e ++ '}' :: rest)) = (before ++ (ws ++ (e ++ ['}']))) ++ rest := by simp
    rw [this, h4]
    apply List.drop_left'
    simp only [List.length_append, List.length_singleton]; omega
  · rw [h4]
    simp only [List.length_append, List.length_cons]; omega

/-- **C29** (second half, partly). A `${` that is not accepted is a compile error, except when Python
reports the error in front of the first character of the text: then it is an `IndexError`. -/
theorem C29_rejected_partial (py : PyCompile) (before after : Str) (err : Err)
    (h : bracedExpr py (before ++ after) before.length = .error err) :
    (∃ msg, err = .compile msg) ∨
    (err = .index ∧ ∃ lineno offset, py (lstrip after) = some (lineno, offset) ∧
      (strip after = [] ∨
        offset + (((splitlines (lstrip after)).take (lineno - 1)).map (·.length + 1)).sum = 0)) := by
  unfold bracedExpr at h
  dsimp only at h
  rw [List.drop_left] at h
  have hlead := Doms.lead_body after
  have hlen : after.length - (lstrip after).length = (after.takeWhile isSpace).length := by
    have := congrArg List.length hlead
    rw [List.length_append] at this; omega
  have hdrop : (before ++ after).drop (before.length + (after.length - (lstrip after).length)) = lstrip after := by
    rw [← List.drop_drop, List.drop_left, hlen]
    have : ∀ a b c : Str, a ++ b = c → c.drop a.length = b := by rintro a b c rfl; exact List.drop_left
    exact this _ _ _ hlead
  rw [hdrop] at h
  cases hp : py (lstrip after) with
  | none => rw [hp] at h; cases h; exact .inl ⟨_, rfl⟩
  | some lo =>
    obtain ⟨lineno, offset⟩ := lo
    rw [hp] at h
    dsimp only at h
    split at h
    · rename_i hg
      cases h
      refine .inr ⟨rfl, lineno, offset, rfl, ?_⟩
      rw [List.getLast?_eq_none_iff] at hg
      unfold slice at hg
      rw [List.drop_take, hdrop, List.take_eq_nil_iff] at hg
      rcases hg with hg | hg
      · right
        unfold errorEnd at hg
        rw [foldl_lens] at hg
        omega
      · left; rw [strip, hg]; rfl
    · split at h
      · cases h; exact .inl ⟨_, rfl⟩
      · split at h
        · cases h; exact .inl ⟨_, rfl⟩
        · cases h

/-- Python rejecting everything at its very beginning. -/
private def rejectAll : PyCompile := fun _ => some (1, 0)

/-- **C29 is false** in that a text ending in `${` raises `IndexError`, not a compile error, when Python
reports the missing expression at offset 0. -/
theorem C29_unterminated_index_error :
    bracedExpr rejectAll "${".toList 2 = .error .index := by decide +kernel

/-- Python on the texts `'$x'` and `'$x'}`. -/
private def quoted : PyCompile := fun s =>
  if s = "'$x'".toList then none else some (1, 5)

/-- **C29 is false** in that scanning does not resume behind the brace when the expression contains a
dollar sign: the expression `'$x'` is accepted, and `$x` inside it is recognised once more. -/
theorem C29_dollar_in_expression :
    compileTextSrc quoted ⟨false, false⟩ "${'$x'}".toList 1 =
      .ok [.expr "'$x'".toList false 1, .expr "x".toList false 1, .text "'}".toList none 1] := by
  rfl

/-! ## C28 -/

private theorem node_text (m : TextMode) (t : Str) (ln : Nat) : textNode m t ln = node m ln (.inl t) := by
  unfold textNode node
  cases m.translate <;> by_cases h : strip t = [] <;> simp [h]

private def pend (t : Str) : List Piece := if t = [] then [] else [.text t]

private theorem nodes_pend (m : TextMode) (ln : Nat) (t : Str) (ps : List Piece) :
    nodes m ln (pend t ++ ps) = nodes m ln (pend t) ++ nodes m (ln + countNL t) ps := by
  unfold pend
  split
  · rename_i h; subst h; rfl
  · rfl

private theorem textBefore_eq (m : TextMode) (pre t r : Str) (ln : Nat) :
    textBefore m (pre ++ (t ++ r)) pre.length (pre.length + t.length) ln = (nodes m ln (pend t), countNL t) := by
  unfold textBefore pend
  by_cases h : t = []
  · subst h; simp [nodes, countNL]
  · have : 0 < t.length := List.length_pos_of_ne_nil h
    rw [if_pos (by omega), if_neg h, slice_append pre t r _ _ rfl rfl, node_text]
    rfl

private theorem loop_end (py : PyCompile) (m : TextMode) (pre t : Str) (ln : Nat) :
    textLoop py m (pre ++ t) pre.length ln [] = .ok (nodes m ln (pend t)) := by
  unfold textLoop pend
  by_cases h : t = []
  · subst h; simp [nodes]
  · have : 0 < t.length := List.length_pos_of_ne_nil h
    rw [if_pos (by rw [List.length_append]; omega), if_neg h, List.drop_left, node_text]
    rfl

private theorem source_cons (p : Piece) (ps : List Piece) : source (p :: ps) = p.source ++ source ps := rfl

private theorem dollars_start (pos : Nat) (c : Char) (s : Str) (k : DKind) (n : Nat)
    (h : dollarAt (c :: s) = some (k, n)) :
    dollars 0 pos (c :: s) = (pos, pos + n, k) :: dollars (n - 1) (pos + 1) s := by
  rw [dollars, h]

/-- Scanning after a piece. -/
private theorem complete (py : PyCompile) (m : TextMode) (ps : List Piece) :
    ∀ (pre t : Str) (ln : Nat), WellCut py ps → NoDollar ps → ErrorsAtBraces py ps →
      (t ≠ [] → ∀ q, ps.head? = some q → q.isText = false) →
      textLoop py m (pre ++ (t ++ source ps)) pre.length ln (dollars 0 (pre.length + t.length) (source ps)) =
        .ok (nodes m ln (pend t ++ ps)) := by
  induction ps with
  | nil =>
    intro pre t ln _ _ _ _
    rw [show source [] = [] from rfl, List.append_nil, List.append_nil, dollars, loop_end]
  | cons p ps ih =>
    intro pre t ln hw hnd herr hq
    have hnd' : NoDollar ps := fun ws e h => hnd ws e (by simp [h])
    rw [source_cons]
    cases p with
    | text u =>
      have ht : t = [] := by
        by_contra ht; exact Bool.noConfusion (hq ht _ rfl)
      subst ht
      obtain ⟨hw', hu, hm, hn⟩ := hw
      rw [Piece.source, List.nil_append]
      rw [show (pre.length + List.length ([] : Str)) = pre.length from rfl]
      rw [dollars_plain _ _ _ hm, ih pre u ln hw' hnd' herr fun _ => hn]
      simp [pend, hu]
    | dollar =>
      have hs : Piece.dollar.source ++ source ps = '$' :: '$' :: source ps := rfl
      rw [hs, dollars_start _ _ _ .dollar 2 rfl]
      unfold textLoop
      rw [textBefore_eq]
      dsimp only
      have h1 : dollars (2 - 1) (pre.length + t.length + 1) ('$' :: source ps) =
          dollars 0 (pre.length + t.length + 2) (source ps) := dollars_skip 1 _ ['$'] _ rfl
      have h2 := ih (pre ++ t ++ ['$', '$']) [] (ln + countNL t) hw.1 hnd' herr (fun h => absurd rfl h)
      have h3 : pre ++ t ++ ['$', '$'] ++ ([] ++ source ps) = pre ++ (t ++ '$' :: '$' :: source ps) := by simp
      have h4 : (pre ++ t ++ ['$', '$']).length = pre.length + t.length + 2 := by simp [Nat.add_assoc]
      rw [h3, h4] at h2
      rw [List.length_nil, Nat.add_zero, show pend [] ++ ps = ps from rfl] at h2
      rw [h1, h2, nodes_pend, node_text]
      simp [prepend, nodes, Piece.value, countNL]
    | name n =>
      obtain ⟨hw', ⟨c, cs, rfl, hc, hcs⟩, hr⟩ := hw
      rw [nameStart_eq] at hc
      rw [nameChar_eq] at hcs hr
      have hs : (Piece.name (c :: cs)).source ++ source ps = '$' :: c :: (cs ++ source ps) := rfl
      rw [hs, dollars_start _ _ _ _ _ (dollarAt_name hc hcs hr)]
      unfold textLoop
      rw [textBefore_eq]
      dsimp only
      have h1 : dollars (2 + cs.length - 1) (pre.length + t.length + 1) (c :: (cs ++ source ps)) =
          dollars 0 (pre.length + t.length + (2 + cs.length)) (source ps) := by
        rw [← List.cons_append, dollars_skip _ _ (c :: cs) (source ps) (by simp; omega)]
        congr 1; omega
      have h2 := ih (pre ++ t ++ '$' :: c :: cs) [] (ln + countNL t + countNL (c :: cs)) hw' hnd' herr
        (fun h => absurd rfl h)
      have h3 : pre ++ t ++ ('$' :: c :: cs) ++ ([] ++ source ps) = pre ++ (t ++ '$' :: c :: (cs ++ source ps)) := by
        simp
      have h4 : (pre ++ t ++ '$' :: c :: cs).length = pre.length + t.length + (2 + cs.length) := by
        simp; omega
      rw [h3, h4] at h2
      rw [List.length_nil, Nat.add_zero, show pend [] ++ ps = ps from rfl] at h2
      rw [h1, h2, nodes_pend]
      simp [prepend, nodes, Piece.value, exprNode, node]
    | expr ws e =>
      obtain ⟨hw', hws, he, hpy⟩ := hw
      obtain ⟨herr1, herr2⟩ := herr
      have hs : (Piece.expr ws e).source ++ source ps = '$' :: '{' :: (ws ++ (e ++ '}' :: source ps)) := by
        simp [Piece.source]
      rw [hs, dollars_start _ _ _ .braced 2 rfl]
      unfold textLoop
      rw [textBefore_eq]
      dsimp only
      have hd : (pre ++ (t ++ '$' :: '{' :: (ws ++ (e ++ '}' :: source ps)))).drop (pre.length + t.length + 2) =
          ws ++ (e ++ '}' :: source ps) := by
        have : pre ++ (t ++ '$' :: '{' :: (ws ++ (e ++ '}' :: source ps))) =
            (pre ++ t ++ ['$', '{']) ++ (ws ++ (e ++ '}' :: source ps)) := by simp
        rw [this]
        apply List.drop_left'
        simp [Nat.add_assoc]
      rw [bracedExpr_intro hd hws he hpy herr1]
      dsimp only
      have hno : '$' ∉ ws ++ (e ++ ['}']) := by
        simp only [List.mem_append, List.mem_singleton, not_or]
        exact ⟨space_not_dollar hws, hnd ws e (by simp), by decide⟩
      have h1 : dollars (2 - 1) (pre.length + t.length + 1) ('{' :: (ws ++ (e ++ '}' :: source ps))) =
          dollars 0 (pre.length + t.length + 2 + ws.length + e.length + 1) (source ps) := by
        rw [show ('{' :: (ws ++ (e ++ '}' :: source ps))) = ['{'] ++ (ws ++ (e ++ '}' :: source ps)) from rfl,
          dollars_skip (2 - 1) _ _ _ rfl]
        have : ws ++ (e ++ '}' :: source ps) = (ws ++ (e ++ ['}'])) ++ source ps := by simp
        rw [this, dollars_plain _ _ _ (no_marker_of_no_dollar hno)]
        congr 1; simp; omega
      have h2 := ih (pre ++ t ++ '$' :: '{' :: ws ++ e ++ ['}']) [] (ln + countNL t + countNL e) hw' hnd' herr2
        (fun h => absurd rfl h)
      have h3 : pre ++ t ++ '$' :: '{' :: ws ++ e ++ ['}'] ++ ([] ++ source ps) =
          pre ++ (t ++ '$' :: '{' :: (ws ++ (e ++ '}' :: source ps))) := by simp
      have h4 : (pre ++ t ++ '$' :: '{' :: ws ++ e ++ ['}']).length =
          pre.length + t.length + 2 + ws.length + e.length + 1 := by
        simp; omega
      rw [h3, h4] at h2
      rw [List.length_nil, Nat.add_zero, show pend [] ++ ps = ps from rfl] at h2
      rw [h1, h2, nodes_pend]
      simp [prepend, nodes, Piece.value, exprNode, node]

/-- **C28.** Every interleaving of literal text, `$$`, `$name` and `${expr}` is read back as written: the
nodes are the pieces in order, with all literal characters kept. -/
theorem C28_pieces_read_back (py : PyCompile) (m : TextMode) (ps : List Piece) (ln : Nat)
    (hw : WellCut py ps) (hd : NoDollar ps) (he : ErrorsAtBraces py ps) :
    compileTextSrc py m (source ps) ln = .ok (nodes m ln ps) :=
  complete py m ps [] [] ln hw hd he fun h => absurd rfl h

private theorem prepend_ok {xs : List Ir} {r : Except Err (List Ir)} {zs : List Ir} (h : prepend xs r = .ok zs) :
    ∃ ys, r = .ok ys ∧ zs = xs ++ ys := by
  cases r with
  | error e => cases h
  | ok ys => cases h; exact ⟨ys, rfl, rfl⟩

private theorem wellCut_pend {py : PyCompile} {t : Str} {ps : List Piece} (hw : WellCut py ps)
    (hm : ∀ a b, t = a ++ b → b ≠ [] → ¬ Marker (b ++ source ps))
    (hq : ∀ q, ps.head? = some q → q.isText = false) : WellCut py (pend t ++ ps) := by
  unfold pend
  split
  · exact hw
  · rename_i h; exact ⟨hw, h, hm, hq⟩

private theorem source_pend (t : Str) (ps : List Piece) : source (pend t ++ ps) = t ++ source ps := by
  unfold pend
  split
  · rename_i h; subst h; rfl
  · rfl

private theorem sound (py : PyCompile) (m : TextMode) (n : Nat) :
    ∀ (rest pre t : Str) (ln : Nat) (xs : List Ir), rest.length = n →
      (∀ a b, t = a ++ b → b ≠ [] → ¬ Marker (b ++ rest)) →
      textLoop py m (pre ++ (t ++ rest)) pre.length ln (dollars 0 (pre.length + t.length) rest) = .ok xs →
      (∀ c s l, Ir.expr c s l ∈ xs → '$' ∉ c) →
      ∃ ps, source ps = t ++ rest ∧ xs = nodes m ln ps ∧ WellCut py ps := by
  induction n using Nat.strongRecOn with
  | _ n ih =>
  intro rest pre t ln xs hn hm h hx
  have hstop : ∀ {q : Piece} {ps : List Piece}, q.isText = false →
      ∀ q', (q :: ps).head? = some q' → q'.isText = false := by
    intro q ps hq q' h; cases h; exact hq
  cases rest with
  | nil =>
    rw [dollars, List.append_nil, loop_end] at h
    cases h
    refine ⟨pend t ++ [], source_pend t [], by rw [List.append_nil], wellCut_pend trivial hm ?_⟩
    intro q hq; cases hq
  | cons c r =>
    cases hd : dollarAt (c :: r) with
    | none =>
      rw [dollars, hd] at h
      have hm' : ∀ a b, t ++ [c] = a ++ b → b ≠ [] → ¬ Marker (b ++ r) := by
        intro a b hab hb
        rcases List.append_eq_append_iff.1 hab with ⟨a', rfl, hb'⟩ | ⟨b', rfl, rfl⟩
        · cases a' with
          | nil =>
            rw [List.nil_append] at hb'; subst hb'
            exact dollarAt_none.1 hd
          | cons x xs =>
            simp only [List.cons_append, List.cons.injEq] at hb'
            have := hb'.2
            rw [eq_comm, List.append_eq_nil_iff] at this
            exact absurd this.2 hb
        · cases b' with
          | nil => exact dollarAt_none.1 hd
          | cons x xs =>
            have := hm a (x :: xs) rfl (by simp)
            rwa [List.append_assoc]
      have h' : textLoop py m (pre ++ ((t ++ [c]) ++ r)) pre.length ln
          (dollars 0 (pre.length + (t ++ [c]).length) r) = .ok xs := by
        have e1 : (t ++ [c]) ++ r = t ++ c :: r := by simp
        have e2 : pre.length + (t ++ [c]).length = pre.length + t.length + 1 := by simp [Nat.add_assoc]
        rw [e1, e2]; exact h
      obtain ⟨ps, h1, h2, h3⟩ := ih r.length (by rw [← hn]; simp) r pre (t ++ [c]) ln xs rfl hm' h' hx
      exact ⟨ps, by rw [h1]; simp, h2, h3⟩
    | some kn =>
      obtain ⟨k, len⟩ := kn
      rw [dollars_start _ _ _ _ _ hd] at h
      rcases dollarAt_some hd with ⟨r', hr, rfl, rfl⟩ | ⟨r', hr, rfl, rfl⟩ | ⟨c', cs, r', hr, rfl, rfl, hc, hcs, hr2⟩
      · -- `${`
        cases hr
        unfold textLoop at h
        rw [textBefore_eq] at h
        dsimp only at h
        cases hb : bracedExpr py (pre ++ (t ++ '$' :: '{' :: r')) (pre.length + t.length + 2) with
        | error e => rw [hb] at h; cases h
        | ok es =>
          obtain ⟨e, stop⟩ := es
          rw [hb] at h
          dsimp only at h
          obtain ⟨ws, rest, hdrop, hws, he, hpy, hst⟩ := bracedExpr_ok hb
          have hd2 : (pre ++ (t ++ '$' :: '{' :: r')).drop (pre.length + t.length + 2) = r' := by
            have : pre ++ (t ++ '$' :: '{' :: r') = (pre ++ t ++ ['$', '{']) ++ r' := by simp
            rw [this]
            apply List.drop_left'
            simp [Nat.add_assoc]
          rw [hd2] at hdrop
          subst hdrop
          obtain ⟨ys, hy, rfl⟩ := prepend_ok h
          have hne : '$' ∉ e := hx e m.safe (ln + countNL t) (by simp [exprNode])
          have hno : '$' ∉ ws ++ (e ++ ['}']) := by
            simp only [List.mem_append, List.mem_singleton, not_or]
            exact ⟨space_not_dollar hws, hne, by decide⟩
          have h1 : dollars (2 - 1) (pre.length + t.length + 1) ('{' :: (ws ++ (e ++ '}' :: rest))) =
              dollars 0 stop rest := by
            rw [show ('{' :: (ws ++ (e ++ '}' :: rest))) = ['{'] ++ (ws ++ (e ++ '}' :: rest)) from rfl,
              dollars_skip (2 - 1) _ _ _ rfl]
            have : ws ++ (e ++ '}' :: rest) = (ws ++ (e ++ ['}'])) ++ rest := by simp
            rw [this, dollars_plain _ _ _ (no_marker_of_no_dollar hno), hst]
            congr 1; simp; omega
          have h2 := ih rest.length (by rw [← hn]; simp; omega) rest
            (pre ++ t ++ '$' :: '{' :: ws ++ e ++ ['}']) [] (ln + countNL t + countNL e) ys rfl
            (by intro a b hab hb'; rw [eq_comm, List.append_eq_nil_iff] at hab; exact absurd hab.2 hb')
            (by
              have h3 : pre ++ t ++ '$' :: '{' :: ws ++ e ++ ['}'] ++ ([] ++ rest) =
                  pre ++ (t ++ '$' :: '{' :: (ws ++ (e ++ '}' :: rest))) := by simp
              have h4 : (pre ++ t ++ '$' :: '{' :: ws ++ e ++ ['}']).length = stop := by
                simp; omega
              rw [h3, h4, ← hy, h1]; rfl)
            (fun c s l hc => hx c s l (by simp [hc]))
          obtain ⟨ps, h5, h6, h7⟩ := h2
          rw [List.nil_append] at h5
          have hsrc : source (Piece.expr ws e :: ps) = '$' :: '{' :: (ws ++ (e ++ '}' :: rest)) := by
            rw [source_cons, h5]; simp [Piece.source]
          refine ⟨pend t ++ .expr ws e :: ps, ?_, ?_, ?_⟩
          · rw [source_pend, hsrc]
          · rw [nodes_pend, h6]; simp [nodes, exprNode, node, Piece.value]
          · exact wellCut_pend ⟨h7, hws, he, hpy⟩ (by rw [hsrc]; exact hm) (hstop rfl)
      · -- `$$`
        cases hr
        unfold textLoop at h
        rw [textBefore_eq] at h
        dsimp only at h
        obtain ⟨ys, hy, rfl⟩ := prepend_ok h
        have h1 : dollars (2 - 1) (pre.length + t.length + 1) ('$' :: r') =
            dollars 0 (pre.length + t.length + 2) r' := dollars_skip 1 _ ['$'] _ rfl
        obtain ⟨ps, h5, h6, h7⟩ := ih r'.length (by rw [← hn]; simp; omega) r' (pre ++ t ++ ['$', '$']) []
          (ln + countNL t) ys rfl
          (by intro a b hab hb'; rw [eq_comm, List.append_eq_nil_iff] at hab; exact absurd hab.2 hb')
          (by
            have h3 : pre ++ t ++ ['$', '$'] ++ ([] ++ r') = pre ++ (t ++ '$' :: '$' :: r') := by simp
            have h4 : (pre ++ t ++ ['$', '$']).length = pre.length + t.length + 2 := by simp [Nat.add_assoc]
            rw [h3, h4, ← hy, h1]; rfl)
          (fun c s l hc => hx c s l (by simp [hc]))
        rw [List.nil_append] at h5
        have hsrc : source (Piece.dollar :: ps) = '$' :: '$' :: r' := by rw [source_cons, h5]; rfl
        refine ⟨pend t ++ .dollar :: ps, ?_, ?_, ?_⟩
        · rw [source_pend, hsrc]
        · rw [nodes_pend, h6, node_text]; simp [nodes, Piece.value, countNL]
        · exact wellCut_pend ⟨h7, trivial⟩ (by rw [hsrc]; exact hm) (hstop rfl)
      · -- `$name`
        cases hr
        unfold textLoop at h
        rw [textBefore_eq] at h
        dsimp only at h
        obtain ⟨ys, hy, rfl⟩ := prepend_ok h
        have h1 : dollars (2 + cs.length - 1) (pre.length + t.length + 1) ((c' :: cs) ++ r') =
            dollars 0 (pre.length + t.length + (2 + cs.length)) r' := by
          rw [dollars_skip _ _ (c' :: cs) r' (by simp; omega)]
          congr 1; omega
        obtain ⟨ps, h5, h6, h7⟩ := ih r'.length (by rw [← hn]; simp; omega) r' (pre ++ t ++ '$' :: c' :: cs) []
          (ln + countNL t + countNL (c' :: cs)) ys rfl
          (by intro a b hab hb'; rw [eq_comm, List.append_eq_nil_iff] at hab; exact absurd hab.2 hb')
          (by
            have h3 : pre ++ t ++ ('$' :: c' :: cs) ++ ([] ++ r') = pre ++ (t ++ '$' :: ((c' :: cs) ++ r')) := by simp
            have h4 : (pre ++ t ++ '$' :: c' :: cs).length = pre.length + t.length + (2 + cs.length) := by
              simp; omega
            rw [h3, h4, ← hy]
            rw [show ∀ n, n + List.length ([] : Str) = n from fun _ => rfl, ← h1]; rfl)
          (fun c s l hc => hx c s l (by simp [hc]))
        rw [List.nil_append] at h5
        have hsrc : source (Piece.name (c' :: cs) :: ps) = '$' :: ((c' :: cs) ++ r') := by rw [source_cons, h5]; rfl
        refine ⟨pend t ++ .name (c' :: cs) :: ps, ?_, ?_, ?_⟩
        · rw [source_pend, hsrc]; rfl
        · rw [nodes_pend, h6]; simp [nodes, exprNode, node, Piece.value]
        · rw [← nameStart_eq] at hc
          rw [← nameChar_eq] at hcs hr2
          exact wellCut_pend ⟨h7, ⟨c', cs, rfl, hc, hcs⟩, by rw [h5]; exact hr2⟩ (by rw [hsrc]; exact hm) (hstop rfl)

/-- **C28.** Whatever is accepted was cut as documented: the pieces make up the source, no special sequence
is left in literal text, and the nodes are the pieces in order (for expressions without dollar sign, see
`C29_dollar_in_expression`). -/
theorem C28_accepted_cut_as_documented (py : PyCompile) (m : TextMode) (src : Str) (ln : Nat) (xs : List Ir)
    (h : compileTextSrc py m src ln = .ok xs) (hx : ∀ c s l, Ir.expr c s l ∈ xs → '$' ∉ c) :
    ∃ ps, source ps = src ∧ xs = nodes m ln ps ∧ WellCut py ps :=
  sound py m src.length src [] [] ln xs rfl
    (by intro a b hab hb'; rw [eq_comm, List.append_eq_nil_iff] at hab; exact absurd hab.2 hb') h hx

/-! ### Doubling -/

/-- The pieces of a text with doubled dollar signs. -/
def litPieces : Str → List Piece
  | [] => []
  | c :: s =>
    if c = '$' then .dollar :: litPieces s
    else match litPieces s with
      | .text t :: ps => .text (c :: t) :: ps
      | ps => .text [c] :: ps

theorem litPieces_shape (t : Str) : ∀ p ∈ litPieces t, p = .dollar ∨ ∃ u, p = .text u ∧ u ≠ [] ∧ '$' ∉ u := by
  induction t with
  | nil => intro p hp; cases hp
  | cons c s ih =>
    unfold litPieces
    split
    · intro p hp
      rcases List.mem_cons.1 hp with rfl | hp
      · exact .inl rfl
      · exact ih p hp
    · rename_i hc
      split
      · rename_i u ps hl
        rw [hl] at ih
        intro p hp
        rcases List.mem_cons.1 hp with rfl | hp
        · rcases ih (.text u) (by simp) with h | ⟨u', h, -, h'⟩
          · cases h
          · cases h; exact .inr ⟨_, rfl, by simp, by simp [h', Ne.symm hc]⟩
        · exact ih p (by simp [hp])
      · intro p hp
        rcases List.mem_cons.1 hp with rfl | hp
        · exact .inr ⟨_, rfl, by simp, by simp [Ne.symm hc]⟩
        · exact ih p hp

theorem litPieces_source (t : Str) : source (litPieces t) = doubled t ∧
    ((litPieces t).map fun p => p.value.elim id id).flatten = t := by
  induction t with
  | nil => exact ⟨rfl, rfl⟩
  | cons c s ih =>
    obtain ⟨h1, h2⟩ := ih
    have hd : doubled (c :: s) = (if c = '$' then ['$', '$'] else [c]) ++ doubled s := rfl
    rw [hd]
    unfold litPieces
    split
    · rename_i hc; subst hc
      exact ⟨by rw [source_cons, h1]; rfl, by simp only [List.map_cons, List.flatten_cons, h2]; rfl⟩
    · split
      · rename_i u ps hl
        rw [hl] at h1 h2
        refine ⟨?_, ?_⟩
        · rw [source_cons] at h1 ⊢; rw [← h1]; rfl
        · rw [← h2]; rfl
      · exact ⟨by rw [source_cons, h1]; rfl, by simp only [List.map_cons, List.flatten_cons, h2]; rfl⟩

theorem litPieces_wellCut (py : PyCompile) (t : Str) : WellCut py (litPieces t) := by
  induction t with
  | nil => trivial
  | cons c s ih =>
    have hsh := litPieces_shape (c :: s)
    have key : ∀ u ps, '$' ∉ u → u ≠ [] → WellCut py ps → (∀ q, ps.head? = some q → q.isText = false) →
        WellCut py (.text u :: ps) := by
      intro u ps hu hne hw hq
      exact ⟨hw, hne, no_marker_of_no_dollar hu, hq⟩
    unfold litPieces at hsh ⊢
    split
    · exact ⟨ih, trivial⟩
    · rename_i hc
      rw [if_neg hc] at hsh
      split
      · rename_i u ps hl
        rw [hl] at ih hsh
        obtain ⟨hw, hne, _, hq⟩ := ih
        rcases hsh (.text (c :: u)) (by simp) with h | ⟨u', h, h1, h2⟩
        · cases h
        · cases h; exact key _ _ h2 h1 hw hq
      · rename_i hnt
        refine key [c] _ (by simp [Ne.symm hc]) (by simp) ih ?_
        intro q hq
        cases hl : litPieces s with
        | nil => rw [hl] at hq; cases hq
        | cons p ps =>
          rw [hl] at hq
          simp only [List.head?_cons, Option.some.injEq] at hq
          subst hq
          cases p with
          | text u => exact absurd hl (hnt u ps)
          | _ => rfl

private theorem plainText_nodes (m : TextMode) (ps : List Piece)
    (h : ∀ p ∈ ps, p = .dollar ∨ ∃ u, p = Piece.text u ∧ u ≠ [] ∧ '$' ∉ u) (ln : Nat) :
    plainText (nodes m ln ps) = some ((ps.map fun p => p.value.elim id id).flatten) := by
  induction ps generalizing ln with
  | nil => rfl
  | cons p ps ih =>
    have hp := ih fun q hq => h q (by simp [hq])
    obtain ⟨u, hu⟩ : ∃ u, p.value = .inl u := by
      rcases h p (by simp) with rfl | ⟨u, rfl, _⟩
      · exact ⟨_, rfl⟩
      · exact ⟨_, rfl⟩
    rw [nodes, hu, List.map_cons, hu, node]
    split <;> simp [plainText, hp]

theorem compile_doubled (py : PyCompile) (m : TextMode) (t : Str) (ln : Nat) :
    compileTextSrc py m (doubled t) ln = .ok (nodes m ln (litPieces t)) := by
  obtain ⟨h1, h2⟩ := litPieces_source t
  have hsh := litPieces_shape t
  have hread := fun h h' => C28_pieces_read_back py m (litPieces t) ln (litPieces_wellCut py t) h h'
  rw [h1] at hread
  refine hread ?_ ?_
  · intro ws e he
    rcases hsh _ he with h | ⟨u, h, _⟩ <;> cases h
  · clear h1 h2 hread
    generalize litPieces t = ps at hsh
    induction ps with
    | nil => trivial
    | cons p ps ih =>
      have := ih fun q hq => hsh q (by simp [hq])
      rcases hsh p (by simp) with rfl | ⟨u, rfl, _⟩ <;> exact this

/-- **C28.** Doubling every dollar sign produces the text literally, whatever it is. -/
theorem C28_doubling_is_literal (py : PyCompile) (m : TextMode) (t : Str) (ln : Nat) :
    ∃ xs, compileTextSrc py m (doubled t) ln = .ok xs ∧ plainText xs = some t :=
  ⟨_, compile_doubled py m t ln, by rw [plainText_nodes m _ (litPieces_shape t), (litPieces_source t).2]⟩

/-- Python on the text `x} $b`. -/
private def demoPy : PyCompile := fun s => if s = "x".toList then none else some (1, 2)

private def demoPieces : List Piece :=
  [.text "5 $ ".toList, .expr " ".toList "x".toList, .text " ".toList, .name "b.c".toList, .dollar]

example : source demoPieces = "5 $ ${ x} $b.c$$".toList ∧
    compileTextSrc demoPy ⟨true, false⟩ (source demoPieces) 1 =
      .ok [.trans "5 $ ".toList 1, .expr "x".toList false 1, .text " ".toList none 1,
        .expr "b.c".toList false 1, .trans "$".toList 1] := ⟨by decide +kernel, by rfl⟩

example : ErrorsAtBraces demoPy demoPieces ∧ WellCut demoPy demoPieces ∧ NoDollar demoPieces := by
  refine ⟨⟨⟨1, 2, by decide +kernel, by decide +kernel⟩, trivial⟩,
    ⟨⟨⟨⟨⟨trivial, trivial⟩, ⟨_, _, rfl, by decide +kernel, by decide +kernel⟩, ?_⟩,
      by decide +kernel, no_marker_of_tails (by decide +kernel), ?_⟩, by decide +kernel, ?_, by decide +kernel⟩,
      by decide +kernel, no_marker_of_tails (by decide +kernel), ?_⟩, ?_⟩
  · rintro x ⟨⟩; decide +kernel
  · rintro q ⟨⟩; rfl
  · rintro x ⟨⟩; decide +kernel
  · rintro q ⟨⟩; rfl
  intro ws e h
  simp only [demoPieces, List.mem_cons, List.not_mem_nil, or_false, reduceCtorEq, false_or, Piece.expr.injEq] at h
  rw [h.2]; decide +kernel

end Kajiki.Props

import Verif.Lemmas.TextCover
import Verif.Lemmas.TextEscape
import Verif.Lemmas.RenderMain
import Verif.Props.Directives

/-!
# Text templates: C37, C38
-/

namespace Kajiki.Props
open Kajiki.Run Kajiki.Spec.Text Kajiki.Spec.Sem Kajiki.Texts

variable {W : Type}

/-! ## C37 -/

/-- **C37.** The tokens of a source that is scanned to its end, written one after the other, are the source:
every character belongs to exactly one token, in order, and text tokens are the plain text itself.
Missing: sources in which Python finds the error of a `${…` at another place than a closing brace (see
`C37_overlap`). -/
theorem C37_tokens_cover_source_partial (py : PyCompile) (src : Str) (toks : List TTok)
    (hpy : ErrorsAtBraces py src) (h : scan py src = (toks, none)) : Covers toks src :=
  scan_covers hpy h

/-- The source is the concatenation of one piece per token. -/
theorem C37_pieces_partial (py : PyCompile) (src : Str) (toks : List TTok) (hpy : ErrorsAtBraces py src)
    (h : scan py src = (toks, none)) : ∃ pieces : List Str, pieces.flatten = src ∧ pieces.length = toks.length := by
  have hc := C37_tokens_cover_source_partial py src toks hpy h
  clear h hpy
  induction hc with
  | nil => exact ⟨[], rfl, rfl⟩
  | @cons tok toks piece rest _ _ ih =>
    obtain ⟨ps, h1, h2⟩ := ih
    exact ⟨piece :: ps, by simp [h1], by simp [h2]⟩

/-- Python on the source of the next example: the error in `x%}…` is reported at the second character. -/
private def pyAt (n : Nat) : PyCompile := fun _ => some (1, n)

/-- `a ${x} $y` + a tag line + `{%end-%}  b` -/
example : ErrorsAtBraces (pyAt 2) "a ${x} $y\n  %if z\n$$ 50% {%end-%}  b".toList ∧
    scan (pyAt 2) "a ${x} $y\n  %if z\n$$ 50% {%end-%}  b".toList =
      ([.text "a ".toList 1, .expr "x".toList 1, .text " ".toList 1, .expr "y".toList 1, .text "\n".toList 2,
        .tag "if".toList " z".toList 3, .text "$".toList 3, .text " 50% ".toList 3, .tag "end".toList [] 3,
        .text "b".toList 3], none) := by
  refine ⟨?_, by decide +kernel⟩
  intro before rest l o h1 h2
  cases h2
  have h3 : ∀ n, n < "a ${x} $y\n  %if z\n$$ 50% {%end-%}  b".toList.length →
      ("a ${x} $y\n  %if z\n$$ 50% {%end-%}  b".toList.drop n).take 2 = ['$', '{'] → n = 2 := by decide +kernel
  have h4 := h3 before.length (by rw [h1]; simp) (by rw [h1, List.drop_left]; rfl)
  have h5 : rest = "a ${x} $y\n  %if z\n$$ 50% {%end-%}  b".toList.drop 4 := by
    have := congrArg (List.drop 4) h1
    rw [this, show before ++ '$' :: '{' :: rest = (before ++ ['$', '{']) ++ rest by simp,
      List.drop_left' (by simp [h4])]
  subst h5
  right; right; decide +kernel

/-- **C37 fails** when Python's error is not at a closing brace: in `${x$y}` it is at the second `$`.  The
`$` ends the first expression and also starts the second one, and the brace becomes text. -/
theorem C37_overlap : scan (pyAt 2) "${x$y}".toList =
    ([.expr "x".toList 1, .expr "y".toList 1, .text "}".toList 1], none) := by decide +kernel

/-- Nothing checks that the character at the error is a brace: `${x]` is read like `${x}`. -/
theorem C37_any_closing_character : scan (pyAt 2) "${x] y".toList =
    ([.expr "x".toList 1, .text " y".toList 1], none) := by decide +kernel

/-- A dollar sign inside the text of a tag or an expression is an error. -/
theorem C37_dollar_in_tag (py : PyCompile) : scan py "%if $x\n".toList = ([.tag "if".toList " $x".toList 2],
    some .assertion) := by
  show scanLoop _ _ _ _ _ = _
  have : tagMatches 0 0 true "%if $x\n".toList = [(0, 3, .bare "if".toList), (4, 6, .named "x".toList)] := by
    decide +kernel
  rw [this]
  generalize hs : "%if $x\n".toList = src
  subst hs
  rfl

/-! ## C38 -/

private theorem placed_texts {body : List Ir} {o : Str} (hb : TextNodes body o) (k : Spec.Code.Follow) :
    Spec.Code.placed k body = true := by
  induction hb generalizing k with
  | nil => rfl
  | cons _ ih => rw [Spec.Code.placed, ih]; rfl

private theorem cases_texts {body : List Ir} {o : Str} (hb : TextNodes body o) : casesIn false body = true := by
  induction hb with
  | nil => rfl
  | cons _ ih => simp [casesIn, casesOk, ih]

private theorem guards_texts {body : List Ir} {o : Str} (hb : TextNodes body o) : textGuardsList body = [] := by
  induction hb with
  | nil => rfl
  | cons _ ih => rw [textGuardsList, ih]; rfl

private theorem sem_texts {body : List Ir} {o : Str} (hb : TextNodes body o) (T : Prog (List Ir)) (O : Oracle W)
    (call : Mode → Nat → List Val → MT W Unit) (env : Env) (s : Store (List Ir) W) :
    (semBody T O call env body s).out.txt = o ∧ (semBody T O call env body s).val = .ok () := by
  have key : ∀ {body o}, TextNodes body o → ∀ s, (semList T O call env body s).out.txt = o ∧
      (semList T O call env body s).val = .ok () := by
    intro body o hb
    induction hb with
    | nil => intro s; exact ⟨rfl, rfl⟩
    | cons _ ih =>
      intro s
      simp only [semList, sem, activeGuard, M.bind, M.tell]
      refine ⟨?_, (ih s).2⟩
      rw [Out.append_txt, (ih s).1]; rfl
  unfold semBody
  cases hb with
  | nil => exact ⟨rfl, rfl⟩
  | cons h =>
    simp only [List.isEmpty_cons, showsAny, shows, Bool.true_or, reading_true]
    exact key (.cons h) s

/-- A template of plain text only. -/
private theorem textOnly_render {body : List Ir} {o : Str} (hb : TextNodes body o) (decl : Str)
    (hdecl : declName decl = "__main__".toList) (base : Dict Val)
    (load : Str → Option Nat) (aliasFor : Str → Str) (O : Oracle W) (n : Nat) (context : Dict Val) (w w' : W)
    (vars : Dict Val) (ha : O.args decl [] w = (.ok vars, w')) :
    ∃ P, (Source.mk [(⟨[], [⟨decl, body, 0⟩]⟩, base)] load aliasFor).compile = some P ∧
      (render P O (n + 1) 0 context w).out.txt = o ∧ (render P O (n + 1) 0 context w).val = .ok () := by
  have hplaced : Spec.Code.placedTmpl ⟨[], [⟨decl, body, 0⟩]⟩ = true := by
    have h2 : body.isEmpty = true ∨ body.any Spec.Code.writesLines = true := by
      cases hb with
      | nil => exact .inl rfl
      | cons => right; simp [Spec.Code.writesLines]
    rcases h2 with h2 | h2 <;> simp [Spec.Code.placedTmpl, placed_texts hb, h2]
  obtain ⟨P, hP⟩ : ∃ P, (Source.mk [(⟨[], [⟨decl, body, 0⟩]⟩, base)] load aliasFor).compile = some P := by
    simp [Source.compile, compileAll, fromIr, compilePy_generatePython, hplaced]
  refine ⟨P, hP, ?_⟩
  obtain ⟨h1, h2, -⟩ := C12_rendering_is_meaning_unmerged _ P O hP
    (by simp [casesTmpl, cases_texts hb]) (by simp [guards_texts hb]) (n + 1) 0 context w
  rw [h1, h2]
  obtain ⟨env, s, -, h3⟩ := semProcess_main [] decl hdecl body 0 base load aliasFor O n context w w' vars ha
  rw [h3]
  exact sem_texts hb _ O _ env s

/-- **C38.** Text with escapes and without directives is a template that renders what the escapes stand for:
`$$` is a dollar sign, a backslash joins lines or protects the next character, everything else stands for
itself.  (`__main__()` takes no arguments: `ha`.) -/
theorem C38_escaped_text (py : PyCompile) (gen : Nat → Str) (autoescape : Bool) (filename : Option Str)
    (src out : Str) (hne : src ≠ []) (hn : NoDirective src) (h : Escaped src out) :
    ∃ t, textTemplate py gen autoescape filename src = .ok t ∧
      ∀ (base : Dict Val) (load : Str → Option Nat) (aliasFor : Str → Str) (O : Oracle W) (n : Nat)
        (context : Dict Val) (w w' : W) (vars : Dict Val),
        O.args "__main__()".toList [] w = (.ok vars, w') →
        ∃ P, (Source.mk [(t, base)] load aliasFor).compile = some P ∧
          (render P O (n + 1) 0 context w).out.txt = out ∧ (render P O (n + 1) 0 context w).val = .ok () := by
  obtain ⟨toks, h1, h2⟩ := scan_escaped py hn h
  obtain ⟨xs, h3, h4⟩ := parse_textToks (env := ⟨autoescape, none, gen⟩) rfl h2 (toks.length + 1) (by omega) []
    .start
  refine ⟨⟨[], [⟨"__main__()".toList, present xs, 0⟩]⟩, ?_, ?_⟩
  · unfold textTemplate
    have : src.isEmpty = false := by cases src <;> simp at hne ⊢
    rw [this, h1]
    simp only [Bool.false_and, Bool.false_eq_true, if_false, parseText, h3]
    simp only [TState.start, Dict.set, if_true, List.map_cons, List.map_nil]
  · intro base load aliasFor O n context w w' vars ha
    exact textOnly_render h4 _ (by decide +kernel) base load aliasFor O n context w w' vars ha

private theorem escaped_doubled (t : Str) : Escaped (doubled t) t := by
  induction t with
  | nil => exact .nil
  | cons c t ih =>
    simp only [doubled, List.flatMap_cons]
    by_cases h1 : c = '$'
    · subst h1; simp only [true_or, if_true]; exact .dollar ih
    · by_cases h2 : c = '\\'
      · subst h2; simp only [or_true, if_true]; exact .protect (by decide) (by decide) ih
      · rw [if_neg (by simp [h1, h2])]; exact .plain h1 h2 ih

private theorem escaped_quoted (t : Str) : Escaped (quoted t) t := by
  induction t with
  | nil => exact .nil
  | cons c t ih =>
    simp only [quoted, List.flatMap_cons]
    by_cases h1 : c = '$'
    · subst h1; simp only [true_or, if_true]; exact .dollar ih
    · by_cases h2 : c = '\\'
      · subst h2; simp only [or_true, if_true]; exact .protect (by decide) (by decide) ih
      · rw [if_neg (by simp [h1, h2])]
        by_cases h3 : c = '%'
        · subst h3; simp only [if_true]; exact .protect (by decide) (by decide) ih
        · rw [if_neg h3]; exact .plain h1 h2 ih

/-- Every `%` follows a backslash. -/
private theorem quoted_percent (t a b : Str) (h : quoted t = a ++ '%' :: b) : ∃ a', a = a' ++ ['\\'] := by
  induction t generalizing a with
  | nil => simp [quoted] at h
  | cons c t ih =>
    simp only [quoted, List.flatMap_cons] at h
    have two : ∀ x : Char, x ≠ '%' → [x, c] ++ quoted t = a ++ '%' :: b → (c = '%' → x = '\\') →
        ∃ a', a = a' ++ ['\\'] := by
      intro x hx h hc
      rcases a with _ | ⟨y, _ | ⟨z, a⟩⟩
      · simp at h; exact absurd h.1 hx
      · simp only [List.cons_append, List.nil_append, List.cons.injEq] at h
        exact ⟨[], by rw [← h.1, hc h.2.1]; rfl⟩
      · simp only [List.cons_append, List.nil_append, List.cons.injEq] at h
        obtain ⟨a', ha⟩ := ih a h.2.2
        exact ⟨y :: z :: a', by rw [ha]; rfl⟩
    by_cases h1 : c = '$' ∨ c = '\\'
    · rw [if_pos h1] at h
      refine two c ?_ h ?_
      · rcases h1 with rfl | rfl <;> decide
      · intro hc; rcases h1 with rfl | rfl <;> cases hc
    · rw [if_neg h1] at h
      by_cases h3 : c = '%'
      · rw [if_pos h3] at h
        exact two '\\' (by decide) (by rw [h3]; exact h) (fun _ => rfl)
      · rw [if_neg h3] at h
        cases a with
        | nil => simp at h; exact absurd h.1 h3
        | cons y a =>
          simp only [List.cons_append, List.nil_append, List.cons.injEq] at h
          obtain ⟨a', ha⟩ := ih a h.2
          exact ⟨y :: a', by rw [ha]; rfl⟩

private theorem noDirective_quoted (t : Str) : NoDirective (quoted t) := by
  have key : ∀ a b, quoted t = a ++ b → (a = [] ∨ ∃ a', a = a' ++ ['\n']) → ¬ DirectiveLine b := by
    rintro a b h ha ⟨ws, c, r, rfl, hw, -⟩
    obtain ⟨a', ha'⟩ := quoted_percent t (a ++ ws) (c :: r) (by rw [h]; simp)
    rcases List.eq_nil_or_concat ws with rfl | ⟨ws', x, rfl⟩
    · rw [List.append_nil] at ha'
      rcases ha with rfl | ⟨a'', rfl⟩
      · simp at ha'
      · simp at ha'
    · rw [List.concat_eq_append, ← List.append_assoc] at ha'
      have := (List.append_inj' ha' rfl).2
      have hx := hw x (by simp)
      rw [List.cons.inj this |>.1] at hx
      exact absurd hx (by decide)
  refine ⟨?_, key [] _ rfl (.inl rfl), fun a b h => key (a ++ ['\n']) b (by rw [h]; simp) (.inr ⟨a, rfl⟩)⟩
  rintro ⟨a, b, h⟩
  obtain ⟨a', ha'⟩ := quoted_percent t (a ++ ['{']) b (by rw [← h]; simp)
  simp at ha'

private theorem doubled_cons (c : Char) (t : Str) :
    doubled (c :: t) = (if c = '$' ∨ c = '\\' then [c, c] else [c]) ++ doubled t := by
  simp [doubled]

private theorem doubled_head {t v : Str} {x : Char} (h : doubled t = x :: v) (hx : x ≠ '$') (hx' : x ≠ '\\') :
    ∃ t', t = x :: t' ∧ doubled t' = v := by
  cases t with
  | nil => cases h
  | cons c t =>
    rw [doubled_cons] at h
    by_cases hc : c = '$' ∨ c = '\\'
    · rw [if_pos hc] at h
      have := (List.cons.inj h).1
      subst this
      rcases hc with hc | hc <;> contradiction
    · rw [if_neg hc] at h
      have h2 := List.cons.inj h
      exact ⟨t, by rw [h2.1], h2.2⟩

private theorem doubled_split {t a v : Str} {x : Char} (h : doubled t = a ++ x :: v) (hx : x ≠ '$') (hx' : x ≠ '\\') :
    ∃ t1 t2, t = t1 ++ x :: t2 ∧ doubled t1 = a ∧ doubled t2 = v := by
  induction t generalizing a with
  | nil => cases a <;> cases h
  | cons c t ih =>
    rw [doubled_cons] at h
    by_cases hc : c = '$' ∨ c = '\\'
    · rw [if_pos hc] at h
      rcases a with _ | ⟨y, _ | ⟨z, a⟩⟩
      · have := (List.cons.inj h).1
        subst this
        rcases hc with hc | hc <;> contradiction
      · have := (List.cons.inj (List.cons.inj h).2).1
        subst this
        rcases hc with hc | hc <;> contradiction
      · have h2 := List.cons.inj h
        have h3 := List.cons.inj h2.2
        obtain ⟨t1, t2, e, e1, e2⟩ := ih h3.2
        refine ⟨c :: t1, t2, by rw [e]; rfl, ?_, e2⟩
        rw [doubled_cons, if_pos hc, e1, ← h2.1, ← h3.1]
        rfl
    · rw [if_neg hc] at h
      cases a with
      | nil =>
        have h2 := List.cons.inj h
        exact ⟨[], t, by rw [h2.1]; rfl, rfl, h2.2⟩
      | cons y a =>
        have h2 := List.cons.inj h
        obtain ⟨t1, t2, e, e1, e2⟩ := ih h2.2
        refine ⟨c :: t1, t2, by rw [e]; rfl, ?_, e2⟩
        rw [doubled_cons, if_neg hc, e1, h2.1]
        rfl

private theorem doubled_line {t : Str} (h : DirectiveLine (doubled t)) : DirectiveLine t := by
  obtain ⟨ws, c, r, h, hw, hc⟩ := h
  induction ws generalizing t with
  | nil =>
    obtain ⟨t1, rfl, h1⟩ := doubled_head h (by decide) (by decide)
    have hc' : c ≠ '\\' := by rintro rfl; exact absurd hc (by decide)
    obtain ⟨t2, rfl, h2⟩ := doubled_head h1 (tagChar_ne hc).2.2.1 hc'
    exact ⟨[], c, t2, rfl, by simp, hc⟩
  | cons x ws ih =>
    have hx := hw x (by simp)
    have hx' : x ≠ '\\' := by rintro rfl; exact absurd hx (by decide)
    obtain ⟨t1, rfl, h1⟩ := doubled_head h (space_ne hx).2.2.1 hx'
    obtain ⟨ws', c', r', h2, hw', hc'⟩ := ih h1 fun y hy => hw y (by simp [hy])
    refine ⟨x :: ws', c', r', by rw [h2]; rfl, ?_, hc'⟩
    intro y hy
    rcases List.mem_cons.1 hy with rfl | hy
    · exact hx
    · exact hw' y hy

private theorem noDirective_doubled {t : Str} (h : NoDirective t) : NoDirective (doubled t) := by
  obtain ⟨h1, h2, h3⟩ := h
  refine ⟨?_, fun h => h2 (doubled_line h), ?_⟩
  · rintro ⟨a, b, e⟩
    obtain ⟨t1, t2, rfl, -, e2⟩ := doubled_split (x := '{') (v := '%' :: b) (a := a) (t := t) (by rw [← e]; simp)
      (by decide) (by decide)
    obtain ⟨t3, rfl, -⟩ := doubled_head e2 (by decide) (by decide)
    exact h1 ⟨t1, t3, by simp⟩
  · intro a b e hl
    obtain ⟨t1, t2, rfl, -, rfl⟩ := doubled_split e (by decide) (by decide)
    exact h3 t1 t2 rfl (doubled_line hl)

/-- **C38.** Any text without directives can be produced by doubling `$` and `\`. -/
theorem C38_doubling (py : PyCompile) (gen : Nat → Str) (autoescape : Bool) (filename : Option Str) (t : Str)
    (hne : t ≠ []) (hn : NoDirective t) :
    ∃ T, textTemplate py gen autoescape filename (doubled t) = .ok T ∧
      ∀ (base : Dict Val) (load : Str → Option Nat) (aliasFor : Str → Str) (O : Oracle W) (n : Nat)
        (context : Dict Val) (w w' : W) (vars : Dict Val),
        O.args "__main__()".toList [] w = (.ok vars, w') →
        ∃ P, (Source.mk [(T, base)] load aliasFor).compile = some P ∧
          (render P O (n + 1) 0 context w).out.txt = t ∧ (render P O (n + 1) 0 context w).val = .ok () := by
  refine C38_escaped_text py gen autoescape filename _ t ?_ (noDirective_doubled hn) (escaped_doubled t)
  intro h
  have := escaped_doubled t
  rw [h] at this
  cases this; exact hne rfl

/-- **C38.** Every text can be produced: `$` and `\` doubled, a backslash before every `%`. -/
theorem C38_every_text (py : PyCompile) (gen : Nat → Str) (autoescape : Bool) (filename : Option Str) (t : Str)
    (hne : t ≠ []) :
    ∃ T, textTemplate py gen autoescape filename (quoted t) = .ok T ∧
      ∀ (base : Dict Val) (load : Str → Option Nat) (aliasFor : Str → Str) (O : Oracle W) (n : Nat)
        (context : Dict Val) (w w' : W) (vars : Dict Val),
        O.args "__main__()".toList [] w = (.ok vars, w') →
        ∃ P, (Source.mk [(T, base)] load aliasFor).compile = some P ∧
          (render P O (n + 1) 0 context w).out.txt = t ∧ (render P O (n + 1) 0 context w).val = .ok () := by
  refine C38_escaped_text py gen autoescape filename _ t ?_ (noDirective_quoted t) (escaped_quoted t)
  intro h
  have := escaped_quoted t
  rw [h] at this
  cases this; exact hne rfl

/-- A backslash at the end, or before `$$`, is an error. -/
theorem C38_backslash_at_end (py : PyCompile) (gen : Nat → Str) :
    textTemplate py gen false none "a\\".toList = .error .index ∧
    textTemplate py gen false none "a\\$$".toList = .error .index := by
  have h1 : tagMatches 0 0 true "a\\".toList = [] := by decide +kernel
  have h2 : tagMatches 0 0 true "a\\$$".toList = [(2, 4, .escaped)] := by decide +kernel
  refine ⟨?_, ?_⟩
  · unfold textTemplate scan
    rw [h1]; rfl
  · unfold textTemplate scan
    rw [h2]; rfl

private def directiveLine (s : Str) : Bool :=
  match s.dropWhile isSpace with
  | '%' :: c :: _ => letter c
  | _ => false

private theorem directiveLine_of {s : Str} (h : DirectiveLine s) : directiveLine s = true := by
  obtain ⟨ws, c, r, rfl, hw, hc⟩ := h
  unfold directiveLine
  rw [dropWhile_exact hw (by rintro x ⟨⟩; decide)]
  exact hc

private theorem noDirective_of {s : Str} (h1 : ¬ "{%".toList <:+: s)
    (h2 : ∀ i ≤ s.length, (i = 0 ∨ s[i - 1]? = some '\n') → directiveLine (s.drop i) = false) : NoDirective s := by
  refine ⟨h1, fun h => ?_, fun a b e h => ?_⟩
  · have := h2 0 (by omega) (.inl rfl)
    rw [List.drop_zero, directiveLine_of h] at this; cases this
  · have := h2 (a.length + 1) (by rw [e]; simp) (.inr (by rw [e]; simp))
    rw [show s.drop (a.length + 1) = b by rw [e, show a ++ '\n' :: b = (a ++ ['\n']) ++ b by simp,
      List.drop_left' (by simp)], directiveLine_of h] at this
    cases this

/-- `a $$ \\ 5%b\` newline `c` newline ` % d` -/
example : NoDirective "a $$ \\\\ 5%b\\\nc\n % d".toList ∧
    Escaped "a $$ \\\\ 5%b\\\nc\n % d".toList "a $ \\ 5%bc\n % d".toList := by
  constructor
  · exact noDirective_of (by decide +kernel) (by decide +kernel)
  · rw [show "a $$ \\\\ 5%b\\\nc\n % d".toList = ['a', ' ', '$', '$', ' ', '\\', '\\', ' ', '5', '%', 'b', '\\', '\n',
      'c', '\n', ' ', '%', ' ', 'd'] by decide +kernel,
      show "a $ \\ 5%bc\n % d".toList = ['a', ' ', '$', ' ', '\\', ' ', '5', '%', 'b', 'c', '\n', ' ', '%', ' ', 'd']
        by decide +kernel]
    exact .plain (by decide) (by decide) <| .plain (by decide) (by decide) <| .dollar <|
      .plain (by decide) (by decide) <| .protect (by decide) (by decide) <| .plain (by decide) (by decide) <|
      .plain (by decide) (by decide) <| .plain (by decide) (by decide) <| .plain (by decide) (by decide) <|
      .join <| .plain (by decide) (by decide) <| .plain (by decide) (by decide) <|
      .plain (by decide) (by decide) <| .plain (by decide) (by decide) <| .plain (by decide) (by decide) <|
      .plain (by decide) (by decide) .nil

end Kajiki.Props

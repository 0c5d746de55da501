import Verif.Lemmas.LinesGen
import Verif.Props.LinesExpr

/-!
# C93: exceptions are reported on the right line
-/

namespace Kajiki.Props
open Kajiki.Spec.Lines Kajiki.Spec.LinesGen Kajiki.Spec.XmlText Kajiki.LinesGenL
open Kajiki.Spec.DocSem (cut)

/-- The nodes of one text are between its first and its last line. -/
theorem text_part {py : PyCompile} {d : Str} {l : Nat} (hl : l ≠ 0) (hd : ∀ e, .inr e ∈ cut py d → '$' ∉ e) :
    TextPart py d l := by
  intro m xs h
  obtain ⟨ps, h1, h2, -⟩ := C28_accepted_cut_as_documented py _ d l xs h fun e s l he => by
    refine hd e ?_
    obtain ⟨a, ha, hr⟩ := LinesL.exists_left (DocComp.text_pieces h) he
    cases a with
    | inl t =>
      obtain ⟨l', hl'⟩ := hr
      unfold textNode at hl'
      split at hl' <;> cases hl'
    | inr e' =>
      obtain ⟨l', hl'⟩ := hr
      cases hl'
      exact ha
  subst h2
  rw [← h1]
  exact good_nodes ps l hl

/-- **C93.** For a document in which lines do not decrease, line `line` of the generated Python is reported on the line of
the node it was generated for (`line.ln`), if it belongs to the main function (no second function begins before it), has a
line and is no literal text, and if no expression before it contains a line break.  Assumed as in C92: no expression
contains a dollar sign; and attributes contain no line break (expat makes blanks of them). -/
theorem C93_reported_line_partial (c : CEnv) (doc : Doc) (u : Tmpl) (h : compileDoc c doc = .ok u) (ho : InOrders 1 doc.kids)
    (hd : ∀ p ∈ textsList doc.kids, ∀ e, .inr e ∈ cut c.py p.1 → '$' ∉ e)
    (hd' : ∀ p ∈ elemsList doc.kids, ∀ kv ∈ p.1, ∀ e, .inr e ∈ cut c.py kv.2 → '$' ∉ e)
    (hn : ∀ p ∈ elemsList doc.kids, ∀ kv ∈ p.1, '\n' ∉ kv.2)
    (before : List Line) (line : Line) (after : List Line) (hs : generatePython u = before ++ line :: after)
    (hf : ((before ++ [line]).filter isFunction).length ≤ 1) (h0 : line.ln ≠ 0) (ht : isLiteral line = false)
    (hb : ∀ b ∈ before, breaks b.code = 0) (i : Nat) (hi : i < parts line.code) :
    reported (generatePython u) (height before + i) = some line.ln := by
  obtain ⟨l1, l2⟩ := textsList_lined 1 (by omega) doc.kids ho
  obtain ⟨hm, body, rest, top, h1, -, h3⟩ := doc_main h ho (fun p k => text_part (l1 p k) (hd p k))
    fun p k kv hkv => ⟨hn p k kv hkv, text_part (l2 p k) (hd' p k kv hkv)⟩
  exact reported_main hm h1 h3 hs hf h0 ht hb hi

/-- **C93.** The lines of the generated Python that show an expression and have a line carry the line of such an expression of
the template: the one that C92 (and for text templates C91) is about. -/
theorem C93_lines_are_of_expressions (u : Tmpl) (line : Line) (h : line ∈ generatePython u) (h0 : line.ln ≠ 0) (e : Str)
    (he : line.code = .yieldCode e ∨ line.code = .yieldEscape e) : (line.ln, Read.expression e) ∈ readsTmpl u := by
  rcases generate_mem h with ⟨t, g, k⟩ | ⟨ls, p, h1, h2, h3⟩
  · exfalso
    unfold textLine at k
    split at k <;> rw [k] at he <;> rcases he with he | he <;> cases he
  · refine known_tmpl u ls line.ln h1 h0 p h2 e ?_
    rw [← h3]
    rcases he with he | he <;> rw [he] <;> rfl

/-- **C93.** In terms of the document: what is reported for an expression is the line of C92: that of the text or attribute it is
written in plus the line breaks before it (but for those between a `${` and its expression), or for directives that of their
element. -/
theorem C93_reported_line_of_source_partial (c : CEnv) (doc : Doc) (u : Tmpl) (h : compileDoc c doc = .ok u)
    (ho : InOrders 1 doc.kids) (hd : ∀ p ∈ textsList doc.kids, ∀ e, .inr e ∈ cut c.py p.1 → '$' ∉ e)
    (hd' : ∀ p ∈ elemsList doc.kids, ∀ kv ∈ p.1, ∀ e, .inr e ∈ cut c.py kv.2 → '$' ∉ e)
    (hn : ∀ p ∈ elemsList doc.kids, ∀ kv ∈ p.1, '\n' ∉ kv.2)
    (before : List Line) (line : Line) (after : List Line) (hs : generatePython u = before ++ line :: after)
    (hf : ((before ++ [line]).filter isFunction).length ≤ 1) (h0 : line.ln ≠ 0) (e : Str)
    (he : line.code = .yieldCode e ∨ line.code = .yieldEscape e) (hb : ∀ b ∈ before, breaks b.code = 0) :
    ∃ n, reported (generatePython u) (height before) = some n ∧
      ((∃ d l e', (d, l) ∈ textsList doc.kids ∧ WrittenIn c.py d l e' n ∧ (e = e' ∨ unescape e' = .ok e)) ∨
        ∃ attrs l, (attrs, l) ∈ elemsList doc.kids ∧
          ((∃ kv ∈ attrs, WrittenIn c.py kv.2 l e n) ∨
            n = l ∧ ((∃ kv ∈ attrs, e = kv.2) ∨ e = [] ∨ ∃ name, e = "_kj_block_".toList ++ name ++ "()".toList))) := by
  obtain ⟨l1, l2⟩ := textsList_lined 1 (by omega) doc.kids ho
  have hm : line ∈ generatePython u := by rw [hs]; exact List.mem_append_right _ List.mem_cons_self
  refine ⟨line.ln, C93_reported_line_partial c doc u h ho hd hd' hn before line after hs hf h0 ?_ hb 0 ?_,
    (C92_lines_of_expressions_partial c doc u h l1 l2 hd hd' line.ln e (C93_lines_are_of_expressions u line hm h0 e he)).2⟩
  · unfold isLiteral
    rcases he with he | he <;> rw [he]
  · rcases he with he | he <;> rw [he] <;> exact Nat.one_pos

/-- **C93.** Whatever the template (XML or text, functions, line breaks in expressions): what is reported for a line of the
generated Python is never before the line of the node it was generated for, and is the line of some node.  (Python blocks have
at least one line.) -/
theorem C93_never_too_early (u : Tmpl) (before : List Line) (line : Line) (after : List Line)
    (hs : generatePython u = before ++ line :: after) (hp : 0 < parts line.code) (i n : Nat)
    (h : reported (generatePython u) (height before + i) = some n) :
    line.ln ≤ n ∧ ∃ l ∈ generatePython u, l.ln = n := by
  have h1 : line.ln ≤ n := reported_le hp (hs ▸ h)
  refine ⟨h1, ?_⟩
  rcases reported_from h with rfl | k
  · exact ⟨line, by rw [hs]; exact List.mem_append_right _ List.mem_cons_self, Nat.le_zero.1 h1⟩
  · exact k

/-- **C93.** Exactly what is reported, for all templates and all functions, if no expression before contains a line break: the
largest line recorded so far.  So a line is right if and only if nothing before is of a later line. -/
theorem C93_reported_is_maximum (u : Tmpl) (before : List Line) (line : Line) (after : List Line)
    (hs : generatePython u = before ++ line :: after) (hb : ∀ b ∈ before, breaks b.code = 0) (i : Nat)
    (hi : i < parts line.code) :
    ∃ n, reported (generatePython u) (height before + i) = some n ∧ (∃ l ∈ before ++ [line], l.ln = n) ∧
      ∀ l ∈ before ++ [line], 0 < parts l.code → l.ln ≤ n := by
  rw [hs]
  exact reported_max hb hi

namespace LinesGenDemo

/-- Python accepts `a⏎b⏎c` and finds the error in `a⏎b⏎c}…` at the brace. -/
def py : PyCompile := fun s => if s = "a\nb\nc".toList then none else some (3, 2)

/-- `<p>${a⏎b⏎c}$y⏎$z</p>` from line 3. -/
def page : DNode := .elem "p".toList [("k".toList, "$x".toList)] 3 [.text "${a\nb\nc}$y\n$z".toList false 3]

def env : CEnv := ⟨py, "xml".toList, extractOpts "xml".toList true, fun _ => []⟩

def code : Tmpl := match compileDoc env ⟨[], [page]⟩ with
  | .ok u => u
  | .error _ => ⟨[], []⟩

theorem compiles : compileDoc env ⟨[], [page]⟩ = .ok code := by
  have : (compileDoc env ⟨[], [page]⟩).toOption.isSome = true := by decide +kernel
  unfold code
  cases h : compileDoc env ⟨[], [page]⟩ with
  | ok u => rfl
  | error e => rw [h] at this; cases this

/-- The document is in order. -/
example : InOrders 1 [page] := ⟨⟨by decide, Nat.le_refl 3, trivial⟩, trivial⟩
example : ∀ p ∈ elemsList [page], ∀ kv ∈ p.1, '\n' ∉ kv.2 := by decide +kernel
example : ∀ p ∈ textsList [page], ∀ e ∈ cut py p.1, e.elim (fun _ => true) (fun e => !e.contains '$') = true := by decide +kernel
example : ∀ p ∈ elemsList [page], ∀ kv ∈ p.1, ∀ e ∈ cut py kv.2, e.elim (fun _ => true) (fun e => !e.contains '$') = true := by
  decide +kernel

/-- The generated lines with their lines in the template. -/
theorem lines : (generatePython code).map (fun l => (l.code, l.ln)) =
    [(.classLine, 0), (.defLine true mainDecl, 0), (.yieldLit "<p".toList, 3), (.attrDef, 3), (.yieldCode "x".toList, 3),
      (.attrCollect, 0), (.attrFor "k".toList "xml".toList, 0), (.yieldVar, 0), (.yieldLit ">".toList, 3),
      (.yieldEscape "a\nb\nc".toList, 3), (.yieldEscape "y".toList, 5), (.yieldLit "\n".toList, 5),
      (.yieldEscape "z".toList, 6), (.yieldLit "</p>".toList, 3)] ++ [(.tail, 0)] := by decide +kernel

/-- The expression of three lines fulfils the hypotheses and is reported on its line. -/
example : (((generatePython code).take 10).filter isFunction).length ≤ 1 ∧
    (∀ b ∈ (generatePython code).take 9, breaks b.code = 0) ∧
    reported (generatePython code) (height ((generatePython code).take 9)) = some 3 := by decide +kernel

/-- `$y` after it is in line 5 and not reported before. -/
example : (generatePython code)[10]?.map (fun l => (l.code, l.ln, parts l.code)) = some (.yieldEscape "y".toList, 5, 1) ∧
    reported (generatePython code) (height ((generatePython code).take 10)) = some 6 := by decide +kernel

end LinesGenDemo

/-- **C93.** The full claim is false: `from_ir` counts `PyLine`s, but an expression with line breaks is one `PyLine` of several
lines.  What follows is reported on later lines: here `$y` of line 5 on line 6. -/
theorem C93_line_breaks_in_expressions_shift :
    ∃ (c : CEnv) (doc : Doc) (u : Tmpl) (before : List Line) (line : Line) (after : List Line), compileDoc c doc = .ok u ∧
      InOrders 1 doc.kids ∧ generatePython u = before ++ line :: after ∧ ((before ++ [line]).filter isFunction).length ≤ 1 ∧
      line.code = .yieldEscape "y".toList ∧ line.ln = 5 ∧ reported (generatePython u) (height before) = some 6 := by
  refine ⟨LinesGenDemo.env, ⟨[], [LinesGenDemo.page]⟩, LinesGenDemo.code, (generatePython LinesGenDemo.code).take 10,
    (generatePython LinesGenDemo.code)[10]'(by decide +kernel), (generatePython LinesGenDemo.code).drop 11,
    LinesGenDemo.compiles, ⟨⟨by decide, Nat.le_refl 3, trivial⟩, trivial⟩, by decide +kernel, by decide +kernel, by decide +kernel,
    by decide +kernel, by decide +kernel⟩

end Kajiki.Props

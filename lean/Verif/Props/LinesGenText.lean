import Verif.Lemmas.LinesGenText
import Verif.Props.LinesGen
import Verif.Props.LinesText

/-!
# C94: exceptions in text templates are reported on the right line
-/

namespace Kajiki.Props
open Kajiki.Spec.LinesGen Kajiki.LinesGenL Kajiki.Spec.TextTree Kajiki.Spec.TextSource Kajiki.Spec.LinesText

/-- **C94.** For every source of a text template that is accepted, line `line` of the generated Python is reported on the line
of the node it was generated for (`line.ln`), if it belongs to the main function (no second function begins before it), has a
line and is no literal text, and if no expression before it contains a line break. -/
theorem C94_reported_line_partial (py : PyCompile) (gen : Nat → Str) (autoescape : Bool) (filename : Option Str) (src : Str)
    (u : Tmpl) (h : textTemplate py gen autoescape filename src = .ok u)
    (before : List Line) (line : Line) (after : List Line) (hs : generatePython u = before ++ line :: after)
    (hf : ((before ++ [line]).filter isFunction).length ≤ 1) (h0 : line.ln ≠ 0) (ht : isLiteral line = false)
    (hb : ∀ b ∈ before, breaks b.code = 0) (i : Nat) (hi : i < parts line.code) :
    reported (generatePython u) (height before + i) = some line.ln := by
  obtain ⟨hm, body, rest, top, h1, h3⟩ := text_main h
  exact reported_main hm h1 h3 hs hf h0 ht hb hi

/-- **C94.** In terms of the source: what is reported for an expression is never after the line on which the expression ends,
and is just this line if there are no blank lines before directives (C91). -/
theorem C94_reported_line_of_source_partial {py : PyCompile} {gen : Nat → Str} {autoescape : Bool} {filename : Option Str}
    {toks : List TTok} {src : Str} {ds : List Dir} (hr : Reads py true 1 toks src) (hw : Written true .free ds toks)
    (hs : src ≠ [] ∨ ∃ f, filename = some f ∧ f ≠ []) (u : Tmpl)
    (hu : textTemplate py gen autoescape filename src = .ok u) (before : List Line) (line : Line) (after : List Line)
    (hg : generatePython u = before ++ line :: after) (hf : ((before ++ [line]).filter isFunction).length ≤ 1)
    (h0 : line.ln ≠ 0) (e : Str) (he : line.code = .yieldCode e ∨ line.code = .yieldEscape e)
    (hb : ∀ b ∈ before, breaks b.code = 0) :
    ∃ n, reported (generatePython u) (height before) = some n ∧ ∃ left piece right, src = left ++ (piece ++ right) ∧
      Spelling e piece ∧ n ≤ 1 + countNL left + countNL e ∧ (NoBlankLines true src → n = 1 + countNL left + countNL e) := by
  refine ⟨line.ln, C94_reported_line_partial py gen autoescape filename src u hu before line after hg hf h0 ?_ hb 0 ?_, ?_⟩
  · unfold isLiteral
    rcases he with he | he <;> rw [he]
  · rcases he with he | he <;> rw [he] <;> exact Nat.one_pos
  · have hm : line ∈ generatePython u := by rw [hg]; exact List.mem_append_right _ List.mem_cons_self
    rcases C91_lines_of_expressions_partial hr hw hs u hu line.ln e (C93_lines_are_of_expressions u line hm h0 e he) with k | k
    · exact absurd k h0
    · exact k

namespace LinesGenTextDemo

/-- Python accepts `a⏎b` and finds the error in `a⏎b}…` at the brace. -/
def py : PyCompile := fun s => if s = "a\nb".toList then none else some (2, 2)

def src : Str := "Hi\n$x\n%if c\n${a\nb} $y\n%end\n$z".toList

def gen : Nat → Str := fun _ => "g".toList

def code : Tmpl := match textTemplate py gen false none src with
  | .ok u => u
  | .error _ => ⟨[], []⟩

theorem compiles : textTemplate py gen false none src = .ok code := by
  have : (textTemplate py gen false none src).toOption.isSome = true := by decide +kernel
  unfold code
  cases h : textTemplate py gen false none src with
  | ok u => rfl
  | error e => rw [h] at this; cases this

/-- The generated lines with their lines in the template. -/
theorem lines : (generatePython code).map (fun l => (l.code, l.ln)) =
    [(.classLine, 0), (.defLine true mainDecl, 0), (.yieldLit "Hi\n".toList, 2), (.yieldCode "x".toList, 2),
      (.yieldLit "\n".toList, 3), (.ifLine " c".toList, 0), (.yieldCode "a\nb".toList, 5), (.yieldLit " ".toList, 5),
      (.yieldCode "y".toList, 5), (.yieldLit "\n".toList, 6), (.yieldCode "z".toList, 7), (.tail, 0)] := by decide +kernel

/-- The expression of two lines fulfils the hypotheses and is reported on its line. -/
example : (((generatePython code).take 7).filter isFunction).length ≤ 1 ∧
    (∀ b ∈ (generatePython code).take 6, breaks b.code = 0) ∧
    reported (generatePython code) (height ((generatePython code).take 6)) = some 5 := by decide +kernel

/-- In `%for x in xs⏎$x:{%include item.html%}⏎%end⏎$x` the second `$x` fulfils the hypotheses and is reported on line 4. -/
example : textTemplate PureTextDemo.valid (fun _ => []) false none IncludeTextDemo.page =
    .ok (template false (fun _ => []) IncludeTextDemo.pageTree) :=
  C64_source_is_tree IncludeTextDemo.pageReads IncludeTextDemo.pageWritten (.inl (by decide +kernel))

example : let ls := generatePython (template false (fun _ => []) IncludeTextDemo.pageTree)
    ls[7]?.map (fun l => (l.code, l.ln)) = some (.yieldCode ['x'], 4) ∧ ((ls.take 8).filter isFunction).length ≤ 1 ∧
    (∀ b ∈ ls.take 7, breaks b.code = 0) ∧ reported ls (height (ls.take 7)) = some 4 := by decide +kernel

end LinesGenTextDemo

/-- **C94.** The full claim is false: behind an expression with a line break, `$y` of line 5 is reported on line 6. -/
theorem C94_line_breaks_in_expressions_shift :
    ∃ (py : PyCompile) (gen : Nat → Str) (src : Str) (u : Tmpl) (before : List Line) (line : Line) (after : List Line),
      textTemplate py gen false none src = .ok u ∧ generatePython u = before ++ line :: after ∧
      ((before ++ [line]).filter isFunction).length ≤ 1 ∧ line.code = .yieldCode "y".toList ∧ line.ln = 5 ∧
      reported (generatePython u) (height before) = some 6 := by
  refine ⟨LinesGenTextDemo.py, LinesGenTextDemo.gen, LinesGenTextDemo.src, LinesGenTextDemo.code,
    (generatePython LinesGenTextDemo.code).take 8, (generatePython LinesGenTextDemo.code)[8]'(by decide +kernel),
    (generatePython LinesGenTextDemo.code).drop 9, LinesGenTextDemo.compiles, by decide +kernel, by decide +kernel,
    by decide +kernel, by decide +kernel, by decide +kernel⟩

namespace LinesGenTextDemo

/-- Two directives in the lines 1 and 2. -/
def tests : Str := "%if a\n%if b\nx\n%end\n%end\n".toList

def testsCode : Tmpl := match textTemplate py gen false none tests with
  | .ok u => u
  | .error _ => ⟨[], []⟩

theorem testsCompiles : textTemplate py gen false none tests = .ok testsCode := by
  have : (textTemplate py gen false none tests).toOption.isSome = true := by decide +kernel
  unfold testsCode
  cases h : textTemplate py gen false none tests with
  | ok u => rfl
  | error e => rw [h] at this; cases this

end LinesGenTextDemo

/-- **C94.** Directives of text templates have no line: an exception in the test of `%if b` in line 2 of a template that begins
with two `%if` is reported on line 0.  (What is reported is the line of the last text or expression before,
`C93_reported_is_maximum`.) -/
theorem C94_directives_have_no_line :
    ∃ (py : PyCompile) (gen : Nat → Str) (u : Tmpl) (before : List Line) (line : Line) (after : List Line),
      textTemplate py gen false none "%if a\n%if b\nx\n%end\n%end\n".toList = .ok u ∧
      generatePython u = before ++ line :: after ∧ line.code = .ifLine " b".toList ∧
      reported (generatePython u) (height before) = some 0 := by
  refine ⟨LinesGenTextDemo.py, LinesGenTextDemo.gen, LinesGenTextDemo.testsCode,
    (generatePython LinesGenTextDemo.testsCode).take 3, (generatePython LinesGenTextDemo.testsCode)[3]'(by decide +kernel),
    (generatePython LinesGenTextDemo.testsCode).drop 4, LinesGenTextDemo.testsCompiles, by decide +kernel, by decide +kernel,
    by decide +kernel⟩

end Kajiki.Props

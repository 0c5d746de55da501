import Verif.Lemmas.LinesText
import Verif.Props.IncludeText

/-!
# C91: expressions of text templates carry their lines
-/

namespace Kajiki.Props
open Kajiki.Spec.TextTree Kajiki.Spec.TextSource Kajiki.Spec.LinesText Kajiki.LinesTextL Kajiki.Texts

/-- **C91.** Every expression in the code of a text template carries a line that is not after the line on which the
expression ends in the source, and is just this line if there are no blank lines before directives.  (Calls of blocks
have no line.) -/
theorem C91_lines_of_expressions_partial {py : PyCompile} {gen : Nat → Str} {autoescape : Bool} {filename : Option Str}
    {toks : List TTok} {src : Str} {ds : List Dir} (hr : Reads py true 1 toks src) (hw : Written true .free ds toks)
    (hs : src ≠ [] ∨ ∃ f, filename = some f ∧ f ≠ []) (u : Tmpl)
    (hu : textTemplate py gen autoescape filename src = .ok u) (ln : Nat) (e : Str)
    (he : (ln, Read.expression e) ∈ readsTmpl u) :
    ln = 0 ∨ ∃ before piece after, src = before ++ (piece ++ after) ∧ Spelling e piece ∧
      ln ≤ 1 + countNL before + countNL e ∧ (NoBlankLines true src → ln = 1 + countNL before + countNL e) := by
  rw [C64_source_is_tree hr hw hs] at hu
  cases hu
  exact template_lined (Q := fun e ln => Found true 1 src e ln) autoescape gen ds
    (fun x hx => reads_found hr (written_exprs hw x hx)) he

/-- **C91.** The same for the tokens, whatever is done with them. -/
theorem C91_lines_of_tokens_partial {py : PyCompile} {toks : List TTok} {src : Str} (hr : Reads py true 1 toks src) :
    scan py src = (toks, none) ∧ ∀ e ln, TTok.expr e ln ∈ toks →
      ∃ before piece after, src = before ++ (piece ++ after) ∧ Spelling e piece ∧
        ln ≤ 1 + countNL before + countNL e ∧ (NoBlankLines true src → ln = 1 + countNL before + countNL e) :=
  ⟨scan_reads hr, fun _ _ h => reads_found hr h⟩

namespace LinesTextDemo
open PureTextDemo (valid line name text tag ttag r_line)
open IncludeTextDemo (page pageTree pageReads pageWritten)

/-- In `%for x in xs⏎$x:{%include item.html%}⏎%end⏎$x` the expressions are in the lines 2 and 4. -/
example : (readsTmpl (template false (fun _ => []) pageTree)) = [(2, .expression ['x']), (4, .expression ['x'])] := by
  decide +kernel

example : ∃ u, textTemplate valid (fun _ => []) false none page = .ok u ∧ (4, Read.expression ['x']) ∈ readsTmpl u :=
  ⟨_, C64_source_is_tree pageReads pageWritten (.inl (by decide +kernel)), by decide +kernel⟩

theorem noBlank_of {s : Str} (h : ((List.range (s.length + 1)).all fun i => !lineStart true (s.take i) ||
    (List.range (s.length + 1)).all fun j => !((s.drop i).take j).all isSpace || !((s.drop i).take j).contains '\n' ||
      !((s.drop (i + j)).head?.any fun c => c == '%' || c == '{')) = true) : NoBlankLines true s := by
  intro before ws after hs hl hw hd hn
  have h1 := List.all_eq_true.1 h before.length (by rw [List.mem_range, hs]; simp; omega)
  have e1 : s.take before.length = before := by rw [hs, List.take_left]
  have e2 : s.drop before.length = ws ++ after := by rw [hs, List.drop_left]
  rw [e1, e2, hl, Bool.not_true, Bool.false_or] at h1
  have h2 := List.all_eq_true.1 h1 ws.length (by rw [List.mem_range, hs]; simp; omega)
  have e3 : s.drop (before.length + ws.length) = after := by
    rw [← List.drop_drop, e2, List.drop_left]
  rw [List.take_left, e3, List.all_eq_true.2 hw, List.contains_iff_mem.2 hn] at h2
  obtain ⟨c, r, -, rfl | rfl⟩ := hd <;> simp at h2

example : NoBlankLines true page := noBlank_of (by decide +kernel)

/-- `⏎%include a⏎$x` -/
abbrev gap : Str := ['\n'] ++ '%' :: ("include".toList ++ (" a".toList ++ '\n' :: name 'x' []))

example : gap = "\n%include a\n$x".toList := by decide +kernel

def gapToks : List TTok := [.tag "include".toList " a".toList 2, .expr ['x'] 2]

theorem gapReads : Reads valid true 1 gapToks gap :=
  .line (ws := ['\n']) (by unfold Spaces; decide +kernel) (named_of (by decide +kernel)) (by decide +kernel) (quiet_of (by decide +kernel)) <|
    .name (by decide +kernel) (by simp) (by decide +kernel) .nil

theorem gapWritten : Written true .free [.includeD "a".toList, .expr ['x'] 2] gapToks :=
  .includeD (by decide +kernel) (.expr .nil)

end LinesTextDemo

/-- **C91.** The full claim is false: blank lines before a directive are not counted.  In `⏎%include a⏎$x` the expression
is in line 3 and carries the line 2. -/
theorem C91_blank_lines_not_counted (gen : Nat → Str) (autoescape : Bool) :
    ∃ u, textTemplate PureTextDemo.valid gen autoescape none "\n%include a\n$x".toList = .ok u ∧
      readsTmpl u = [(2, .expression ['x'])] := by
  refine ⟨template autoescape gen [.includeD "a".toList, .expr ['x'] 2], ?_, ?_⟩
  · rw [show "\n%include a\n$x".toList = LinesTextDemo.gap by decide +kernel]
    exact C64_source_is_tree LinesTextDemo.gapReads LinesTextDemo.gapWritten (.inl (by decide +kernel))
  · rfl

end Kajiki.Props

import Verif.Lemmas.LinesExpr
import Verif.Props.Lines

/-!
# C92: expressions of XML templates carry their lines
-/

namespace Kajiki.Props
open Kajiki.Spec.Lines Kajiki.Spec.XmlText Kajiki.LinesL
open Kajiki.Spec.DocSem (cut)

/-- The lines of the expressions of one text. -/
theorem lines_of_text {py : PyCompile} {m : TextMode} {d : Str} {l : Nat} {xs : List Ir} (hl : l ≠ 0)
    (hd : ∀ e, .inr e ∈ cut py d → '$' ∉ e) (h : compileTextSrc py m d l = .ok xs) {c : Str} {s : Bool} {ln : Nat}
    (k : Ir.expr c s ln ∈ xs) : ln ≠ 0 ∧ WrittenIn py d l c ln := by
  refine ⟨fun h0 => hl (Nat.le_zero.1 (h0 ▸ line_ge h _ k)), ?_⟩
  obtain ⟨ps, h1, h2, h3⟩ := C28_accepted_cut_as_documented py _ d l xs h fun e s l he => by
    refine hd e ?_
    obtain ⟨a, ha, hr⟩ := exists_left (DocComp.text_pieces h) he
    cases a with
    | inl t =>
      obtain ⟨l', hl'⟩ := hr
      unfold textNode at hl'
      split at hl' <;> cases hl'
    | inr e' =>
      obtain ⟨l', hl'⟩ := hr
      cases hl'
      exact ha
  subst h2
  obtain ⟨before, p, after, h4, h5, h6⟩ := expr_nodes h3 k
  exact ⟨before, p, after, by rw [← h4]; exact h1, by rw [← h4]; exact h3, h5, h6⟩

/-- **C92.** Every expression in the code of a document has a line.  Either it is written in a text or CDATA section of the
document (in scripts perhaps with entities) or in an attribute of an element, and its line is that of the text or element plus
the line breaks before it, but for those between a `${` and its expression; or it belongs to a directive (it is the whole value of
an attribute, missing, or the call of a block) and has the line of the element.  Assumed: texts and elements have a line (expat
counts from 1), and no expression contains a dollar sign (else the text is scanned wrongly, C29). -/
theorem C92_lines_of_expressions_partial (c : CEnv) (doc : Doc) (u : Tmpl) (h : compileDoc c doc = .ok u)
    (hl : ∀ p ∈ textsList doc.kids, p.2 ≠ 0) (hl' : ∀ p ∈ elemsList doc.kids, p.2 ≠ 0)
    (hd : ∀ p ∈ textsList doc.kids, ∀ e, .inr e ∈ cut c.py p.1 → '$' ∉ e)
    (hd' : ∀ p ∈ elemsList doc.kids, ∀ kv ∈ p.1, ∀ e, .inr e ∈ cut c.py kv.2 → '$' ∉ e) (ln : Nat) (e : Str)
    (hm : (ln, Read.expression e) ∈ readsTmpl u) :
    ln ≠ 0 ∧
      ((∃ d l e', (d, l) ∈ textsList doc.kids ∧ WrittenIn c.py d l e' ln ∧ (e = e' ∨ unescape e' = .ok e)) ∨
        ∃ attrs l, (attrs, l) ∈ elemsList doc.kids ∧
          ((∃ kv ∈ attrs, WrittenIn c.py kv.2 l e ln) ∨
            ln = l ∧ ((∃ kv ∈ attrs, e = kv.2) ∨ e = [] ∨ ∃ name, e = "_kj_block_".toList ++ name ++ "()".toList))) := by
  refine doc_done (P := fun e ln =>
      (∃ d l e', (d, l) ∈ textsList doc.kids ∧ WrittenIn c.py d l e' ln ∧ (e = e' ∨ unescape e' = .ok e)) ∨
        ∃ attrs l, (attrs, l) ∈ elemsList doc.kids ∧
          ((∃ kv ∈ attrs, WrittenIn c.py kv.2 l e ln) ∨
            ln = l ∧ ((∃ kv ∈ attrs, e = kv.2) ∨ e = [] ∨ ∃ name, e = "_kj_block_".toList ++ name ++ "()".toList)))
    h (fun p hp m xs hx c' s ln' k => ?_) (fun p hp => ⟨hl' p hp, ?_, ?_, ?_, ?_⟩) hm
  · obtain ⟨h1, h2⟩ := lines_of_text (hl p hp) (hd p hp) hx k
    exact ⟨h1, .inl ⟨p.1, p.2, c', hp, h2, .inl rfl⟩, fun c'' hc => .inl ⟨p.1, p.2, c', hp, h2, .inr hc⟩⟩
  · exact fun kv k => .inr ⟨p.1, p.2, hp, .inr ⟨rfl, .inl ⟨kv, k, rfl⟩⟩⟩
  · exact .inr ⟨p.1, p.2, hp, .inr ⟨rfl, .inr (.inl rfl)⟩⟩
  · exact fun name => .inr ⟨p.1, p.2, hp, .inr ⟨rfl, .inr (.inr ⟨name, rfl⟩)⟩⟩
  · intro kv k m xs hx c' s ln' hk
    obtain ⟨h1, h2⟩ := lines_of_text (hl' p hp) (hd' p hp kv k) hx hk
    exact ⟨h1, .inr ⟨p.1, p.2, hp, .inl ⟨kv, k, h2⟩⟩⟩

/-- **C92.** The line is exact where no `${` is followed by a line break. -/
theorem C92_exact_line (py : PyCompile) (d : Str) (l ln : Nat) (e : Str) (h : WrittenIn py d l e ln) (hs : StartAtOnce d) :
    ∃ before p after, source (before ++ p :: after) = d ∧ p.value = .inr e ∧ ln = l + countNL (source before) := by
  obtain ⟨before, p, after, h1, h2, h3, h4⟩ := h
  refine ⟨before, p, after, h1, h3, ?_⟩
  rw [lost_zero fun ws e k => atOnce h2 (by rw [h1]; exact hs) ws e (List.mem_append_left _ k), Nat.add_zero] at h4
  exact h4

/-- **C92.** And it is never too large. -/
theorem C92_never_too_late (py : PyCompile) (d : Str) (l ln : Nat) (e : Str) (h : WrittenIn py d l e ln) :
    ∃ before p after, source (before ++ p :: after) = d ∧ p.value = .inr e ∧ l ≤ ln ∧ ln ≤ l + countNL (source before) := by
  obtain ⟨before, p, after, h1, h2, h3, h4⟩ := h
  have := lost_le before
  exact ⟨before, p, after, h1, h3, by omega, by omega⟩

namespace LinesExprDemo
open LinesDemo (py)

/-- `<p a="$x">a⏎${⏎x} b $y</p>` in line 2, the text from line 3. -/
def page : DNode := .elem "p".toList [("a".toList, "$x".toList)] 2 [.text "a\n${\nx} b $y".toList false 3]

def env : CEnv := ⟨py, "xml".toList, extractOpts "xml".toList true, fun _ => []⟩

def code : Tmpl := match compileDoc env ⟨[], [page]⟩ with
  | .ok u => u
  | .error _ => ⟨[], []⟩

theorem compiles : compileDoc env ⟨[], [page]⟩ = .ok code := by
  have : (compileDoc env ⟨[], [page]⟩).toOption.isSome = true := by decide +kernel
  unfold code
  cases h : compileDoc env ⟨[], [page]⟩ with
  | ok u => rfl
  | error e => rw [h] at this; cases this

/-- The expressions: `$y` is on line 5 but carries line 4. -/
theorem expressions : (readsTmpl code).filter (fun r => match r.2 with | .expression _ => true | _ => false) =
    [(2, .expression "x".toList), (4, .expression "x".toList), (4, .expression "y".toList)] := by decide +kernel

/-- The text cut as documented. -/
def pieces : List Piece := [.text "a\n".toList, .expr "\n".toList "x".toList, .text " b ".toList, .name "y".toList]

example : ∀ p ∈ textsList [page], p.2 ≠ 0 := by decide +kernel
example : ∀ p ∈ elemsList [page], p.2 ≠ 0 := by decide +kernel
example : ∀ p ∈ textsList [page], ∀ e ∈ cut py p.1, e.elim (fun _ => true) (fun e => !e.contains '$') = true := by decide +kernel
example : ∀ p ∈ elemsList [page], ∀ kv ∈ p.1, ∀ e ∈ cut py kv.2, e.elim (fun _ => true) (fun e => !e.contains '$') = true := by
  decide +kernel

theorem wellCut : WellCut py pieces :=
  ⟨⟨⟨⟨trivial, ⟨'y', [], rfl, by decide, nofun⟩, nofun⟩, by decide, no_marker (by decide) _, by intro q h; cases h; rfl⟩,
    by decide, by intro x h; cases h; decide, by decide⟩, by decide, no_marker (by decide) _, by intro q h; cases h; rfl⟩

end LinesExprDemo

/-- **C92.** The full claim is false: an expression after a line break between `${` and another expression carries an earlier
line. -/
theorem C92_line_break_after_brace_not_counted :
    ∃ (c : CEnv) (doc : Doc) (u : Tmpl) (before : List Piece) (p : Piece) (l : Nat), compileDoc c doc = .ok u ∧
      textsList doc.kids = [(source (before ++ [p]), l)] ∧ WellCut c.py (before ++ [p]) ∧ p.value = .inr "y".toList ∧
      (∀ ln, (ln, Read.expression "y".toList) ∈ readsTmpl u ↔ ln = 4) ∧ l + countNL (source before) = 5 := by
  refine ⟨LinesExprDemo.env, ⟨[], [LinesExprDemo.page]⟩, LinesExprDemo.code, LinesExprDemo.pieces.take 3, .name "y".toList, 3,
    LinesExprDemo.compiles, by decide +kernel, LinesExprDemo.wellCut, rfl, fun ln => ?_, by decide +kernel⟩
  have h := LinesExprDemo.expressions
  have : (ln, Read.expression "y".toList) ∈ readsTmpl LinesExprDemo.code ↔
      (ln, Read.expression "y".toList) ∈ (readsTmpl LinesExprDemo.code).filter
        (fun r => match r.2 with | .expression _ => true | _ => false) := by
    rw [List.mem_filter]
    exact ⟨fun k => ⟨k, rfl⟩, fun k => k.1⟩
  rw [this, h]
  simp

end Kajiki.Props

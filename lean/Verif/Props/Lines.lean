import Verif.Lemmas.LinesDoc
import Verif.Props.XmlText

/-!
# C90: extracted messages carry their lines
-/

namespace Kajiki.Props
open Kajiki.Spec.Lines Kajiki.Spec.XmlText Kajiki.LinesL
open Kajiki.Spec.DocSem (cut)

/-- **C90.** Every extracted message is a piece of a text or CDATA section of the document, and its line is that of the
text plus the line breaks before it in the text, but for those between a `${` and its expression, which are not counted.
Assumed: texts have a line (expat counts from 1), and no expression contains a dollar sign (else the text is scanned
wrongly, C29). -/
theorem C90_lines_of_messages_partial (c : CEnv) (doc : Doc) (u : Tmpl) (h : compileDoc c doc = .ok u)
    (hl : ∀ p ∈ textsList doc.kids, p.2 ≠ 0)
    (hd : ∀ p ∈ textsList doc.kids, ∀ e, .inr e ∈ cut c.py p.1 → '$' ∉ e) (ln : Nat) (m : Str)
    (hm : (ln, m) ∈ extractTmpl u) :
    ∃ d l, (d, l) ∈ textsList doc.kids ∧ ∃ before p after, source (before ++ p :: after) = d ∧
      WellCut c.py (before ++ p :: after) ∧ p.value = .inl m ∧ ln + lost before = l + countNL (source before) := by
  refine messages_fine (P := fun ln m => ∃ d l, (d, l) ∈ textsList doc.kids ∧ ∃ before p after,
    source (before ++ p :: after) = d ∧ WellCut c.py (before ++ p :: after) ∧ p.value = .inl m ∧
      ln + lost before = l + countNL (source before)) h (fun q hq xs hx ln m k => ?_) hm
  refine ⟨fun h0 => hl q hq (Nat.le_zero.1 (h0 ▸ line_ge hx _ k)), q.1, q.2, hq, ?_⟩
  obtain ⟨ps, h1, h2, h3⟩ := C28_accepted_cut_as_documented c.py _ q.1 q.2 xs hx fun e s l he => by
    refine hd q hq e ?_
    have := DocComp.text_pieces hx
    obtain ⟨a, ha, hr⟩ := exists_left this he
    cases a with
    | inl t =>
      obtain ⟨l', hl'⟩ := hr
      unfold textNode at hl'
      split at hl' <;> cases hl'
    | inr e' =>
      obtain ⟨l', hl'⟩ := hr
      cases hl'
      exact ha
  subst h2
  obtain ⟨before, p, after, h4, h5, h6⟩ := trans_nodes h3 k
  exact ⟨before, p, after, by rw [← h4]; exact h1, by rw [← h4]; exact h3, h5, h6⟩

/-- **C90.** In particular no message is reported on a line after its own. -/
theorem C90_never_too_late (c : CEnv) (doc : Doc) (u : Tmpl) (h : compileDoc c doc = .ok u)
    (hl : ∀ p ∈ textsList doc.kids, p.2 ≠ 0)
    (hd : ∀ p ∈ textsList doc.kids, ∀ e, .inr e ∈ cut c.py p.1 → '$' ∉ e) (ln : Nat) (m : Str)
    (hm : (ln, m) ∈ extractTmpl u) :
    ∃ d l, (d, l) ∈ textsList doc.kids ∧ ∃ before p after, source (before ++ p :: after) = d ∧
      p.value = .inl m ∧ l ≤ ln ∧ ln ≤ l + countNL (source before) := by
  obtain ⟨d, l, h1, before, p, after, h2, h3, h4, h5⟩ := C90_lines_of_messages_partial c doc u h hl hd ln m hm
  refine ⟨d, l, h1, before, p, after, h2, h4, ?_, by omega⟩
  have := lost_le before
  omega

/-- **C90.** The same for the texts as the parser reports them, where texts next to each other count as one (`joined`): each
message `extract` finds in a source is written somewhere in such a text `w`, its line is not after the line of this place, and
is just this line if in the text no `${` is followed by a line break. -/
theorem C90_lines_in_source_partial (py : PyCompile) (gen : Nat → Str) (mode : Str) (isFragment stripText : Bool) (dtd : Str)
    (es : List Event) (dtd' : Str) (root : DNode) (rest : List DNode) (hp : parseEvents dtd es = .ok ⟨dtd', root :: rest⟩)
    (ms : List (Nat × Str)) (h : extractMessages py gen mode isFragment stripText dtd es = .ok ms)
    (hl : ∀ w ∈ joined root ++ textsList rest, w.2 ≠ 0)
    (hd : ∀ p ∈ textsList (transform stripText ⟨dtd', root :: rest⟩).kids, ∀ e, .inr e ∈ cut py p.1 → '$' ∉ e)
    (ln : Nat) (m : Str) (hm : (ln, m) ∈ ms) :
    ∃ w ∈ joined root ++ textsList rest, ∃ before p after, w.1 = before ++ Piece.source p ++ after ∧ p.value = .inl m ∧
      w.2 ≤ ln ∧ ln ≤ w.2 + countNL before ∧ (StartAtOnce w.1 → ln = w.2 + countNL before) := by
  unfold extractMessages xmlTemplate at h
  rw [hp] at h
  dsimp only at h
  cases hc : compileXmlDoc py gen (extractOpts mode isFragment) (transform stripText ⟨dtd', root :: rest⟩) with
  | error e => rw [hc] at h; cases h
  | ok u =>
    rw [hc] at h
    cases h
    have hw := transform_within stripText dtd' root rest
    have hl' : ∀ p ∈ textsList (transform stripText ⟨dtd', root :: rest⟩).kids, p.2 ≠ 0 := by
      intro p k
      obtain ⟨w, h1, x, y, -, h2⟩ := hw p k
      have := hl w h1
      omega
    obtain ⟨d, l, h1, before, p, after, h2, h3, h4, h5⟩ := C90_lines_of_messages_partial _ _ u hc hl' hd ln m hm
    obtain ⟨w, k1, k2⟩ := hw _ h1
    have k3 := k2
    obtain ⟨x, y, k4, k5⟩ := k2
    have := lost_le before
    refine ⟨w, k1, x ++ source before, p, source after ++ y, ?_, h4, ?_, ?_, fun hs => ?_⟩
    · rw [k4, ← h2]
      simp [source]
    · dsimp only at k5; omega
    · rw [countNL_append]; dsimp only at k5; omega
    · rw [lost_zero fun ws e k => atOnce h3 (by rw [h2]; exact within_atOnce k3 hs) ws e (List.mem_append_left _ k),
        Nat.add_zero] at h5
      rw [countNL_append, h5]
      dsimp only at k5
      omega

namespace LinesDemo

/-- Python accepts `x` and finds the error in `x}…` at the brace. -/
def py : PyCompile := fun s => if s = ['x'] then none else some (1, 2)

/-- `<p>a⏎${⏎x} b</p>`, the text at line 3. -/
def page : DNode := .elem "p".toList [] 2 [.text "a\n${\nx} b".toList false 3]

def env : CEnv := ⟨py, "xml".toList, extractOpts "xml".toList true, fun _ => []⟩

def code : Tmpl := match compileDoc env ⟨[], [page]⟩ with
  | .ok u => u
  | .error _ => ⟨[], []⟩

theorem compiles : compileDoc env ⟨[], [page]⟩ = .ok code := by
  have : (compileDoc env ⟨[], [page]⟩).toOption.isSome = true := by decide +kernel
  unfold code
  cases h : compileDoc env ⟨[], [page]⟩ with
  | ok u => rfl
  | error e => rw [h] at this; cases this

/-- The messages: ` b` is on line 5 but is reported on line 4. -/
theorem messages : extractTmpl code = [(3, "a\n".toList), (4, " b".toList)] := by decide +kernel

/-- `<p>a⏎${x} b</p>` as expat reports it, the text from line 3. -/
def events : List Event :=
  [.startElement "p".toList [] 2, .characters "a".toList 3, .characters "\n".toList 3, .characters "${x} b".toList 4,
    .endElement "p".toList]

/-- The document of these events. -/
def parsed : Doc := ⟨[], [.elem "p".toList [] 2
  [.text "a".toList true 3, .text "\n".toList true 3, .text "${x} b".toList true 4]]⟩

example : parseEvents [] events = .ok parsed := rfl

example : joined (.elem "p".toList [] 2 [.text "a".toList true 3, .text "\n".toList true 3, .text "${x} b".toList true 4]) =
    [("a\n${x} b".toList, 3)] := by decide +kernel

example : textsList (transform false parsed).kids = [("a\n${x} b".toList, 3)] ∧
    (extractMessages py (fun _ => []) "xml".toList true false [] events).toOption =
      some [(3, "a\n".toList), (4, " b".toList)] := by decide +kernel

theorem atOnce_of {x y : Str} (hx : '$' ∉ x) (hy : '\n' ∉ y) : StartAtOnce (x ++ y) := by
  intro before ws after h _ hn
  rw [List.append_assoc, List.append_assoc] at h
  rcases List.append_eq_append_iff.1 h with ⟨c, h1, h2⟩ | ⟨c, h1, h2⟩
  · exact hy (by rw [h2]; simp [hn])
  · cases c with
    | nil => exact hy (by rw [List.nil_append] at h2; rw [← h2]; simp [hn])
    | cons a c =>
      have : a = '$' := (List.cons.inj h2).1.symm
      exact hx (by rw [h1, this]; simp)

example : StartAtOnce "a\n${x} b".toList := atOnce_of (x := "a\n".toList) (y := "${x} b".toList) (by decide) (by decide)

/-- The text of the page cut as documented. -/
def pieces : List Piece := [.text "a\n".toList, .expr "\n".toList "x".toList, .text " b".toList]

example : source pieces = "a\n${\nx} b".toList := by decide +kernel

example : ∀ p ∈ textsList [page], p.2 ≠ 0 := by decide +kernel

example : (cut py "a\n${\nx} b".toList) = [.inl "a\n".toList, .inr "x".toList, .inl " b".toList] := by decide +kernel

theorem wellCut : WellCut py pieces :=
  ⟨⟨⟨trivial, by decide, no_marker (by decide) _, nofun⟩, by decide, by intro x h; cases h; decide, by decide⟩,
    by decide, no_marker (by decide) _, by intro q h; cases h; rfl⟩

end LinesDemo

/-- **C90.** The full claim is false: line breaks between `${` and the expression are not counted, and what follows in the
text is reported on an earlier line. -/
theorem C90_line_break_after_brace_not_counted :
    ∃ (c : CEnv) (doc : Doc) (u : Tmpl) (before : List Piece) (p : Piece) (l : Nat), compileDoc c doc = .ok u ∧
      textsList doc.kids = [(source (before ++ [p]), l)] ∧ WellCut c.py (before ++ [p]) ∧ p.value = .inl " b".toList ∧
      (4, " b".toList) ∈ extractTmpl u ∧ l + countNL (source before) = 5 := by
  refine ⟨LinesDemo.env, ⟨[], [LinesDemo.page]⟩, LinesDemo.code, LinesDemo.pieces.take 2, .text " b".toList, 3,
    LinesDemo.compiles, by decide +kernel, ?_, rfl, by rw [LinesDemo.messages]; simp, by decide +kernel⟩
  exact LinesDemo.wellCut

end Kajiki.Props

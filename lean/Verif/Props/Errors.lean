import Verif.Model.Errors

/-!
# C53: error snippets
-/

namespace Kajiki.Spec

/-- Line number `n` (counted from 1) of a text, or nothing when there is no such line. -/
def sourceLineAt (source : Str) (n : Int) : Str :=
  if 1 ≤ n then ((splitlines source).drop (n - 1).toNat).head?.getD [] else []

end Kajiki.Spec

namespace Kajiki.Props
open Kajiki.Spec

theorem splitlinesAux_noBreak (cr : Bool) (cur s : Str) (h : ∀ c ∈ cur, isLineBreak c = false) :
    ∀ l ∈ splitlinesAux cr cur s, ∀ c ∈ l, isLineBreak c = false := by
  induction s generalizing cr cur with
  | nil =>
    intro l hl c hc
    unfold splitlinesAux at hl
    split at hl
    · cases hl
    · simp at hl; subst hl; exact h c (by simpa using hc)
  | cons d s ih =>
    intro l hl c hc
    unfold splitlinesAux at hl
    split at hl
    · exact ih _ _ (by simp) l hl c hc
    · split at hl
      · rcases List.mem_cons.1 hl with rfl | hl
        · exact h c (by simpa using hc)
        · exact ih _ _ (by simp) l hl c hc
      · rename_i hd
        refine ih _ _ ?_ l hl c hc
        intro x hx
        rcases List.mem_cons.1 hx with rfl | hx
        · simpa using hd
        · exact h x hx

theorem splitlinesAux_line (l rest cur : Str) (b : Bool) (h : ∀ c ∈ l, isLineBreak c = false)
    (hb : b = true → l ≠ [] ∨ rest = []) :
    splitlinesAux b cur (l ++ '\n' :: rest) =
      (cur.reverse ++ l) :: splitlinesAux false [] rest ∨ (b = true ∧ l = []) := by
  induction l generalizing cur b with
  | nil =>
    cases b with
    | true => right; exact ⟨rfl, rfl⟩
    | false =>
      left
      rw [List.nil_append, splitlinesAux.eq_def]
      have : isLineBreak '\n' = true := by decide
      simp [this]
  | cons c l ih =>
    left
    have hc : isLineBreak c = false := h c (by simp)
    have hnl : c ≠ '\n' := by rintro rfl; revert hc; decide
    rw [List.cons_append, splitlinesAux.eq_def]
    simp only [hnl, hc, decide_false, Bool.false_and, Bool.false_eq_true, if_false]
    rcases ih (c :: cur) false (fun x hx => h x (by simp [hx])) (by simp) with e | ⟨e, _⟩
    · rw [e]; simp
    · cases e

theorem splitlines_lines (ls : List Str) (h : ∀ l ∈ ls, ∀ c ∈ l, isLineBreak c = false) :
    splitlines (ls.map (· ++ ['\n'])).flatten = ls := by
  unfold splitlines
  induction ls with
  | nil => rfl
  | cons l ls ih =>
    rw [List.map_cons, List.flatten_cons, List.append_assoc]
    rcases splitlinesAux_line l (ls.map (· ++ ['\n'])).flatten [] false (h l (by simp)) (by simp)
      with e | ⟨e, _⟩
    · rw [List.singleton_append, e, ih fun x hx => h x (by simp [hx])]; simp
    · cases e

theorem sourceLine_eq (source : Str) (n : Int) : sourceLine source (n - 1) = sourceLineAt source n := by
  unfold sourceLine sourceLineAt
  by_cases h : 1 ≤ n
  · rw [if_neg (by omega), if_pos h, List.head?_drop]
    cases (splitlines source)[(n - 1).toNat]? <;> rfl
  · rw [if_pos (by omega), if_neg h]

theorem lineAt_noBreak (source : Str) (n : Int) : ∀ c ∈ sourceLineAt source n, isLineBreak c = false := by
  unfold sourceLineAt
  split
  · cases h : ((splitlines source).drop (n - 1).toNat).head? with
    | none => simp
    | some l =>
      intro c hc
      have hm := List.mem_of_mem_drop (List.mem_of_head? h)
      exact splitlinesAux_noBreak false [] source (by simp) l hm c (by simpa using hc)
  · simp

/-- C53: for every source text and every line number (zero, negative and past the end included)
the report is produced, and read line by line it consists of exactly five lines: the two before,
the reported one marked with `-->`, and the two after, each empty where the source has no such
line. -/
theorem C53_snippet_lines (source : Str) (n : Int) :
    splitlines (snippet source n) =
      ["\t     ".toList ++ sourceLineAt source (n - 2), "\t     ".toList ++ sourceLineAt source (n - 1),
       "\t --> ".toList ++ sourceLineAt source n,
       "\t     ".toList ++ sourceLineAt source (n + 1), "\t     ".toList ++ sourceLineAt source (n + 2)] := by
  have e : snippet source n =
      (["\t     ".toList ++ sourceLineAt source (n - 2), "\t     ".toList ++ sourceLineAt source (n - 1),
       "\t --> ".toList ++ sourceLineAt source n,
       "\t     ".toList ++ sourceLineAt source (n + 1),
       "\t     ".toList ++ sourceLineAt source (n + 2)].map (· ++ ['\n'])).flatten := by
    unfold snippet plainLine markedLine
    have e1 : n - 1 - 2 = (n - 2) - 1 := by omega
    have e2 : n - 1 + 1 = (n + 1) - 1 := by omega
    have e3 : n - 1 + 2 = (n + 2) - 1 := by omega
    simp only [List.map_cons, List.map_nil, e1, e2, e3, sourceLine_eq, List.cons_append,
      List.nil_append]
  rw [e]
  apply splitlines_lines
  have hp1 : ∀ c ∈ "\t     ".toList, isLineBreak c = false := by decide
  have hp2 : ∀ c ∈ "\t --> ".toList, isLineBreak c = false := by decide
  have key : ∀ (p : Str) (m : Int), (∀ c ∈ p, isLineBreak c = false) →
      ∀ c ∈ p ++ sourceLineAt source m, isLineBreak c = false := by
    intro p m hp c hc
    rcases List.mem_append.1 hc with hc | hc
    · exact hp c hc
    · exact lineAt_noBreak source m c hc
  intro l hl
  simp only [List.mem_cons, List.not_mem_nil, or_false] at hl
  rcases hl with rfl | rfl | rfl | rfl | rfl
  · exact key _ _ hp1
  · exact key _ _ hp1
  · exact key _ _ hp2
  · exact key _ _ hp1
  · exact key _ _ hp1

/-- C53: the full exception text is the location and message followed by that snippet. -/
theorem C53_error_text (msg source filename : Str) (n : Int) :
    ∃ head, errorText msg source filename n = head ++ snippet source n ∧
      head = ['['] ++ filename ++ [':'] ++ (toString n).toList ++ "] ".toList ++ msg ++ ['\n'] :=
  ⟨_, rfl, rfl⟩

example : splitlines (snippet "one\r\ntwo\nthree".toList 1) =
    ["\t     ".toList, "\t     ".toList, "\t --> one".toList, "\t     two".toList,
     "\t     three".toList] := by decide +kernel

end Kajiki.Props

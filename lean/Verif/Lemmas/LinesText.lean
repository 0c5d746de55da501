import Verif.Spec.LinesText
import Verif.Lemmas.TextReads
import Verif.Lemmas.Lines
import Verif.Spec.TextTree

/-!
# Lines of expressions in text templates
-/

namespace Kajiki.LinesTextL
open Kajiki.Spec.LinesText Kajiki.Spec.Text Kajiki.Spec.TextSource Kajiki.Texts
open Kajiki.Spec.XmlText (nameStart nameChar)
open Kajiki.LinesL (countNL_append)

/-- The expression is written in `s`, which begins in line `ln`, and carries the line of its end, or an earlier one if
there are blank lines before directives. -/
def Found (bol : Bool) (ln : Nat) (s e : Str) (l : Nat) : Prop :=
  ∃ before piece after, s = before ++ (piece ++ after) ∧ Spelling e piece ∧ l ≤ ln + countNL before + countNL e ∧
    (NoBlankLines bol s → l = ln + countNL before + countNL e)

theorem tight_rest {bol b : Bool} {piece rest : Str} (hb : lineStart bol piece = b) (h : NoBlankLines bol (piece ++ rest)) :
    NoBlankLines b rest := by
  intro before ws after hr hl
  refine h (piece ++ before) ws after (by rw [hr, List.append_assoc]) ?_
  rw [lineStart_append, hb]
  exact hl

/-- Something before it. -/
theorem Found.after {bol b : Bool} {ln ln' l : Nat} {piece rest e : Str} (h : Found b ln' rest e l)
    (hb : lineStart bol piece = b) (hle : ln' ≤ ln + countNL piece)
    (heq : NoBlankLines bol (piece ++ rest) → ln' = ln + countNL piece) : Found bol ln (piece ++ rest) e l := by
  obtain ⟨before, p, after, h1, h2, h3, h4⟩ := h
  refine ⟨piece ++ before, p, after, by rw [h1, List.append_assoc], h2, ?_, fun ht => ?_⟩
  · rw [countNL_append]; omega
  · rw [countNL_append, h4 (tight_rest hb ht), heq ht]; omega

theorem here_name {bol : Bool} {ln : Nat} {c : Char} {cs rest : Str} (hc : countNL (c :: cs) = 0) :
    Found bol ln ('$' :: c :: (cs ++ rest)) (c :: cs) ln :=
  ⟨[], '$' :: c :: cs, rest, rfl, .inl rfl, by omega, fun _ => by rw [hc]; rfl⟩

theorem countNL_zero {s : Str} (h : '\n' ∉ s) : countNL s = 0 := List.count_eq_zero.2 h

theorem nl_names {c : Char} {cs : Str} (h : nameStart c = true) (hs : ∀ x ∈ cs, nameChar x = true) : '\n' ∉ c :: cs := by
  intro k
  rcases List.mem_cons.1 k with rfl | k
  · exact absurd h (by decide +kernel)
  · exact absurd (hs _ k) (by decide +kernel)

theorem nl_named {name body : Str} (h : Named name body) : '\n' ∉ name := fun k =>
  absurd (h.letters _ k) (by decide +kernel)

theorem nl_blank {bl : Str} (h : Blank bl) : '\n' ∉ bl := fun k => by
  rcases h _ k with h | h <;> exact absurd h (by decide)

theorem lineStart_no {bol : Bool} {s : Str} (hs : s ≠ []) (h : '\n' ∉ s) : lineStart bol s = false := by
  unfold lineStart
  cases hl : s.getLast? with
  | none => rw [List.getLast?_eq_none_iff] at hl; exact absurd hl hs
  | some c =>
    have hc := List.mem_of_getLast? hl
    simp only [beq_eq_false_iff_ne]
    rintro rfl
    exact h hc

/-- White space before a directive has no line breaks. -/
theorem tight_space {ws after : Str} (hw : Spaces ws) (hd : Directive after) (h : NoBlankLines true (ws ++ after)) :
    countNL ws = 0 :=
  countNL_zero (h [] ws after rfl rfl hw hd)

theorem directive_line {name body : Str} (h : Named name body) (r : Str) : Directive ('%' :: (name ++ r)) := by
  obtain ⟨c, cs, rfl⟩ := List.exists_cons_of_ne_nil h.nonempty
  exact ⟨c, cs ++ r, h.letters c List.mem_cons_self, .inl rfl⟩

theorem directive_tag {name body : Str} (h : Named name body) (r : Str) : Directive ('{' :: '%' :: '-' :: (name ++ r)) := by
  obtain ⟨c, cs, rfl⟩ := List.exists_cons_of_ne_nil h.nonempty
  exact ⟨c, cs ++ r, h.letters c List.mem_cons_self, .inr rfl⟩

theorem reads_found {py : PyCompile} {bol : Bool} {ln : Nat} {toks : List TTok} {s : Str} (h : Reads py bol ln toks s)
    {e : Str} {l : Nat} (hm : TTok.expr e l ∈ toks) : Found bol ln s e l := by
  induction h with
  | nil => cases hm
  | @text bol ln t toks rest ht hq hs hr ih =>
    rcases List.mem_cons.1 hm with hm | hm
    · cases hm
    · exact (ih hm).after rfl (Nat.le_refl _) fun _ => rfl
  | @percent ln ws t toks rest hw hp hq hs hr ih =>
    rcases List.mem_cons.1 hm with hm | hm
    · cases hm
    · have := (ih hm).after (bol := true) (ln := ln) (piece := ws ++ '%' :: t) ?_ (Nat.le_refl _) fun _ => rfl
      · simpa using this
      · rw [show ws ++ '%' :: t = (ws ++ ['%']) ++ t by simp, lineStart_append, lineStart_plain (by decide)]
  | @dollar bol ln toks rest hr ih =>
    rcases List.mem_cons.1 hm with hm | hm
    · cases hm
    · exact (ih hm).after (piece := ['$', '$']) rfl (by omega) fun _ => rfl
  | @name bol ln c cs toks rest hc hcs hl hr ih =>
    have hz := nl_names hc hcs
    rcases List.mem_cons.1 hm with hm | hm
    · cases hm; exact here_name (countNL_zero hz)
    · have hz' : '\n' ∉ '$' :: c :: cs := by
        intro k
        rcases List.mem_cons.1 k with k | k
        · exact absurd k (by decide)
        · exact hz k
      exact (ih hm).after (piece := '$' :: c :: cs) (lineStart_no (by simp) hz') (by omega)
        fun _ => by rw [countNL_zero hz']; rfl
  | @braced bol ln e' toks rest he hq hr ih =>
    rcases List.mem_cons.1 hm with hm | hm
    · cases hm
      exact ⟨[], '$' :: '{' :: (e ++ ['}']), rest, by simp, .inr rfl, Nat.le_refl _, fun _ => rfl⟩
    · have hz : countNL ('$' :: '{' :: (e' ++ ['}'])) = countNL e' := by
        rw [show '$' :: '{' :: (e' ++ ['}']) = ['$', '{'] ++ (e' ++ ['}']) from rfl, countNL_append, countNL_append]
        show 0 + (_ + 0) = _
        omega
      have := (ih hm).after (bol := bol) (ln := ln) (piece := '$' :: '{' :: (e' ++ ['}']))
        (by rw [show '$' :: '{' :: (e' ++ ['}']) = ('$' :: '{' :: e') ++ ['}'] by simp]; exact lineStart_plain (by decide))
        (by omega) fun _ => by rw [hz]
      simpa using this
  | @line ln ws name body toks rest hw hn hb hq hr ih =>
    rcases List.mem_cons.1 hm with hm | hm
    · cases hm
    · have hz : countNL (ws ++ '%' :: (name ++ (body ++ ['\n']))) = countNL ws + 1 := by
        rw [show ws ++ '%' :: (name ++ (body ++ ['\n'])) = ws ++ (['%'] ++ (name ++ (body ++ ['\n']))) from rfl]
        simp only [countNL_append, countNL_zero (nl_named hn), countNL_zero hb]
        show _ + (0 + (0 + (0 + 1))) = _
        omega
      have := (ih hm).after (bol := true) (ln := ln) (piece := ws ++ '%' :: (name ++ (body ++ ['\n'])))
        (by rw [show ws ++ '%' :: (name ++ (body ++ ['\n'])) = (ws ++ '%' :: (name ++ body)) ++ ['\n'] by simp, lineStart_append]; rfl)
        (by omega) fun ht => by
          rw [hz, tight_space hw (directive_line hn (body ++ ['\n'] ++ rest)) (by simpa using ht)]
      simpa using this
  | @lastLine ln ws name body hw hn hb hq =>
    rcases List.mem_cons.1 hm with hm | hm
    · cases hm
    · rcases List.mem_cons.1 hm with hm | hm
      · cases hm
      · cases hm
  | @tag bol ln name body toks rest hn hc hg hq hr ih =>
    rcases List.mem_cons.1 hm with hm | hm
    · cases hm
    · have hz : countNL ('{' :: '%' :: (name ++ (body ++ ['%', '}']))) = countNL body := by
        rw [show '{' :: '%' :: (name ++ (body ++ ['%', '}'])) = ['{', '%'] ++ (name ++ (body ++ ['%', '}'])) from rfl]
        simp only [countNL_append, countNL_zero (nl_named hn)]
        show 0 + (0 + (_ + 0)) = _
        omega
      have := (ih hm).after (bol := bol) (ln := ln) (piece := '{' :: '%' :: (name ++ (body ++ ['%', '}'])))
        (by
          rw [show '{' :: '%' :: (name ++ (body ++ ['%', '}'])) = ('{' :: '%' :: (name ++ (body ++ ['%']))) ++ ['}'] by simp]
          exact lineStart_plain (by decide))
        (by omega) fun _ => by rw [hz]
      simpa using this
  | @tagR bol ln name body bl toks rest hn hc hbl hne hh hq hr ih =>
    rcases List.mem_cons.1 hm with hm | hm
    · cases hm
    · have hz : countNL ('{' :: '%' :: (name ++ (body ++ ('-' :: '%' :: '}' :: bl)))) = countNL body := by
        rw [show '{' :: '%' :: (name ++ (body ++ ('-' :: '%' :: '}' :: bl))) =
          ['{', '%'] ++ (name ++ (body ++ (['-', '%', '}'] ++ bl))) from rfl]
        simp only [countNL_append, countNL_zero (nl_named hn), countNL_zero (nl_blank hbl)]
        show 0 + (0 + (_ + (0 + 0))) = _
        omega
      have := (ih hm).after (bol := bol) (ln := ln) (piece := '{' :: '%' :: (name ++ (body ++ ('-' :: '%' :: '}' :: bl))))
        (by
          rw [show '{' :: '%' :: (name ++ (body ++ ('-' :: '%' :: '}' :: bl))) =
            ('{' :: '%' :: (name ++ body)) ++ ('-' :: '%' :: '}' :: bl) by simp, lineStart_append]
          exact lineStart_no (by simp) (by simp [nl_blank hbl]))
        (by omega) fun _ => by rw [hz]
      simpa using this
  | @tagL ln ws name body toks rest hw hn hc hg hq hr ih =>
    rcases List.mem_cons.1 hm with hm | hm
    · cases hm
    · have hz : countNL (ws ++ '{' :: '%' :: '-' :: (name ++ (body ++ ['%', '}']))) = countNL ws + countNL body := by
        rw [show ws ++ '{' :: '%' :: '-' :: (name ++ (body ++ ['%', '}'])) = ws ++ (['{', '%', '-'] ++ (name ++ (body ++ ['%', '}']))) from rfl]
        simp only [countNL_append, countNL_zero (nl_named hn)]
        show _ + (0 + (0 + (_ + 0))) = _
        omega
      have := (ih hm).after (bol := true) (ln := ln) (piece := ws ++ '{' :: '%' :: '-' :: (name ++ (body ++ ['%', '}'])))
        (by
          rw [show ws ++ '{' :: '%' :: '-' :: (name ++ (body ++ ['%', '}'])) =
            (ws ++ '{' :: '%' :: '-' :: (name ++ (body ++ ['%']))) ++ ['}'] by simp]
          exact lineStart_plain (by decide))
        (by omega) fun ht => by
          rw [hz, tight_space hw (directive_tag hn (body ++ ['%', '}'] ++ rest)) (by simpa using ht)]; omega
      simpa using this
  | @tagLR ln ws name body bl toks rest hw hn hc hbl hne hh hq hr ih =>
    rcases List.mem_cons.1 hm with hm | hm
    · cases hm
    · have hz : countNL (ws ++ '{' :: '%' :: '-' :: (name ++ (body ++ ('-' :: '%' :: '}' :: bl)))) = countNL ws + countNL body := by
        rw [show ws ++ '{' :: '%' :: '-' :: (name ++ (body ++ ('-' :: '%' :: '}' :: bl))) =
          ws ++ (['{', '%', '-'] ++ (name ++ (body ++ (['-', '%', '}'] ++ bl)))) from rfl]
        simp only [countNL_append, countNL_zero (nl_named hn), countNL_zero (nl_blank hbl)]
        show _ + (0 + (0 + (_ + (0 + 0)))) = _
        omega
      have := (ih hm).after (bol := true) (ln := ln)
        (piece := ws ++ '{' :: '%' :: '-' :: (name ++ (body ++ ('-' :: '%' :: '}' :: bl))))
        (by
          rw [show ws ++ '{' :: '%' :: '-' :: (name ++ (body ++ ('-' :: '%' :: '}' :: bl))) =
            (ws ++ '{' :: '%' :: '-' :: (name ++ body)) ++ ('-' :: '%' :: '}' :: bl) by simp, lineStart_append]
          exact lineStart_no (by simp) (by simp [nl_blank hbl]))
        (by omega) fun ht => by
          rw [hz, tight_space hw (directive_tag hn (body ++ ['-', '%', '}'] ++ bl ++ rest)) (by simpa using ht)]; omega
      simpa using this

/-! ## From the tokens to the template -/

section Tree
open Kajiki.Spec.TextTree

mutual
/-- The expressions of a directive with their lines. -/
def exprs : Dir → List (Str × Nat)
  | .expr c ln => [(c, ln)]
  | .ifD _ b | .forD _ b | .switchD _ b | .caseD _ b | .elseD b | .defD _ b | .callD _ _ b | .blockD _ b => exprsList b
  | .ifElse _ b e => exprsList b ++ exprsList e
  | _ => []

def exprsList : List Dir → List (Str × Nat)
  | [] => []
  | d :: ds => exprs d ++ exprsList ds
end

theorem written_exprs {p : Place} {ds : List Dir} {toks : List TTok} (h : Written true p ds toks) :
    ∀ x ∈ exprsList ds, TTok.expr x.1 x.2 ∈ toks := by
  induction h with
  | nil => simp [exprsList]
  | elseD _ ih =>
    intro x hx
    simp only [exprsList, exprs, List.append_nil] at hx
    simp [ih x hx]
  | expr _ ih =>
    intro x hx
    simp only [exprsList, exprs, List.mem_append, List.mem_singleton] at hx
    rcases hx with rfl | hx
    · simp
    · simp [ih x hx]
  | ifElse _ _ _ _ ih1 ih2 ih3 =>
    intro x hx
    simp only [exprsList, exprs, List.mem_append] at hx
    rcases hx with (hx | hx) | hx
    · simp [ih1 x hx]
    · simp [ih2 x hx]
    · simp [ih3 x hx]
  | ifD _ _ ih1 ih2 | forD _ _ ih1 ih2 | switchD _ _ ih1 ih2 | caseD _ _ _ ih1 ih2 | defD _ _ ih1 ih2
  | callD _ _ _ _ ih1 ih2 | blockD _ _ _ ih1 ih2 =>
    intro x hx
    simp only [exprsList, exprs, List.mem_append] at hx
    rcases hx with hx | hx
    · simp [ih1 x hx]
    · simp [ih2 x hx]
  | text _ _ ih | pyBlock _ _ _ _ ih | pyLine _ _ _ ih | extendsD _ _ ih | importD _ _ ih | importAs _ _ ih
  | includeD _ _ ih =>
    intro x hx
    simp only [exprsList, exprs, List.nil_append] at hx
    simp [ih x hx]

/-- The expressions of the code are calls of blocks, without a line, or have the property. -/
def Lined (Q : Str → Nat → Prop) (xs : List Ir) : Prop :=
  ∀ ln e, (ln, Read.expression e) ∈ readsList xs → ln = 0 ∨ Q e ln

variable {Q : Str → Nat → Prop}

theorem lined_nil : Lined Q [] := by intro ln m h; simp [readsList] at h

theorem lined_cons {x : Ir} {xs : List Ir} : Lined Q (x :: xs) ↔ Lined Q [x] ∧ Lined Q xs := by
  unfold Lined
  simp only [readsList, List.append_nil, List.mem_append]
  exact ⟨fun h => ⟨fun ln m k => h ln m (.inl k), fun ln m k => h ln m (.inr k)⟩,
    fun h ln m k => k.elim (h.1 ln m) (h.2 ln m)⟩

theorem lined_append {xs ys : List Ir} : Lined Q (xs ++ ys) ↔ Lined Q xs ∧ Lined Q ys := by
  induction xs with
  | nil => exact ⟨fun h => ⟨lined_nil, h⟩, fun h => h.2⟩
  | cons x xs ih =>
    rw [List.cons_append, lined_cons, ih, lined_cons (xs := xs)]
    exact and_assoc.symm

theorem lined_plain {x : Ir} (h : ∀ ln m, (ln, Read.expression m) ∉ reads x) : Lined Q [x] := by
  intro ln m k
  simp only [readsList, List.append_nil] at k
  exact absurd k (h ln m)

theorem lined_around {x : Ir} {b : List Ir} (h : reads x = readsList b) (hb : Lined Q b) : Lined Q [x] := by
  intro ln m k
  simp only [readsList, List.append_nil, h] at k
  exact hb ln m k

/-- All functions. -/
def AllLined (Q : Str → Nat → Prop) (d : Dict (List Ir)) : Prop := ∀ f ∈ d, Lined Q f.2

theorem AllLined.set {d : Dict (List Ir)} (h : AllLined Q d) (k : Str) {v : List Ir} (hv : Lined Q v) : AllLined Q (d.set k v) := by
  intro f hf
  rcases Dict.mem_set hf with rfl | hf
  · exact hv
  · exact h f hf

mutual
theorem node_lined (a : Bool) (gen : Nat → Str) : ∀ (d : Dir) (r : Reg), (∀ x ∈ exprs d, Q x.1 x.2) → AllLined Q r.funs →
    Lined Q (node a gen d r).1 ∧ AllLined Q (node a gen d r).2.funs
  | .text t ln, r, _, hr => ⟨lined_plain (by simp [reads]), hr⟩
  | .expr c ln, r, hd, hr => by
    refine ⟨?_, hr⟩
    intro ln' e k
    simp only [node, readsList, reads, List.append_nil, List.mem_singleton, Prod.mk.injEq, Read.expression.injEq] at k
    obtain ⟨rfl, rfl⟩ := k
    exact .inr (hd (_, _) (by simp [exprs]))
  | .ifD test body, r, hd, hr => by
    rw [exprs] at hd
    have h := nodes_lined a gen body r hd hr
    rw [node]
    exact ⟨lined_around (by simp only [reads]) h.1, h.2⟩
  | .ifElse test body els, r, hd, hr => by
    rw [exprs] at hd
    have h := nodes_lined a gen body r (fun x k => hd x (List.mem_append_left _ k)) hr
    have h' := nodes_lined a gen els _ (fun x k => hd x (List.mem_append_right _ k)) h.2
    rw [node]
    exact ⟨lined_cons.2 ⟨lined_around (by simp only [reads]) h.1, lined_around (by simp only [reads]) h'.1⟩, h'.2⟩
  | .forD decl body, r, hd, hr => by
    rw [exprs] at hd
    have h := nodes_lined a gen body r hd hr
    rw [node]
    exact ⟨lined_around (by simp only [reads]) h.1, h.2⟩
  | .switchD test items, r, hd, hr => by
    rw [exprs] at hd
    have h := nodes_lined a gen items r hd hr
    rw [node]
    exact ⟨lined_around (by simp only [reads]) h.1, h.2⟩
  | .caseD value body, r, hd, hr => by
    rw [exprs] at hd
    have h := nodes_lined a gen body r hd hr
    rw [node]
    exact ⟨lined_around (by simp only [reads]) h.1, h.2⟩
  | .elseD body, r, hd, hr => by
    rw [exprs] at hd
    have h := nodes_lined a gen body r hd hr
    rw [node]
    exact ⟨lined_around (by simp only [reads]) h.1, h.2⟩
  | .defD decl body, r, hd, hr => by
    rw [exprs] at hd
    have h := nodes_lined a gen body { r with inDef := true } hd hr
    rw [node]
    dsimp only
    split
    · exact ⟨lined_around (by simp only [reads]) h.1, h.2⟩
    · exact ⟨lined_nil, h.2.set _ h.1⟩
  | .callD args callee body, r, hd, hr => by
    rw [exprs] at hd
    have h := nodes_lined a gen body r hd hr
    rw [node]
    exact ⟨lined_around (by simp only [reads]) h.1, h.2⟩
  | .blockD name body, r, hd, hr => by
    rw [exprs] at hd
    have h := nodes_lined a gen body r hd hr
    rw [node]
    dsimp only
    split
    · exact ⟨lined_nil, h.2.set _ (lined_cons.2 ⟨lined_plain (by simp [reads]), h.1⟩)⟩
    · refine ⟨?_, h.2.set _ h.1⟩
      intro ln e k
      simp only [readsList, reads, List.append_nil, List.mem_singleton, Prod.mk.injEq] at k
      exact .inl k.1
  | .py ml lines, r, _, hr => by
    rw [node]
    split
    · exact ⟨lined_nil, hr⟩
    · exact ⟨lined_plain (by simp [reads]), hr⟩
  | .extendsD file, r, _, hr => ⟨lined_plain (by simp [reads]), hr⟩
  | .importD file as, r, _, hr => ⟨lined_plain (by simp [reads]), hr⟩
  | .includeD file, r, _, hr => ⟨lined_plain (by simp [reads]), hr⟩

theorem nodes_lined (a : Bool) (gen : Nat → Str) : ∀ (ds : List Dir) (r : Reg), (∀ x ∈ exprsList ds, Q x.1 x.2) →
    AllLined Q r.funs → Lined Q (nodes a gen ds r).1 ∧ AllLined Q (nodes a gen ds r).2.funs
  | [], r, _, hr => ⟨lined_nil, hr⟩
  | d :: ds, r, hd, hr => by
    rw [exprsList] at hd
    have h := node_lined a gen d r (fun x k => hd x (List.mem_append_left _ k)) hr
    have h' := nodes_lined a gen ds _ (fun x k => hd x (List.mem_append_right _ k)) h.2
    rw [nodes]
    exact ⟨lined_append.2 ⟨h.1, h'.1⟩, h'.2⟩
end

theorem template_lined (a : Bool) (gen : Nat → Str) (ds : List Dir) (h : ∀ x ∈ exprsList ds, Q x.1 x.2) {ln : Nat} {e : Str}
    (hm : (ln, Read.expression e) ∈ readsTmpl (template a gen ds)) : ln = 0 ∨ Q e ln := by
  have start : AllLined Q (⟨[("__main__()".toList, [])], [], false, false, 0⟩ : Reg).funs := by
    intro f hf
    simp only [List.mem_singleton] at hf
    subst hf
    exact lined_nil
  have k := nodes_lined a gen ds _ h start
  obtain ⟨d, hd, hr⟩ := List.mem_flatMap.1 hm
  obtain ⟨f, hf, rfl⟩ := List.mem_map.1 hd
  exact k.2.set _ k.1 f hf ln e hr

end Tree

end Kajiki.LinesTextL

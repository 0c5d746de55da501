import Verif.Lemmas.Util

/-!
# C54 – C56: generated names, `py:with` lists, Python blocks
-/

namespace Kajiki.Spec

/-- A text in which no `name =` assignment starts: it does not begin with `=`, and whenever a `;`
or a line break is followed by a non-empty run without `;` and `=` and then by `=`, that `=` is
the first half of `==`. -/
def PlainRhs (rhs : Str) : Prop :=
  rhs.head? ≠ some '=' ∧
  ∀ (p : Str) (c : Char) (m q : Str), rhs = p ++ c :: (m ++ '=' :: q) → c = ';' ∨ c = '\n' →
    m ≠ [] → (∀ x ∈ m, x ≠ ';' ∧ x ≠ '=') → q.head? = some '='

/-- One `name = expression` as an author may write it: `before name after = rhs`. -/
structure Assign where
  before : Str
  name : Str
  after : Str
  rhs : Str

/-- The author's text of one assignment. -/
def Assign.text (a : Assign) : Str := a.before ++ a.name ++ a.after ++ '=' :: a.rhs

/-- Whitespace around a non-empty target free of `;`, `=` and surrounding whitespace. -/
structure Assign.Ok (a : Assign) : Prop where
  before : ∀ c ∈ a.before, isSpace c = true
  after : ∀ c ∈ a.after, isSpace c = true
  nonempty : a.name ≠ []
  chars : ∀ c ∈ a.name, c ≠ ';' ∧ c ≠ '='
  trimmed : strip a.name = a.name
  rhs : PlainRhs a.rhs

/-- `a1;a2;...;an` -/
def listText : List Assign → Str
  | [] => []
  | [a] => a.text
  | a :: as => a.text ++ ';' :: listText as

end Kajiki.Spec

namespace Kajiki.Props
open Kajiki.Spec

/-! ## C54 -/

/-- C54: for every history of requests, every set of earlier names and every sequence of random
numbers, the names handed out are pairwise distinct and new. -/
theorem C54_names_distinct (names hints : List Str) (draws : List Nat) :
    (genNames names hints draws).Nodup ∧
    ∀ r ∈ genNames names hints draws, r ∉ names :=
  genNames_fresh names hints draws

example : genNames [] ["_kj_".toList, "_kj_".toList, "_kj_".toList] [0, 3, 20] =
    ["_kj_".toList, "_kj__0".toList, "_kj__3".toList] := by decide +kernel

/-- C54: a retry can fail for at most `|names|` of the `10·|names| + 1` equally likely random
results, so a free name always exists and every retry has more than 9 chances in 10. -/
theorem C54_few_taken (hint : Str) (names : List Str) :
    ((List.range (names.length * 10 + 1)).filter
      fun d => decide (candidate hint d ∈ names)).length ≤ names.length :=
  taken_le hint names _

/-- C54: from any state there is a random result that ends the loop at once. -/
theorem C54_free_name_exists (hint : Str) (names : List Str) :
    ∃ d ≤ names.length * 10, ∃ r, genName names hint [d] = some r := by
  have h := C54_few_taken hint names
  by_cases hh : hint ∈ names
  · have : ∃ d ∈ List.range (names.length * 10 + 1), candidate hint d ∉ names := by
      apply Classical.byContradiction
      intro hno
      have hall : ∀ d ∈ List.range (names.length * 10 + 1),
          decide (candidate hint d ∈ names) = true := by
        intro d hd
        apply decide_eq_true
        exact Classical.byContradiction fun hc => hno ⟨d, hd, hc⟩
      rw [List.filter_eq_self.2 hall, List.length_range] at h
      omega
    obtain ⟨d, hd, hf⟩ := this
    have hd' := List.mem_range.1 hd
    refine ⟨d, by omega, ?_⟩
    have hmod : d % (names.length * 10 + 1) = d := Nat.mod_eq_of_lt hd'
    exact ⟨_, by simp [genName, genLoop, hh, hmod, hf]; rfl⟩
  · exact ⟨0, by omega, _, by simp [genName, genLoop, hh]; rfl⟩

/-! ## C55 -/

theorem assign_run {a : Assign} (h : a.Ok) :
    (a.before ++ a.name ++ a.after ≠ []) ∧
    (∀ x ∈ a.before ++ a.name ++ a.after, notSemiEq x = true) ∧
    strip (a.before ++ a.name ++ a.after) = a.name := by
  have hsp : ∀ c, isSpace c = true → notSemiEq c = true := by
    intro c hc
    unfold notSemiEq
    have h1 : c ≠ ';' := by rintro rfl; revert hc; decide
    have h2 : c ≠ '=' := by rintro rfl; revert hc; decide
    simp [h1, h2]
  refine ⟨by simp [h.nonempty], ?_, ?_⟩
  · intro x hx
    rcases List.mem_append.1 hx with hx | hx
    · rcases List.mem_append.1 hx with hx | hx
      · exact hsp x (h.before x hx)
      · have := h.chars x hx; simp [notSemiEq, this.1, this.2]
    · exact hsp x (h.after x hx)
  · have hst := h.trimmed
    -- the first and the last character of the name are not whitespace
    have hfirst : a.name.dropWhile isSpace = a.name := by
      have hlen : (strip a.name).length ≤ (lstrip a.name).length := by
        unfold strip rstrip
        simpa using List.Sublist.length_le (List.dropWhile_sublist (p := isSpace) (l := (lstrip a.name).reverse))
      rw [hst] at hlen
      have hsub : (lstrip a.name).Sublist a.name := List.dropWhile_sublist _
      exact hsub.eq_of_length_le hlen
    have hlast : a.name.reverse.dropWhile isSpace = a.name.reverse := by
      have : rstrip a.name = a.name := by
        unfold strip lstrip at hst; rwa [hfirst] at hst
      unfold rstrip at this
      have := congrArg List.reverse this
      simpa using this
    unfold strip lstrip
    rw [List.append_assoc, List.dropWhile_append_of_pos h.before]
    have h1 : (a.name ++ a.after).dropWhile isSpace = a.name ++ a.after := by
      cases hn : a.name with
      | nil => exact absurd hn h.nonempty
      | cons c t =>
        rw [hn] at hfirst
        rw [List.cons_append, List.dropWhile_cons]
        split
        · rename_i hc
          rw [List.dropWhile_cons_of_pos hc] at hfirst
          have := congrArg List.length hfirst
          have hle := List.Sublist.length_le (List.dropWhile_sublist (p := isSpace) (l := t))
          simp at this; omega
        · rfl
    rw [h1]
    unfold rstrip
    rw [List.reverse_append, List.dropWhile_append_of_pos (by simpa using h.after), hlast]
    simp

theorem quiet_of_plain {rhs : Str} (h : PlainRhs rhs) : Quiet false rhs := by
  refine ⟨by simp, fun p c m q e hc hm hx => h.2 p c m q e hc hm ?_⟩
  intro x hx'
  have := hx x hx'
  simpa [notSemiEq] using this

theorem head_ne {rhs rest : Str} (h : rhs.head? ≠ some '=') (hr : rest = [] ∨ ∃ t, rest = ';' :: t) :
    (rhs ++ rest).head? ≠ some '=' := by
  cases rhs with
  | nil => rcases hr with rfl | ⟨t, rfl⟩ <;> simp
  | cons a t => simpa using h

theorem split_list (as : List Assign) (h : ∀ a ∈ as, a.Ok) (b : Bool) :
    splitAux 0 b (match as with | [] => [] | a :: as => ';' :: listText (a :: as)) =
      ([], as.map fun a => (a.name, a.rhs)) := by
  induction as generalizing b with
  | nil => simp [splitAux]
  | cons a as ih =>
    obtain ⟨h1, h2, h3⟩ := assign_run (h a (by simp))
    have hp := (h a (by simp)).rhs
    have key : ∃ rest : Str, (rest = [] ∨ ∃ t, rest = ';' :: t) ∧
        listText (a :: as) = (a.before ++ a.name ++ a.after) ++ '=' :: (a.rhs ++ rest) ∧
        ∀ b, splitAux 0 b rest = ([], as.map fun a => (a.name, a.rhs)) := by
      cases as with
      | nil => exact ⟨[], Or.inl rfl, by simp [listText, Assign.text], fun b => by simp [splitAux]⟩
      | cons a' as' =>
        refine ⟨';' :: listText (a' :: as'), Or.inr ⟨_, rfl⟩, by simp [listText, Assign.text], ?_⟩
        intro b
        exact ih (fun x hx => h x (List.mem_cons_of_mem _ hx)) b
    obtain ⟨rest, hr, ht, hs⟩ := key
    simp only [ht]
    rw [splitAux_semi b h1 h2 (head_ne hp.1 hr), h3]
    obtain ⟨b', hb'⟩ := splitAux_quiet (quiet_of_plain hp) hr
    rw [hb', hs b']
    simp

/-- C55: any list of assignments `ws name ws = expr`, separated by `;`, is split into exactly those
names and expression texts, in order.  The expressions may contain anything (`==`, `;`, quotes,
line breaks) that does not itself look like the start of an assignment. -/
theorem C55_split_correct (as : List Assign) (hne : as ≠ []) (h : ∀ a ∈ as, a.Ok) :
    withAssignments (listText as) = .ok (as.map fun a => (a.name, a.rhs)) := by
  rw [withAssignments_eq]
  cases as with
  | nil => exact absurd rfl hne
  | cons a as =>
    obtain ⟨h1, h2, h3⟩ := assign_run (h a (by simp))
    have hp := (h a (by simp)).rhs
    have hs := split_list as (fun x hx => h x (List.mem_cons_of_mem _ hx))
    have key : ∃ rest : Str, (rest = [] ∨ ∃ t, rest = ';' :: t) ∧
        listText (a :: as) = (a.before ++ a.name ++ a.after) ++ '=' :: (a.rhs ++ rest) ∧
        ∀ b, splitAux 0 b rest = ([], as.map fun a => (a.name, a.rhs)) := by
      cases as with
      | nil => exact ⟨[], Or.inl rfl, by simp [listText, Assign.text], hs⟩
      | cons a' as' =>
        exact ⟨';' :: listText (a' :: as'), Or.inr ⟨_, rfl⟩, by simp [listText, Assign.text], hs⟩
    obtain ⟨rest, hr, ht, hs⟩ := key
    rw [ht, splitAux_bol h1 h2 (head_ne hp.1 hr), h3]
    obtain ⟨b', hb'⟩ := splitAux_quiet (quiet_of_plain hp) hr
    rw [hb', hs b']
    simp

/-- C55: a text without any assignment is rejected (with an `AttributeError`), never silently
treated as an empty list. -/
theorem C55_no_assignment_rejected (vars : Str)
    (h1 : ∀ m q : Str, vars = m ++ '=' :: q → m ≠ [] → (∀ x ∈ m, x ≠ ';' ∧ x ≠ '=') →
      q.head? = some '=')
    (h2 : ∀ (p : Str) (c : Char) (m q : Str), vars = p ++ c :: (m ++ '=' :: q) →
      c = ';' ∨ c = '\n' → m ≠ [] → (∀ x ∈ m, x ≠ ';' ∧ x ≠ '=') → q.head? = some '=') :
    withAssignments vars = .error .attr := by
  rw [withAssignments_eq]
  have hq : Quiet true vars := by
    refine ⟨fun _ m q e hm hx => h1 m q e hm ?_, fun p c m q e hc hm hx => h2 p c m q e hc hm ?_⟩ <;>
    · intro x hx'
      have := hx x hx'
      simpa [notSemiEq] using this
  obtain ⟨b', hb'⟩ := splitAux_quiet hq (rest := []) (Or.inl rfl)
  rw [List.append_nil] at hb'
  rw [hb']
  simp [splitAux]

/-- A three-assignment list with `==`, a quoted semicolon and a line break. -/
example : withAssignments "a = 1; b= x == 'u;v' ;\n c = f(b)".toList =
    .ok [("a".toList, " 1".toList), ("b".toList, " x == 'u;v' ".toList),
      ("c".toList, " f(b)".toList)] := by decide +kernel

/-- The hypotheses of `C55_split_correct` hold for a concrete non-trivial assignment. -/
example : (⟨"\n ".toList, "b".toList, [' '], " x == 2".toList⟩ : Assign).Ok := by
  refine ⟨by decide, by decide, by decide, by decide, by decide, by decide, ?_⟩
  intro p c m q e hc _ _
  exfalso
  have e' : " x == 2".toList = p ++ c :: (m ++ '=' :: q) := e
  have : c ∈ " x == 2".toList := by rw [e']; simp
  rcases hc with rfl | rfl <;> revert this <;> decide

/-- C55 (limit of the claim): the condition on the expressions is needed.  A string literal that
contains `;x=` is cut in two. -/
theorem C55_string_with_assignment_is_cut :
    withAssignments "a = ';x=1'".toList =
      .ok [("a".toList, " '".toList), ("x".toList, "1'".toList)] := by decide +kernel

/-! ## C56 -/

theorem dedentLines_ok {pre : Str} {ls out : List Str} (h : dedentLines pre ls = .ok out) :
    out.map (pre ++ ·) = ls := by
  induction ls generalizing out with
  | nil => simp [dedentLines] at h; subst h; rfl
  | cons l ls ih =>
    unfold dedentLines at h
    split at h
    · rename_i hp
      cases hd : dedentLines pre ls with
      | error e => rw [hd] at h; cases h
      | ok r =>
        rw [hd] at h
        cases h
        have := ih hd
        simp only [List.map_cons, this]
        rw [List.prefix_iff_eq_append.1 (List.isPrefixOf_iff_prefix.1 hp)]
    · cases h

theorem dedentLines_total (pre : Str) (ls : List Str) :
    dedentLines pre ls = (if ∀ l ∈ ls, pre <+: l then .ok (ls.map (·.drop pre.length))
      else .error .assertion) := by
  induction ls with
  | nil => simp [dedentLines]
  | cons l ls ih =>
    unfold dedentLines
    by_cases hp : pre.isPrefixOf l = true
    · have hp' := List.isPrefixOf_iff_prefix.1 hp
      rw [if_pos hp, ih]
      by_cases hall : ∀ l ∈ ls, pre <+: l
      · rw [if_pos hall, if_pos (by simpa [hp'] using hall)]; rfl
      · rw [if_neg hall, if_neg (fun h => hall fun x hx => h x (List.mem_cons_of_mem _ hx))]
    · rw [if_neg hp, if_neg]
      intro h
      exact hp (List.isPrefixOf_iff_prefix.2 (h l (by simp)))

/-- C56: for every block text (with the optional leading `#` line dropped), either some line does
not start with the first line's indentation and the block is rejected, or every line is emitted
with exactly that indentation removed: putting it back in front of every emitted line restores
the block's lines. -/
theorem C56_dedent_uniform (text : Str) :
    let body := if ['#', '\n'].isPrefixOf text then text.drop 2 else text
    let pre := ((splitlines body).head?.getD []).takeWhile isSpace
    ((∀ l ∈ splitlines body, pre <+: l) →
      ∃ out, normalizePy text = .ok out ∧ out.map (pre ++ ·) = splitlines body) ∧
    ((¬ ∀ l ∈ splitlines body, pre <+: l) → normalizePy text = .error .assertion) := by
  simp only []
  unfold normalizePy
  simp only []
  generalize (if ['#', '\n'].isPrefixOf text = true then List.drop 2 text else text) = body
  cases hb : splitlines body with
  | nil => simp
  | cons l ls =>
    simp only [List.head?_cons, Option.getD_some, indentOf]
    have ht := dedentLines_total (l.takeWhile isSpace) (l :: ls)
    constructor
    · intro hall
      rw [if_pos hall] at ht
      exact ⟨_, ht, dedentLines_ok ht⟩
    · intro hall
      rw [if_neg hall] at ht
      exact ht

/-- C56: module-level blocks (`<?py %...`) are recognised by their first character, which is
removed; an empty block is an `IndexError`; nothing else changes. -/
theorem C56_module_level (t : Str) (c : Char) (hc : c ≠ '%') :
    pythonNode [] = .error .index ∧
    pythonNode ('%' :: t) = (normalizePy t).map (fun ls => (true, ls)) ∧
    pythonNode (c :: t) = (normalizePy (c :: t)).map (fun ls => (false, ls)) := by
  simp [pythonNode, hc]

example : normalizePy "#\n    x = 1\n    if x:\n        y = 2".toList =
    .ok ["x = 1".toList, "if x:".toList, "    y = 2".toList] := by decide +kernel

/-- C56 (limit): a blank line inside an indented block makes the whole block fail. -/
theorem C56_blank_line_rejected :
    normalizePy "#\n    x = 1\n\n    y = 2".toList = .error .assertion := by decide +kernel

end Kajiki.Props
